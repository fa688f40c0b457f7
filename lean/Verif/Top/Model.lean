import Verif.Sched.SystemProps
import Verif.Sched.OptionsApi
import Verif.Store.BlacklistProps
import Verif.Store.ReviewList

/-!
# The `Trane` object

Models `/repo/src/lib.rs`: the object that owns all components and implements every public trait by calling
the component.  The components are those of the other modules.

* The course library, the saved filters and the study sessions are never written after opening; they
  appear as the manifests inside the environment of a batch request.
* The queries the scheduler makes to the blacklist also fill the cache of the blacklist; that this changes no
  answer is part of C10 and is left out here.
* `restart` is closing the object and opening the same directory again.
-/

namespace Trane.TopLevel
open Trane.Store
open Trane.UnitScorer (Caches scoreC lessonTrialsC courseTrialsC invalidate invalidatePrefix after)
open Trane.Batch (Session)

/-- `UserPreferences`, /repo/src/data.rs:1092-1106, reduced to the batch size of `SchedulerPreferences`; the
other preferences concern the opening of the library (C67, C70). -/
structure Preferences where
  batchSize : Option Nat := none
  deriving DecidableEq

/-- `create_scheduler_options`, /repo/src/lib.rs:183-191. -/
def schedulerOptions (p : Preferences) : SchedulerOptions :=
  match p.batchSize with
  | none => .default
  | some n => { SchedulerOptions.default with batchSize := n }

/-- What stays the same: the answers of SQLite to `ORDER BY` and the scorers.  The first argument of `scorer` is the
time of the computer, which the reward scorer reads (/repo/src/reward_scorer.rs:94 and 128); the third is the time
given to the exercise scorer (/repo/src/scheduler/unit_scorer.rs:213). -/
structure Base (R : Type) where
  sortV : SortDesc R
  sortW : SortDesc (ℚ × ℚ)
  scorer : Int → Str → Int → System.Stats R → System.Rews → System.Rews → R × R × Option R

/-- `Trane`, /repo/src/lib.rs:137-177, and the state inside its scheduler. -/
structure Top (R : Type) where
  blacklist : Blacklist := ⟨[], []⟩
  review : ReviewList.Table := []
  trials : Table R := {}
  deltas : Table R := {}
  rewards : Rewards := {}
  prefs : Preferences := {}
  graph : Graph Str
  options : OptionsApi.Scheduler
  caches : Caches Str R := {}
  session : Session Str := {}
  /-- `override_timestamp` of the unit scorer -/
  override : Option Int := none
  /-- the time of the computer -/
  clock : Int

variable {R : Type} [Field R] [LinearOrder R]

/-- The settings of the unit scorer, /repo/src/scheduler/unit_scorer.rs:73-86: the options it was made with. -/
def Top.config (b : Base R) (t : Top R) : System.Config R where
  sortV := b.sortV
  sortW := b.sortW
  scorer := b.scorer t.clock
  supScore := ((t.options.made.supersedingScore : ℚ) : R)
  numTrials := t.options.made.numTrials
  numRewards := t.options.made.numRewards

/-- What scoring sees of the components; the time is that of /repo/src/scheduler/unit_scorer.rs:94-97. -/
def Top.sys (t : Top R) : System.State R where
  graph := t.graph
  black := t.blacklist.blacklisted
  now := t.override.getD t.clock
  trials := t.trials
  deltas := t.deltas
  rewards := t.rewards
  caches := t.caches
  session := t.session

/-- The components after scoring. /repo/src/scheduler.rs:1097-1159. -/
def Top.putSys (t : Top R) (s : System.State R) : Top R :=
  { t with trials := s.trials, deltas := s.deltas, rewards := s.rewards, caches := s.caches, session := s.session }

/-- The queries to the unit scorer made while a batch is built. /repo/src/scheduler/unit_scorer.rs:527-640. -/
inductive Ask
  | score (u : Str) (n : Nat)
  | lessonTrials (u : Str)
  | courseTrials (u : Str) (n : Nat)

/-- A batch request; what is not given here is read from the components.  Which queries the search makes
to the unit scorer, and hence which scores it leaves in the caches, is arbitrary. /repo/src/scheduler.rs:1048-1095. -/
structure Request where
  /-- the manifests, the scores and the frequencies; `graph`, `black` and `opts` are not used -/
  env : Search.Env Str
  choices : Batch.Choices Str
  fuel : Nat
  filter : Option (Filters.UnitFilter Str)
  asks : List Ask

/-- The environment of the search, /repo/src/scheduler/data.rs:20-61. -/
def Top.env (t : Top R) (q : Request) : Search.Env Str :=
  { q.env with graph := t.graph, black := t.blacklist.blacklisted, opts := t.options.current }

/-- The caches after a query of the search. /repo/src/scheduler/unit_scorer.rs:527-640. -/
def Top.ask (b : Base R) (t : Top R) (c : Caches Str R) : Ask → Caches Str R
  | .score u n => after c (scoreC (t.sys.world (t.config b)) n u c)
  | .lessonTrials u => after c (lessonTrialsC (t.sys.world (t.config b)) u c)
  | .courseTrials u n => after c (courseTrialsC (t.sys.world (t.config b)) n u c)

/-- `get_exercise_batch`, /repo/src/lib.rs:439-444. -/
def Top.batch (t : Top R) (q : Request) : Option (Session Str × Option (List Str)) :=
  Batch.getBatch (t.env q) t.options.made q.choices q.fuel (ReviewList.entries t.review) t.session q.filter

/-- The calls on a `Trane` object that can change something, with the failures of the database they may
meet; the passing of time; closing and reopening. /repo/src/lib.rs:370-739. -/
inductive Call (R : Type)
  /-- /repo/src/lib.rs:370-396 `Blacklist` -/
  | addToBlacklist (u : Str) (fails : Bool)
  | removeFromBlacklist (u : Str) (fails : Bool)
  | removePrefixFromBlacklist (p : Str) (failAt : Option Nat)
  | blacklisted (u : Str)
  /-- /repo/src/lib.rs:601-613 `ReviewList` -/
  | addToReviewList (u : Str) (fails : Bool)
  | removeFromReviewList (u : Str) (fails : Bool)
  /-- /repo/src/lib.rs:556-583 `PracticeStats` -/
  | recordScores (es : List (Entry R)) (fails : Bool)
  | trimScores (n : Nat) (stop : Option Nat)
  | removeScores (p : Str) (stop : Option Nat)
  /-- /repo/src/lib.rs:526-553 `PracticeDeltas` -/
  | recordDeltas (es : List (Entry R)) (fails : Bool)
  | trimDeltas (n : Nat) (stop : Option Nat)
  | removeDeltas (p : Str) (stop : Option Nat)
  /-- /repo/src/lib.rs:496-523 `PracticeRewards` -/
  | recordRewards (rs : List Reward) (fail : Option Nat)
  | trimRewards (n : Nat) (stop : Option Nat)
  | removeRewards (p : Str) (stop : Option Nat)
  /-- /repo/src/lib.rs:585-598 `PreferencesManager` -/
  | setPreferences (p : Preferences) (fails : Bool)
  /-- /repo/src/lib.rs:627-737 the edits of `UnitGraph` -/
  | editGraph (o : Graph.Op Str)
  /-- /repo/src/lib.rs:438-482 `ExerciseScheduler` -/
  | scoreExercise (x : Str) (g : MasteryScore) (t : Int) (fuel : Nat) (order : List Reward → List Reward)
      (f : System.Faults)
  | getUnitScore (u : Str) (n : Nat)
  | getBatch (q : Request)
  | invalidate (u : Str)
  | invalidatePrefix (p : Str)
  | options (c : OptionsApi.Call)
  | overrideTime (t : Option Int)
  /-- the clock of the computer changes -/
  | wait (t : Int)
  /-- the object is closed and opened again; the library on disk gives the graph `g` -/
  | restart (g : Graph Str)

/-- The library edits of the `Trane` object, /repo/src/lib.rs:627-737.  Lines 662-664: for
`set_encompasing_equals_dependency` the *getter* is called. -/
def editGraph (g : Graph Str) : Graph.Op Str → Graph Str × Bool
  | .setEncompassingEqualsDependency => (g, true)
  | o => g.step o

/-- One call and whether it returned `Ok` (`true` for calls that cannot fail). /repo/src/lib.rs:370-739. -/
def step (b : Base R) (t : Top R) : Call R → Top R × Bool
  | .addToBlacklist u f =>
    let r := t.blacklist.step (.add u f)
    ({ t with caches := invalidate t.graph t.caches u, blacklist := r.1 }, r.2)
  | .removeFromBlacklist u f =>
    let r := t.blacklist.step (.remove u f)
    ({ t with caches := invalidate t.graph t.caches u, blacklist := r.1 }, r.2)
  | .removePrefixFromBlacklist p f =>
    let r := t.blacklist.step (.removePrefix p f)
    ({ t with caches := invalidatePrefix (fun u => p.isPrefixOf u) t.caches, blacklist := r.1 }, r.2)
  | .blacklisted u =>
    let r := t.blacklist.step (.query u)
    ({ t with blacklist := r.1 }, r.2)
  | .addToReviewList u f =>
    let r := ReviewList.step t.review (.add u f)
    ({ t with review := r.1 }, r.2)
  | .removeFromReviewList u f =>
    let r := ReviewList.step t.review (.remove u f)
    ({ t with review := r.1 }, r.2)
  | .recordScores es f =>
    let r := t.trials.step b.sortV (.record es f)
    ({ t with trials := r.1 }, r.2)
  | .trimScores n s =>
    let r := t.trials.step b.sortV (.trim n s)
    ({ t with trials := r.1 }, r.2)
  | .removeScores p s =>
    let r := t.trials.step b.sortV (.removePrefix p s)
    ({ t with trials := r.1 }, r.2)
  | .recordDeltas es f =>
    let r := t.deltas.step b.sortV (.record es f)
    ({ t with deltas := r.1 }, r.2)
  | .trimDeltas n s =>
    let r := t.deltas.step b.sortV (.trim n s)
    ({ t with deltas := r.1 }, r.2)
  | .removeDeltas p s =>
    let r := t.deltas.step b.sortV (.removePrefix p s)
    ({ t with deltas := r.1 }, r.2)
  | .recordRewards rs f =>
    let r := t.rewards.step b.sortW (.record rs f)
    ({ t with rewards := r.1 }, r.2.isSome)
  | .trimRewards n s =>
    let r := t.rewards.step b.sortW (.trim n s)
    ({ t with rewards := r.1 }, r.2.isSome)
  | .removeRewards p s =>
    let r := t.rewards.step b.sortW (.removePrefix p s)
    ({ t with rewards := r.1 }, r.2.isSome)
  | .setPreferences p f => if f then (t, false) else ({ t with prefs := p }, true)
  | .editGraph o =>
    let r := editGraph t.graph o
    ({ t with graph := r.1 }, r.2)
  | .scoreExercise x g ts fuel order f =>
    match System.scoreExercise (t.config b) order fuel t.sys x g ts f with
    | none => (t, false)
    | some (s, ok) => (t.putSys s, ok)
  | .getUnitScore u n =>
    ({ t with caches := after t.caches (scoreC (t.sys.world (t.config b)) n u t.caches) },
      (scoreC (t.sys.world (t.config b)) n u t.caches).isSome)
  | .getBatch q =>
    match t.batch q with
    | none => (t, false)
    | some (s, r) => ({ t with session := s, caches := q.asks.foldl (t.ask b) t.caches }, r.isSome)
  | .invalidate u => ({ t with caches := invalidate t.graph t.caches u }, true)
  | .invalidatePrefix p => ({ t with caches := invalidatePrefix (fun u => p.isPrefixOf u) t.caches }, true)
  | .options c => ({ t with options := t.options.call c }, true)
  | .overrideTime o => ({ t with override := o }, true)
  | .wait c => ({ t with clock := c }, true)
  | .restart g =>
    -- /repo/src/lib.rs:242-302: options that do not verify make opening fail
    if (schedulerOptions t.prefs).verify then
      ({ blacklist := (t.blacklist.step .reopen).1
         review := (ReviewList.step t.review .reopen).1
         trials := (t.trials.step b.sortV .reopen).1
         deltas := (t.deltas.step b.sortV .reopen).1
         rewards := (t.rewards.step b.sortW .reopen).1
         prefs := t.prefs
         graph := g
         options := OptionsApi.create (schedulerOptions t.prefs)
         clock := t.clock }, true)
    else (t, false)

/-- The object after several calls. /repo/src/lib.rs:370-739. -/
def runs (b : Base R) (t : Top R) (h : List (Call R)) : Top R := h.foldl (fun t c => (step b t c).1) t

theorem runs_snoc (b : Base R) (t : Top R) (h : List (Call R)) (c : Call R) :
    runs b t (h ++ [c]) = (step b (runs b t h) c).1 := by simp [runs]

theorem runs_append (b : Base R) (t : Top R) (h h' : List (Call R)) :
    runs b t (h ++ h') = runs b (runs b t h) h' := by simp [runs]

/-- A new object on a new library with graph `g`. /repo/src/lib.rs:239-330. -/
def fresh (g : Graph Str) (clock : Int) : Top R :=
  { graph := g, options := OptionsApi.create .default, clock := clock }

end Trane.TopLevel
