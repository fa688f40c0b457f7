import Verif.Sched.Search
import Verif.Sched.CandidateFilter
import Verif.Sched.Shuffler

/-!
# The exercise batch and the relearn pile

Models `get_exercise_batch` of `/repo/src/scheduler.rs` and `/repo/src/scheduler/relearn_pile.rs`.

* `Session` is the state that lives only in memory: the relearn pile, the counts of passed and failed
  trials, and how often each exercise was handed out.
* `Choices` are the random choices and set iteration orders of one call.
* `options` are those the filter and the relearn pile were created with: they hold their own copy
  (/repo/src/scheduler.rs:189-204), while the search reads the current options (`Env.opts`).
* The search reads the frequencies from its environment: `e.frequency` is the frequency map of the session
  when the call is made.
* Nothing here models the manifests: a batch is the list of the ids of the manifests returned.
-/

namespace Trane.Batch
open Trane.Search (Env Rnd Res)
open Trane.Filters (UnitFilter SessionPart)

/-- `frequency_map` and `trial_counts` of `SchedulerData` (/repo/src/scheduler/data.rs:53-60) and the pile of
`RelearnPile` (/repo/src/scheduler/relearn_pile.rs:14-21). -/
structure Session (ι : Type) where
  pile : List ι := []
  passed : Nat := 0
  failed : Nat := 0
  freq : AMap ι Nat := []

/-- The random choices of one call. /repo/src/scheduler.rs:1048-1095. -/
structure Choices (ι : Type) where
  /-- the shuffles of the search -/
  rnds : Nat → Rnd
  /-- the two iterations over the lessons and courses of the candidates in the review knock-out -/
  starts : List (Candidate ι) → List ι
  starts' : List (Candidate ι) → List ι
  /-- the weighted samples of the candidate filter -/
  pick : CandidateFilter.Picks ι
  /-- the sample of the relearn pile -/
  sample : Nat → List ι → List ι
  /-- the shuffles and numbers of the final shuffle, and the order of course ids -/
  shuffle : Nat → List (Candidate ι) → List (Candidate ι)
  draw : Nat → ℚ
  le : ι → ι → Bool

variable {ι : Type} [DecidableEq ι]

/-- `MasteryScore::One | MasteryScore::Two`. /repo/src/scheduler/relearn_pile.rs:36 and /repo/src/scheduler/data.rs:405. -/
def failing : MasteryScore → Bool
  | .one => true
  | .two => true
  | .three => false
  | .four => false
  | .five => false

/-- `RelearnPile::update`, /repo/src/scheduler/relearn_pile.rs:33-41. -/
def updatePile (pile : List ι) (x : ι) (g : MasteryScore) : List ι :=
  if failing g then pile.insert x else pile.filter (fun y => !decide (y = x))

/-- `update_success_rate`, /repo/src/scheduler/data.rs:403-409. -/
def updateRate (s : Session ι) (g : MasteryScore) : Session ι :=
  if failing g then { s with failed := s.failed + 1 } else { s with passed := s.passed + 1 }

/-- `get_success_rate`, /repo/src/scheduler/data.rs:413-421. -/
def successRate (s : Session ι) : ℚ :=
  if s.passed + s.failed = 0 then 1 else (s.passed : ℚ) / ((s.passed + s.failed : Nat) : ℚ)

/-- `inside_blacklisted`, /repo/src/scheduler/data.rs:137-151; blacklist queries never fail (C10). -/
def insideBlacklisted (e : Env ι) (x : ι) : Bool :=
  if e.black x then true
  else
    let lesson := (e.graph.getExerciseLesson x).getD e.dflt
    e.black lesson || e.black (e.courseOf lesson)

/-- The first step of `select_exercises`, /repo/src/scheduler/relearn_pile.rs:62-65. -/
def cleanPile (e : Env ι) (pile : List ι) : List ι := pile.filter (fun x => !insideBlacklisted e x)

/-- The number of exercises taken from the pile, /repo/src/scheduler/relearn_pile.rs:46. -/
def relearnCount (options : SchedulerOptions) : Nat :=
  ⌊(options.batchSize : ℚ) * options.relearnFraction⌋₊

/-- `select_exercises_helper`, /repo/src/scheduler/relearn_pile.rs:44-60. -/
def relearnCandidates (e : Env ι) (options : SchedulerOptions) (sample : Nat → List ι → List ι)
    (pile : List ι) : List (Candidate ι) :=
  (sample (relearnCount options) pile).map (fun x => { exercise := x, lesson := e.dflt, course := e.dflt })

/-- `increment_exercise_frequency` for each exercise of the batch, /repo/src/scheduler/data.rs:308-312 and
/repo/src/scheduler.rs:1091-1093. -/
def countBatch (freq : AMap ι Nat) (xs : List ι) : AMap ι Nat :=
  xs.foldl (fun m x => m.upd x 0 (· + 1)) freq

/-- `get_exercise_batch` from the candidates on, /repo/src/scheduler.rs:1060-1094: the candidates of the
final batch in order. -/
def finalCandidates (e : Env ι) (options : SchedulerOptions) (ch : Choices ι) (fuel : Nat) (s : Session ι)
    (cs : List (Candidate ι)) : Option (List (Candidate ι)) :=
  (Knocker.knockOut e.graph fuel (ch.starts cs) (ch.starts' cs) cs).map fun r =>
    let filtered := CandidateFilter.filterCandidates ch.pick options (successRate s) r
    let relearn := (relearnCandidates e options ch.sample (cleanPile e s.pile)).filter
      (fun c => !filtered.any (fun c' => decide (c'.exercise = c.exercise)))
    Shuffler.shuffleCandidates ch.le ch.shuffle ch.draw e.opts (filtered ++ relearn)

/-- `get_exercise_batch`, /repo/src/scheduler.rs:1050-1095, for a unit filter or none.  The result is the
session afterwards and the batch, `none` for `Err`; the outer `none` is lack of fuel.  `entries` is the
content of the review list. -/
def getBatch (e : Env ι) (options : SchedulerOptions) (ch : Choices ι) (fuel : Nat) (entries : List ι)
    (s : Session ι) (f : Option (UnitFilter ι)) : Option (Session ι × Option (List ι)) :=
  match Search.initialCandidates e ch.rnds fuel entries f with
  | none => none
  | some none => some (s, none)
  | some (some cs) =>
    (finalCandidates e options ch fuel s cs).map fun final =>
      let s := { s with pile := cleanPile e s.pile }
      let ids := final.map Candidate.exercise
      if ids.all e.hasExercise then ({ s with freq := countBatch s.freq ids }, some ids) else (s, none)

/-- `ExerciseFilter`, /repo/src/data/filter.rs:375-384. -/
inductive ExerciseFilter (ι : Type)
  | unit (f : UnitFilter ι)
  | session (parts : List (SessionPart ι)) (start : Int)

/-- The filter in force at time `now`, /repo/src/scheduler.rs:968-1024 and /repo/src/scheduler/data.rs:325-338.
The outer `none` is the panic of the overflow check in `get_part` (C45), the inner one is `Err`. -/
def filterInForce (checked : Bool) (saved : Store.Str → Option (UnitFilter ι)) (now : Int) :
    Option (ExerciseFilter ι) → Option (Option (Option (UnitFilter ι)))
  | none => some (some none)
  | some (.unit f) => some (some (some f))
  | some (.session parts start) =>
    (Filters.getPart checked parts start now).map (Filters.sessionFilter saved)

end Trane.Batch
