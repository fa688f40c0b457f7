import Verif.Sched.UnitCacheProps
import Verif.Sched.PropagatorProps
import Verif.Sched.SessionProps
import Verif.Store.RewardsProps
import Verif.Store.LogProps

/-!
# Scoring an exercise

Models `score_exercise` of `/repo/src/scheduler.rs` on the stored tables, the score caches and the session
state together.  Scores are elements of an ordered field `R`; rewards are rationals, as in
`Verif.Sched.Propagator` and `Verif.Store.Rewards`.
-/

namespace Trane.System
open Trane.Store
open Trane.UnitScorer (World Caches ExRec scoreC exC invalidate)
open Trane.Batch (Session graded)

/-- What `get_exercise_score` reads of an exercise: the newest trials and deltas.
/repo/src/scheduler/unit_scorer.rs:190-213. -/
abbrev Stats (R : Type) := List (R × Int) × List (R × Int)
/-- What it reads of a lesson or course: the newest rewards. /repo/src/scheduler/unit_scorer.rs:218-225. -/
abbrev Rews := List ((ℚ × ℚ) × Int)

/-- What does not change: the answers of SQLite to `ORDER BY timestamp DESC`, the scorers and the options of
the unit scorer.  `scorer` is the pure part of `get_exercise_score` (`ScoreInstance.lean`): score, urgency and
velocity from the stored data of an exercise, its lesson and its course. -/
structure Config (R : Type) where
  sortV : SortDesc R
  sortW : SortDesc (ℚ × ℚ)
  scorer : Str → Int → Stats R → Rews → Rews → R × R × Option R
  supScore : R
  numTrials : Nat
  numRewards : Nat

/-- The state behind `SchedulerData` and `DepthFirstScheduler` that scoring reads and writes,
/repo/src/scheduler/data.rs:20-61 and /repo/src/scheduler.rs:163-186.  The blacklist is given by its answers
(C10). -/
structure State (R : Type) where
  graph : Graph Str
  black : Str → Bool
  now : Int
  trials : Table R := {}
  deltas : Table R := {}
  rewards : Rewards := {}
  caches : Caches Str R := {}
  session : Session Str := {}

variable {R : Type} [Field R] [LinearOrder R]

/-- What the unit scorer sees, /repo/src/scheduler/unit_scorer.rs:190-246; the record of an exercise counts
the trials that were read (line 243). -/
def State.world (cfg : Config R) (s : State R) : World Str R (Stats R) Rews where
  graph := s.graph
  black := s.black
  stats := fun u => (s.trials.get cfg.sortV u cfg.numTrials, s.deltas.get cfg.sortV u cfg.numTrials)
  rewards := fun u => s.rewards.table.get cfg.sortW u cfg.numRewards
  now := s.now
  compute := fun x now t l c =>
    let r := cfg.scorer x now t l c
    ⟨r.1, r.2.1, r.2.2, t.1.length⟩
  supScore := cfg.supScore
  dflt := []

/-- Database errors during one call. /repo/src/scheduler.rs:1115-1151. -/
structure Faults where
  delta : Bool := false
  trial : Bool := false
  reward : Option Nat := none

/-- A grade as a number, `float_score`, /repo/src/data.rs:58-67. -/
def gradeVal (R : Type) [Field R] (g : MasteryScore) : R := ((g.toFloat : ℚ) : R)

/-- `UnitReward` of the propagator as one of the store. /repo/src/scheduler.rs:1142-1151. -/
def toStore (r : Propagator.UnitReward Str) : Reward := ⟨r.unit, r.value, r.weight, r.time⟩

/-- `score_exercise`, /repo/src/scheduler.rs:1097-1159.  The result is the state afterwards and whether the
call returned `Ok`; `none` is lack of fuel.  `order` is the order in which the values of the map of rewards
are listed. -/
def scoreExercise (cfg : Config R) (order : List Reward → List Reward) (fuel : Nat) (s : State R) (x : Str)
    (g : MasteryScore) (t : Int) (f : Faults) : Option (State R × Bool) :=
  -- lines 1103-1114: the existing score and the number of trials
  match scoreC (s.world cfg) fuel x s.caches with
  | none => none
  | some (existing, c) =>
    match exC (s.world cfg) x c with
    | none => none
    | some (r, c) =>
      let s := { s with caches := c }
      -- lines 1115-1126: the delta
      let d := if 0 < r.trials then
          s.deltas.step cfg.sortV (.record [⟨x, gradeVal R g - existing.getD 0, t⟩] f.delta)
        else (s.deltas, true)
      let s := { s with deltas := d.1 }
      if d.2 = false then some (s, false)
      else
        -- lines 1128-1137: the trial
        let r := s.trials.step cfg.sortV (.record [⟨x, gradeVal R g, t⟩] f.trial)
        let s := { s with trials := r.1 }
        if r.2 = false then some (s, false)
        else
          -- lines 1138-1140: cache, pile and success rate
          let s := { s with
            caches := invalidate s.graph s.caches x
            session := graded s.session x g }
          -- lines 1142-1151: rewards
          match Propagator.propagate s.graph [] fuel x g t with
          | none => none
          | some rs =>
            match s.rewards.record cfg.sortW (order (rs.map toStore)) f.reward with
            | (rew, none) => some ({ s with rewards := rew }, false)
            | (rew, some ids) =>
              -- lines 1153-1157: the caches of the rewarded units
              some ({ s with
                rewards := rew
                caches := ids.foldl (fun c u => invalidate s.graph c u) s.caches }, true)

end Trane.System
