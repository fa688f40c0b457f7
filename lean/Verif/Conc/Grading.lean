import Verif.Conc.Object
import Verif.Sched.System

/-!
# Grading an exercise while other threads read

`score_exercise` takes `&self` (/repo/src/scheduler.rs:1097-1102), and so do `get_scores`, `get_deltas` and `get_rewards` of the object
(/repo/src/lib.rs:496-583): one thread may grade while others read.  No lock is held during the whole of `score_exercise`; it takes the lock
of one store after another.  A step here is what happens while one of them is held; as a reader takes the same lock, it comes before or
after.  What `score_exercise` reads before it writes (lines 1103-1114) is one step here, because with one grading thread (C79) nobody else
writes.
-/

namespace Trane.Threads
open Trane.Conc (Mode)
open Trane.Store Trane.System
open Trane.UnitScorer (scoreC exC invalidate)
open Trane.Batch (graded)

variable {R : Type} [Field R] [LinearOrder R]

/-- The calls: /repo/src/scheduler.rs:1097-1159 with the choices of `System.scoreExercise`, and the three reading calls. -/
inductive GCall
  | grade (x : Str) (g : MasteryScore) (t : Int) (fuel : Nat) (order : List Reward → List Reward) (f : Faults)
  | scores (u : Str) (n : Nat)
  | deltas (u : Str) (n : Nat)
  | rewards (u : Str) (n : Nat)

/-- What the calls return. -/
inductive GAns (R : Type) | graded (ok : Bool) | values (l : List (R × Int)) | rewards (l : List ((ℚ × ℚ) × Int))
  deriving DecidableEq

/-- `get_scores`, `get_deltas` and `get_rewards`: /repo/src/practice_stats.rs:105-131, /repo/src/practice_deltas.rs:91-114,
/repo/src/practice_rewards.rs:158-185. -/
def readNow (cfg : Config R) (s : State R) : GCall → GAns R
  | .scores u n => .values (s.trials.get cfg.sortV u n)
  | .deltas u n => .values (s.deltas.get cfg.sortV u n)
  | .rewards u n => .rewards (s.rewards.table.get cfg.sortW u n)
  | .grade .. => .graded false

/-- The last part of `score_exercise`: /repo/src/scheduler.rs:1143-1158, the rewards and then the caches. -/
def rewardCode (cfg : Config R) (x : Str) (g : MasteryScore) (t : Int) (fuel : Nat) (order : List Reward → List Reward) (f : Faults)
    (gr : Graph Str) : Prog (State R) (GAns R) :=
  match Propagator.propagate gr [] fuel x g t with
  | none => .done (.graded false)
  | some rs =>
    .act (fun s => { s with rewards := (s.rewards.record cfg.sortW (order (rs.map toStore)) f.reward).1 }) (fun s =>
      match (s.rewards.record cfg.sortW (order (rs.map toStore)) f.reward).2 with
      | none => .done (.graded false)
      | some ids => .act (fun s => { s with caches := ids.foldl (fun c u => invalidate s.graph c u) s.caches })
          (fun _ => .done (.graded true)))

/-- `score_exercise` step by step, /repo/src/scheduler.rs:1097-1159: the reads (1105-1114), the delta (1115-1126), the trial (1130-1138),
cache, pile and success rate (1139-1141), the rewards (1144-1157).  With too little fuel for the model of the call it does nothing. -/
def gradeCode (cfg : Config R) (x : Str) (g : MasteryScore) (t : Int) (fuel : Nat) (order : List Reward → List Reward) (f : Faults) :
    Prog (State R) (GAns R) :=
  .act id (fun s0 =>
    match System.scoreExercise cfg order fuel s0 x g t f with
    | none => .done (.graded false)
    | some _ =>
      match scoreC (s0.world cfg) fuel x s0.caches with
      | none => .done (.graded false)
      | some (existing, c) =>
        match exC (s0.world cfg) x c with
        | none => .done (.graded false)
        | some (r, c) =>
          .act (fun s => { s with caches := c }) (fun _ =>
          .act (fun s => if 0 < r.trials then
              { s with deltas := (s.deltas.step cfg.sortV (.record [⟨x, gradeVal R g - existing.getD 0, t⟩] f.delta)).1 } else s) (fun s =>
            if 0 < r.trials ∧ (s.deltas.step cfg.sortV (.record [⟨x, gradeVal R g - existing.getD 0, t⟩] f.delta)).2 = false then
              .done (.graded false)
            else
              .act (fun s => { s with trials := (s.trials.step cfg.sortV (.record [⟨x, gradeVal R g, t⟩] f.trial)).1 }) (fun s =>
                if (s.trials.step cfg.sortV (.record [⟨x, gradeVal R g, t⟩] f.trial)).2 = false then .done (.graded false)
                else
                  .act (fun s => { s with caches := invalidate s.graph s.caches x, session := graded s.session x g }) (fun s =>
                    rewardCode cfg x g t fuel order f s.graph)))))

/-- The calls step by step. /repo/src/scheduler.rs:1097-1159, /repo/src/lib.rs:496-583. -/
def watchedCode (cfg : Config R) : GCall → Prog (State R) (GAns R)
  | .grade x g t fuel order f => gradeCode cfg x g t fuel order f
  | k => .act id (fun s => .done (readNow cfg s k))

/-- The object as the threads share it: there is no lock around a whole call, everybody may always go on. /repo/src/lib.rs:438-482. -/
def sharedTrane (cfg : Config R) : Obj (State R) GCall (GAns R) := ⟨fun _ => .read, watchedCode cfg⟩

end Trane.Threads
