import Verif.Conc.Grading
import Verif.Conc.WatchSpec

/-! # C117: what other threads see while exercises are graded -/

namespace Trane.Threads
open Trane.Conc (Mode)
open Trane.Store Trane.System

variable {R : Type} [Field R] [LinearOrder R]

def isGrade : GCall → Bool
  | .grade .. => true
  | _ => false

/-- What a call does to the object if no other thread is there. -/
def alone (cfg : Config R) (s : State R) : GCall → State R
  | .grade x g t fuel order f =>
    match System.scoreExercise cfg order fuel s x g t f with
    | some (s', _) => s'
    | none => s
  | _ => s

/-- The stored data `d` are those of `s`, or those of `s'`, or in between: the change of score is there already, or it and the grade. -/
def PartlyStored (s s' d : State R) : Prop :=
  (d.deltas = s.deltas ∧ d.trials = s.trials ∧ d.rewards = s.rewards) ∨
  (d.deltas = s'.deltas ∧ d.trials = s.trials ∧ d.rewards = s.rewards) ∨
  (d.deltas = s'.deltas ∧ d.trials = s'.trials ∧ d.rewards = s.rewards) ∨
  (d.deltas = s'.deltas ∧ d.trials = s'.trials ∧ d.rewards = s'.rewards)

end Trane.Threads
