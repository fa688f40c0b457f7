import Verif.Top.SeparateSpec

/-!
# C114: starting a course over
-/

namespace Trane.TopLevel
open Trane.Store

variable {R : Type} [Field R] [LinearOrder R]

/-- The call stores something about practice: grades, changes of scores or rewards. -/
def Practises : Call R → Bool
  | .recordScores .. | .recordDeltas .. | .recordRewards .. | .scoreExercise .. => true
  | _ => false

/-- Remove what is stored for the ids that start with `p`, then close the object and open the library `g`. -/
def startOver (p : Str) (g : Graph Str) : List (Call R) :=
  [.removeScores p none, .removeDeltas p none, .removeRewards p none, .restart g]

/-- Nothing is stored under the id. -/
def NothingFor (t : Top R) (u : Str) : Prop :=
  t.trials.history u = [] ∧ t.deltas.history u = [] ∧ t.rewards.table.history u = []

end Trane.TopLevel
