import Verif.Graph.Model
import Verif.Data.Options

/-! # Candidates -/

namespace Trane

/-- `Candidate`, /repo/src/scheduler.rs:120-160; `f32` values are rationals. -/
structure Candidate (ι : Type) where
  exercise : ι
  lesson : ι
  course : ι
  depth : ℚ := 0
  score : ℚ := 0
  frequency : Nat := 0
  urgency : ℚ := 0
  velocity : Option ℚ := none
  deadEnd : Bool := false
  encompasses : ℚ := 0
  encompassed : ℚ := 0
  deriving DecidableEq, Repr

end Trane
