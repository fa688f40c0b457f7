import Verif.Top.Site
import Verif.Top.OnlySpec

/-!
# C119: what several objects on one library are meant to do
-/

namespace Trane.TopLevel
open Trane.Store

variable {R : Type} [Field R] [LinearOrder R]

/-- Every grading of the history returned `Ok`. -/
def Site.GradingsOk (b : Base R) (s : Site R) (h : List (Nat × Call R)) : Prop :=
  ∀ h1 k h2, h = h1 ++ k :: h2 → Grades k.2 → ((s.runs b h1).step b k).2 = true

/-- The grades of a unit that a call stores. -/
def gradesIn (u : Str) : Call R → List (R × Int)
  | .scoreExercise x g t .. => if x = u then [(System.gradeVal R g, t)] else []
  | .recordScores es false => Table.entriesOf es u
  | _ => []

/-- The call takes no stored grade away. -/
def Keeps : Call R → Prop
  | .trimScores .. | .removeScores .. => False
  | _ => True

/-- The call is made by this object, or it does not change the blacklist. -/
def OnlyEditor (i : Nat) (k : Nat × Call R) : Prop := k.1 ≠ i → Blacklists k.2 = false

end Trane.TopLevel
