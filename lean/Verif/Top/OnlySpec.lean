import Verif.Top.SessionProps

/-!
# C115: scores depend on the grades and on the blacklist in force
-/

namespace Trane.TopLevel
open Trane.Store

variable {R : Type} [Field R] [LinearOrder R]

/-- The call grades an exercise. -/
def Grading : Call R → Bool
  | .scoreExercise .. => true
  | _ => false

/-- If the call grades something, it is an exercise of the library. -/
def OfExercise (g : Graph Str) : Call R → Prop
  | .scoreExercise x .. => g.getUnitType x = some .exercise
  | _ => True

/-- The call changes the blacklist. -/
def Blacklists : Call R → Bool
  | .addToBlacklist .. | .removeFromBlacklist .. | .removePrefixFromBlacklist .. => true
  | _ => false

end Trane.TopLevel
