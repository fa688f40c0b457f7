import Verif.Top.Spec

/-!
# C112: which histories differ by housekeeping only
-/

namespace Trane.TopLevel
open Trane.Store
open Trane.UnitScorer (after scoreC exC)

variable {R : Type} [Field R] [LinearOrder R]

/-- The exercises and dates of the grades that a call asks to store. -/
def gradeDates : Call R → List (Str × Int)
  | .recordScores es _ => es.map (fun e => (e.unit, e.ts))
  | .scoreExercise x _ ts _ _ _ => [(x, ts)]
  | _ => []

/-- The exercises and dates of the changes of score that a call asks to store. -/
def changeDates : Call R → List (Str × Int)
  | .recordDeltas es _ => es.map (fun e => (e.unit, e.ts))
  | .scoreExercise x _ ts _ _ _ => [(x, ts)]
  | _ => []

/-- No exercise gets two grades, or two changes, with the same date. -/
def DatesDiffer (h : List (Call R)) : Prop := (h.flatMap gradeDates).Nodup ∧ (h.flatMap changeDates).Nodup

/-- Housekeeping: trimming that keeps 20 entries or more. -/
def Trims : Call R → Prop
  | .trimScores n _ | .trimDeltas n _ | .trimRewards n _ => 20 ≤ n
  | _ => False

/-- `h'` is `h` with housekeeping calls added anywhere. -/
inductive Tidied : List (Call R) → List (Call R) → Prop
  | nil : Tidied [] []
  | same (c : Call R) {h h'} : Tidied h h' → Tidied (c :: h) (c :: h')
  | trims (c : Call R) {h h'} : Trims c → Tidied h h' → Tidied h (c :: h')

end Trane.TopLevel
