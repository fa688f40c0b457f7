import Mathlib.Data.Rat.Defs
import Mathlib.Algebra.Order.Ring.Unbundled.Rat
import Mathlib.Algebra.Order.Field.Rat
import Mathlib.Tactic.NormNum
import Mathlib.Tactic.Linarith

/-!
# Grades, mastery windows and scheduler options

Models parts of `/repo/src/data.rs`.  `f32` values are rationals: no rounding, no `NaN`.
-/

namespace Trane

/-- `f32::EPSILON`. Used in /repo/src/data.rs:84-92. -/
def f32Epsilon : ℚ := 1 / 2 ^ 23

/-- `MasteryScore`, /repo/src/data.rs:20-55. -/
inductive MasteryScore | one | two | three | four | five
  deriving DecidableEq, Repr

/-- `float_score`, /repo/src/data.rs:58-70. -/
def MasteryScore.toFloat : MasteryScore → ℚ
  | .one => 1
  | .two => 2
  | .three => 3
  | .four => 4
  | .five => 5

/-- `TryFrom<f32> for MasteryScore`, /repo/src/data.rs:80-98. -/
def MasteryScore.ofFloat (s : ℚ) : Option MasteryScore :=
  if |s - 1| < f32Epsilon then some .one
  else if |s - 2| < f32Epsilon then some .two
  else if |s - 3| < f32Epsilon then some .three
  else if |s - 4| < f32Epsilon then some .four
  else if |s - 5| < f32Epsilon then some .five
  else none

/-- `PassingScoreOptions`, /repo/src/data.rs:829-844. -/
structure PassingScoreOptions where
  minFraction : ℚ
  minScore : ℚ
  minAvgTrials : ℚ

/-- `FULL_CANDIDATES_SCORE`, /repo/src/data.rs:823. -/
def fullCandidatesScore : ℚ := 4

/-- `PassingScoreOptions::default`, /repo/src/data.rs:846-854. -/
def PassingScoreOptions.default : PassingScoreOptions :=
  { minScore := 3, minFraction := 1 / 2, minAvgTrials := 9 / 5 }

/-- `PassingScoreOptions::verify`, /repo/src/data.rs:858-871 (`true` = `Ok`). -/
def PassingScoreOptions.verify (o : PassingScoreOptions) : Bool :=
  if o.minScore < 0 ∨ o.minScore ≥ fullCandidatesScore then false
  else if o.minFraction < 0 ∨ o.minFraction > 1 then false
  else if o.minAvgTrials < 1 then false
  else true

/-- `MasteryWindow`, /repo/src/data.rs:884-894. -/
structure MasteryWindow where
  percentage : ℚ
  lo : ℚ
  hi : ℚ

/-- `MasteryWindow::in_window`, /repo/src/data.rs:898-907. -/
def MasteryWindow.inWindow (w : MasteryWindow) (score : ℚ) : Bool :=
  if w.hi ≥ 5 ∧ score ≥ 5 then true
  else decide (w.lo ≤ score) && decide (score < w.hi)

/-- `SchedulerOptions`, /repo/src/data.rs:912-961. -/
structure SchedulerOptions where
  batchSize : Nat
  relearnFraction : ℚ
  newWindow : MasteryWindow
  targetWindow : MasteryWindow
  currentWindow : MasteryWindow
  easyWindow : MasteryWindow
  masteredWindow : MasteryWindow
  passing : PassingScoreOptions
  supersedingScore : ℚ
  numTrials : Nat
  numDeltas : Nat
  numRewards : Nat
  maxLessonsInProgress : Nat

/-- `float_equals`, /repo/src/data.rs:965-967. -/
def floatEquals (a b : ℚ) : Bool := decide (|a - b| < f32Epsilon)

/-- `SchedulerOptions::verify`, /repo/src/data.rs:970-1029. -/
def SchedulerOptions.verify (o : SchedulerOptions) : Bool :=
  if o.batchSize = 0 then false
  else if o.relearnFraction < 0 ∨ o.relearnFraction > 1 then false
  else if !o.passing.verify then false
  else if !floatEquals (o.masteredWindow.percentage + o.easyWindow.percentage +
      o.currentWindow.percentage + o.targetWindow.percentage + o.newWindow.percentage) 1 then false
  else if !floatEquals o.newWindow.lo 0 then false
  else if !floatEquals o.masteredWindow.hi 5 then false
  else if !floatEquals o.newWindow.hi o.targetWindow.lo ||
      !floatEquals o.targetWindow.hi o.currentWindow.lo ||
      !floatEquals o.currentWindow.hi o.easyWindow.lo ||
      !floatEquals o.easyWindow.hi o.masteredWindow.lo then false
  else if o.maxLessonsInProgress = 0 then false
  else true

/-- `SchedulerOptions::default`, /repo/src/data.rs:1032-1069. -/
def SchedulerOptions.default : SchedulerOptions where
  batchSize := 50
  relearnFraction := 1 / 10
  newWindow := ⟨1 / 5, 0, 1 / 10⟩
  targetWindow := ⟨1 / 5, 1 / 10, 5 / 2⟩
  currentWindow := ⟨3 / 10, 5 / 2, 15 / 4⟩
  easyWindow := ⟨1 / 5, 15 / 4, 9 / 2⟩
  masteredWindow := ⟨1 / 10, 9 / 2, 5⟩
  passing := .default
  supersedingScore := 4
  numTrials := 20
  numDeltas := 10
  numRewards := 10
  maxLessonsInProgress := 10

end Trane
