import Verif.Top.TimeProps
import Verif.Top.Sample

/-! A case that meets the hypotheses of the theorems about the time of scores. -/

namespace Trane.TopLevel
open Trane.Store

/-- A scorer whose score is the age of the newest trial. -/
def agingBase : Base ℚ :=
  { sampleBase with scorer := fun _ _ now t _ _ => ((now : ℚ) - (t.1.head?.map (fun p => (p.2 : ℚ))).getD 0, 0, none) }

/-- A trial at time 10, then the clock moves to 100. -/
def timed : List (Call ℚ) := [.scoreExercise ['e'] .three 10 9 id {}, .wait 100]

/-- The time set is used (7 - 10), later the time of the computer (200 - 10), with the exercise `e` of lesson `l` of
course `c`; and a cached score stays as it was (100 - 10) when the time is set. -/
example :
    (∀ c ∈ ([.wait 200] : List (Call ℚ)), ¬ TouchesOverride c) ∧
    (let t := runs agingBase (fresh sampleGraph 0) (timed ++ .overrideTime (some 7) :: [.wait 200] ++ [.invalidate ['e']])
     t.graph.getUnitType ['e'] = some .exercise ∧ t.graph.getExerciseLesson ['e'] = some ['l'] ∧
     t.graph.getLessonCourse ['l'] = some ['c'] ∧ answer agingBase t ['e'] 1 = some (some (-3))) ∧
    answer agingBase (runs agingBase (fresh sampleGraph 0)
      (timed ++ [.overrideTime (some 7), .overrideTime none, .wait 200, .invalidate ['e']])) ['e'] 1 = some (some 190) ∧
    answer agingBase (runs agingBase (fresh sampleGraph 0)
      (timed ++ [.getUnitScore ['e'] 1, .overrideTime (some 7), .wait 200])) ['e'] 1 = some (some 90) := by
  refine ⟨?_, ?_, ?_, ?_⟩
  · simp [TouchesOverride]
  · decide +kernel
  · decide +kernel
  · decide +kernel

end Trane.TopLevel
