import Verif.Bench.Library

/-!
# C95: sample simulations
-/

set_option synthInstance.maxSize 1000

namespace Trane.Bench

/-- A small object: the time set, the grades so far; it hands out two exercises at a time, and a course is worth the last
grade given. -/
def toy : Api (Int × List (Nat × MasteryScore × Int)) Nat where
  overrideTime o t := (t, o.2)
  batch o := some (o, [1, 2])
  score o x g t := some (o.1, (x, g, t) :: o.2)
  unitScore o _ := o.2.head?.map (fun e => match e.2.1 with | .one => 1 | .two => 2 | .three => 3 | .four => 4 | .five => 5)

/-- A student who is graded one at first and five from the second trial on, with three exercises in a session. -/
def learner : Profile where
  sessionFrequency := 2
  exercisesPerSession := 3
  initial := fun i => if i = 0 then 1 else 0
  trialsBeforeStable := 1
  stable := fun i => if i = 4 then 1 else 0
  lapseRate := 0

def half : Draw := ⟨1 / 2, 1 / 2, by norm_num, by norm_num, by norm_num, by norm_num⟩

/-- The exercises, grades and times in a list of events. -/
def grades : List (Event Nat) → List (Nat × Nat × Int) :=
  List.filterMap (fun e => match e with | .scored x g t => some (x, (place g).val + 1, t) | .batch .. => none)

/-- What a simulation reports, and the grades. -/
def summary {σ : Type} : Except Failure (Result σ Nat) →
    Option (Option Nat × Nat × Nat × List (Nat × Nat × Int))
  | .ok r => some (r.daysToMastery, r.sessionsRun, r.exercisesPracticed, grades r.events)
  | .error _ => none

/-- One session is enough: the first exercise is met again in the second batch. -/
example : summary (simulate toy learner (fun _ => half) ⟨0, 4, 10⟩ [0] 1000 (0, [])) =
    some (some 0, 1, 3, [(1, 1, 1000), (2, 1, 1001), (1, 5, 1002)]) := by decide +kernel

/-- With two exercises in a session the second session, two days later, masters. -/
example : summary (simulate toy { learner with exercisesPerSession := 2 } (fun _ => half) ⟨0, 4, 10⟩ [0] 1000 (0, [])) =
    some (some 2, 2, 4, [(1, 1, 1000), (2, 1, 1001), (1, 5, 173800), (2, 5, 173801)]) := by
  decide +kernel

/-- A threshold out of reach: all sessions are run. -/
example : (summary (simulate toy learner (fun _ => half) ⟨0, 6, 3⟩ [0] 1000 (0, []))).map (fun r => (r.1, r.2.1, r.2.2.1)) =
    some (none, 3, 9) := by decide +kernel

/-- An object with nothing to practice. -/
example : ∃ r, simulate { toy with batch := fun o => some (o, []) } learner (fun _ => half) ⟨0, 4, 10⟩ [0] 1000 (0, []) =
    .ok r ∧ r.daysToMastery = none ∧ r.sessionsRun = 0 ∧ r.exercisesPracticed = 0 ∧ Starved r.events :=
  ⟨_, rfl, rfl, rfl, rfl, [], 1000, rfl⟩

/-- The hypotheses of the theorems on grades and times hold of the learner. -/
example : (∀ i, 0 ≤ learner.initial i) ∧ (∀ i, 0 ≤ learner.stable i) ∧ verifyProbs learner.initial = true ∧
    verifyProbs learner.stable = true ∧ learner.exercisesPerSession ≤ learner.sessionFrequency * 86400 := by
  refine ⟨?_, ?_, ?_, ?_, ?_⟩ <;> decide +kernel

/-- If sessions follow each other at once the time goes back: the third grade is given before the second. -/
theorem simulated_time_can_go_back : summary (simulate toy { learner with sessionFrequency := 0, exercisesPerSession := 2 }
    (fun _ => half) ⟨0, 6, 2⟩ [0] 1000 (0, [])) =
    some (none, 2, 4, [(1, 1, 1000), (2, 1, 1001), (1, 5, 1000), (2, 5, 1001)]) := by decide +kernel

end Trane.Bench
