import Verif.Sched.ModeLemmas

/-! A small library on which the hypotheses of the search theorems are shown to hold. -/

namespace Trane.Search
open Trane.Graph

/-- Course 1 has lesson 10 with exercises 100 and 101, and lesson 11, which depends on 10, with exercise 110.
Course 2 depends on course 1 and has lesson 20 with exercise 200.  Course 3 depends on a course 99 that is not
in the library and has lesson 30 with exercise 300. -/
def sampleOps : List (Op Nat) :=
  [.addCourse 1, .addDependencies 1 .course [],
   .addLesson 10 1, .addDependencies 10 .lesson [], .addExercise 100 10, .addExercise 101 10,
   .addLesson 11 1, .addDependencies 11 .lesson [10], .addExercise 110 11,
   .addCourse 2, .addDependencies 2 .course [1],
   .addLesson 20 2, .addDependencies 20 .lesson [], .addExercise 200 20,
   .addCourse 3, .addDependencies 3 .course [99],
   .addLesson 30 3, .addDependencies 30 .lesson [], .addExercise 300 30,
   .updateStartingLessons]

/-- A library with given scores, numbers of trials and blacklist; 0 stands for the empty id. -/
def libraryOf (ops : List (Op Nat)) (score trials : Nat → ℚ) (black : Nat → Bool) : Env Nat :=
  let g := run ops
  { graph := g
    black := fun u => decide (u ≠ 0) && black u
    courseMeta := fun u => if g.getUnitType u = some .course then some [(['k'], [['c']])] else none
    lessonMeta := fun u => if g.getUnitType u = some .lesson then
        some [(['k'], [if u = 30 then ['x'] else ['m']])] else none
    hasExercise := fun u => decide (g.getUnitType u = some .exercise)
    dflt := 0
    opts := .default
    score := fun u => if g.getUnitType u = none then none else some (some (score u))
    trials := fun u => if g.getUnitType u = none then none else some (trials u)
    superseded := fun _ => false
    urgency := fun _ => some 1
    velocity := fun _ => some none
    frequency := fun _ => 0 }

theorem libraryOf_sane (ops : List (Op Nat)) (score trials : Nat → ℚ) (black : Nat → Bool)
    (h0 : (run ops).getUnitType 0 = none)
    (hc : ∀ l, (run ops).getUnitType l = some .lesson → ∃ c, (run ops).getLessonCourse l = some c) :
    Sane (libraryOf ops score trials black) := by
  refine ⟨wf_run ops, ?_, ?_, ?_, hc, h0, by simp [libraryOf], rfl, ?_⟩
  · intro u
    simp only [libraryOf, IsCourse]
    split <;> simp_all
  · intro u
    simp only [libraryOf, IsLesson]
    split <;> simp_all
  · intro u
    simp [libraryOf]
  · intro u hu
    left
    exact if_pos hu

/-- Nothing practiced yet. -/
def fresh : Env Nat := libraryOf sampleOps (fun _ => 0) (fun _ => 0) (fun _ => false)

/-- Course 1 mastered, with exercise 110 blacklisted, which leaves lesson 11 without exercises. -/
def later : Env Nat := libraryOf sampleOps (fun u => if u ∈ [1, 10, 11, 100, 101] then 4 else 0)
  (fun u => if u ∈ [1, 10, 11, 100, 101] then 4 else 0) (fun u => u == 110)

/-- No shuffling. -/
def plain : Nat → Rnd := fun _ _ _ l => l

theorem plain_isRnd (i : Nat) : IsRnd (plain i) := fun _ _ _ => List.Perm.refl _

theorem sampleOps_course (l : Nat) (h : (run sampleOps).getUnitType l = some .lesson) :
    ∃ c, (run sampleOps).getLessonCourse l = some c := by
  have hm : l ∈ (run sampleOps).types.keys := (AMap.mem_keys_iff _ _).2 ⟨_, h⟩
  have : ∀ x ∈ (run sampleOps).types.keys, (run sampleOps).getUnitType x = some .lesson →
      ((run sampleOps).getLessonCourse x).isSome = true := by decide +kernel
  exact Option.isSome_iff_exists.1 (this l hm h)

theorem fresh_sane : Sane fresh := libraryOf_sane _ _ _ _ (by decide +kernel) sampleOps_course
theorem later_sane : Sane later := libraryOf_sane _ _ _ _ (by decide +kernel) sampleOps_course

/-- Course 1 has lesson 10.  Course 4 has lesson 40, which depends on lesson 10 of course 1, and lesson 41
without dependencies. -/
def strandedOps : List (Op Nat) :=
  [.addCourse 1, .addDependencies 1 .course [], .addLesson 10 1, .addDependencies 10 .lesson [],
   .addExercise 100 10,
   .addCourse 4, .addDependencies 4 .course [], .addLesson 40 4, .addDependencies 40 .lesson [10],
   .addExercise 400 40, .addLesson 41 4, .addDependencies 41 .lesson [], .addExercise 410 41,
   .updateStartingLessons]

theorem strandedOps_course (l : Nat) (h : (run strandedOps).getUnitType l = some .lesson) :
    ∃ c, (run strandedOps).getLessonCourse l = some c := by
  have hm : l ∈ (run strandedOps).types.keys := (AMap.mem_keys_iff _ _).2 ⟨_, h⟩
  have : ∀ x ∈ (run strandedOps).types.keys, (run strandedOps).getUnitType x = some .lesson →
      ((run strandedOps).getLessonCourse x).isSome = true := by decide +kernel
  exact Option.isSome_iff_exists.1 (this l hm h)

/-- Course 2 depends on course 1; its lesson 20 depends on lesson 30 of course 3. -/
def bypassOps : List (Op Nat) :=
  [.addCourse 1, .addDependencies 1 .course [], .addLesson 10 1, .addDependencies 10 .lesson [],
   .addExercise 100 10,
   .addCourse 3, .addDependencies 3 .course [], .addLesson 30 3, .addDependencies 30 .lesson [],
   .addExercise 300 30,
   .addCourse 2, .addDependencies 2 .course [1], .addLesson 20 2, .addDependencies 20 .lesson [30],
   .addExercise 200 20, .updateStartingLessons]

theorem bypassOps_course (l : Nat) (h : (run bypassOps).getUnitType l = some .lesson) :
    ∃ c, (run bypassOps).getLessonCourse l = some c := by
  have hm : l ∈ (run bypassOps).types.keys := (AMap.mem_keys_iff _ _).2 ⟨_, h⟩
  have : ∀ x ∈ (run bypassOps).types.keys, (run bypassOps).getUnitType x = some .lesson →
      ((run bypassOps).getLessonCourse x).isSome = true := by decide +kernel
  exact Option.isSome_iff_exists.1 (this l hm h)

/-- Only course 3 is mastered. -/
def bypass : Env Nat := libraryOf bypassOps (fun u => if u ∈ [3, 30, 300] then 4 else 0)
  (fun u => if u ∈ [3, 30, 300] then 4 else 0) (fun _ => false)

theorem bypass_sane : Sane bypass := libraryOf_sane _ _ _ _ (by decide +kernel) bypassOps_course

/-- The exercises of a result. -/
def exercises (r : Res (List (Candidate Nat))) : Option (Option (List Nat)) :=
  r.map (·.map (·.map Candidate.exercise))

theorem exercises_eq {r : Res (List (Candidate Nat))} {xs : List Nat} (h : exercises r = some (some xs)) :
    ∃ cs, r = some (some cs) ∧ cs.map Candidate.exercise = xs := by
  unfold exercises at h
  rw [Option.map_eq_some_iff] at h
  obtain ⟨r', rfl, h⟩ := h
  rw [Option.map_eq_some_iff] at h
  obtain ⟨cs, rfl, h⟩ := h
  exact ⟨cs, rfl, h⟩

end Trane.Search
