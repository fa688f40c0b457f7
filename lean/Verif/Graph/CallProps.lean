import Verif.Graph.Props

/-!
# What each call does to the answers of the graph, exactly (C03, C04, C05, C07)

The theorems of `Props.lean` say what always holds of the answers.  These say, for every history
of calls and every next call, which calls are accepted and what changes in each answer: nothing
else does.  Everything is stated with the queries of the `UnitGraph` trait.
-/

namespace Trane.Graph

variable {ι : Type} [DecidableEq ι]

/-- The type that a call gives to a unit the graph has not seen.  `add_lesson` and `add_exercise`
give the contained unit its type first, so it keeps that type when the container is refused. -/
def TypeGiven (g : Graph ι) (o : Op ι) (u : ι) (t : UnitType) : Prop :=
  (o = .addCourse u ∧ t = .course) ∨
  (∃ c, o = .addLesson u c ∧ t = .lesson) ∨
  (∃ l, o = .addLesson l u ∧ l ≠ u ∧ ¬ Known g l ∧ t = .course) ∨
  (∃ l, o = .addExercise u l ∧ t = .exercise) ∨
  (∃ e, o = .addExercise e u ∧ e ≠ u ∧ ¬ Known g e ∧ t = .lesson)

/-- Which calls add units. -/
def AddsUnits : Op ι → Prop
  | .addCourse _ | .addLesson _ _ | .addExercise _ _ => True
  | _ => False

theorem not_known_iff (g : Graph ι) (u : ι) : ¬ Known g u ↔ g.types.find u = none := by
  unfold Known getUnitType
  cases g.types.find u <;> simp

/-- **C04** A new unit is accepted exactly when its id is new and the unit it is put into is
another one that is either new or of the right type. -/
theorem add_calls_succeed_iff (ops : List (Op ι)) (u p : ι) :
    (((run ops).step (.addCourse u)).2 = true ↔ ¬ Known (run ops) u) ∧
    (((run ops).step (.addLesson u p)).2 = true ↔
      ¬ Known (run ops) u ∧ u ≠ p ∧
        (¬ Known (run ops) p ∨ (run ops).getUnitType p = some .course)) ∧
    (((run ops).step (.addExercise u p)).2 = true ↔
      ¬ Known (run ops) u ∧ u ≠ p ∧
        (¬ Known (run ops) p ∨ (run ops).getUnitType p = some .lesson)) := by
  generalize run ops = g
  simp only [not_known_iff, step, getUnitType]
  refine ⟨?_, ?_, ?_⟩
  · rcases addCourse_cases g u with ⟨⟨t, h⟩, e⟩ | ⟨h, e⟩ <;> simp [e, h]
  · rcases addLesson_cases g u p with ⟨⟨t, h⟩, e⟩ | ⟨h, ⟨t, h1, h2⟩, e⟩ | ⟨h, ty, h1, e⟩
    · simp [e, h]
    · by_cases hup : u = p
      · subst hup; simp [e]
      · rw [AMap.find_put_ne _ _ hup] at h1
        simp [e, h, hup, h1, h2]
    · by_cases hup : u = p
      · subst hup; simp [AMap.find_put_self] at h1
      · rw [AMap.find_put_ne _ _ hup] at h1
        simp only [e, h, true_iff]
        refine ⟨trivial, hup, ?_⟩
        rcases h1 with ⟨_, h⟩ | ⟨_, h⟩ <;> simp [h]
  · rcases addExercise_cases g u p with ⟨⟨t, h⟩, e⟩ | ⟨h, ⟨t, h1, h2⟩, e⟩ | ⟨h, ty, h1, e⟩
    · simp [e, h]
    · by_cases hup : u = p
      · subst hup; simp [e]
      · rw [AMap.find_put_ne _ _ hup] at h1
        simp [e, h, hup, h1, h2]
    · by_cases hup : u = p
      · subst hup; simp [AMap.find_put_self] at h1
      · rw [AMap.find_put_ne _ _ hup] at h1
        simp only [e, h, true_iff]
        refine ⟨trivial, hup, ?_⟩
        rcases h1 with ⟨_, h⟩ | ⟨_, h⟩ <;> simp [h]

/-- The three possibilities are met: an accepted lesson, one refused because its container is a
lesson, one refused because it would contain itself. -/
example : ((run sample).step (.addLesson 30 2)).2 = true ∧
    ((run sample).step (.addLesson 30 10)).2 = false ∧
    ((run sample).step (.addLesson 30 30)).2 = false := by decide +kernel

/-- Calls that add no unit keep the types and the containment. -/
theorem step_keeps_units (g : Graph ι) (o : Op ι) (h : ¬ AddsUnits o) :
    (g.step o).1.types = g.types ∧ (g.step o).1.lessonCourse = g.lessonCourse ∧
    (g.step o).1.courseLessons = g.courseLessons ∧
    (g.step o).1.exerciseLesson = g.exerciseLesson ∧
    (g.step o).1.lessonExercises = g.lessonExercises := by
  cases o with
  | addCourse => simp [AddsUnits] at h
  | addLesson => simp [AddsUnits] at h
  | addExercise => simp [AddsUnits] at h
  | addDependencies u t ds =>
    simp only [step]
    cases hv : g.verifyDependencies u t ds
    · simp [addDependencies_err _ _ _ _ hv]
    · simp [addDependencies_ok _ _ _ _ hv]
  | addEncompassed u ds es =>
    simp only [step]
    rcases addEncompassed_cases g u ds es with ⟨_, e⟩ | ⟨_, e⟩ <;> simp [e]
  | setEncompassingEqualsDependency => simp [step, Graph.setEncompassingEqualsDependency]
  | addSuperseded u ss =>
    simp only [step, addSuperseded_eq]
    split <;> simp
  | updateStartingLessons =>
    obtain ⟨s, st, e⟩ := updateStartingLessons_frame g
    simp [step, e]

/-- **C04** A unit has a type after a call exactly when it had it before, or had none and the call
gives it that type. -/
theorem types_after_call (ops : List (Op ι)) (o : Op ι) (u : ι) (t : UnitType) :
    (run (ops ++ [o])).getUnitType u = some t ↔
      (run ops).getUnitType u = some t ∨
      (¬ Known (run ops) u ∧ TypeGiven (run ops) o u t) := by
  rw [run_snoc]
  generalize run ops = g
  by_cases ho : AddsUnits o
  · cases o with
    | addCourse c =>
      simp only [step, TypeGiven, not_known_iff, getUnitType]
      rcases addCourse_cases g c with ⟨⟨t', h⟩, e⟩ | ⟨h, e⟩
      · rw [e]
        by_cases hu : c = u
        · subst hu; simp [h]
        · simp [hu]
      · rw [e]
        simp only [AMap.find_put]
        by_cases hu : c = u
        · subst hu; simp [h, eq_comm]
        · simp [hu, Ne.symm hu]
    | addLesson l c =>
      simp only [step, TypeGiven, not_known_iff, getUnitType]
      rcases addLesson_cases g l c with ⟨⟨t', h⟩, e⟩ | ⟨h, ⟨t', h1, h2⟩, e⟩ | ⟨h, ty, h1, e⟩
      · rw [e]
        by_cases hu : l = u
        · subst hu; simp [h]
        · simp [hu, h]
      · rw [e]
        simp only [AMap.find_put]
        by_cases hu : l = u
        · subst hu; simp [h, eq_comm]
        · by_cases hc : c = u
          · subst hc
            rw [AMap.find_put_ne _ _ hu] at h1
            simp [hu, Ne.symm hu, h1]
          · simp [hu, Ne.symm hu, hc]
      · rw [e]
        by_cases hlc : l = c
        · subst hlc; simp [AMap.find_put_self] at h1
        · rw [AMap.find_put_ne _ _ hlc] at h1
          rcases h1 with ⟨rfl, h1⟩ | ⟨rfl, h1⟩
          · simp only [AMap.find_put]
            by_cases hc : c = u
            · subst hc; simp [h1, h, hlc, eq_comm]
            · by_cases hu : l = u
              · subst hu; simp [h, hc, Ne.symm hc, eq_comm]
              · simp [hu, hc, Ne.symm hc, Ne.symm hu]
          · simp only [AMap.find_put]
            by_cases hc : c = u
            · subst hc; simp [h1, hlc, Ne.symm hlc]
            · by_cases hu : l = u
              · subst hu; simp [h, hc, eq_comm]
              · simp [hu, hc, Ne.symm hu]
    | addExercise l c =>
      simp only [step, TypeGiven, not_known_iff, getUnitType]
      rcases addExercise_cases g l c with ⟨⟨t', h⟩, e⟩ | ⟨h, ⟨t', h1, h2⟩, e⟩ | ⟨h, ty, h1, e⟩
      · rw [e]
        by_cases hu : l = u
        · subst hu; simp [h]
        · simp [hu, h]
      · rw [e]
        simp only [AMap.find_put]
        by_cases hu : l = u
        · subst hu; simp [h, eq_comm]
        · by_cases hc : c = u
          · subst hc
            rw [AMap.find_put_ne _ _ hu] at h1
            simp [hu, Ne.symm hu, h1]
          · simp [hu, Ne.symm hu, hc]
      · rw [e]
        by_cases hlc : l = c
        · subst hlc; simp [AMap.find_put_self] at h1
        · rw [AMap.find_put_ne _ _ hlc] at h1
          rcases h1 with ⟨rfl, h1⟩ | ⟨rfl, h1⟩
          · simp only [AMap.find_put]
            by_cases hc : c = u
            · subst hc; simp [h1, h, hlc, eq_comm]
            · by_cases hu : l = u
              · subst hu; simp [h, hc, Ne.symm hc, eq_comm]
              · simp [hu, hc, Ne.symm hc, Ne.symm hu]
          · simp only [AMap.find_put]
            by_cases hc : c = u
            · subst hc; simp [h1, hlc, Ne.symm hlc]
            · by_cases hu : l = u
              · subst hu; simp [h, hc, eq_comm]
              · simp [hu, hc, Ne.symm hu]
    | _ => simp [AddsUnits] at ho
  · have := (step_keeps_units g o ho).1
    simp only [getUnitType, this]
    cases o <;> simp [AddsUnits] at ho <;> simp [TypeGiven]

/-- The second alternative is met, by a unit typed through its contents and by one whose container
is refused. -/
example : (run (sample ++ [.addLesson 30 3])).getUnitType 3 = some .course ∧
    ¬ Known (run sample) 3 ∧
    (run (sample ++ [.addLesson 30 10])).getUnitType 30 = some .lesson ∧
    ¬ Known (run sample) 30 := by
  refine ⟨by decide +kernel, ?_, by decide +kernel, ?_⟩ <;>
    (rw [not_known_iff]; decide +kernel)

/-- **C03** A lesson answers a course after a call exactly when it did before, or the call is an
accepted `add_lesson` of that lesson to that course; the same for exercises. -/
theorem containment_after_call (ops : List (Op ι)) (o : Op ι) (a b : ι) :
    ((run (ops ++ [o])).getLessonCourse a = some b ↔
      (run ops).getLessonCourse a = some b ∨
      (o = .addLesson a b ∧ ((run ops).step o).2 = true)) ∧
    ((run (ops ++ [o])).getExerciseLesson a = some b ↔
      (run ops).getExerciseLesson a = some b ∨
      (o = .addExercise a b ∧ ((run ops).step o).2 = true)) := by
  have hknown := containment_unique_and_typed ops
  have hty : ∀ l c, (run ops).getLessonCourse l = some c → Known (run ops) l := by
    intro l c hl
    exact ⟨_, (hknown.2.2.1 c l ((containment_maps_agree ops).1 c l |>.2 hl)).1⟩
  have hty' : ∀ l c, (run ops).getExerciseLesson l = some c → Known (run ops) l := by
    intro l c hl
    exact ⟨_, (hknown.2.2.2 c l ((containment_maps_agree ops).2 c l |>.2 hl)).1⟩
  rw [run_snoc]
  simp only [← not_imp_not (a := Known _ _), not_known_iff] at hty hty'
  generalize run ops = g at *
  by_cases ho : AddsUnits o
  · cases o with
    | addCourse c =>
      rcases addCourse_cases g c with ⟨_, e⟩ | ⟨_, e⟩ <;>
        simp [step, e, getLessonCourse, getExerciseLesson]
    | addLesson l c =>
      rcases addLesson_cases g l c with ⟨_, e⟩ | ⟨_, _, e⟩ | ⟨h, _, _, e⟩
      · simp [step, e, getLessonCourse, getExerciseLesson]
      · simp [step, e, getLessonCourse, getExerciseLesson]
      · have hn : g.lessonCourse.find l = none := by
          cases hl : g.lessonCourse.find l with
          | none => rfl
          | some x => exact absurd hl (hty l x h)
        simp only [step, e, getLessonCourse, getExerciseLesson, AMap.find_put]
        refine ⟨?_, by simp⟩
        by_cases hl : l = a
        · subst hl; simp [hn]
        · simp [hl]
    | addExercise l c =>
      rcases addExercise_cases g l c with ⟨_, e⟩ | ⟨_, _, e⟩ | ⟨h, _, _, e⟩
      · simp [step, e, getLessonCourse, getExerciseLesson]
      · simp [step, e, getLessonCourse, getExerciseLesson]
      · have hn : g.exerciseLesson.find l = none := by
          cases hl : g.exerciseLesson.find l with
          | none => rfl
          | some x => exact absurd hl (hty' l x h)
        simp only [step, e, getLessonCourse, getExerciseLesson, AMap.find_put]
        refine ⟨by simp, ?_⟩
        by_cases hl : l = a
        · subst hl; simp [hn]
        · simp [hl]
    | _ => simp [AddsUnits] at ho
  · have := step_keeps_units g o ho
    simp only [getLessonCourse, getExerciseLesson, this]
    cases o <;> simp [AddsUnits] at ho <;> simp

example : (run sample).getLessonCourse 30 = none ∧
    (run (sample ++ [.addLesson 30 2])).getLessonCourse 30 = some 2 ∧
    (run (sample ++ [.addLesson 30 10])).getLessonCourse 30 = none := by decide +kernel

/-! ### Starting lessons -/

/-- **C07** The starting lessons of a course change only when they are recomputed. -/
theorem starting_lessons_only_recomputed (ops : List (Op ι)) (o : Op ι)
    (h : o ≠ .updateStartingLessons) (c : ι) :
    (run (ops ++ [o])).getStartingLessons c = (run ops).getStartingLessons c := by
  rw [run_snoc]
  generalize run ops = g
  cases o with
  | addCourse c =>
    rcases addCourse_cases g c with ⟨_, e⟩ | ⟨_, e⟩ <;> simp [step, e, getStartingLessons]
  | addLesson l c =>
    rcases addLesson_cases g l c with ⟨_, e⟩ | ⟨_, _, e⟩ | ⟨h, _, _, e⟩ <;>
      simp [step, e, getStartingLessons]
  | addExercise l c =>
    rcases addExercise_cases g l c with ⟨_, e⟩ | ⟨_, _, e⟩ | ⟨h, _, _, e⟩ <;>
      simp [step, e, getStartingLessons]
  | addDependencies u t ds =>
    simp only [step, getStartingLessons]
    cases hv : g.verifyDependencies u t ds
    · simp [addDependencies_err _ _ _ _ hv]
    · simp [addDependencies_ok _ _ _ _ hv]
  | addEncompassed u ds es =>
    simp only [step, getStartingLessons]
    rcases addEncompassed_cases g u ds es with ⟨_, e⟩ | ⟨_, e⟩ <;> simp [e]
  | setEncompassingEqualsDependency =>
    simp [step, Graph.setEncompassingEqualsDependency, getStartingLessons]
  | addSuperseded u ss =>
    simp only [step, addSuperseded_eq, getStartingLessons]
    split <;> simp
  | updateStartingLessons => exact absurd rfl h

example : (run sampleLoad).getStartingLessons 1 = none ∧
    (run (sampleLoad ++ [.updateStartingLessons])).getStartingLessons 1 ≠ none := by
  decide +kernel

/-! ### Encompassing -/

/-- Both maps of explicit weights are empty together, as far as the first one goes. -/
theorem encBy_empty (ops : List (Op ι)) : (run ops).enc = [] → (run ops).encBy = [] := by
  refine run_induction (P := fun g => g.enc = [] → g.encBy = []) (fun _ => rfl) ?_ ops
  intro g o ih
  cases o with
  | addCourse c =>
    rcases addCourse_cases g c with ⟨_, e⟩ | ⟨_, e⟩ <;> simpa [step, e] using ih
  | addLesson l c =>
    rcases addLesson_cases g l c with ⟨_, e⟩ | ⟨_, _, e⟩ | ⟨h, _, _, e⟩ <;>
      simpa [step, e] using ih
  | addExercise l c =>
    rcases addExercise_cases g l c with ⟨_, e⟩ | ⟨_, _, e⟩ | ⟨h, _, _, e⟩ <;>
      simpa [step, e] using ih
  | addDependencies u t ds =>
    simp only [step]
    cases hv : g.verifyDependencies u t ds
    · simpa [addDependencies_err _ _ _ _ hv] using ih
    · simpa [addDependencies_ok _ _ _ _ hv] using ih
  | addEncompassed u ds es =>
    simp only [step]
    rcases addEncompassed_cases g u ds es with ⟨_, e⟩ | ⟨_, e⟩
    · simpa [e] using ih
    · rw [e]
      intro h
      exact absurd h (upd_ne_nil g.enc u [] (fun l => l ++ fullEncompassed ds es))
  | setEncompassingEqualsDependency =>
    intro _; rfl
  | addSuperseded u ss =>
    simp only [step, addSuperseded_eq]
    split <;> simpa using ih
  | updateStartingLessons =>
    obtain ⟨s, st, e⟩ := updateStartingLessons_frame g
    simpa [step, e] using ih

theorem equals_dependency_iff (ops : List (Op ι)) :
    (run ops).encompassingEqualsDependency = true ↔ (run ops).enc = [] := by
  simp only [encompassingEqualsDependency, Bool.and_eq_true, List.isEmpty_iff]
  exact ⟨fun h => h.1, fun h => ⟨h, encBy_empty ops h⟩⟩

/-- **C05** While encompassing equals dependency, a unit encompasses what it depends on, with
weight 1, and is encompassed by its dependents. -/
theorem encompassing_is_dependency (ops : List (Op ι))
    (h : (run ops).encompassingEqualsDependency = true) (u : ι) :
    (run ops).getEncompasses u =
      ((run ops).getDependencies u).map (fun ds => ds.map (fun d => (d, 1))) ∧
    (run ops).getEncompassedBy u =
      ((run ops).getDependents u).map (fun ds => ds.map (fun d => (d, 1))) := by
  have h := (equals_dependency_iff ops).1 h
  simp [getEncompasses, getEncompassedBy, h, encBy_empty ops h]

/-- **C05** Which calls turn the equality of encompassing and dependency on and off. -/
theorem equality_after_call (ops : List (Op ι)) (o : Op ι) :
    (run (ops ++ [o])).encompassingEqualsDependency = true ↔
      o = .setEncompassingEqualsDependency ∨
      ((run ops).encompassingEqualsDependency = true ∧
        ¬ ((∃ u ds es, o = .addEncompassed u ds es) ∧ ((run ops).step o).2 = true)) := by
  rw [equals_dependency_iff, equals_dependency_iff, run_snoc]
  generalize run ops = g
  cases o with
  | addCourse c =>
    rcases addCourse_cases g c with ⟨_, e⟩ | ⟨_, e⟩ <;> simp [step, e]
  | addLesson l c =>
    rcases addLesson_cases g l c with ⟨_, e⟩ | ⟨_, _, e⟩ | ⟨h, _, _, e⟩ <;> simp [step, e]
  | addExercise l c =>
    rcases addExercise_cases g l c with ⟨_, e⟩ | ⟨_, _, e⟩ | ⟨h, _, _, e⟩ <;> simp [step, e]
  | addDependencies u t ds =>
    simp only [step]
    cases hv : g.verifyDependencies u t ds
    · simp [addDependencies_err _ _ _ _ hv]
    · simp [addDependencies_ok _ _ _ _ hv]
  | addEncompassed u ds es =>
    simp only [step]
    rcases addEncompassed_cases g u ds es with ⟨_, e⟩ | ⟨_, e⟩
    · simp [e]
    · simp [e, upd_ne_nil]
  | setEncompassingEqualsDependency => simp [step, Graph.setEncompassingEqualsDependency]
  | addSuperseded u ss =>
    simp only [step, addSuperseded_eq]
    split <;> simp
  | updateStartingLessons =>
    obtain ⟨s, st, e⟩ := updateStartingLessons_frame g
    simp [step, e]

/-- The entries answered for a unit when they are explicit ones. -/
def explicitEntries (g : Graph ι) (u : ι) : Option (List (ι × ℚ)) :=
  if g.encompassingEqualsDependency = true then none else g.getEncompasses u

/-- **C05** The explicit entries of a unit after a call: an accepted `add_encompassed` of the unit
adds the given entries and then the dependencies without one, with weight 1; the call that makes
encompassing equal dependency drops all; no other call changes any. -/
theorem encompasses_after_call (ops : List (Op ι)) (o : Op ι) (u : ι) :
    (∀ ds es, o = .addEncompassed u ds es → ((run ops).step o).2 = true →
      (run (ops ++ [o])).getEncompasses u =
        some ((explicitEntries (run ops) u).getD [] ++ es ++
          (ds.filter (fun d => d ∉ es.map Prod.fst)).map (fun d => (d, 1)))) ∧
    (o ≠ .setEncompassingEqualsDependency →
      ¬ ((∃ ds es, o = .addEncompassed u ds es) ∧ ((run ops).step o).2 = true) →
      explicitEntries (run (ops ++ [o])) u = explicitEntries (run ops) u) := by
  have he : ∀ ops' : List (Op ι), explicitEntries (run ops') u = (run ops').enc.find u := by
    intro ops'
    unfold explicitEntries
    by_cases h : (run ops').enc = []
    · rw [if_pos ((equals_dependency_iff ops').2 h), h]; rfl
    · rw [if_neg (fun h' => h ((equals_dependency_iff ops').1 h')), getEncompasses,
        if_neg (by simpa using h)]
  rw [he, he, run_snoc]
  generalize run ops = g
  constructor
  · rintro ds es rfl
    simp only [step]
    rcases addEncompassed_cases g u ds es with ⟨_, e⟩ | ⟨_, e⟩
    · simp [e]
    · intro _
      have hne : (g.enc.upd u [] fun l => l ++ fullEncompassed ds es) ≠ [] := upd_ne_nil _ _ _ _
      have hf : fullEncompassed ds es =
          es ++ (ds.filter (fun d => d ∉ es.map Prod.fst)).map (fun d => (d, 1)) := by
        unfold fullEncompassed
        congr 2
        apply List.filter_congr
        intro d _
        rw [Bool.eq_iff_iff]
        simp only [Bool.not_eq_true', List.any_eq_false, decide_eq_true_eq, List.mem_map,
          not_exists, not_and]
      rw [e]
      rw [getEncompasses, if_neg (by simpa using hne), AMap.find_upd, if_pos rfl, hf,
        List.append_assoc]
  · intro h1 h2
    cases o with
    | addCourse c =>
      rcases addCourse_cases g c with ⟨_, e⟩ | ⟨_, e⟩ <;> simp [step, e]
    | addLesson l c =>
      rcases addLesson_cases g l c with ⟨_, e⟩ | ⟨_, _, e⟩ | ⟨h, _, _, e⟩ <;> simp [step, e]
    | addExercise l c =>
      rcases addExercise_cases g l c with ⟨_, e⟩ | ⟨_, _, e⟩ | ⟨h, _, _, e⟩ <;> simp [step, e]
    | addDependencies u t ds =>
      simp only [step]
      cases hv : g.verifyDependencies u t ds
      · simp [addDependencies_err _ _ _ _ hv]
      · simp [addDependencies_ok _ _ _ _ hv]
    | addEncompassed v ds es =>
      simp only [step] at h2 ⊢
      rcases addEncompassed_cases g v ds es with ⟨_, e⟩ | ⟨_, e⟩
      · simp [e]
      · have hv : v ≠ u := by
          rintro rfl
          exact h2 ⟨⟨ds, es, rfl⟩, by rw [e]⟩
        rw [e]
        exact (AMap.find_upd g.enc v [] (fun l => l ++ fullEncompassed ds es) u).trans
          (if_neg hv)
    | setEncompassingEqualsDependency => exact absurd rfl h1
    | addSuperseded u ss =>
      simp only [step, addSuperseded_eq]
      split <;> simp
    | updateStartingLessons =>
      obtain ⟨s, st, e⟩ := updateStartingLessons_frame g
      simp [step, e]

/-- A second `add_encompassed` appends to the first; one of another unit leaves it alone. -/
example : (run [.addEncompassed 1 [2] [(3, 1/2)], .addEncompassed 1 [3, 4] [(3, 1/4)],
      .addEncompassed (5 : Nat) [] []]).getEncompasses 1 =
    some [(3, 1/2), (2, 1), (3, 1/4), (4, 1)] := by decide +kernel

end Trane.Graph
