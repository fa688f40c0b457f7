import Verif.Graph.Props
import Mathlib.Data.List.Nodup

/-! What holds of the graph after any history of calls, in the form used for the scheduler. -/

namespace Trane.Graph
variable {ι : Type} [DecidableEq ι]

/-- The sets have no repeated elements, and starting lessons are lessons of the course. -/
structure SetInv (g : Graph ι) : Prop where
  lessons : ∀ c s, g.courseLessons.find c = some s → s.Nodup
  exercises : ∀ l s, g.lessonExercises.find l = some s → s.Nodup
  starting : ∀ c s, g.startingLessons.find c = some s → s.Nodup
  sub : ∀ c l, Rel g.startingLessons c l → Rel g.courseLessons c l

theorem upd_insert_nodup (m : AMap ι (List ι)) (k x : ι) (h : ∀ u s, m.find u = some s → s.Nodup) :
    ∀ u s, (m.upd k [] (fun s => s.insert x)).find u = some s → s.Nodup :=
  fold_insert_nodup m [k] x h

theorem setInv_step (g : Graph ι) (o : Op ι) (h : SetInv g) : SetInv (g.step o).1 := by
  cases o with
  | addCourse c =>
    rcases addCourse_cases g c with ⟨_, e⟩ | ⟨_, e⟩ <;> simp only [step, e]
    · exact h
    · exact ⟨h.lessons, h.exercises, h.starting, h.sub⟩
  | addLesson l c =>
    rcases addLesson_cases g l c with ⟨_, e⟩ | ⟨_, _, e⟩ | ⟨_, _, _, e⟩ <;> simp only [step, e]
    · exact h
    · exact ⟨h.lessons, h.exercises, h.starting, h.sub⟩
    · refine ⟨upd_insert_nodup _ _ _ h.lessons, h.exercises, h.starting, ?_⟩
      intro c' l' hs
      rw [rel_upd_insert]
      exact Or.inl (h.sub _ _ hs)
  | addExercise l c =>
    rcases addExercise_cases g l c with ⟨_, e⟩ | ⟨_, _, e⟩ | ⟨_, _, _, e⟩ <;> simp only [step, e]
    · exact h
    · exact ⟨h.lessons, h.exercises, h.starting, h.sub⟩
    · exact ⟨h.lessons, upd_insert_nodup _ _ _ h.exercises, h.starting, h.sub⟩
  | addDependencies u t ds =>
    rcases step_addDependencies g u t ds with e | ⟨_, e⟩ <;> rw [e]
    · exact h
    · exact ⟨h.lessons, h.exercises, h.starting, h.sub⟩
  | addEncompassed u ds es =>
    rcases addEncompassed_cases g u ds es with ⟨_, e⟩ | ⟨_, e⟩ <;> simp only [step, e]
    · exact h
    · exact ⟨h.lessons, h.exercises, h.starting, h.sub⟩
  | setEncompassingEqualsDependency => exact ⟨h.lessons, h.exercises, h.starting, h.sub⟩
  | addSuperseded u ss =>
    simp only [step, addSuperseded_eq]; split
    · exact h
    · exact ⟨h.lessons, h.exercises, h.starting, h.sub⟩
  | updateStartingLessons =>
    have hf := (updateStarting_fold g g.courseLessons.keys).1
    obtain ⟨s, st, e⟩ := updateStartingLessons_frame g
    have e2 : st = (List.foldl updateStartingOne g g.courseLessons.keys).startingLessons := by
      have : (g.updateStartingLessons).startingLessons = st := by rw [e]
      rw [← this]; rfl
    simp only [step, e]
    refine ⟨h.lessons, h.exercises, ?_, ?_⟩
    · intro c s' hs
      change st.find c = some s' at hs
      rw [e2, hf] at hs
      split at hs
      · injection hs with hs
        subst hs
        refine List.Nodup.filter _ ?_
        cases hk : g.courseLessons.find c with
        | none => simp
        | some s => exact h.lessons _ _ hk
      · exact h.starting _ _ hs
    · intro c l hs
      change Rel st c l at hs
      obtain ⟨s', hs, hl⟩ := hs
      rw [e2, hf] at hs
      split at hs
      · injection hs with hs
        subst hs
        rw [mem_startingOf] at hl
        rw [rel_iff_getD]; exact hl.1
      · exact h.sub _ _ ⟨_, hs, hl⟩

/-- What the scheduler relies on about the graph, phrased with its queries. -/
structure WF (g : Graph ι) : Prop where
  lesson : ∀ c l, CourseHasLesson g c l ↔ g.getLessonCourse l = some c
  exercise : ∀ l e, LessonHasExercise g l e ↔ g.getExerciseLesson e = some l
  tyL : ∀ l c, g.getLessonCourse l = some c →
    g.getUnitType l = some .lesson ∧ g.getUnitType c = some .course
  tyE : ∀ e l, g.getExerciseLesson e = some l →
    g.getUnitType e = some .exercise ∧ g.getUnitType l = some .lesson
  lessonsNodup : ∀ c s, g.getCourseLessons c = some s → s.Nodup
  exercisesNodup : ∀ c s, g.getLessonExercises c = some s → s.Nodup
  startingNodup : ∀ c s, g.getStartingLessons c = some s → s.Nodup
  startingSub : ∀ c l, CourseStartsWith g c l → CourseHasLesson g c l
  depInv : ∀ u d, DependsOn g u d ↔ HasDependent g d u
  depTyped : ∀ u s, g.getDependencies u = some s → Known g u

/-- The graph is well formed after any history of calls. -/
theorem wf_run (ops : List (Op ι)) : WF (run ops) := by
  have h1 := contInv_run ops
  have h2 : SetInv (run ops) := run_induction ⟨by simp [empty], by simp [empty],
    by simp [empty], by simp [empty, Rel]⟩ setInv_step ops
  exact ⟨h1.lesson, h1.exercise, h1.tyL, h1.tyE, h2.lessons, h2.exercises, h2.starting, h2.sub,
    dependents_inverse_of_dependencies ops, dependencies_only_of_known_units ops⟩

theorem fold_insert_ne_nil (m : AMap ι (List ι)) (ks : List ι) (x : ι)
    (h : ∀ u s, m.find u = some s → s ≠ []) :
    ∀ u s, (ks.foldl (fun m k => m.upd k [] (fun s => s.insert x)) m).find u = some s → s ≠ [] := by
  induction ks generalizing m with
  | nil => exact h
  | cons k ks ih =>
    rw [List.foldl_cons]
    apply ih
    intro u s hs
    rw [AMap.find_upd] at hs
    split at hs
    · cases hs
      exact List.ne_nil_of_mem (List.mem_insert_self)
    · exact h u s hs

/-- Nobody is recorded as having an empty set of dependents. -/
theorem dependents_ne_nil (ops : List (Op ι)) (u : ι) (s : List ι)
    (h : (run ops).getDependents u = some s) : s ≠ [] := by
  have key : ∀ u s, (run ops).dependents.find u = some s → s ≠ [] := by
    refine run_induction (P := fun g => ∀ u s, g.dependents.find u = some s → s ≠ [])
      (by simp [empty]) ?_ ops
    intro g o h
    cases o with
    | addCourse c =>
      rcases addCourse_cases g c with ⟨_, e⟩ | ⟨_, e⟩ <;> simp only [step, e] <;> exact h
    | addLesson l c =>
      rcases addLesson_cases g l c with ⟨_, e⟩ | ⟨_, _, e⟩ | ⟨_, ty, _, e⟩ <;>
        simp only [step, e] <;> exact h
    | addExercise x l =>
      rcases addExercise_cases g x l with ⟨_, e⟩ | ⟨_, _, e⟩ | ⟨_, ty, _, e⟩ <;>
        simp only [step, e] <;> exact h
    | addDependencies u t ds =>
      rcases step_addDependencies g u t ds with e | ⟨_, e⟩ <;> rw [e]
      · exact h
      · exact fold_insert_ne_nil _ _ _ h
    | addEncompassed u ds es =>
      rcases addEncompassed_cases g u ds es with ⟨_, e⟩ | ⟨_, e⟩ <;> simp only [step, e] <;> exact h
    | setEncompassingEqualsDependency => exact h
    | addSuperseded u ss =>
      simp only [step, addSuperseded_eq]
      split <;> exact h
    | updateStartingLessons =>
      obtain ⟨s, st, e⟩ := updateStartingLessons_frame g
      simp only [step, e]; exact h
  exact key u s h

end Trane.Graph
