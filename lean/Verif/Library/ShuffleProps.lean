import Verif.Library.Shuffle

/-!
# C103: the order in which files are listed does not matter, for libraries
-/

namespace Trane.Library
open Trane.Store Trane.Filters Trane.Graph

variable {α γ : Type}

/-! ### Specification -/

/-- Two libraries give the same answers: the same manifests for every id, but for the order of the values of metadata
keys of courses, the same lists of ids, and the same relations. -/
structure AnswerAlike (lib lib' : Lib α γ) : Prop where
  course : ∀ u, Both SameCourse (lib.getCourseManifest u) (lib'.getCourseManifest u)
  lesson : ∀ u, lib'.getLessonManifest u = lib.getLessonManifest u
  exercise : ∀ u, lib'.getExerciseManifest u = lib.getExerciseManifest u
  courseIds : lib'.getCourseIds = lib.getCourseIds
  lessonIds : ∀ c, lib'.getLessonIds c = lib.getLessonIds c
  exerciseIds : ∀ l, lib'.getExerciseIds l = lib.getExerciseIds l
  allExerciseIds : ∀ v, lib'.getAllExerciseIds v = lib.getAllExerciseIds v
  matching : ∀ pre t, (lib.getMatchingPrefix pre t).Perm (lib'.getMatchingPrefix pre t)
  type : ∀ u, lib'.graph.getUnitType u = lib.graph.getUnitType u
  lessonCourse : ∀ l, lib'.graph.getLessonCourse l = lib.graph.getLessonCourse l
  exerciseLesson : ∀ e, lib'.graph.getExerciseLesson e = lib.graph.getExerciseLesson e
  dependsOn : ∀ u v, DependsOn lib'.graph u v ↔ DependsOn lib.graph u v
  supersedes : ∀ u v, Supersedes lib'.graph u v ↔ Supersedes lib.graph u v
  encompasses : ∀ u v w, (∃ l, lib'.graph.getEncompasses u = some l ∧ (v, w) ∈ l) ↔
    ∃ l, lib.graph.getEncompasses u = some l ∧ (v, w) ∈ l
  startsWith : ∀ c l, CourseStartsWith lib'.graph c l ↔ CourseStartsWith lib.graph c l
  sinks : ∀ u, u ∈ lib'.graph.getDependencySinks ↔ u ∈ lib.graph.getDependencySinks

/-! ### Lemmas -/

theorem sorted_unique {a b : List Str} (ha : a.Pairwise (· < ·)) (hb : b.Pairwise (· < ·)) (h : ∀ u, u ∈ a ↔ u ∈ b) : a = b := by
  have na : a.Nodup := ha.imp (fun h => ne_of_lt h)
  have nb : b.Nodup := hb.imp (fun h => ne_of_lt h)
  exact List.Perm.eq_of_pairwise (le := (· < ·)) (fun _ _ _ _ h h' => (lt_asymm h h').elim) ha hb
    ((List.perm_ext_iff_of_nodup na nb).mpr h)

/-- No course is recorded with an empty set of lessons, and no lesson with an empty set of exercises. -/
theorem contents_ne_nil {ι : Type} [DecidableEq ι] (ops : List (Op ι)) :
    (∀ u s, (run ops).courseLessons.find u = some s → s ≠ []) ∧ ∀ u s, (run ops).lessonExercises.find u = some s → s ≠ [] := by
  refine run_induction (P := fun g => (∀ u s, g.courseLessons.find u = some s → s ≠ []) ∧
    ∀ u s, g.lessonExercises.find u = some s → s ≠ []) (by simp [empty]) ?_ ops
  intro g o h
  have hput : ∀ (m : AMap ι (List ι)) (k x : ι), (∀ u s, m.find u = some s → s ≠ []) →
      ∀ u s, (m.upd k [] (fun s => s.insert x)).find u = some s → s ≠ [] :=
    fun m k x h => fold_insert_ne_nil m [k] x h
  cases o with
  | addCourse c =>
    rcases addCourse_cases g c with ⟨_, e⟩ | ⟨_, e⟩ <;> simp only [step, e] <;> exact h
  | addLesson l c =>
    rcases addLesson_cases g l c with ⟨_, e⟩ | ⟨_, _, e⟩ | ⟨_, ty, _, e⟩ <;> simp only [step, e]
    · exact h
    · exact h
    · exact ⟨hput _ _ _ h.1, h.2⟩
  | addExercise x l =>
    rcases addExercise_cases g x l with ⟨_, e⟩ | ⟨_, _, e⟩ | ⟨_, ty, _, e⟩ <;> simp only [step, e]
    · exact h
    · exact h
    · exact ⟨h.1, hput _ _ _ h.2⟩
  | addDependencies u t ds =>
    rcases step_addDependencies g u t ds with e | ⟨_, e⟩ <;> rw [e] <;> exact h
  | addEncompassed u ds es =>
    rcases addEncompassed_cases g u ds es with ⟨_, e⟩ | ⟨_, e⟩ <;> simp only [step, e] <;> exact h
  | setEncompassingEqualsDependency => exact h
  | addSuperseded u ss =>
    simp only [step, addSuperseded_eq]
    split <;> exact h
  | updateStartingLessons =>
    obtain ⟨s, st, e⟩ := updateStartingLessons_frame g
    simp only [step, e]; exact h

variable {d d' : Disk α γ} {ig : List FPath}

theorem lesson_ids_ne_nil (hg : GeneratesProper d) {lib : Lib α γ} (hl : Loads d ig lib) {c : Str} {l : List Str}
    (h : lib.getLessonIds c = some l) : l ≠ [] := by
  obtain ⟨cs, s, flag, _, _, _, rfl, _⟩ := loads_inv hg hl
  obtain ⟨l0, h0, rfl⟩ := Option.map_eq_some_iff.1 h
  obtain ⟨u, hu⟩ := List.exists_mem_of_ne_nil l0 ((contents_ne_nil _).1 c l0 h0)
  exact List.ne_nil_of_mem ((mem_sortIds _ _).2 hu)

theorem exercise_ids_ne_nil (hg : GeneratesProper d) {lib : Lib α γ} (hl : Loads d ig lib) {c : Str} {l : List Str}
    (h : lib.getExerciseIds c = some l) : l ≠ [] := by
  obtain ⟨cs, s, flag, _, _, _, rfl, _⟩ := loads_inv hg hl
  obtain ⟨l0, h0, rfl⟩ := Option.map_eq_some_iff.1 h
  obtain ⟨u, hu⟩ := List.exists_mem_of_ne_nil l0 ((contents_ne_nil _).2 c l0 h0)
  exact List.ne_nil_of_mem ((mem_sortIds _ _).2 hu)

/-- **C103, opening**: a library opens or not whatever the order in which its files are listed. -/
theorem order_opens_iff (h : SameFiles d d') (hg : GeneratesProper d) : (∃ lib, Loads d ig lib) ↔ ∃ lib, Loads d' ig lib := by
  have key : ∀ {d d' : Disk α γ}, SameFiles d d' → GeneratesProper d → (∃ lib, Loads d ig lib) → ∃ lib, Loads d' ig lib := by
    rintro d d' h hg ⟨lib, hl⟩
    obtain ⟨cs, s, flag, hoc, ho, -, -, ha⟩ := loads_inv hg hl
    have hr := ((openCourses_exact d ig cs).1 hoc).1
    obtain ⟨cs', ho', hs⟩ := isOpened_same h ho
    obtain ⟨o, fuel, hv, -⟩ := hl
    obtain ⟨N, hN⟩ := open_succeeds_iff d' ig (generatesProper_same h hg) o hv
    obtain ⟨r, hr', hiff⟩ := hN N le_rfl
    obtain ⟨lib', hlib⟩ := Option.isSome_iff_exists.1 (hiff.2 ⟨readable_same h hr, cs', ho', acceptable_same hs ha⟩)
    exact ⟨lib', o, N, hv, by rw [hr', hlib]⟩
  exact ⟨key h hg, key h.symm (generatesProper_same h hg)⟩

/-- **C103, answers**: and then gives the same answers. -/
theorem order_same_answers (h : SameFiles d d') (hg : GeneratesProper d) {lib lib' : Lib α γ} (hl : Loads d ig lib)
    (hl' : Loads d' ig lib') : AnswerAlike lib lib' := by
  have hg' := generatesProper_same h hg
  have ma := library_manifests hg hl
  have mb := library_manifests hg' hl'
  have hlesson : ∀ u, lib'.getLessonManifest u = lib.getLessonManifest u := by
    intro u
    refine Option.ext (fun m => ?_)
    rw [(mb u).2.1 m, (ma u).2.1 m]
    exact and_congr ⟨diskLesson_same h.symm, diskLesson_same h⟩ Iff.rfl
  have hexercise : ∀ u, lib'.getExerciseManifest u = lib.getExerciseManifest u := by
    intro u
    refine Option.ext (fun m => ?_)
    rw [(mb u).2.2 m, (ma u).2.2 m]
    exact and_congr ⟨diskExercise_same h.symm, diskExercise_same h⟩ Iff.rfl
  have hcourse : ∀ u, Both SameCourse (lib.getCourseManifest u) (lib'.getCourseManifest u) := by
    intro u
    cases ha : lib.getCourseManifest u with
    | none =>
      cases hb : lib'.getCourseManifest u with
      | none => trivial
      | some m' =>
        obtain ⟨⟨dir, gen, hd⟩, e⟩ := ((mb u).1 m').1 hb
        obtain ⟨m, gen', hd', hs, -⟩ := diskCourse_same h.symm hd
        have : m.id = u := by rw [hs.2]; exact e
        rw [((ma u).1 m).2 ⟨⟨dir, gen', hd'⟩, this⟩] at ha
        cases ha
    | some m =>
      obtain ⟨⟨dir, gen, hd⟩, e⟩ := ((ma u).1 m).1 ha
      obtain ⟨m', gen', hd', hs, -⟩ := diskCourse_same h hd
      have : m'.id = u := by rw [hs.2]; exact e
      rw [((mb u).1 m').2 ⟨⟨dir, gen', hd'⟩, this⟩]
      exact hs
  have hcsome : ∀ u, (lib'.getCourseManifest u).isSome = (lib.getCourseManifest u).isSome := by
    intro u
    have := hcourse u
    cases ha : lib.getCourseManifest u <;> cases hb : lib'.getCourseManifest u <;> rw [ha, hb] at this
    all_goals first | rfl | exact (this : False).elim
  have htype : ∀ u, lib'.graph.getUnitType u = lib.graph.getUnitType u := by
    intro u
    obtain ⟨a1, a2, a3⟩ := library_types hg hl u
    obtain ⟨b1, b2, b3⟩ := library_types hg' hl' u
    rw [hcsome] at b1
    rw [hlesson] at b2
    rw [hexercise] at b3
    refine Option.ext (fun t => ?_)
    cases t with
    | course => rw [a1, b1]
    | lesson => rw [a2, b2]
    | exercise => rw [a3, b3]
  have hlists : ∀ u ds es ss, lib'.Lists u ds es ss ↔ lib.Lists u ds es ss := by
    intro u ds es ss
    unfold Lib.Lists
    rw [hlesson]
    refine or_congr ?_ Iff.rfl
    have := hcourse u
    cases ha : lib.getCourseManifest u <;> cases hb : lib'.getCourseManifest u <;> rw [ha, hb] at this
    all_goals first
      | exact Iff.rfl
      | exact (this : False).elim
      | (have this : SameCourse _ _ := this
         simp only [Option.some.injEq, exists_eq_left']
         rw [this.2])
  have hdep : ∀ u v, DependsOn lib'.graph u v ↔ DependsOn lib.graph u v := by
    intro u v
    rw [(library_relations hg hl u v 0).1, (library_relations hg' hl' u v 0).1]
    simp only [hlists]
  have hstart : ∀ c l, CourseStartsWith lib'.graph c l ↔ CourseStartsWith lib.graph c l := by
    intro c l
    rw [library_starting_lessons hg hl, library_starting_lessons hg' hl']
    simp only [hlesson]
  refine ⟨hcourse, hlesson, hexercise, ?_, ?_, ?_, ?_, ?_, htype, ?_, ?_, hdep, ?_, ?_, hstart, ?_⟩
  · obtain ⟨a1, a2⟩ := course_ids_exact hg hl
    obtain ⟨b1, b2⟩ := course_ids_exact hg' hl'
    exact sorted_unique b1 a1 (fun u => by rw [a2, b2, hcsome])
  · intro c
    obtain ⟨a1, a2⟩ := lesson_ids_exact hg hl c
    obtain ⟨b1, b2⟩ := lesson_ids_exact hg' hl' c
    simp only [hlesson] at b1 b2
    cases ha : lib.getLessonIds c with
    | none =>
      cases hb : lib'.getLessonIds c with
      | none => rfl
      | some l =>
        obtain ⟨u, hu⟩ := List.exists_mem_of_ne_nil l (lesson_ids_ne_nil hg' hl' hb)
        obtain ⟨m, hm, e⟩ := ((b1 l hb).2 u).1 hu
        exact (a2 ha u m hm e).elim
    | some l =>
      cases hb : lib'.getLessonIds c with
      | none =>
        obtain ⟨u, hu⟩ := List.exists_mem_of_ne_nil l (lesson_ids_ne_nil hg hl ha)
        obtain ⟨m, hm, e⟩ := ((a1 l ha).2 u).1 hu
        exact (b2 hb u m hm e).elim
      | some l' =>
        exact congrArg some (sorted_unique (b1 l' hb).1 (a1 l ha).1 (fun u => ((b1 l' hb).2 u).trans ((a1 l ha).2 u).symm))
  · intro c
    obtain ⟨a1, a2⟩ := exercise_ids_exact hg hl c
    obtain ⟨b1, b2⟩ := exercise_ids_exact hg' hl' c
    simp only [hexercise] at b1 b2
    cases ha : lib.getExerciseIds c with
    | none =>
      cases hb : lib'.getExerciseIds c with
      | none => rfl
      | some l =>
        obtain ⟨u, hu⟩ := List.exists_mem_of_ne_nil l (exercise_ids_ne_nil hg' hl' hb)
        obtain ⟨m, hm, e⟩ := ((b1 l hb).2 u).1 hu
        exact (a2 ha u m hm e).elim
    | some l =>
      cases hb : lib'.getExerciseIds c with
      | none =>
        obtain ⟨u, hu⟩ := List.exists_mem_of_ne_nil l (exercise_ids_ne_nil hg hl ha)
        obtain ⟨m, hm, e⟩ := ((a1 l ha).2 u).1 hu
        exact (b2 hb u m hm e).elim
      | some l' =>
        exact congrArg some (sorted_unique (b1 l' hb).1 (a1 l ha).1 (fun u => ((b1 l' hb).2 u).trans ((a1 l ha).2 u).symm))
  · intro v
    obtain ⟨a1, a2⟩ := all_exercise_ids_exact hg hl v
    obtain ⟨b1, b2⟩ := all_exercise_ids_exact hg' hl' v
    exact sorted_unique b1 a1 (fun u => by rw [a2, b2]; simp only [hexercise])
  · intro pre t
    obtain ⟨a1, a2⟩ := matching_prefix_exact hg hl pre t
    obtain ⟨b1, b2⟩ := matching_prefix_exact hg' hl' pre t
    exact (List.perm_ext_iff_of_nodup a1 b1).mpr (fun u => by rw [a2, b2]; simp only [htype])
  · intro l
    refine Option.ext (fun c => ?_)
    rw [(library_parents hg hl).1, (library_parents hg' hl').1, hlesson]
  · intro e
    refine Option.ext (fun c => ?_)
    rw [(library_parents hg hl).2.1, (library_parents hg' hl').2.1, hexercise]
  · intro u v
    rw [(library_relations hg hl u v 0).2.1, (library_relations hg' hl' u v 0).2.1]
    simp only [hlists]
  · intro u v w
    rw [(library_relations hg hl u v w).2.2, (library_relations hg' hl' u v w).2.2]
    simp only [hlists]
  · intro u
    have hnone : ∀ u, lib'.getCourseManifest u = none ↔ lib.getCourseManifest u = none := by
      intro u
      rw [← Option.not_isSome_iff_eq_none, ← Option.not_isSome_iff_eq_none, hcsome]
    have hdeps : (∃ m, lib'.getCourseManifest u = some m ∧ m.deps = []) ↔ ∃ m, lib.getCourseManifest u = some m ∧ m.deps = [] := by
      have := hcourse u
      cases ha : lib.getCourseManifest u <;> cases hb : lib'.getCourseManifest u <;> rw [ha, hb] at this
      all_goals first
        | exact Iff.rfl
        | exact (this : False).elim
        | (have this : SameCourse _ _ := this
           simp only [Option.some.injEq, exists_eq_left']
           rw [this.2])
    rw [library_sinks hg hl, library_sinks hg' hl']
    simp only [hlesson, hexercise, hcsome, hlists, hstart, hnone, hdeps]

end Trane.Library
