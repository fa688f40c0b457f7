import Verif.Top.Whole
import Verif.Sched.OfferOrderProps
import Verif.Library.ShuffleScores
import Verif.Library.Serial

/-!
# C106 for libraries: opened with files listed in another order, or reopened from their serialized form
-/

namespace Trane.TopLevel
open Trane.Store
open Trane.Graph
open Trane.Library (Disk Lib FPath Loads GeneratesProper SameFiles Reopened Both)
open Trane.UnitScorer (SameSets World.on order_same_scores)
open Trane.Search (SameUnits SameMeta SameMaterial)

variable {α γ : Type} {d d' : Disk α γ} {ig : List FPath} {lib lib' : Lib α γ}

/-- Two libraries with the same manifests and relations, but for the order of sets and of the values of metadata keys. -/
structure Interchangeable (lib lib' : Lib α γ) : Prop where
  sets : SameSets lib.graph lib'.graph
  units : SameUnits lib.graph lib'.graph
  wf : WF lib'.graph
  course : ∀ u, Both SameMeta ((lib.getCourseManifest u).map (fun m => m.metadata.getD []))
    ((lib'.getCourseManifest u).map (fun m => m.metadata.getD []))
  lesson : ∀ u, lib'.getLessonManifest u = lib.getLessonManifest u
  exercise : ∀ u, lib'.getExerciseManifest u = lib.getExerciseManifest u

theorem sameMeta_refl (m : Filters.Metadata) : SameMeta m m := by
  intro k
  cases m.find k with
  | none => trivial
  | some x => exact List.Perm.refl _

/-- **C106.**  The order in which the files are listed gives interchangeable libraries. -/
theorem order_interchangeable (h : SameFiles d d') (hg : GeneratesProper d) (hl : Loads d ig lib)
    (hl' : Loads d' ig lib') : Interchangeable lib lib' := by
  have a := Library.order_same_answers h hg hl hl'
  refine ⟨Library.order_same_sets h hg hl hl', ⟨a.type, a.lessonCourse, a.exerciseLesson, a.startsWith, a.dependsOn, a.sinks⟩,
    ?_, fun u => ?_, a.lesson, a.exercise⟩
  · obtain ⟨ops, e⟩ := Library.loads_run (Library.generatesProper_same h hg) hl'
    rw [e]; exact wf_run ops
  · have := a.course u
    revert this
    cases lib.getCourseManifest u <;> cases lib'.getCourseManifest u <;> simp only [Both, Option.map]
    · exact id
    · exact id
    · exact id
    · rename_i m m'
      rintro ⟨h1, _⟩
      revert h1
      unfold Library.SameMetadata
      cases m.metadata <;> cases m'.metadata <;> simp only [Both, Option.getD]
      · exact fun _ => sameMeta_refl _
      · exact False.elim
      · exact False.elim
      · exact id

theorem rel_both {β : Type} {a b : Option (List β)} (h : Option.Rel List.Perm a b) : Both List.Perm a b := by
  cases h with
  | some h => exact h
  | none => trivial

theorem rel_mem {β : Type} {a b : Option (List β)} (h : Option.Rel List.Perm a b) (x : β) :
    (∃ s, b = some s ∧ x ∈ s) ↔ ∃ s, a = some s ∧ x ∈ s := by
  cases h with
  | none => exact Iff.rfl
  | some h => simp [h.mem_iff]

theorem rel_nodup {β : Type} {a b : Option (List β)} (h : Option.Rel List.Perm a b) (hn : ∀ s, a = some s → s.Nodup) :
    ∀ s, b = some s → s.Nodup := by
  cases h with
  | none => intro s hs; cases hs
  | some h => intro s hs; cases hs; exact h.nodup_iff.1 (hn _ rfl)

/-- **C106.**  Serializing a library and reopening it from that gives interchangeable libraries. -/
theorem reopened_interchangeable (hg : GeneratesProper d) (hl : Loads d ig lib) (hr : Reopened lib lib') :
    Interchangeable lib lib' := by
  have a := Library.reopened_graph hg hl hr
  have m := Library.reopened_manifests hg hl hr
  have w : WF lib.graph := by
    obtain ⟨ops, e⟩ := Library.loads_run hg hl
    rw [e]; exact wf_run ops
  have hL : ∀ c l, CourseHasLesson lib'.graph c l ↔ CourseHasLesson lib.graph c l := fun c l => rel_mem (a.courseLessons c) l
  have hE : ∀ c l, LessonHasExercise lib'.graph c l ↔ LessonHasExercise lib.graph c l := fun c l => rel_mem (a.lessonExercises c) l
  have hS : ∀ c l, CourseStartsWith lib'.graph c l ↔ CourseStartsWith lib.graph c l := fun c l => rel_mem (a.startingLessons c) l
  have hD : ∀ c l, DependsOn lib'.graph c l ↔ DependsOn lib.graph c l := fun c l => rel_mem (a.dependencies c) l
  have hD' : ∀ c l, HasDependent lib'.graph c l ↔ HasDependent lib.graph c l := fun c l => rel_mem (a.dependents c) l
  refine ⟨⟨a.unitType, a.exerciseLesson, a.lessonCourse, fun u => rel_both (a.lessonExercises u),
    fun u => rel_both (a.courseLessons u), fun u => rel_both (a.supersededBy u)⟩,
    ⟨a.unitType, a.lessonCourse, a.exerciseLesson, hS, hD, fun u => a.sinks.mem_iff.symm⟩, ?_, fun u => ?_,
    fun u => (m u).2.1, fun u => (m u).2.2⟩
  · refine ⟨fun c l => ?_, fun l e => ?_, fun l c => ?_, fun e l => ?_, fun c => rel_nodup (a.courseLessons c) (w.lessonsNodup c),
      fun c => rel_nodup (a.lessonExercises c) (w.exercisesNodup c),
      fun c => rel_nodup (a.startingLessons c) (w.startingNodup c), fun c l h => ?_, fun u x => ?_, fun u s h => ?_⟩
    · rw [hL, a.lessonCourse]; exact w.lesson c l
    · rw [hE, a.exerciseLesson]; exact w.exercise l e
    · rw [a.lessonCourse, a.unitType, a.unitType]; exact w.tyL l c
    · rw [a.exerciseLesson, a.unitType, a.unitType]; exact w.tyE e l
    · exact (hL c l).2 (w.startingSub c l ((hS c l).1 h))
    · rw [hD, hD']; exact w.depInv u x
    · have := a.dependencies u
      rw [h] at this
      cases hx : lib.graph.getDependencies u with
      | none => rw [hx] at this; cases this
      | some s' =>
        obtain ⟨t, ht⟩ := w.depTyped u s' hx
        exact ⟨t, by rw [a.unitType]; exact ht⟩
  · rw [(m u).1]
    cases (lib.getCourseManifest u).map (fun m => m.metadata.getD []) with
    | none => trivial
    | some x => exact sameMeta_refl x

/-! ### Objects -/

variable {b : Base ℚ} {t : Top ℚ} {q q' : Request}

theorem restart_eq (b : Base ℚ) (t : Top ℚ) {g g' : Graph Str} (ho : (step b t (.restart g)).2 = true) :
    (step b t (.restart g')).2 = true ∧
      (step b t (.restart g')).1 = { (step b t (.restart g)).1 with graph := g' } := by
  have hv := (restart_ok ho).2.2.2
  simp only [step]
  rw [if_pos hv, if_pos hv]
  exact ⟨rfl, rfl⟩

/-- Searches by the two objects are made on the same material. -/
theorem interchangeable_material (hi : Interchangeable lib lib') (ho : (step b t (.restart lib.graph)).2 = true)
    (hq : Serves lib b (step b t (.restart lib.graph)).1 q) (hq' : Serves lib' b (step b t (.restart lib'.graph)).1 q') :
    SameMaterial ((step b t (.restart lib.graph)).1.env q) ((step b t (.restart lib'.graph)).1.env q') := by
  obtain ⟨_, he⟩ := restart_eq b t (g' := lib'.graph) ho
  have hgr := (restart_ok ho).1
  generalize hA : (step b t (.restart lib.graph)).1 = A at *
  generalize hB : (step b t (.restart lib'.graph)).1 = B at *
  subst he
  have hsc := fun u => order_same_scores (w := A.sys.world (A.config b)) (g := lib'.graph)
    (show SameSets A.graph lib'.graph by rw [hgr]; exact hi.sets) A.caches u
  have hty : ∀ u, lib'.graph.getUnitType u = A.graph.getUnitType u := fun u => by rw [hgr]; exact hi.units.type u
  refine ⟨?_, fun u => ?_, fun u => ?_, fun _ => rfl, rfl, fun u hk => ?_, fun u => ?_, fun u => ?_⟩
  · change SameUnits A.graph lib'.graph
    rw [hgr]; exact hi.units
  · change Both SameMeta (q.env.courseMeta u) (q'.env.courseMeta u)
    rw [hq.course, hq'.course]; exact hi.course u
  · change Both SameMeta (q.env.lessonMeta u) (q'.env.lessonMeta u)
    rw [hq.lesson, hq'.lesson, hi.lesson]
    cases (lib.getLessonManifest u).map (fun m => m.metadata.getD []) with
    | none => trivial
    | some x => exact sameMeta_refl x
  · change q'.env.score u = q.env.score u
    obtain ⟨ty, hk⟩ := hk
    change A.graph.getUnitType u = some ty at hk
    obtain ⟨v, hv⟩ := Option.ne_none_iff_exists'.1 (hq.reads.known u (by rw [hk]; simp))
    obtain ⟨v', hv'⟩ := Option.ne_none_iff_exists'.1 (hq'.reads.known u (by
      change lib'.graph.getUnitType u ≠ none
      rw [hty, hk]; simp))
    rw [hv, hv']
    congr 1
    exact score_unique b A u (((hsc u).1 v').2 (hq'.reads.score u v' hv')) (hq.reads.score u v hv)
  · change q'.env.trials u = q.env.trials u
    have h1 := hq.reads.trials u
    have h2 := hq'.reads.trials u
    refine trials_unique (b := b) (t := A) (u := u) ?_ h1
    unfold GetsTrials at h2 ⊢
    change (match lib'.graph.getUnitType u with | some .course => _ | some .lesson => _ | _ => _) at h2
    rw [hty] at h2
    cases hh : A.graph.getUnitType u with
    | none => rw [hh] at h2; exact h2
    | some ty =>
      rw [hh] at h2
      cases ty with
      | course => exact ((hsc u).2.2.1 _).2 h2
      | lesson => exact ((hsc u).2.1 _).2 h2
      | exercise => exact h2
  · change q'.env.superseded u = q.env.superseded u
    exact UnitScorer.superseded_unique _ _ _ (((hsc u).2.2.2 _).2 (hq'.reads.superseded u)) (hq.reads.superseded u)

/-- The search of the second object sees a sane library if that of the first does. -/
theorem interchangeable_sane (hi : Interchangeable lib lib') (ho : (step b t (.restart lib.graph)).2 = true)
    (hq : Serves lib b (step b t (.restart lib.graph)).1 q) (hq' : Serves lib' b (step b t (.restart lib'.graph)).1 q')
    (hs : Search.Sane ((step b t (.restart lib.graph)).1.env q)) :
    Search.Sane ((step b t (.restart lib'.graph)).1.env q') := by
  have hm := interchangeable_material hi ho hq hq'
  have ho' := (restart_eq b t (g' := lib'.graph) ho).1
  have hgr := (restart_ok ho).1
  have hgr' := (restart_ok ho').1
  generalize hA : (step b t (.restart lib.graph)).1 = A at *
  generalize hB : (step b t (.restart lib'.graph)).1 = B at *
  have both_isSome : ∀ {x y : Option Filters.Metadata}, Both SameMeta x y → y.isSome = x.isSome := by
    intro x y hb
    cases x <;> cases y <;> first | rfl | exact hb.elim
  refine ⟨?_, fun u => ?_, fun u => ?_, fun u => ?_, fun l hl => ?_, ?_, ?_, ?_, fun u hu => ?_⟩
  · change WF B.graph
    rw [hgr']; exact hi.wf
  · rw [Search.same_isCourse hm, hs.course, both_isSome (hm.courseMeta u)]
  · rw [Search.same_isLesson hm, hs.lesson, both_isSome (hm.lessonMeta u)]
  · rw [hm.units.type, hs.exercise]
    change q.env.hasExercise u = true ↔ q'.env.hasExercise u = true
    rw [hq.exercise, hq'.exercise, hi.exercise]
  · rw [hm.units.lessonCourse]
    exact hs.lessonHasCourse l ((Search.same_isLesson hm l).1 hl)
  · rw [show (B.env q').dflt = (A.env q).dflt from hq'.dflt.trans hq.dflt.symm, hm.units.type]; exact hs.dfltUnknown
  · rw [show (B.env q').dflt = (A.env q).dflt from hq'.dflt.trans hq.dflt.symm, hm.black]; exact hs.dfltBlack
  · rw [show (B.env q').dflt = (A.env q).dflt from hq'.dflt.trans hq.dflt.symm, hm.superseded]; exact hs.dfltSuperseded
  · change q'.env.score u = none ∨ q'.env.score u = some none
    cases hsc : q'.env.score u with
    | none => exact .inl rfl
    | some v =>
      right
      congr 1
      refine score_unique b B u (hq'.reads.score u v hsc) ⟨1, B.caches, ?_⟩
      have : (B.sys.world (B.config b)).graph.getUnitType u = none := hu
      unfold UnitScorer.scoreC
      rw [this]
      rfl

end Trane.TopLevel
