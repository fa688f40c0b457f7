import Verif.Sched.ProgressScores
import Verif.Library.Props

/-!
# C105 for libraries on disk

The layout that `Orderly` asks for, phrased with the manifests.
-/

namespace Trane.Library
open Trane.Store Trane.Filters Trane.Graph

variable {α γ : Type} {d : Disk α γ} {ig : List FPath} {lib : Lib α γ}

/-- The library has a course, lesson or exercise with this id. -/
def Lib.Has (lib : Lib α γ) (u : Str) : Prop :=
  (lib.getCourseManifest u).isSome = true ∨ (lib.getLessonManifest u).isSome = true ∨
    (lib.getExerciseManifest u).isSome = true

/-- `m` is the manifest of lesson `l`, which depends on no lesson of its own course `c`. -/
def Lib.Begins (lib : Lib α γ) (c l : Str) (m : LessonM α) : Prop :=
  lib.getLessonManifest l = some m ∧ m.courseId = c ∧
    ∀ x ∈ m.deps, ∀ m', lib.getLessonManifest x = some m' → m'.courseId ≠ c

/-- `v` comes before `u`: the manifest of `u` lists it as a dependency, or `u` is a starting lesson of a course whose
manifest does, or it is a lesson of course `u`. -/
def Lib.ComesBefore (lib : Lib α γ) (u v : Str) : Prop :=
  (lib.Has v ∧ ∃ ds es ss, lib.Lists u ds es ss ∧ v ∈ ds) ∨
  (lib.Has v ∧ ∃ c m cm, lib.Begins c u m ∧ lib.getCourseManifest c = some cm ∧ v ∈ cm.deps) ∨
  ∃ m, lib.getLessonManifest v = some m ∧ m.courseId = u

/-- The layout of a library in which nothing stays locked. -/
structure Lib.WellLaidOut (lib : Lib α γ) : Prop where
  /-- Nothing comes before itself. -/
  noLoop : ¬ HasCycle lib.ComesBefore
  /-- No manifest lists an exercise as a dependency. -/
  noExercise : ∀ u ds es ss, lib.Lists u ds es ss → ∀ x ∈ ds, lib.getExerciseManifest x = none
  /-- In a course without dependencies: if one of the starting lessons has dependencies, all in the library, then each
  of its starting lessons has a dependency in the library. -/
  starts : ∀ c m, lib.getCourseManifest c = some m → m.deps = [] →
    (∃ l lm, lib.Begins c l lm ∧ lm.deps ≠ [] ∧ ∀ x ∈ lm.deps, lib.Has x) →
    ∀ l lm, lib.Begins c l lm → ∃ x ∈ lm.deps, lib.Has x

theorem library_known (hg : GeneratesProper d) (h : Loads d ig lib) (u : Str) : Known lib.graph u ↔ lib.Has u := by
  obtain ⟨h1, h2, h3⟩ := library_types hg h u
  unfold Lib.Has
  rw [← h1, ← h2, ← h3]
  constructor
  · rintro ⟨t, ht⟩
    cases t with
    | course => exact .inl ht
    | lesson => exact .inr (.inl ht)
    | exercise => exact .inr (.inr ht)
  · rintro (h | h | h) <;> exact ⟨_, h⟩

theorem library_begins (hg : GeneratesProper d) (h : Loads d ig lib) (c l : Str) :
    CourseStartsWith lib.graph c l ↔ ∃ m, lib.Begins c l m := library_starting_lessons hg h c l

theorem course_lists {c : Str} {m : CourseM α γ} (h : lib.getCourseManifest c = some m) :
    lib.Lists c m.deps m.enc m.sup := .inl ⟨m, h, rfl, rfl, rfl⟩

theorem lists_course (hg : GeneratesProper d) (h : Loads d ig lib) {c : Str} {m : CourseM α γ}
    (hm : lib.getCourseManifest c = some m) {ds es ss} (hl : lib.Lists c ds es ss) : ds = m.deps := by
  rcases hl with ⟨m', h', rfl, _⟩ | ⟨m', h', _⟩
  · rw [hm] at h'; cases h'; rfl
  · exact absurd ⟨by rw [hm]; rfl, by rw [h']; rfl⟩ (library_ids_distinct hg h c).1

theorem lists_lesson (hg : GeneratesProper d) (h : Loads d ig lib) {l : Str} {m : LessonM α}
    (hm : lib.getLessonManifest l = some m) {ds es ss} (hl : lib.Lists l ds es ss) : ds = m.deps := by
  rcases hl with ⟨m', h', _⟩ | ⟨m', h', rfl, _⟩
  · exact absurd ⟨by rw [h']; rfl, by rw [hm]; rfl⟩ (library_ids_distinct hg h l).1
  · rw [hm] at h'; cases h'; rfl

/-- What comes before what, by the graph and by the manifests. -/
theorem library_before (hg : GeneratesProper d) (h : Loads d ig lib) {e : Search.Env Str} (he : Search.Sane e)
    (hgr : e.graph = lib.graph) {u v : Str} (hb : Search.Before e u v) : lib.ComesBefore u v := by
  have hwf := he.wf
  rw [hgr] at hwf
  cases hb with
  | dep h1 h2 =>
    rw [hgr] at h1 h2
    exact .inl ⟨(library_known hg h v).1 h2, (library_relations hg h u v 0).1.1 h1⟩
  | @course c _ _ h1 h2 h3 =>
    rw [hgr] at h1 h2 h3
    obtain ⟨m, hm⟩ := (library_begins hg h c u).1 h1
    have hcm := (library_parents hg h).2.2.1 u m hm.1
    rw [hm.2.1] at hcm
    obtain ⟨cm, hcm⟩ := Option.isSome_iff_exists.1 hcm
    obtain ⟨ds, es, ss, hl, hv⟩ := (library_relations hg h c v 0).1.1 h2
    rw [lists_course hg h hcm hl] at hv
    exact .inr (.inl ⟨(library_known hg h v).1 h3, c, m, cm, hm, hcm, hv⟩)
  | lesson h1 =>
    rw [hgr] at h1
    exact .inr (.inr (((library_parents hg h).1 v u).1 ((hwf.lesson u v).1 h1)))

/-- A loaded library laid out this way is orderly. -/
theorem library_orderly (hg : GeneratesProper d) (h : Loads d ig lib) (hw : lib.WellLaidOut) {e : Search.Env Str}
    (he : Search.Sane e) (hgr : e.graph = lib.graph) : Search.Orderly e := by
  have hwf := he.wf
  rw [hgr] at hwf
  refine ⟨?_, ?_, ?_, ?_⟩
  · rintro ⟨u, hu⟩
    exact hw.noLoop ⟨u, Relation.TransGen.mono (fun _ _ h' => library_before hg h he hgr h') _ _ hu⟩
  · intro u x hux hx
    rw [hgr] at hux hx
    obtain ⟨ds, es, ss, hl, hv⟩ := (library_relations hg h u x 0).1.1 hux
    have := hw.noExercise u ds es ss hl x hv
    rw [(library_types hg h x).2.2, this] at hx
    cases hx
  · intro c hc hno
    unfold Search.StartingUnit
    rw [hgr] at hno ⊢
    have hc' : (lib.getCourseManifest c).isSome = true := by
      rw [← (library_types hg h c).1, ← hgr]; exact hc
    obtain ⟨m, hm⟩ := Option.isSome_iff_exists.1 hc'
    have hnl : lib.getLessonManifest c = none := by
      cases hl : lib.getLessonManifest c with
      | none => rfl
      | some m' => exact absurd ⟨hc', by rw [hl]; rfl⟩ (library_ids_distinct hg h c).1
    have hkc : Known lib.graph c := (library_known hg h c).2 (.inl hc')
    cases hd : m.deps with
    | nil =>
      by_cases hex : ∃ l lm, lib.Begins c l lm ∧ lm.deps ≠ [] ∧ ∀ x ∈ lm.deps, lib.Has x
      · right
        obtain ⟨l, lm, hb, _, _⟩ := id hex
        refine ⟨⟨l, hwf.startingSub c l ((library_begins hg h c l).2 ⟨lm, hb⟩)⟩, fun l' hl' => ?_⟩
        obtain ⟨m', hm'⟩ := (library_begins hg h c l').1 hl'
        obtain ⟨x, hx, hxk⟩ := hw.starts c m hm hd hex l' m' hm'
        exact ⟨x, (library_relations hg h l' x 0).1.2 ⟨_, _, _, .inr ⟨m', hm'.1, rfl, rfl, rfl⟩, hx⟩,
          (library_known hg h x).2 hxk⟩
      · left
        refine ⟨hkc, .inl ((library_sinks hg h c).2 ⟨hnl, .inl ⟨m, hm, hd⟩, ?_⟩), hno⟩
        rintro ⟨l, lm, h1, h2, h3, h4⟩
        obtain ⟨m', hm'⟩ := (library_begins hg h c l).1 h1
        obtain rfl := Option.some.inj (hm'.1.symm.trans h2)
        exact hex ⟨l, _, hm', h3, h4⟩
    | cons x xs =>
      left
      have hdx : DependsOn lib.graph c x :=
        (library_relations hg h c x 0).1.2 ⟨_, _, _, course_lists hm, by rw [hd]; simp⟩
      have hxn := hno x hdx
      have hxn' : ¬ lib.Has x := fun hh => hxn ((library_known hg h x).2 hh)
      unfold Lib.Has at hxn'
      rw [not_or, not_or] at hxn'
      refine ⟨hkc, .inr ⟨x, (library_sinks hg h x).2 ⟨by simpa using hxn'.2.1, .inr ⟨by simpa using hxn'.1,
        c, m.deps, m.enc, m.sup, course_lists hm, by rw [hd]; simp⟩, ?_⟩, hxn, hdx⟩, hno⟩
      rintro ⟨l, lm, h1, h2, _, _⟩
      obtain ⟨m', hm'⟩ := (library_begins hg h x l).1 h1
      have := (library_parents hg h).2.2.1 l m' hm'.1
      rw [hm'.2.1] at this
      exact hxn'.1 this
  · intro c l hcl
    rw [hgr] at hcl ⊢
    obtain ⟨m, hm, hmc⟩ := ((library_parents hg h).1 l c).1 ((hwf.lesson c l).1 hcl)
    by_cases hb : ∀ x ∈ m.deps, ∀ m', lib.getLessonManifest x = some m' → m'.courseId ≠ c
    · exact .inl ((library_begins hg h c l).2 ⟨m, hm, hmc, hb⟩)
    · right
      simp only [not_forall, not_not] at hb
      obtain ⟨x, hx, m', hm', hc'⟩ := hb
      exact ⟨x, (hwf.lesson c x).2 (((library_parents hg h).1 x c).2 ⟨m', hm', hc'⟩),
        (library_relations hg h l x 0).1.2 ⟨_, _, _, .inr ⟨m, hm, rfl, rfl, rfl⟩, hx⟩⟩

end Trane.Library
