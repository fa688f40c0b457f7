import Verif.Library.Props

/-!
# C50: the id listings of a loaded library

A listing is described by two facts that determine it: its elements, and that it is strictly
increasing (so sorted and without repetitions).
-/

namespace Trane.Library
open Trane.Store Trane.Filters Trane.Graph

variable {α γ : Type}

theorem mem_sortIds (l : List Str) (u : Str) : u ∈ sortIds l ↔ u ∈ l :=
  (List.perm_insertionSort _ l).mem_iff

theorem sortIds_sorted (l : List Str) : (sortIds l).Pairwise (· ≤ ·) :=
  List.pairwise_insertionSort (α := Str) (· ≤ ·) l

theorem sortIds_strict (l : List Str) (h : l.Nodup) : (sortIds l).Pairwise (· < ·) := by
  have h2 : (sortIds l).Nodup := (List.perm_insertionSort _ l).nodup_iff.2 h
  exact ((sortIds_sorted l).and h2).imp (fun h => lt_of_le_of_ne h.1 h.2)

theorem sortIds_congr {a b : List Str} (h : a.Perm b) : sortIds a = sortIds b := by
  refine List.Perm.eq_of_pairwise (le := (· ≤ ·)) (fun _ _ _ _ => le_antisymm) (sortIds_sorted a)
    (sortIds_sorted b) ?_
  exact ((List.perm_insertionSort _ a).trans h).trans (List.perm_insertionSort _ b).symm

theorem nodup_flatMap_disjoint {β δ : Type} (f : β → List δ) (l : List β) (hl : l.Nodup)
    (hf : ∀ x ∈ l, (f x).Nodup)
    (hd : ∀ x ∈ l, ∀ y ∈ l, ∀ z, z ∈ f x → z ∈ f y → x = y) : (l.flatMap f).Nodup := by
  induction l with
  | nil => simp
  | cons a l ih =>
    rw [List.flatMap_cons, List.nodup_append]
    obtain ⟨ha, hl'⟩ := List.nodup_cons.1 hl
    refine ⟨hf a (by simp), ih hl' (fun x hx => hf x (List.mem_cons_of_mem _ hx))
      (fun x hx y hy => hd x (List.mem_cons_of_mem _ hx) y (List.mem_cons_of_mem _ hy)), ?_⟩
    rintro z hz w hw rfl
    obtain ⟨y, hy, hzy⟩ := List.mem_flatMap.1 hw
    have := hd a (by simp) y (List.mem_cons_of_mem _ hy) z hz hzy
    exact ha (this ▸ hy)

variable {d : Disk α γ} {ig : List FPath} {lib : Lib α γ}

theorem loads_wf (hg : GeneratesProper d) (h : Loads d ig lib) :
    WF lib.graph ∧ lib.courses.keys.Nodup ∧ lib.lessons.keys.Nodup ∧ lib.exercises.keys.Nodup := by
  obtain ⟨cs, s, flag, _, _, hi, rfl, _⟩ := loads_inv hg h
  exact ⟨wf_run _, hi.keysC, hi.keysL, hi.keysE⟩

/-- **C50, courses.** -/
theorem course_ids_exact (hg : GeneratesProper d) (h : Loads d ig lib) :
    lib.getCourseIds.Pairwise (· < ·) ∧
      ∀ u, u ∈ lib.getCourseIds ↔ (lib.getCourseManifest u).isSome = true := by
  obtain ⟨_, k1, _⟩ := loads_wf hg h
  refine ⟨sortIds_strict _ k1, fun u => ?_⟩
  rw [Lib.getCourseIds, mem_sortIds, AMap.mem_keys_iff, Option.isSome_iff_exists]
  rfl

/-- **C50, lessons.**  The lessons of a course, or nothing when it has none. -/
theorem lesson_ids_exact (hg : GeneratesProper d) (h : Loads d ig lib) (c : Str) :
    (∀ l, lib.getLessonIds c = some l → l.Pairwise (· < ·) ∧
      ∀ u, u ∈ l ↔ ∃ m, lib.getLessonManifest u = some m ∧ m.courseId = c) ∧
    (lib.getLessonIds c = none → ∀ u m, lib.getLessonManifest u = some m → m.courseId ≠ c) := by
  obtain ⟨wf, _⟩ := loads_wf hg h
  have hpar := (library_parents hg h).1
  constructor
  · intro l hl
    rw [Lib.getLessonIds, Option.map_eq_some_iff] at hl
    obtain ⟨s, hs, rfl⟩ := hl
    refine ⟨sortIds_strict _ (wf.lessonsNodup c s hs), fun u => ?_⟩
    rw [mem_sortIds, ← hpar, ← wf.lesson]
    exact ⟨fun hu => ⟨s, hs, hu⟩, fun ⟨s', hs', hu⟩ => by
      rw [hs] at hs'; cases hs'; exact hu⟩
  · intro hn u m hm hc
    obtain ⟨s, hs, _⟩ := (wf.lesson c u).2 ((hpar u c).2 ⟨m, hm, hc⟩)
    rw [Lib.getLessonIds, hs] at hn
    cases hn

/-- **C50, exercises of a lesson.** -/
theorem exercise_ids_exact (hg : GeneratesProper d) (h : Loads d ig lib) (l : Str) :
    (∀ es, lib.getExerciseIds l = some es → es.Pairwise (· < ·) ∧
      ∀ u, u ∈ es ↔ ∃ m, lib.getExerciseManifest u = some m ∧ m.lessonId = l) ∧
    (lib.getExerciseIds l = none → ∀ u m, lib.getExerciseManifest u = some m → m.lessonId ≠ l) := by
  obtain ⟨wf, _⟩ := loads_wf hg h
  have hpar := (library_parents hg h).2.1
  constructor
  · intro es hl
    rw [Lib.getExerciseIds, Option.map_eq_some_iff] at hl
    obtain ⟨s, hs, rfl⟩ := hl
    refine ⟨sortIds_strict _ (wf.exercisesNodup l s hs), fun u => ?_⟩
    rw [mem_sortIds, ← hpar, ← wf.exercise]
    exact ⟨fun hu => ⟨s, hs, hu⟩, fun ⟨s', hs', hu⟩ => by
      rw [hs] at hs'; cases hs'; exact hu⟩
  · intro hn u m hm hc
    obtain ⟨s, hs, _⟩ := (wf.exercise l u).2 ((hpar u l).2 ⟨m, hm, hc⟩)
    rw [Lib.getExerciseIds, hs] at hn
    cases hn

/-- **C50, all exercises** of the library, of a course, of a lesson, of an exercise or of an id
that is not in the library. -/
theorem all_exercise_ids_exact (hg : GeneratesProper d) (h : Loads d ig lib) (v : Option Str) :
    (lib.getAllExerciseIds v).Pairwise (· < ·) ∧
      ∀ u, u ∈ lib.getAllExerciseIds v ↔ ∃ m, lib.getExerciseManifest u = some m ∧
        ∀ x, v = some x → m.courseId = x ∨ m.lessonId = x ∨ m.id = x := by
  obtain ⟨wf, _, _, k3⟩ := loads_wf hg h
  obtain ⟨p1, p2, p3, p4⟩ := library_parents hg h
  have hty := library_types hg h
  have hid : ∀ u m, lib.getExerciseManifest u = some m → m.id = u := fun u m hm =>
    (((library_manifests hg h u).2.2 m).1 hm).2
  have ex : ∀ u m, lib.getExerciseManifest u = some m → lib.graph.getUnitType u = some .exercise :=
    fun u m hm => (hty u).2.2.2 (by rw [hm]; rfl)
  have exl : ∀ u m, lib.getExerciseManifest u = some m →
      lib.graph.getUnitType m.lessonId = some .lesson := by
    intro u m hm
    obtain ⟨lm, h1, _⟩ := p4 u m hm
    exact (hty _).2.1.2 (by rw [h1]; rfl)
  have exc : ∀ u m, lib.getExerciseManifest u = some m →
      lib.graph.getUnitType m.courseId = some .course := by
    intro u m hm
    obtain ⟨lm, h1, h2⟩ := p4 u m hm
    rw [← h2]
    exact (hty _).1.2 (p3 _ _ h1)
  have nod : ∀ l : Str, ((lib.graph.getLessonExercises l).getD []).Nodup := by
    intro l
    cases hs : lib.graph.getLessonExercises l with
    | none => simp
    | some s => exact wf.exercisesNodup l s hs
  have memE : ∀ l u : Str, u ∈ (lib.graph.getLessonExercises l).getD [] ↔
      ∃ m, lib.getExerciseManifest u = some m ∧ m.lessonId = l := by
    intro l u
    rw [← p2, ← wf.exercise]
    unfold LessonHasExercise
    cases lib.graph.getLessonExercises l <;> simp
  cases v with
  | none =>
    simp only [Lib.getAllExerciseIds]
    refine ⟨sortIds_strict _ k3, fun u => ?_⟩
    rw [mem_sortIds, AMap.mem_keys_iff]
    simp [Lib.getExerciseManifest]
  | some x =>
    simp only [Lib.getAllExerciseIds, Option.some.injEq, forall_eq']
    cases ht : lib.graph.getUnitType x with
    | none =>
      refine ⟨by simp [sortIds], fun u => ?_⟩
      simp only [sortIds, List.insertionSort_nil, List.not_mem_nil, false_iff]
      rintro ⟨m, hm, hc | hc | hc⟩
      · rw [← hc, exc u m hm] at ht; cases ht
      · rw [← hc, exl u m hm] at ht; cases ht
      · rw [← hc, hid u m hm, ex u m hm] at ht; cases ht
    | some t =>
      cases t with
      | exercise =>
        refine ⟨by simp [sortIds], fun u => ?_⟩
        simp only [mem_sortIds, List.mem_singleton]
        constructor
        · rintro rfl
          obtain ⟨m, hm⟩ := Option.isSome_iff_exists.1 ((hty u).2.2.1 ht)
          exact ⟨m, hm, Or.inr (Or.inr (hid u m hm))⟩
        · rintro ⟨m, hm, hc | hc | hc⟩
          · rw [← hc, exc u m hm] at ht; cases ht
          · rw [← hc, exl u m hm] at ht; cases ht
          · rw [← hid u m hm, hc]
      | lesson =>
        refine ⟨sortIds_strict _ (nod x), fun u => ?_⟩
        rw [mem_sortIds, memE]
        constructor
        · rintro ⟨m, hm, hc⟩; exact ⟨m, hm, Or.inr (Or.inl hc)⟩
        · rintro ⟨m, hm, hc | hc | hc⟩
          · rw [← hc, exc u m hm] at ht; cases ht
          · exact ⟨m, hm, hc⟩
          · rw [← hc, hid u m hm, ex u m hm] at ht; cases ht
      | course =>
        have nodL : ((lib.graph.getCourseLessons x).getD []).Nodup := by
          cases hs : lib.graph.getCourseLessons x with
          | none => simp
          | some s => exact wf.lessonsNodup x s hs
        have memL : ∀ l : Str, l ∈ (lib.graph.getCourseLessons x).getD [] ↔
            ∃ m, lib.getLessonManifest l = some m ∧ m.courseId = x := by
          intro l
          rw [← p1, ← wf.lesson]
          unfold CourseHasLesson
          cases lib.graph.getCourseLessons x <;> simp
        refine ⟨sortIds_strict _ (nodup_flatMap_disjoint _ _ nodL (fun l _ => nod l) ?_),
          fun u => ?_⟩
        · intro a _ b _ z hz hz'
          obtain ⟨m, hm, rfl⟩ := (memE a z).1 hz
          obtain ⟨m', hm', rfl⟩ := (memE b z).1 hz'
          rw [hm] at hm'; cases hm'; rfl
        · rw [mem_sortIds, List.mem_flatMap]
          constructor
          · rintro ⟨l, hl, hu⟩
            obtain ⟨m, hm, rfl⟩ := (memE l u).1 hu
            obtain ⟨lm, hlm, hc⟩ := (memL _).1 hl
            obtain ⟨lm', h1, h2⟩ := p4 u m hm
            rw [hlm] at h1; cases h1
            exact ⟨m, hm, Or.inl (by rw [← h2, hc])⟩
          · rintro ⟨m, hm, hc | hc | hc⟩
            · obtain ⟨lm', h1, h2⟩ := p4 u m hm
              exact ⟨m.lessonId, (memL _).2 ⟨lm', h1, by rw [h2, hc]⟩, (memE _ u).2 ⟨m, hm, rfl⟩⟩
            · rw [← hc, exl u m hm] at ht; cases ht
            · rw [← hc, hid u m hm, ex u m hm] at ht; cases ht

/-- **C50, prefix search.** -/
theorem matching_prefix_exact (hg : GeneratesProper d) (h : Loads d ig lib) (pre : Str)
    (t : Option UnitType) :
    (lib.getMatchingPrefix pre t).Nodup ∧
      ∀ u, u ∈ lib.getMatchingPrefix pre t ↔ pre <+: u ∧ ∃ t', lib.graph.getUnitType u = some t' ∧
        ∀ x, t = some x → x = t' := by
  have hty := library_types hg h
  have kc : ∀ u, u ∈ lib.courses.keys ↔ lib.graph.getUnitType u = some .course := by
    intro u; rw [(hty u).1, AMap.mem_keys_iff, Option.isSome_iff_exists]; rfl
  have kl : ∀ u, u ∈ lib.lessons.keys ↔ lib.graph.getUnitType u = some .lesson := by
    intro u; rw [(hty u).2.1, AMap.mem_keys_iff, Option.isSome_iff_exists]; rfl
  have ke : ∀ u, u ∈ lib.exercises.keys ↔ lib.graph.getUnitType u = some .exercise := by
    intro u; rw [(hty u).2.2, AMap.mem_keys_iff, Option.isSome_iff_exists]; rfl
  have one : ∀ (ks : List Str) (x : UnitType), (∀ u, u ∈ ks ↔ lib.graph.getUnitType u = some x) →
      ∀ u, u ∈ extendSet [] (ks.filter (pre.isPrefixOf ·)) ↔ pre <+: u ∧
        ∃ t', lib.graph.getUnitType u = some t' ∧ ∀ y, some x = some y → y = t' := by
    intro ks x hk u
    simp only [mem_extendSet, List.not_mem_nil, false_or, List.mem_filter, hk,
      List.isPrefixOf_iff_prefix, Option.some.injEq, forall_eq']
    constructor
    · rintro ⟨a, b⟩; exact ⟨b, x, a, rfl⟩
    · rintro ⟨b, t', a, rfl⟩; exact ⟨a, b⟩
  cases t with
  | none =>
    refine ⟨nodup_extendSet _ _ (by simp), fun u => ?_⟩
    simp only [Lib.getMatchingPrefix, mem_extendSet, List.not_mem_nil, false_or, List.mem_filter,
      List.mem_append, kc, kl, ke, List.isPrefixOf_iff_prefix, reduceCtorEq, false_imp_iff,
      implies_true, and_true]
    constructor
    · rintro ⟨(a | a) | a, b⟩ <;> exact ⟨b, _, a⟩
    · rintro ⟨b, t', a⟩
      cases t'
      · exact ⟨Or.inr a, b⟩
      · exact ⟨Or.inl (Or.inr a), b⟩
      · exact ⟨Or.inl (Or.inl a), b⟩
  | some x =>
    cases x with
    | course => exact ⟨nodup_extendSet _ _ (by simp), one _ _ kc⟩
    | lesson => exact ⟨nodup_extendSet _ _ (by simp), one _ _ kl⟩
    | exercise => exact ⟨nodup_extendSet _ _ (by simp), one _ _ ke⟩

end Trane.Library
