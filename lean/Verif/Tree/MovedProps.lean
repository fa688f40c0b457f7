import Verif.Tree.Moved
import Verif.Tree.GenSample

/-!
# C101: a library that is moved or copied to another place
-/

namespace Trane.Tree
open Trane.Store (Str)
open Trane.Library
open Trane.Graph (idOrder)
open Trane.Assets (isAbsolute join)
open Trane.Json (Generator)

variable {F : Type} {M M' : Machine F} {r r' : Path}

/-- The two disks, for the ignored paths in force. -/
theorem disks_moved (h : Moved M M' r r') (hi : StaysInside M) (X : Outside) (ig : List Str)
    (hig : ∀ i ∈ ig, isAbsolute i = false) :
    DisksLike (RestLike (SamePlace M M' r r')) (M.real X).disk (M'.real X).disk (ig.map components) (ig.map components) where
  walk := h.walk
  courseFiles := by
    rw [courseFiles_of_absolute (M := M.real X) h.absolute ig hig,
      courseFiles_of_absolute (M := M'.real X) h.absolute' ig hig]
    rw [show (M'.real X).walk [] = (M.real X).walk [] from h.walk []]
  course p hp := course_moved h hi hp
  lesson p hp := lesson_moved h hi hp
  exercise p hp := exercise_moved h hi hp
  generate p c c' cfg hp h1 h2 hc hg := by
    have hr : M.readCourse p = some c := h1
    unfold Machine.readCourse at hr
    simp only [Option.bind_eq_bind, Option.bind_eq_some_iff, Option.pure_def, Option.some.injEq] at hr
    obtain ⟨text, ht, m, hm, m', hn, rfl⟩ := hr
    obtain ⟨v, hv, hd⟩ := hasText_of h.home ht hm
    have hgen : m'.generator = m.generator := by
      unfold normalizeCourse at hn
      simp only [Option.bind_eq_bind, Option.bind_eq_some_iff, Option.pure_def, Option.some.injEq] at hn
      obtain ⟨u, _, rfl⟩ := hn
      rfl
    have key := gen_moved h X M.prefs (key_below h.home ht) hc cfg (fun t e => by
      refine hi.passages r p v m t hv hp hd ?_
      rw [← hgen, ← e]
      exact hg)
    show Both _ (M.gen X M.prefs cfg p.dropLast _) (M'.gen X M'.prefs cfg p.dropLast c')
    rw [prefs_moved h]
    exact key

/-! ### What is the same -/

/-- Two libraries answer every question about their units in the same way, except for the paths in the manifests. -/
structure SameLibrary (P : Str → Str → Prop) (lib lib' : Lib Rest Generator) : Prop where
  graph : lib'.graph = lib.graph
  course : ∀ u, Both (CourseM.Like (RestLike P)) (lib.getCourseManifest u) (lib'.getCourseManifest u)
  lesson : ∀ u, Both (LessonM.Like (RestLike P)) (lib.getLessonManifest u) (lib'.getLessonManifest u)
  exercise : ∀ u, Both (ExerciseM.Like (RestLike P)) (lib.getExerciseManifest u) (lib'.getExerciseManifest u)
  courseIds : lib'.getCourseIds = lib.getCourseIds
  lessonIds : ∀ c, lib'.getLessonIds c = lib.getLessonIds c
  exerciseIds : ∀ l, lib'.getExerciseIds l = lib.getExerciseIds l
  allExerciseIds : ∀ u, lib'.getAllExerciseIds u = lib.getAllExerciseIds u
  matchingPrefix : ∀ p t, lib'.getMatchingPrefix p t = lib.getMatchingPrefix p t

theorem sameLibrary_of_like {P : Str → Str → Prop} {lib lib' : Lib Rest Generator} (h : Lib.Like (RestLike P) lib lib') :
    SameLibrary P lib lib' where
  graph := h.graph
  course := both_find h.courses
  lesson := both_find h.lessons
  exercise := both_find h.exercises
  courseIds := by unfold Lib.getCourseIds; rw [keys_like h.courses]
  lessonIds c := by unfold Lib.getLessonIds; rw [h.graph]
  exerciseIds l := by unfold Lib.getExerciseIds; rw [h.graph]
  allExerciseIds u := by unfold Lib.getAllExerciseIds; rw [h.graph, keys_like h.exercises]
  matchingPrefix p t := by
    unfold Lib.getMatchingPrefix; rw [keys_like h.courses, keys_like h.lessons, keys_like h.exercises]

theorem hasText_moved (h : Moved M M' r r') {r0 p : Path} {v : Json.Json} (hv : HasText M' r0 p v) : HasText M r p v := by
  obtain ⟨h1, text, h2, h3⟩ := hv
  rw [h.home'] at h1
  cases h1
  exact ⟨h.home, text, (h.same p).symm.trans h2, h3⟩

theorem staysInside_moved (h : Moved M M' r r') (hi : StaysInside M) : StaysInside M' where
  course r0 p v m hv hp hd := hi.course r p v m (hasText_moved h hv) hp (by rw [← h.floats]; exact hd)
  passages r0 p v m cfg hv hp hd hg := hi.passages r p v m cfg (hasText_moved h hv) hp (by rw [← h.floats]; exact hd) hg
  lesson r0 p v m hv hp hd := hi.lesson r p v m (hasText_moved h hv) hp (by rw [← h.floats]; exact hd)
  exercise r0 p v m hv hp hd := hi.exercise r p v m (hasText_moved h hv) hp hd

theorem ignores_moved (h : Moved M M' r r') {ig : List Str} (hI : Ignores M' ig) : Ignores M ig := by
  obtain ⟨r0, text, v, prefs, h1, h2, h3⟩ := hI
  rw [configHome_of_absolute h.absolute', h.home'] at h1
  cases h1
  exact ⟨r, text, v, prefs, (configHome_of_absolute h.absolute).trans h.home, (h.same _).symm.trans h2, h3⟩

/-- **C101, the same library.**  If a library opens, it also opens after it was moved or copied to another directory: with
the same units in the same relations, and with the same manifests up to the places of the files they name. -/
theorem moved_library (h : Moved M M' r r') (hi : StaysInside M) (X : Outside)
    (hig : ∀ ig, Ignores M ig → ∀ i ∈ ig, isAbsolute i = false) (lib : Lib Rest Generator) (ho : Opens (M.real X) lib) :
    ∃ lib', Opens (M'.real X) lib' ∧ SameLibrary (SamePlace M M' r r') lib lib' := by
  obtain ⟨text, prefs, h1, h2, h3⟩ := ho
  have hI : Ignores M prefs.ignoredPaths := by
    obtain ⟨v, hv, hd, hm⟩ := (readAs_iff _ _ _).mp h2
    have hc : M.configContents prefsPath = some text := h1
    unfold Machine.configContents at hc
    cases hr : M.configHome with
    | none => rw [hr] at hc; cases hc
    | some r0 =>
      rw [hr] at hc
      exact ⟨r0, text, v, prefs, hr, hc, hv, hd, hm, rfl⟩
  obtain ⟨lib', hl, hlike⟩ := loads_like (disks_moved h hi X prefs.ignoredPaths (hig _ hI)) h3
  exact ⟨lib', ⟨text, prefs, (configContents_moved h prefsPath).trans h1, h2, hl⟩, sameLibrary_of_like hlike⟩

/-- **C101, opening.**  A library opens in one place exactly if it opens in the other. -/
theorem moved_opens_iff (h : Moved M M' r r') (hi : StaysInside M) (X : Outside)
    (hig : ∀ ig, Ignores M ig → ∀ i ∈ ig, isAbsolute i = false) :
    (∃ lib, Opens (M.real X) lib) ↔ ∃ lib, Opens (M'.real X) lib := by
  constructor
  · rintro ⟨lib, ho⟩
    obtain ⟨lib', ho', _⟩ := moved_library h hi X hig lib ho
    exact ⟨lib', ho'⟩
  · rintro ⟨lib, ho⟩
    obtain ⟨lib', ho', _⟩ := moved_library h.symm (staysInside_moved h hi) X
      (fun ig hI => hig ig (ignores_moved h hI)) lib ho
    exact ⟨lib', ho'⟩

theorem pathTo_render (N : Machine F) {p : Path} (h : exist N.tree p = true) : PathTo N (render p) p := by
  refine ⟨by cases p <;> simp [render], ?_⟩
  have hs : start N.cwd (render p) = [] := by unfold start; rw [render_absolute]; rfl
  rw [leads_iff, hs]
  unfold resolve
  have hd : isDir N.tree [] = true := by simp [isDir]
  by_cases e : p = []
  · subst e
    have : follow N.tree [] (split (render [])) = some [] := by
      show follow N.tree [] [[], []] = some []
      rw [follow, if_pos hd, if_pos (.inl rfl), follow, if_pos hd, if_pos (.inl rfl)]
      rfl
    rw [this]
    simp [h]
  · rw [split_render (fun n hn => (names_of_exist N.good h n hn).2.1) e, follow, if_pos hd, if_pos (.inl rfl),
      follow_exist N.good h]
    simp [h]

/-- **C101, the files.**  A path in a manifest in the old place and the one in its new place are the same text, or lead to
the same thing in the library; or both are made of the same names below the root, where nothing is. -/
theorem moved_paths (h : Moved M M' r r') {s s' : Str} (hs : SamePlace M M' r r' s s') :
    s' = s ∨ (∃ q, PathTo M s (r ++ q) ∧ PathTo M' s' (r' ++ q)) ∨
      ∃ ns, s = M.dirText ns ∧ s' = M'.dirText ns ∧ (∀ k ∈ M.tree.keys, ¬ r ++ ns <+: k) ∧
        ∀ k ∈ M'.tree.keys, ¬ r' ++ ns <+: k := by
  cases hs with
  | text => exact .inl rfl
  | place q he => exact .inr (.inl ⟨q, pathTo_render M he, pathTo_render M' (by rw [moved_exist h]; exact he)⟩)
  | below ns =>
    by_cases he : ∃ k ∈ M.tree.keys, r ++ ns <+: k
    · exact .inr (.inl ⟨ns, pathTo_dirText h.home he, pathTo_dirText h.home' ((moved_below h ns).mpr he)⟩)
    · refine .inr (.inr ⟨ns, rfl, rfl, fun k hk hp => he ⟨k, hk, hp⟩, fun k hk hp => ?_⟩)
      exact he ((moved_below h ns).mp ⟨k, hk, hp⟩)

end Trane.Tree
