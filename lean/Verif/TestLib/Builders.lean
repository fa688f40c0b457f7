import Verif.TestLib.Ids

/-!
# C97: building and opening test libraries
-/

namespace Trane.TestLib
open Trane.Store (Str)
open Trane.Library
open Trane.CourseBuilder
open Trane.Graph (KeyOrder)
open Trane.Tree (Rest courseM lessonM exerciseM mentions relative)
open Trane.Json (Generator)
open Trane.Gen (dec dec_inj)

variable {F : Type} {val : F → ℚ}

/-! ### Specification -/

/-- The id of a course and the ids of lessons of that course, with different numbers. -/
structure WellFormed (c : TestCourse F) : Prop where
  course : c.id.isCourse = true
  lesson : ∀ l ∈ c.lessons, l.id.isLesson = true ∧ l.id.course = c.id.course
  distinct : (c.lessons.map (·.id.lesson)).Nodup

/-- Courses with different numbers. -/
structure WellFormedAll (cs : List (TestCourse F)) : Prop where
  course : ∀ c ∈ cs, WellFormed c
  distinct : (cs.map (·.id.course)).Nodup

/-- What is said about another unit. -/
structure Links (F : Type) where
  dependencies : List TestId
  encompassed : List (TestId × F)
  superseded : List TestId

/-- What a test library says about the unit. -/
def Says (cs : List (TestCourse F)) (u : TestId) (s : Links F) : Prop :=
  (∃ c ∈ cs, c.id = u ∧ s = ⟨c.dependencies, c.encompassed, c.superseded⟩) ∨
  (∃ c ∈ cs, ∃ l ∈ c.lessons, l.id = u ∧ s = ⟨l.dependencies, l.encompassed, l.superseded⟩)

/-! ### Builders -/

/-- The builder of a lesson with a proper id. -/
def lessonOf (val : F → ℚ) (l : TestLesson F) : LessonB Rest where
  dir := "lesson_".toList ++ dec (l.id.lesson.getD 0)
  manifest := some (lessonM val (lessonManifest l))
  exercises := (List.range l.numExercises).map (exerciseBuilder l.id)
  assets := [file "instructions.md" "instructions", file "material.md" "material"]

/-- The builder of a course that is well formed. -/
def courseOf (val : F → ℚ) (c : TestCourse F) : CourseB Rest Generator where
  dir := "course_".toList ++ dec c.id.course
  manifest := courseM val (courseManifest c)
  lessons := c.lessons.map (lessonOf val)
  assets := [file "instructions.md" "instructions", file "material.md" "material"]

theorem mapM_some {A B : Type} {f : A → Option B} {g : A → B} {xs : List A} (h : ∀ x ∈ xs, f x = some (g x)) :
    xs.mapM f = some (xs.map g) := by
  induction xs with
  | nil => rfl
  | cons x xs ih =>
    rw [List.mapM_cons, h x List.mem_cons_self, ih (fun x hx => h x (List.mem_cons_of_mem _ hx))]
    rfl

theorem lessonBuilder_iff (l : TestLesson F) : (lessonBuilder val l).isSome = true ↔ l.id.isLesson = true := by
  unfold lessonBuilder
  split <;> simp_all

/-- **C97, builders**: a test course has a builder exactly when it has the id of a course, and its lessons have ids of
lessons of that course. -/
theorem courseBuilder_iff (c : TestCourse F) : (courseBuilder val c).isSome = true ↔
    c.id.isCourse = true ∧ ∀ l ∈ c.lessons, l.id.isLesson = true ∧ l.id.course = c.id.course := by
  unfold courseBuilder
  split
  · rename_i h1
    split
    · rename_i h2
      rw [List.all_eq_true] at h2
      by_cases h3 : ∀ l ∈ c.lessons, l.id.isLesson = true
      · have : c.lessons.mapM (lessonBuilder val) = some (c.lessons.map (lessonOf val)) :=
          mapM_some (fun l hl => by unfold lessonBuilder; rw [if_pos (h3 l hl)]; rfl)
        rw [this]
        simp only [Option.bind_eq_bind, Option.bind_some, Option.isSome_some, h1, true_and, true_iff]
        exact fun l hl => ⟨h3 l hl, by simpa using h2 l hl⟩
      · have : c.lessons.mapM (lessonBuilder val) = none := by
          push Not at h3
          obtain ⟨l, hl, hn⟩ := h3
          cases hm : c.lessons.mapM (lessonBuilder val) with
          | none => rfl
          | some ys =>
            exfalso
            have := (Gen.mapM_isSome _ _).1 (by rw [hm]; rfl) l hl
            exact hn ((lessonBuilder_iff l).1 this)
        rw [this]
        simp only [Option.bind_eq_bind, Option.bind_none, Option.isSome_none, Bool.false_eq_true, h1, true_and,
          false_iff]
        exact fun h => h3 (fun l hl => (h l hl).1)
    · rename_i h2
      simp only [Option.isSome_none, Bool.false_eq_true, false_iff, not_and]
      intro _ h
      exact h2 (List.all_eq_true.2 (fun l hl => by simpa using (h l hl).2))
  · rename_i h1
    simp [h1]

theorem courseBuilder_of {c : TestCourse F} (h : WellFormed c) : courseBuilder val c = some (courseOf val c) := by
  unfold courseBuilder
  have : c.lessons.mapM (lessonBuilder val) = some (c.lessons.map (lessonOf val)) :=
    mapM_some (fun l hl => by unfold lessonBuilder; rw [if_pos (h.lesson l hl).1]; rfl)
  rw [if_pos h.course, if_pos (List.all_eq_true.2 (fun l hl => by simpa using (h.lesson l hl).2)), this]
  rfl

/-! ### What the theorems on builders ask for -/

theorem map_nodup_of {A B C : Type} {f : A → B} {g : A → C} {xs : List A} (h : (xs.map f).Nodup)
    (hg : ∀ x ∈ xs, ∀ y ∈ xs, g x = g y → f x = f y) : (xs.map g).Nodup := by
  induction xs with
  | nil => exact .nil
  | cons x xs ih =>
    rw [List.map_cons, List.nodup_cons] at h ⊢
    refine ⟨fun hm => ?_, ih h.2 (fun a ha b hb => hg a (List.mem_cons_of_mem _ ha) b (List.mem_cons_of_mem _ hb))⟩
    obtain ⟨y, hy, e⟩ := List.mem_map.1 hm
    exact h.1 (List.mem_map.2 ⟨y, hy, hg y (List.mem_cons_of_mem _ hy) x List.mem_cons_self e⟩)

theorem lesson_dirs {c : TestCourse F} (h : WellFormed c) : ((courseOf val c).lessons.map (·.dir)).Nodup := by
  show ((c.lessons.map (lessonOf val)).map (·.dir)).Nodup
  rw [List.map_map]
  refine map_nodup_of h.distinct ?_
  intro x hx y hy e
  have e1 : x.id.lesson.getD 0 = y.id.lesson.getD 0 := dec_inj (List.append_cancel_left e)
  have h1 := (h.lesson x hx).1
  have h2 := (h.lesson y hy).1
  unfold TestId.isLesson at h1 h2
  cases hx : x.id.lesson <;> cases hy : y.id.lesson <;> simp_all

theorem exercise_dirs (l : TestLesson F) : ((lessonOf val l).exercises.map (·.dir)).Nodup := by
  show (((List.range l.numExercises).map (exerciseBuilder l.id)).map (·.dir)).Nodup
  rw [List.map_map]
  refine List.nodup_range.map ?_
  intro a b e
  exact dec_inj (List.append_cancel_left e)

theorem ordinary_file {n t : String} (h1 : n.toList ≠ courseFile) (h2 : n.toList ≠ lessonFile)
    (h3 : n.toList ≠ exerciseFile) : Ordinary (file n t) :=
  ⟨List.cons_ne_nil _ _, fun e => h1 (Option.some.inj e), fun e => h2 (Option.some.inj e),
    fun e => h3 (Option.some.inj e)⟩

theorem two_assets {a b : Asset} (ha : Ordinary a) (hb : Ordinary b) : ∀ x ∈ [a, b], Ordinary x := by
  intro x hx
  rcases List.mem_cons.1 hx with rfl | hx
  · exact ha
  · rw [List.mem_singleton.1 hx]; exact hb

theorem unit_assets : ∀ a ∈ [file "instructions.md" "instructions", file "material.md" "material"], Ordinary a :=
  two_assets (ordinary_file (by decide +kernel) (by decide +kernel) (by decide +kernel))
    (ordinary_file (by decide +kernel) (by decide +kernel) (by decide +kernel))

theorem exercise_assets : ∀ a ∈ [file "question.md" "question", file "answer.md" "answer"], Ordinary a :=
  two_assets (ordinary_file (by decide +kernel) (by decide +kernel) (by decide +kernel))
    (ordinary_file (by decide +kernel) (by decide +kernel) (by decide +kernel))

theorem mem_lessons {c : TestCourse F} {l : LessonB Rest} (h : l ∈ (courseOf val c).lessons) :
    ∃ t ∈ c.lessons, lessonOf val t = l := List.mem_map.1 h

theorem mem_exercises {t : TestLesson F} {e : ExerciseB Rest} (h : e ∈ (lessonOf val t).exercises) :
    ∃ i, exerciseBuilder t.id i = e := by
  obtain ⟨i, _, h⟩ := List.mem_map.1 h
  exact ⟨i, h⟩

theorem tidy_of {c : TestCourse F} (h : WellFormed c) : Tidy (courseOf val c) where
  lessons := lesson_dirs h
  exercises l hl := by
    obtain ⟨l, _, rfl⟩ := mem_lessons hl
    exact exercise_dirs l
  assets := unit_assets
  lessonAssets l hl := by
    obtain ⟨l, _, rfl⟩ := mem_lessons hl
    exact unit_assets
  exerciseAssets l hl e he := by
    obtain ⟨l, _, rfl⟩ := mem_lessons hl
    obtain ⟨i, rfl⟩ := mem_exercises he
    exact exercise_assets

theorem eq_course {c : TestId} (h : c.isCourse = true) : c = ⟨c.course, none, none⟩ := by
  obtain ⟨n, a, b⟩ := c
  unfold TestId.isCourse at h
  cases a <;> cases b <;> simp_all

theorem consistent_of {c : TestCourse F} (h : WellFormed c) : Consistent (courseOf val c) where
  course := text_ne_nil _
  lesson l hl m hm := by
    obtain ⟨t, ht, rfl⟩ := mem_lessons hl
    have hm' : some (lessonM val (lessonManifest t)) = some m := hm
    injection hm' with hm'
    subst hm'
    refine ⟨text_ne_nil _, ?_⟩
    show (TestId.mk t.id.course none none).text = c.id.text
    rw [(h.lesson t ht).2, ← eq_course h.course]
  exercise l hl m hm e he x hx := by
    obtain ⟨t, ht, rfl⟩ := mem_lessons hl
    obtain ⟨i, rfl⟩ := mem_exercises he
    have hm' : some (lessonM val (lessonManifest t)) = some m := hm
    have hx' : some (exerciseM (exerciseManifest t.id i)) = some x := hx
    injection hm' with hm'
    injection hx' with hx'
    subst hm' hx'
    exact ⟨text_ne_nil _, rfl, rfl⟩

theorem dir_ne {a b : Str} {k : Nat} (h : b.take a.length ≠ a) : a ++ dec k ≠ b := by
  intro e
  apply h
  rw [← e]
  exact List.take_left

theorem dir_notMem {a : Str} {k : Nat} {bs : List Str} (h : ∀ b ∈ bs, b.take a.length ≠ a) : a ++ dec k ∉ bs :=
  fun hm => dir_ne (h _ hm) rfl

theorem buildable_of {c : TestCourse F} (h : WellFormed c) : Buildable (courseOf val c) where
  manifests l hl := by
    obtain ⟨l, _, rfl⟩ := mem_lessons hl
    refine ⟨Option.some_ne_none _, fun e he => ?_⟩
    obtain ⟨i, rfl⟩ := mem_exercises he
    exact Option.some_ne_none _
  apart := by
    refine pairwise_node (tops := [courseFile, "instructions.md".toList, "material.md".toList])
      (xs := (courseOf val c).lessons) (f := fun l : LessonB Rest => l.dir) (g := fun l => l.files)
      (by decide +kernel) (lesson_dirs h) ?_ ?_
    · intro l hl
      obtain ⟨l, _, rfl⟩ := mem_lessons hl
      exact dir_notMem (by decide +kernel)
    · intro l hl
      obtain ⟨l, _, rfl⟩ := mem_lessons hl
      refine pairwise_node (tops := [lessonFile, "instructions.md".toList, "material.md".toList])
        (xs := (lessonOf val l).exercises) (f := fun e : ExerciseB Rest => e.dir) (g := fun e => e.files)
        (by decide +kernel) (exercise_dirs l) ?_ ?_
      · intro e he
        obtain ⟨i, rfl⟩ := mem_exercises he
        exact dir_notMem (by decide +kernel)
      · intro e he
        obtain ⟨i, rfl⟩ := mem_exercises he
        exact pairwise_node (A := Unit) (xs := []) (f := fun _ => []) (g := fun _ => [])
          (tops := [exerciseFile, "question.md".toList, "answer.md".toList]) (by decide +kernel) .nil
          (fun _ h => nomatch h) (fun _ h => nomatch h)

/-! ### Files that are mentioned -/

theorem found_asset {fs : FS Rest Generator} {p : Path} {x : Entry Rest Generator} (h : fs.find p = some x) :
    pathExists fs p = true :=
  pathExists_iff.2 ⟨p, (AMap.mem_keys_iff _ _).2 ⟨x, h⟩, List.prefix_rfl⟩

/-- The paths that the manifests of courses and lessons mention. -/
theorem unit_paths : relative ["instructions.md".toList, "material.md".toList] =
    [(file "instructions.md" "instructions").name, (file "material.md" "material").name] := by decide +kernel

/-- The paths that the manifests of exercises mention. -/
theorem exercise_paths : relative ["question.md".toList, "answer.md".toList] =
    [(file "question.md" "question").name, (file "answer.md" "answer").name] := by decide +kernel

theorem two_names {a b : Asset} {q : Path} (h : q ∈ [a.name, b.name]) : ∃ x ∈ [a, b], q = x.name := by
  rcases List.mem_cons.1 h with rfl | h
  · exact ⟨a, List.mem_cons_self, rfl⟩
  · exact ⟨b, List.mem_cons_of_mem _ (List.mem_singleton.2 rfl), List.mem_singleton.1 h⟩

theorem complete_of {c : TestCourse F} {fs : FS Rest Generator} {root r : Path}
    (hs : Stands fs root (courseOf val c)) : Complete (mentions r) fs root (courseOf val c) where
  course q hq := by
    have hq' : q ∈ relative ["instructions.md".toList, "material.md".toList] := hq
    rw [unit_paths] at hq'
    obtain ⟨a, ha, rfl⟩ := two_names hq'
    obtain ⟨x, hx⟩ := hs.found _ _ (.asset a ha)
    exact found_asset hx
  lesson l hl m hm q hq := by
    obtain ⟨t, _, rfl⟩ := mem_lessons hl
    have hm' : some (lessonM val (lessonManifest t)) = some m := hm
    injection hm' with hm'
    subst hm'
    have hq' : q ∈ relative ["instructions.md".toList, "material.md".toList] := hq
    rw [unit_paths] at hq'
    obtain ⟨a, ha, rfl⟩ := two_names hq'
    obtain ⟨x, hx⟩ := hs.found _ _ (.lessonAsset _ hl a ha)
    exact found_asset hx
  exercise l hl e he m hm q hq := by
    obtain ⟨t, _, rfl⟩ := mem_lessons hl
    obtain ⟨i, rfl⟩ := mem_exercises he
    have hm' : some (exerciseM (exerciseManifest t.id i)) = some m := hm
    injection hm' with hm'
    subst hm'
    have hq' : q ∈ relative ["question.md".toList, "answer.md".toList] := hq
    rw [exercise_paths] at hq'
    obtain ⟨a, ha, rfl⟩ := two_names hq'
    obtain ⟨x, hx⟩ := hs.found _ _ (.exerciseAsset _ hl _ he a ha)
    rw [show root ++ [(lessonOf val t).dir, (exerciseBuilder t.id i).dir] ++ a.name =
      root ++ [(lessonOf val t).dir] ++ [(exerciseBuilder t.id i).dir] ++ a.name from by simp only [List.append_assoc,
        List.cons_append, List.nil_append]] at hx
    exact found_asset hx

end Trane.TestLib
