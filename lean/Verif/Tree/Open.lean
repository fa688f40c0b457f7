import Verif.Tree.Props

/-!
# C90: what a library opened from texts serves
-/

namespace Trane.Tree
open Trane.Store (Str)
open Trane.Library
open Trane.Assets (isAbsolute join)
open Trane.Json (Generator)

variable {F : Type}

/-- The file with the preferences, /repo/src/lib.rs:106,130. -/
def prefsPath : Path := [".trane".toList, "user_preferences.json".toList]

/-- `Trane::new_local` opens the library: the preferences are read, and the library with the ignored
paths in them, /repo/src/lib.rs:310-322. -/
def Opens (M : Machine F) (lib : Lib Rest Generator) : Prop :=
  ∃ text prefs, M.configContents prefsPath = some text ∧ Json.readAs Json.decUserPreferences text = some prefs ∧
    Loads M.disk (prefs.ignoredPaths.map components) lib

/-- The text of the preferences is JSON for a value in which the given paths are to be ignored. -/
def Ignores (M : Machine F) (ignored : List Str) : Prop :=
  ∃ r text v prefs, M.configHome = some r ∧ M.tree.find (r ++ prefsPath) = some text ∧ Json.Document v text ∧
    Json.depth v < 128 ∧ Json.decUserPreferences v = some prefs ∧ prefs.ignoredPaths = ignored

/-- The course file at `p` is to be loaded: it is at least two levels below the root and not in or below an
ignored path. -/
def Counts (M : Machine F) (ignored : List Str) (p : Path) : Prop :=
  HasFile M p ∧ 2 ≤ p.length ∧ p.getLast? = some courseFile ∧
    ∀ i ∈ ignored, ¬ ((components M.root).abs = (((components M.root).absolute M.cwd).push (components i)).abs ∧
      (((components M.root).absolute M.cwd).push (components i)).comps <+: (components M.root).comps ++ p)

/-- A file of the given name one directory below. -/
def Beside (M : Machine F) (dir : Path) (name : Str) (p : Path) : Prop := HasFile M p ∧ ∃ n, p = dir ++ [n, name]

/-- The library has a course with the manifest `c` in the directory `dir`, whose generator, if there is one, gives
the lessons `gen`. -/
def CourseAt (M : Machine F) (ignored : List Str) (dir : Path) (c : CourseM Rest Generator)
    (gen : List (LessonM Rest × List (ExerciseM Rest))) : Prop :=
  ∃ p m, Counts M ignored p ∧ p.dropLast = dir ∧ CourseText M p m ∧ CourseIn M.disk dir c gen m

theorem isCourseFile_iff (M : Machine F) (ignored : List Str) (p : Path) :
    IsCourseFile M.disk (ignored.map components) p ↔ Counts M ignored p := by
  unfold IsCourseFile Counts
  rw [walk_iff]
  simp only [List.nil_prefix, and_true, List.forall_mem_map]
  rfl

theorem isBelow_iff (M : Machine F) (dir : Path) (name : Str) (p : Path) :
    IsBelow M.disk dir name p ↔ Beside M dir name p := by
  unfold IsBelow Beside
  rw [walk_iff]
  constructor
  · rintro ⟨⟨h, q, rfl⟩, hl, hn⟩
    refine ⟨h, ?_⟩
    rw [List.length_append, Nat.add_left_cancel_iff] at hl
    match q, hl with
    | [a, b], _ =>
      rw [List.getLast?_append] at hn
      simp only [List.getLast?_cons_cons, List.getLast?_singleton, Option.some_or, Option.some.injEq] at hn
      exact ⟨a, by rw [hn]⟩
  · rintro ⟨h, n, rfl⟩
    exact ⟨⟨h, List.prefix_append _ _⟩, by simp, by rw [List.getLast?_append]; rfl⟩

theorem diskCourse_iff (M : Machine F) (ignored : List Str) (dir : Path) (c : CourseM Rest Generator)
    (gen : List (LessonM Rest × List (ExerciseM Rest))) :
    DiskCourse M.disk (ignored.map components) dir c gen ↔ CourseAt M ignored dir c gen := by
  unfold DiskCourse CourseAt
  simp only [isCourseFile_iff, course_text_iff]

/-- The preferences in force. -/
theorem opens_ignores {M : Machine F} {lib : Lib Rest Generator} (h : Opens M lib) :
    ∃ ignored, Ignores M ignored ∧ Loads M.disk (ignored.map components) lib := by
  obtain ⟨text, prefs, hc, hp, hl⟩ := h
  obtain ⟨v, hv, hd, hm⟩ := (readAs_iff _ _ _).mp hp
  unfold Machine.configContents at hc
  cases hr : M.configHome with
  | none => rw [hr] at hc; cases hc
  | some r =>
    rw [hr] at hc
    exact ⟨_, ⟨r, text, v, prefs, hr, hc, hv, hd, hm, rfl⟩, hl⟩

/-- **C90, what is served.**  The manifests that an opened library serves are those that the texts of its files
stand for, and those the generators make. -/
theorem served_from_texts (M : Machine F) (hg : GeneratesProper M.disk) (lib : Lib Rest Generator) (h : Opens M lib) :
    ∃ ignored, Ignores M ignored ∧ ∀ u,
    (∀ m, lib.getCourseManifest u = some m ↔ (∃ dir gen, CourseAt M ignored dir m gen) ∧ m.id = u) ∧
    (∀ m, lib.getLessonManifest u = some m ↔ (∃ dir c gen, CourseAt M ignored dir c gen ∧
      ((∃ es, (m, es) ∈ gen) ∨ ∃ p, Beside M dir lessonFile p ∧ LessonText M p m)) ∧ m.id = u) ∧
    (∀ m, lib.getExerciseManifest u = some m ↔ (∃ dir c gen, CourseAt M ignored dir c gen ∧
      ((∃ l es, (l, es) ∈ gen ∧ m ∈ es) ∨ ∃ p q, Beside M dir lessonFile p ∧ Beside M p.dropLast exerciseFile q ∧
        ExerciseText M q m)) ∧ m.id = u) := by
  obtain ⟨ignored, hi, hl⟩ := opens_ignores h
  refine ⟨ignored, hi, fun u => ?_⟩
  have := library_manifests hg hl u
  unfold DiskLesson DiskExercise at this
  simp only [diskCourse_iff, isBelow_iff, lesson_text_iff, exercise_text_iff] at this
  exact this

/-- **C90, nothing is skipped.**  If the library opens, then every manifest in it has a text that is a manifest and
names the right parents; one file with another text, wherever it is, makes opening fail. -/
theorem every_text_read (M : Machine F) (hg : GeneratesProper M.disk) (lib : Lib Rest Generator) (h : Opens M lib) :
    ∃ ignored, Ignores M ignored ∧ ∀ p, Counts M ignored p → ∃ c, CourseText M p c ∧ c.id ≠ [] ∧
      ∀ q, Beside M p.dropLast lessonFile q → ∃ l, LessonText M q l ∧ l.id ≠ [] ∧ l.courseId = c.id ∧
        ∀ e, Beside M q.dropLast exerciseFile e → ∃ x, ExerciseText M e x ∧ x.id ≠ [] ∧ x.lessonId = l.id ∧
          x.courseId = c.id := by
  obtain ⟨ignored, hi, hl⟩ := opens_ignores h
  refine ⟨ignored, hi, ?_⟩
  obtain ⟨cs, _, _, hoc, _, _, _, _⟩ := loads_inv hg hl
  have hr := ((openCourses_exact _ _ _).1 hoc).1
  intro p hp
  rw [← isCourseFile_iff] at hp
  obtain ⟨c, hc, hne⟩ := hr.course p hp
  refine ⟨c, (course_text_iff _ _ _).mp hc, hne, fun q hq => ?_⟩
  rw [← isBelow_iff] at hq
  obtain ⟨l, hl, hln, hlc⟩ := hr.lesson p c q hp hc hq
  refine ⟨l, (lesson_text_iff _ _ _).mp hl, hln, hlc, fun e he => ?_⟩
  rw [← isBelow_iff] at he
  obtain ⟨x, hx, h1, h2, h3⟩ := hr.exercise p c q l e hp hc hq hl he
  exact ⟨x, (exercise_text_iff _ _ _).mp hx, h1, h2, h3.trans hlc⟩

/-- The configuration is read from the directory of the library if the root is absolute, if no working directory is
given, or if it is the current directory. -/
theorem config_beside_library (M : Machine F)
    (h : isAbsolute M.libraryRoot = true ∨ M.workingDir = [] ∨
      (M.libraryRoot ≠ [] ∧ Leads M.tree (start M.cwd M.workingDir) (split M.workingDir) M.cwd)) :
    M.configHome = M.home := by
  unfold Machine.configHome Machine.home Machine.root
  rcases h with h | h | ⟨hne, h⟩
  · unfold join; rw [if_pos h]
  · unfold join
    rw [h]
    split <;> simp
  · by_cases ha : isAbsolute M.libraryRoot = true
    · unfold join; rw [if_pos ha]
    by_cases hw : M.workingDir = []
    · unfold join
      rw [hw]
      split <;> simp
    rw [Bool.not_eq_true] at ha
    have hs : start M.cwd M.libraryRoot = M.cwd := by unfold start; rw [ha]; rfl
    rw [leads_iff] at h
    unfold Machine.place
    have e1 : (join M.workingDir M.libraryRoot).isEmpty = false := by simp [join_ne hw]
    have e2 : M.libraryRoot.isEmpty = false := by simp [hne]
    rw [e1, e2]
    simp only [Bool.false_eq_true, if_false]
    unfold resolve at h ⊢
    rw [follow_join hw ha, hs]
    cases hf : follow M.tree (start M.cwd M.workingDir) (split M.workingDir) with
    | none => rw [hf] at h; cases h
    | some q =>
      rw [hf] at h
      dsimp only at h
      split at h
      · rw [Option.some.inj h]; rfl
      · cases h

end Trane.Tree
