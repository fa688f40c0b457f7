import Verif.Library.BuilderAssets
import Mathlib.Data.List.Nodup

/-!
# C74: sample courses, and what the course builders do not check
-/

namespace Trane.CourseBuilder
open Trane.Store Trane.Library

/-- In the samples the unmodelled part of a manifest is the list of files it mentions, as absolute paths
once read. -/
def sampleMentions : Mentions (List Path) Unit where
  course := fun m => m.rest
  lesson := fun m => m.rest
  exercise := fun m => m.rest
  courseAt := fun d m => { m with rest := m.rest.map (fun r => d ++ r) }
  lessonAt := fun d m => { m with rest := m.rest.map (fun r => d ++ r) }
  exerciseAt := fun d m => { m with rest := m.rest.map (fun r => d ++ r) }

theorem sample_keeps : KeepsIds sampleMentions :=
  ⟨fun _ _ => rfl, fun _ _ => ⟨rfl, rfl⟩, fun _ _ => ⟨rfl, rfl, rfl⟩⟩

def sampleCourseM : CourseM (List Path) Unit := ⟨['c'], [], [], [], none, none, none, [[['m']]]⟩
def sampleLessonM (id : Str) : LessonM (List Path) := ⟨id, [], [], [], ['c'], none, []⟩

def sampleExercise : ExerciseB (List Path) where
  dir := ['x']
  manifest := some ⟨['e', 'x'], ['l', '1'], ['c'], [[['f'], ['g']]]⟩
  assets := [⟨[['f'], ['g']], ['u']⟩]

def sampleFirst : LessonB (List Path) where
  dir := ['1']
  manifest := some (sampleLessonM ['l', '1'])
  exercises :=
    [ sampleExercise, { dir := ['y'], manifest := some ⟨['e', 'y'], ['l', '1'], ['c'], []⟩ } ]

/-- A course with two lessons, one of which has two exercises, and assets at two levels. -/
def sampleCourse : CourseB (List Path) Unit where
  dir := ['d']
  manifest := sampleCourseM
  assets := [⟨[['m']], ['t']⟩]
  lessons :=
    [ sampleFirst,
      { dir := ['2'], manifest := some (sampleLessonM ['l', '2']) } ]

/-- The disk that shows the files. -/
def sampleShow (fs : FS (List Path) Unit) : Disk (List Path) Unit where
  cwd := []
  root := ⟨true, []⟩
  walk := fun dir => fs.keys.filter (fun p => dir.isPrefixOf p)
  course := readCourse sampleMentions fs
  lesson := readLesson sampleMentions fs
  exercise := readExercise sampleMentions fs
  generate := fun _ _ _ => none

theorem sample_shows (fs : FS (List Path) Unit) : Shows sampleMentions fs (sampleShow fs) :=
  ⟨fun _ => List.Perm.refl _, fun _ _ _ => rfl, fun _ _ _ => rfl, fun _ _ _ => rfl⟩

theorem sample_builds : (build [] [] sampleCourse).2 = true := by decide +kernel

theorem sample_tidy : Tidy sampleCourse := by
  refine ⟨by decide +kernel, ?_, ?_, ?_, ?_⟩
  · show ∀ l ∈ sampleCourse.lessons, _
    exact fun l hl => by
      rcases List.mem_cons.1 hl with rfl | hl
      · decide +kernel
      · rw [List.mem_singleton.1 hl]; decide +kernel
  · intro a ha
    rw [List.mem_singleton.1 ha]
    exact ⟨by decide +kernel, by decide +kernel, by decide +kernel, by decide +kernel⟩
  · intro l hl a ha
    rcases List.mem_cons.1 hl with rfl | hl
    · cases ha
    · rw [List.mem_singleton.1 hl] at ha; cases ha
  · intro l hl e he a ha
    rcases List.mem_cons.1 hl with rfl | hl
    · rcases List.mem_cons.1 he with rfl | he
      · rw [List.mem_singleton.1 ha]
        exact ⟨by decide +kernel, by decide +kernel, by decide +kernel, by decide +kernel⟩
      · rw [List.mem_singleton.1 he] at ha; cases ha
    · rw [List.mem_singleton.1 hl] at he; cases he

theorem sample_consistent : Consistent sampleCourse := by
  refine ⟨by decide +kernel, ?_, ?_⟩
  · intro l hl m hm
    rcases List.mem_cons.1 hl with rfl | hl
    · injection hm with hm; subst hm; decide +kernel
    · rw [List.mem_singleton.1 hl] at hm; injection hm with hm; subst hm; decide +kernel
  · intro l hl m hm e he x hx
    rcases List.mem_cons.1 hl with rfl | hl
    · injection hm with hm; subst hm
      rcases List.mem_cons.1 he with rfl | he
      · injection hx with hx; subst hx; decide +kernel
      · rw [List.mem_singleton.1 he] at hx; injection hx with hx; subst hx; decide +kernel
    · rw [List.mem_singleton.1 hl] at he; cases he

theorem sample_complete :
    Complete sampleMentions (build [] [] sampleCourse).1 (sampleCourse.root []) sampleCourse := by
  refine ⟨?_, ?_, ?_⟩
  · show ∀ r ∈ ([[['m']]] : List Path), _
    decide +kernel
  · intro l hl m hm r hr
    rcases List.mem_cons.1 hl with rfl | hl
    · injection hm with hm; subst hm; cases hr
    · rw [List.mem_singleton.1 hl] at hm; injection hm with hm; subst hm; cases hr
  · intro l hl e he m hm r hr
    rcases List.mem_cons.1 hl with rfl | hl
    · rcases List.mem_cons.1 he with rfl | he
      · injection hm with hm; subst hm
        rw [List.mem_singleton.1 hr]; decide +kernel
      · rw [List.mem_singleton.1 he] at hm; injection hm with hm; subst hm; cases hr
    · rw [List.mem_singleton.1 hl] at he; cases he

/-- The hypotheses of the round trip can be met; the theorem then gives two lessons. -/
example : ∃ found, processCourse (sampleShow (build [] [] sampleCourse).1) [['d']]
    (sampleMentions.courseAt [['d']] sampleCourseM) =
      some ⟨sampleMentions.courseAt [['d']] sampleCourseM, [] ++ found⟩ ∧ found.length = 2 := by
  obtain ⟨_, _, found, hf, ls, hp, h2⟩ := opens_as_built sample_keeps (fs := []) (parent := [])
    (c := sampleCourse) List.nodup_nil (fun p x h => by cases h)
    (Prod.ext rfl sample_builds) sample_tidy sample_consistent sample_complete (sample_shows _)
    (Or.inl ⟨rfl, rfl, rfl⟩)
  exact ⟨found, hf, by rw [← h2.length_eq, hp.length_eq]; rfl⟩

/-- The hypotheses of the theorems on assets can be met: the asset of an exercise. -/
example : AssetOf (sampleCourse.root []) sampleCourse [['d'], ['1'], ['x'], ['f'], ['g']] ['u'] :=
  .exercise sampleFirst List.mem_cons_self sampleExercise List.mem_cons_self
    ⟨[['f'], ['g']], ['u']⟩ List.mem_cons_self

/-! ### What is not checked -/

/-- A course whose manifest mentions a file that does not exist. -/
def missingFile : CourseB (List Path) Unit where
  dir := ['d']
  manifest := sampleCourseM

/-- **C74, negation of the check of mentioned files**: building a course succeeds although a file that its
manifest mentions is not there, and the library can then not read the course.  The call of
`verify_paths` that is meant to catch this drops the Boolean answer. -/
theorem missing_file_not_noticed :
    (build [] [] missingFile).2 = true ∧
    pathExists (build [] [] missingFile).1 [['d'], ['m']] = false ∧
    readCourse sampleMentions (build [] [] missingFile).1 [['d'], courseFile] = none := by
  refine ⟨by decide +kernel, by decide +kernel, ?_⟩
  have : (build [] [] missingFile).1.find [['d'], courseFile] = some (.course sampleCourseM) := by
    unfold build run missingFile courseSteps
    rfl
  unfold readCourse
  rw [this]
  exact if_neg (by decide +kernel)

/-- Two lessons in the same directory. -/
def sameDirectory : CourseB (List Path) Unit where
  dir := ['d']
  manifest := { sampleCourseM with rest := [] }
  lessons :=
    [ { dir := ['1'], manifest := some (sampleLessonM ['l', '1']) },
      { dir := ['1'], manifest := some (sampleLessonM ['l', '2']) } ]

/-- **C74, directories are not checked**: with two lessons in the same directory building succeeds, and
only one of them is there afterwards. -/
theorem same_directory_not_noticed :
    (build [] [] sameDirectory).2 = true ∧
    (build [] [] sameDirectory).1.keys = [[['d'], courseFile], [['d'], ['1'], lessonFile]] := by
  exact ⟨by decide +kernel, by decide +kernel⟩

/-- A lesson that names another course. -/
def wrongCourse : CourseB (List Path) Unit where
  dir := ['d']
  manifest := { sampleCourseM with rest := [] }
  lessons := [ { dir := ['1'], manifest := some { sampleLessonM ['l', '1'] with courseId := ['o'] } } ]

/-- **C74, ids are not checked**: a lesson that names another course is built, but then the course cannot
be opened. -/
theorem wrong_course_not_noticed :
    (build [] [] wrongCourse).2 = true ∧
    (processCourse (sampleShow (build [] [] wrongCourse).1) [['d']]
      (sampleMentions.courseAt [['d']] wrongCourse.manifest)).isNone = true := by
  exact ⟨by decide +kernel, by decide +kernel⟩

/-- **C74, a failed build leaves files**: building is not all or nothing. -/
theorem failed_build_leaves_files :
    (build [] [] { sameDirectory with
      lessons := [{ dir := ['1'], manifest := (none : Option (LessonM (List Path))) }] }).2 = false ∧
    ((build [] [] { sameDirectory with
      lessons := [{ dir := ['1'], manifest := (none : Option (LessonM (List Path))) }] }).1.keys =
        [[['d'], courseFile]]) := by
  exact ⟨by decide +kernel, by decide +kernel⟩

end Trane.CourseBuilder
