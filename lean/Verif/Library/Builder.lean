import Verif.Library.Model

/-!
# Model of the course builders (/repo/src/course_builder.rs)

The file system maps the path of each file, as a list of components, to what was written to it.
Directories are the proper prefixes of these paths.  The names of directories and assets are given as
components, none of which is `.` or `..`; absolute paths are not modelled, nor are errors of the
operating system other than those caused by the layout of the files.  A manifest file
yields the manifest written to it; the texts of the files are in Tree/Built. -/

namespace Trane.CourseBuilder
open Trane.Store Trane.Library

variable {α γ : Type}

/-- What a file holds. /repo/src/course_builder.rs:41-213. -/
inductive Entry (α γ : Type)
  | course (m : CourseM α γ)
  | lesson (m : LessonM α)
  | exercise (m : ExerciseM α)
  | text (t : Str)

/-- The files. /repo/src/course_builder.rs:41-213. -/
abbrev FS (α γ : Type) := AMap Path (Entry α γ)

/-- `Path::exists`: a file or a directory with something in it. As in /repo/src/course_builder.rs:48. -/
def pathExists (fs : FS α γ) (p : Path) : Bool := fs.any (fun e => p.isPrefixOf e.1)

/-- Whether some file stands where a directory is needed to write at the path.
For `create_dir_all`, /repo/src/course_builder.rs:45 and 55. -/
def blocked (fs : FS α γ) (p : Path) : Bool := fs.any (fun e => e.1.isPrefixOf p && e.1 ≠ p)

/-- Whether the path is a directory. /repo/src/course_builder.rs:45. -/
def isDir (fs : FS α γ) (p : Path) : Bool := fs.any (fun e => p.isPrefixOf e.1 && e.1 ≠ p)

/-- One step of a builder. /repo/src/course_builder.rs:41-213. -/
inductive Step (α γ : Type)
  /-- `create_dir_all` of the directory and `File::create` of a manifest in it, which replaces an
  existing file. -/
  | manifest (p : Path) (e : Entry α γ)
  /-- `AssetBuilder::build`, /repo/src/course_builder.rs:41-61. -/
  | asset (p : Path) (t : Str)
  /-- The manifest could not be made. -/
  | fail

/-- Runs one step; `false` is an error. /repo/src/course_builder.rs:41-213. -/
def run1 (fs : FS α γ) : Step α γ → FS α γ × Bool
  | .manifest p e => if blocked fs p || isDir fs p then (fs, false) else (fs.put p e, true)
  | .asset p t => if pathExists fs p || blocked fs p then (fs, false) else (fs.put p (.text t), true)
  | .fail => (fs, false)

/-- Runs steps until one fails. `?` in /repo/src/course_builder.rs:76-213. -/
def run : FS α γ → List (Step α γ) → FS α γ × Bool
  | fs, [] => (fs, true)
  | fs, s :: ss => match run1 fs s with
    | (fs', true) => run fs' ss
    | (fs', false) => (fs', false)

/-- `AssetBuilder`, /repo/src/course_builder.rs:32-39: the components of the file name, and the contents. -/
structure Asset where
  name : Path
  contents : Str

/-- `ExerciseBuilder`, /repo/src/course_builder.rs:63-74. The manifest is the outcome of the closure applied to the
template; `none` if `build` of the manifest fails. -/
structure ExerciseB (α : Type) where
  dir : Str
  manifest : Option (ExerciseM α)
  assets : List Asset := []

/-- /repo/src/course_builder.rs:76-103 `ExerciseBuilder::build`. The last statement calls `verify_paths` and passes on
its error, but drops the Boolean it returns; as it never returns an error, it has no effect. -/
def exerciseSteps (d : Path) (e : ExerciseB α) : List (Step α γ) :=
  match e.manifest with
  | none => [.fail]
  | some m => .manifest (d ++ [exerciseFile]) (.exercise m) ::
      e.assets.map (fun a => .asset (d ++ a.name) a.contents)

/-- `LessonBuilder`, /repo/src/course_builder.rs:105-123. -/
structure LessonB (α : Type) where
  dir : Str
  manifest : Option (LessonM α)
  exercises : List (ExerciseB α) := []
  assets : List Asset := []

/-- /repo/src/course_builder.rs:125-158 `LessonBuilder::build`.  Its call of `verify_paths` has no effect either. -/
def lessonSteps (d : Path) (l : LessonB α) : List (Step α γ) :=
  match l.manifest with
  | none => [.fail]
  | some m => .manifest (d ++ [lessonFile]) (.lesson m) ::
      (l.assets.map (fun a => .asset (d ++ a.name) a.contents) ++
        l.exercises.flatMap (fun e => exerciseSteps (d ++ [e.dir]) e))

/-- `CourseBuilder`, /repo/src/course_builder.rs:160-178. -/
structure CourseB (α γ : Type) where
  dir : Str
  manifest : CourseM α γ
  lessons : List (LessonB α) := []
  assets : List Asset := []

/-- /repo/src/course_builder.rs:180-213 `CourseBuilder::build`.  Its call of `verify_paths` has no effect either. -/
def courseSteps (parent : Path) (c : CourseB α γ) : List (Step α γ) :=
  .manifest (parent ++ [c.dir] ++ [courseFile]) (.course c.manifest) ::
    (c.assets.map (fun a => .asset (parent ++ [c.dir] ++ a.name) a.contents) ++
      c.lessons.flatMap (fun l => lessonSteps (parent ++ [c.dir] ++ [l.dir]) l))

/-- /repo/src/course_builder.rs:180-213 `CourseBuilder::build`. -/
def build (fs : FS α γ) (parent : Path) (c : CourseB α γ) : FS α γ × Bool :=
  run fs (courseSteps parent c)

/-- How manifests mention files, and what normalizing makes of them: `NormalizePaths` in
/repo/src/data.rs:176-197,434-449,547-558,664-709,782-788. -/
structure Mentions (α γ : Type) where
  /-- The relative paths in a manifest. -/
  course : CourseM α γ → List Path
  lesson : LessonM α → List Path
  exercise : ExerciseM α → List Path
  /-- The manifest with absolute paths, given its directory. -/
  courseAt : Path → CourseM α γ → CourseM α γ
  lessonAt : Path → LessonM α → LessonM α
  exerciseAt : Path → ExerciseM α → ExerciseM α

/-- Opening and normalizing a course manifest, /repo/src/course_library.rs:177-182,478-480: fails if a
relative path in it does not exist. -/
def readCourse (M : Mentions α γ) (fs : FS α γ) (p : Path) : Option (CourseM α γ) :=
  match fs.find p with
  | some (.course m) =>
    if (M.course m).all (fun r => pathExists fs (p.dropLast ++ r)) then some (M.courseAt p.dropLast m)
    else none
  | _ => none

/-- Opening and normalizing a lesson manifest, /repo/src/course_library.rs:177-182,335-336. -/
def readLesson (M : Mentions α γ) (fs : FS α γ) (p : Path) : Option (LessonM α) :=
  match fs.find p with
  | some (.lesson m) =>
    if (M.lesson m).all (fun r => pathExists fs (p.dropLast ++ r)) then some (M.lessonAt p.dropLast m)
    else none
  | _ => none

/-- Opening and normalizing an exercise manifest, /repo/src/course_library.rs:177-182,267-269. -/
def readExercise (M : Mentions α γ) (fs : FS α γ) (p : Path) : Option (ExerciseM α) :=
  match fs.find p with
  | some (.exercise m) =>
    if (M.exercise m).all (fun r => pathExists fs (p.dropLast ++ r)) then
      some (M.exerciseAt p.dropLast m)
    else none
  | _ => none

end Trane.CourseBuilder
