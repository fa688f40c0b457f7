import Verif.Gen.Knowledge

/-!
# Model of the knowledge base course builders
(/repo/src/course_builder/knowledge_base_builder.rs and `AssetBuilder` in /repo/src/course_builder.rs)

A directory maps the relative path of each file below it to what reading the file yields.  Directories
inside it are the proper prefixes of those paths.  `parse` gives what reading a text file yields; JSON
text is not modelled, so a property file yields the value written to it.  Paths are compared as strings:
components `.` and `..`, doubled slashes and absolute paths are not modelled, nor are errors of the
operating system other than those caused by the layout of the directory. -/

namespace Trane.Gen.Builder
open Trane.Store Trane.Library Trane.Gen Trane.Filters Trane.Gen.Knowledge

/-- `AssetBuilder`, /repo/src/course_builder.rs:32-39. -/
structure Asset where
  name : Str
  contents : Str
  deriving DecidableEq

/-- The files below a directory. /repo/src/course_builder/knowledge_base_builder.rs:32-70. -/
abbrev Dir := AMap Str Content

/-- Whether the path is a directory with something in it. /repo/src/course_builder.rs:45. -/
def isDir (d : Dir) (n : Str) : Bool := d.any (fun e => (n ++ "/".toList).isPrefixOf e.1)

/-- `Path::exists` of the path joined to the directory.  Joining the empty name, `.` or `..` gives an
existing directory. /repo/src/course_builder.rs:48. -/
def pathExists (d : Dir) (n : Str) : Bool :=
  n = [] || n = ".".toList || n = "..".toList || d.any (fun e => e.1 = n) || isDir d n

/-- Whether some file stands where `create_dir_all` of the parent of the path needs a directory.
/repo/src/course_builder.rs:45 and 55. -/
def blocked (d : Dir) (n : Str) : Bool := d.any (fun e => (e.1 ++ "/".toList).isPrefixOf n)

/-- The path up to and including its last slash. /repo/src/course_builder.rs:55. -/
def parent (n : Str) : Str := (n.reverse.dropWhile (· ≠ '/')).reverse

/-- Whether the parent of the path is an existing directory.
/repo/src/course_builder/knowledge_base_builder.rs:32-70. -/
def parentExists (d : Dir) (n : Str) : Bool :=
  parent n = [] || d.any (fun e => (parent n).isPrefixOf e.1)

/-- A file to be written: an asset, or a property as JSON.
/repo/src/course_builder/knowledge_base_builder.rs:32-70. -/
inductive Write
  | asset (a : Asset)
  | json (name : Str) (ct : Content)

/-- Writes one file; `false` is an error.
* asset: /repo/src/course_builder.rs:41-61 `AssetBuilder::build`, which fails if the path exists;
* json: `File::create` and `write_all`, for instance knowledge_base_builder.rs:41-49, which replaces an
  existing file. -/
def write (parse : Str → Content) (d : Dir) : Write → Dir × Bool
  | .asset a => if pathExists d a.name || blocked d a.name then (d, false)
      else (d.put a.name (parse a.contents), true)
  | .json n ct => if isDir d n || !parentExists d n then (d, false) else (d.put n ct, true)

/-- Writes files one after the other until one fails. /repo/src/course_builder/knowledge_base_builder.rs:32-145. -/
def writeAll (parse : Str → Content) : Dir → List Write → Dir × Bool
  | d, [] => (d, true)
  | d, w :: ws => match write parse d w with
    | (d', true) => writeAll parse d' ws
    | (d', false) => (d', false)

/-- `ExerciseBuilder`, knowledge_base_builder.rs:23-30, with the fields of the exercise that are used. -/
structure ExerciseB where
  shortId : Str
  name : Option Str := none
  descr : Option Str := none
  type : Option Str := none
  assets : List Asset := []

/-- /repo/src/course_builder/knowledge_base_builder.rs:32-70 `ExerciseBuilder::build`: the files it writes, in order. -/
def exerciseWrites (e : ExerciseB) : List Write :=
  e.assets.map .asset ++
  e.name.toList.map (fun x => .json (e.shortId ++ exNameSuffix) { text := some x }) ++
  e.descr.toList.map (fun x => .json (e.shortId ++ exDescrSuffix) { text := some x }) ++
  e.type.toList.map (fun x => .json (e.shortId ++ exTypeSuffix) { type := some x })

/-- `LessonBuilder`, /repo/src/course_builder/knowledge_base_builder.rs:72-82, with the fields of the lesson that are
used. -/
structure LessonB where
  shortId : Str
  deps : List Str := []
  enc : List (Str × ℚ) := []
  sup : List Str := []
  name : Option Str := none
  descr : Option Str := none
  metadata : Option Metadata := none
  defaultType : Option Str := none
  exercises : List ExerciseB := []
  assets : List Asset := []

/-- /repo/src/course_builder/knowledge_base_builder.rs:84-145 `LessonBuilder::build`: the files it writes, in order. -/
def lessonWrites (l : LessonB) : List Write :=
  l.assets.map .asset ++
  l.exercises.flatMap exerciseWrites ++
  l.name.toList.map (fun x => .json nameFile { text := some x }) ++
  l.descr.toList.map (fun x => .json descrFile { text := some x }) ++
  (if l.deps = [] then [] else [.json depsFile { ids := some l.deps }]) ++
  (if l.sup = [] then [] else [.json supFile { ids := some l.sup }]) ++
  (if l.enc = [] then [] else [.json encFile { weights := some l.enc }]) ++
  l.metadata.toList.map (fun x => .json metadataFile { metadata := some x }) ++
  l.defaultType.toList.map (fun x => .json defaultTypeFile { type := some x })

/-- /repo/src/course_builder/knowledge_base_builder.rs:84-145 `LessonBuilder::build` in the given directory. -/
def buildLesson (parse : Str → Content) (d : Dir) (l : LessonB) : Dir × Bool :=
  writeAll parse d (lessonWrites l)

variable {α γ : Type}

/-- The directory of a course: its subdirectories and its manifest.  Other files in it are left out.
/repo/src/course_builder/knowledge_base_builder.rs:162-200. -/
structure CourseDir (α γ : Type) where
  dirs : AMap Str Dir := []
  manifest : Option (CourseM α γ) := none

/-- The name of the directory of a lesson. /repo/src/course_builder/knowledge_base_builder.rs:184-191. -/
def lessonDir (s : Str) : Str := s ++ lessonSuffix

/-- What the generator finds when it lists the directory and its subdirectories: entries directly inside.
A lesson with a slash in its short id lies deeper, and so does a file with a slash in its name.
Simplification: the directory above such a lesson is left out.
/repo/src/data/course_generator/knowledge_base.rs:489 and 647. -/
def listing (c : CourseDir α γ) : List (Str × List (Str × Content)) :=
  (c.dirs.filter (fun d => !d.1.contains '/')).map
    (fun d => (d.1, d.2.filter (fun f => !f.1.contains '/')))

/-! ### `CourseBuilder` -/

/-- /repo/src/course_builder/knowledge_base_builder.rs:184-191: the lessons, each in its own directory, which may
exist already. -/
def buildLessons (parse : Str → Content) : AMap Str Dir → List LessonB → AMap Str Dir × Bool
  | ds, [] => (ds, true)
  | ds, l :: ls =>
    let r := buildLesson parse ((ds.find (lessonDir l.shortId)).getD []) l
    let ds' := ds.put (lessonDir l.shortId) r.1
    if r.2 then buildLessons parse ds' ls else (ds', false)

/-- /repo/src/course_builder/knowledge_base_builder.rs:162-200 `CourseBuilder::build`. `existing` is whether the
course directory exists. The assets of the course are left out: they lie outside the directories of the lessons. -/
def buildCourse (parse : Str → Content) (existing : Bool) (lessons : List LessonB)
    (manifest : CourseM α γ) : Option (CourseDir α γ) × Bool :=
  if existing then (none, false)
  else
    let r := buildLessons parse [] lessons
    if r.2 then (some { dirs := r.1, manifest := some manifest }, true)
    else (some { dirs := r.1, manifest := none }, false)

/-! ### `SimpleKnowledgeBaseCourse` -/

/-- /repo/src/course_builder/knowledge_base_builder.rs:206-217 `SimpleKnowledgeBaseExercise`. -/
structure SimpleExercise where
  shortId : Str
  front : List Str
  back : List Str := []

/-- `lines.join("\n")`. As in /repo/src/course_builder/knowledge_base_builder.rs:239. -/
def joinLines : List Str → Str
  | [] => []
  | [x] => x
  | x :: xs => x ++ ['\n'] ++ joinLines xs

/-- /repo/src/course_builder/knowledge_base_builder.rs:219-263 `generate_exercise_builder`; `none` is an error. -/
def exerciseBuilder (e : SimpleExercise) : Option ExerciseB :=
  if e.shortId = [] then none
  else some
    { shortId := e.shortId
      assets := ⟨e.shortId ++ frontSuffix, joinLines e.front⟩ ::
        (if e.back = [] then [] else [⟨e.shortId ++ backSuffix, joinLines e.back⟩]) }

/-- /repo/src/course_builder/knowledge_base_builder.rs:271-299 `SimpleKnowledgeBaseLesson`. -/
structure SimpleLesson where
  shortId : Str
  deps : List Str := []
  sup : List Str := []
  enc : List (Str × ℚ) := []
  exercises : List SimpleExercise := []
  metadata : Option Metadata := none
  additional : List Asset := []

/-- /repo/src/course_builder/knowledge_base_builder.rs:302-355 `generate_lesson_builder`; `none` is an error. -/
def lessonBuilder (l : SimpleLesson) : Option LessonB :=
  if l.shortId = [] then none
  else if ¬ (l.exercises.map (·.shortId)).Nodup then none
  else (l.exercises.mapM exerciseBuilder).map (fun es =>
    { shortId := l.shortId
      deps := l.deps
      enc := l.enc
      sup := l.sup
      metadata := l.metadata
      exercises := es
      assets := l.additional })

/-- /repo/src/course_builder/knowledge_base_builder.rs:361-373 `SimpleKnowledgeBaseCourse`. -/
structure SimpleCourse (α γ : Type) where
  manifest : CourseM α γ
  enc : List (Str × ℚ) := []
  lessons : List SimpleLesson := []

/-- /repo/src/course_builder/knowledge_base_builder.rs:380-396: the lesson builders; `none` is an error. -/
def lessonBuilders (c : SimpleCourse α γ) : Option (List LessonB) :=
  if ¬ (c.lessons.map (·.shortId)).Nodup then none
  else c.lessons.mapM lessonBuilder

/-- /repo/src/course_builder/knowledge_base_builder.rs:398-401: the manifest that is written. -/
def finalManifest (c : SimpleCourse α γ) : CourseM α γ :=
  if c.enc = [] then c.manifest else { c.manifest with enc := c.enc }

/-- /repo/src/course_builder/knowledge_base_builder.rs:403-419: removes the directory of each lesson and writes it
anew. -/
def rebuildLessons (parse : Str → Content) : AMap Str Dir → List LessonB → AMap Str Dir × Bool
  | ds, [] => (ds, true)
  | ds, l :: ls =>
    let r := buildLesson parse [] l
    let ds' := ds.put (lessonDir l.shortId) r.1
    if r.2 then rebuildLessons parse ds' ls else (ds', false)

/-- /repo/src/course_builder/knowledge_base_builder.rs:376-431 `SimpleKnowledgeBaseCourse::build` in an existing
directory. -/
def buildSimple (parse : Str → Content) (root : CourseDir α γ) (c : SimpleCourse α γ) :
    CourseDir α γ × Bool :=
  match lessonBuilders c with
  | none => (root, false)
  | some ls =>
    let r := rebuildLessons parse root.dirs ls
    if r.2 then ({ dirs := r.1, manifest := some (finalManifest c) }, true)
    else ({ root with dirs := r.1 }, false)

end Trane.Gen.Builder
