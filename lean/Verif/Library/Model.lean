import Verif.Graph.Cycles
import Verif.Data.Filter
import Mathlib.Data.List.Sort
import Mathlib.Data.Char
import Mathlib.Data.List.Lex

/-!
# Model of `LocalCourseLibrary` (/repo/src/course_library.rs)

Opening a library reads manifests from disk, verifies them, runs the generators and hands the result
to `process_results`, which fills the unit graph and the three manifest maps.

The disk is a parameter (`Disk`): which files there are, in which order a directory walk returns them
and what reading each of them gives.  Parsing JSON and resolving the asset paths of a manifest
(`normalize_paths`) are part of "reading"; `none` is any failure.  File names are taken to be valid
UTF-8 (another name makes `get_file_name` fail).  Entries a walk cannot read are absent from the disk,
because the code drops them with `.flatten()`.  Manifest fields that play no part here (name,
description, assets, ...) are one opaque value `rest : α`; the generator configuration is an opaque
`γ`.  `Arc` and the lock around the graph are dropped: opening is done by one thread. -/

namespace Trane.Library
open Trane.Store Trane.Filters

/-- /repo/src/data.rs:353-432 `CourseManifest`. -/
structure CourseM (α γ : Type) where
  id : Str
  deps : List Str
  enc : List (Str × ℚ)
  sup : List Str
  metadata : Option Metadata
  instructions : Option α
  gen : Option γ
  rest : α

/-- /repo/src/data.rs:480-545 `LessonManifest`. -/
structure LessonM (α : Type) where
  id : Str
  deps : List Str
  enc : List (Str × ℚ)
  sup : List Str
  courseId : Str
  metadata : Option Metadata
  rest : α

/-- /repo/src/data.rs:746-780 `ExerciseManifest`. -/
structure ExerciseM (α : Type) where
  id : Str
  lessonId : Str
  courseId : Str
  rest : α

/-- `OpenCourseResult`, /repo/src/course_library.rs:129-136. -/
structure Opened (α γ : Type) where
  manifest : CourseM α γ
  lessons : List (LessonM α × List (ExerciseM α))

/-- `LocalCourseLibrary`, /repo/src/course_library.rs:157-171.  The user preferences are arguments of
the functions that read them. -/
structure Lib (α γ : Type) where
  graph : Graph Str := {}
  courses : AMap Str (CourseM α γ) := []
  lessons : AMap Str (LessonM α) := []
  exercises : AMap Str (ExerciseM α) := []

variable {α γ : Type}

/-! ### `process_results` -/

/-- A graph call followed by `?`. As in /repo/src/course_library.rs:358-401. -/
def tryOp {ι : Type} [DecidableEq ι] (g : Graph ι) (o : Graph.Op ι) : Option (Graph ι) :=
  if (g.step o).2 then some (g.step o).1 else none

/-- The body of the innermost loop, /repo/src/course_library.rs:404-408. -/
def addExerciseM (s : Lib α γ × Bool) (m : ExerciseM α) : Option (Lib α γ × Bool) := do
  let g ← tryOp s.1.graph (.addExercise m.id m.lessonId)
  some ({ s.1 with graph := g, exercises := s.1.exercises.put m.id m }, s.2)

/-- /repo/src/course_library.rs:382-401: one lesson without its exercises.  The second component is the flag
`encompassing_equals_dependency`. -/
def addLessonM (s : Lib α γ × Bool) (m : LessonM α) : Option (Lib α γ × Bool) := do
  let g ← tryOp s.1.graph (.addLesson m.id m.courseId)
  let g ← tryOp g (.addDependencies m.id .lesson m.deps)
  let g ← tryOp g (.addEncompassed m.id m.deps m.enc)
  let g := g.addSuperseded m.id m.sup
  let flag := if m.enc.isEmpty then s.2 else false
  some ({ s.1 with graph := g, lessons := s.1.lessons.put m.id m }, flag)

/-- /repo/src/course_library.rs:358-379: one course without its lessons. -/
def addCourseM (s : Lib α γ × Bool) (m : CourseM α γ) : Option (Lib α γ × Bool) := do
  let g ← tryOp s.1.graph (.addCourse m.id)
  let g ← tryOp g (.addDependencies m.id .course m.deps)
  let g ← tryOp g (.addEncompassed m.id m.deps m.enc)
  let g := g.addSuperseded m.id m.sup
  let flag := if m.enc.isEmpty then s.2 else false
  some ({ s.1 with graph := g, courses := s.1.courses.put m.id m }, flag)

/-- The body of the loop over the lessons, /repo/src/course_library.rs:381-409. -/
def addLessonAll (s : Lib α γ × Bool) (l : LessonM α × List (ExerciseM α)) :
    Option (Lib α γ × Bool) := do
  let s ← addLessonM s l.1
  l.2.foldlM addExerciseM s

/-- The body of the loop over the courses, /repo/src/course_library.rs:357-410. -/
def addCourseAll (s : Lib α γ × Bool) (c : Opened α γ) : Option (Lib α γ × Bool) := do
  let s ← addCourseM s c.manifest
  c.lessons.foldlM addLessonAll s

/-- /repo/src/course_library.rs:351-424 `process_results` on an empty library.  The outer `none` is
"the cycle check ran out of fuel", the inner one is `Err`. -/
def processResults (o : Graph.KeyOrder Str) (fuel : Nat) (cs : List (Opened α γ)) :
    Option (Option (Lib α γ)) :=
  match cs.foldlM addCourseAll ({}, true) with
  | none => some none
  | some (s, flag) =>
    let g := s.graph.updateStartingLessons
    let g := if flag then g.setEncompassingEqualsDependency else g
    match g.checkCycles o fuel with
    | none => none
    | some (.error _) => some none
    | some (.ok _) => some (some { s with graph := g })

/-! ### Paths -/

/-- A path relative to the library root, as its components. /repo/src/course_library.rs:453. -/
abbrev Path := List Str

/-- A path as the components `Path::components` yields, with whether it starts at the root.
/repo/src/course_library.rs:437-448. -/
structure FPath where
  abs : Bool
  comps : List Str
  deriving DecidableEq

/-- Drops the `.` components. /repo/src/course_library.rs:437. -/
def noDots (p : List Str) : List Str := p.filter (fun c => c ≠ ['.'])

/-- `std::path::absolute`: a relative path is put below the current directory `cwd`.
/repo/src/course_library.rs:437. -/
def FPath.absolute (cwd : List Str) (p : FPath) : FPath :=
  if p.abs then p else ⟨true, cwd ++ noDots p.comps⟩

/-- `PathBuf::push`: an absolute argument replaces the path. /repo/src/course_library.rs:438-448. -/
def FPath.push (p q : FPath) : FPath := if q.abs then q else ⟨p.abs, p.comps ++ noDots q.comps⟩

/-- `Path::starts_with`: whole components. /repo/src/course_library.rs:472. -/
def FPath.startsWith (p q : FPath) : Bool := p.abs = q.abs && q.comps.isPrefixOf p.comps

/-! ### Reading a library -/

/-- What a generator returns, `GeneratedCourse` in /repo/src/data.rs:292-302. -/
structure Generated (α : Type) where
  lessons : List (LessonM α × List (ExerciseM α))
  metadata : Option Metadata
  instructions : Option α

/-- What the code sees of the file system. /repo/src/course_library.rs:251-272, 317-342 and 453-478. -/
structure Disk (α γ : Type) where
  /-- The current directory. -/
  cwd : List Str
  /-- The library root as given by the caller. -/
  root : FPath
  /-- `WalkDir::new(dir)`: the entries below `dir` that are not directories, in walk order. -/
  walk : Path → List Path
  /-- Opening, parsing and normalizing a course manifest. -/
  course : Path → Option (CourseM α γ)
  lesson : Path → Option (LessonM α)
  exercise : Path → Option (ExerciseM α)
  /-- `generate_manifests(course_root, manifest, preferences)`. -/
  generate : γ → Path → CourseM α γ → Option (Generated α)

/-- `COURSE_MANIFEST_FILENAME`, /repo/src/course_library.rs:30. -/
def courseFile : Str := "course_manifest.json".toList
/-- `LESSON_MANIFEST_FILENAME`, /repo/src/course_library.rs:33. -/
def lessonFile : Str := "lesson_manifest.json".toList
/-- `EXERCISE_MANIFEST_FILENAME`, /repo/src/course_library.rs:36. -/
def exerciseFile : Str := "exercise_manifest.json".toList

/-- /repo/src/course_library.rs:197-215. -/
def verifyExercise (l : LessonM α) (e : ExerciseM α) : Bool :=
  !e.id.isEmpty && e.lessonId = l.id && e.courseId = l.courseId

/-- /repo/src/course_library.rs:220-233. -/
def verifyLesson (c : CourseM α γ) (l : LessonM α) : Bool := !l.id.isEmpty && l.courseId = c.id

/-- /repo/src/course_library.rs:278-282. -/
def verifyCourse (c : CourseM α γ) : Bool := !c.id.isEmpty

/-- The entries of a walk at depth exactly two with the given file name.
/repo/src/course_library.rs:251-258 and 317-324. -/
def filesAt (d : Disk α γ) (dir : Path) (name : Str) : List Path :=
  (d.walk dir).filter (fun p => p.length = dir.length + 2 && p.getLast? = some name)

/-- The body of the loop in /repo/src/course_library.rs:252-272. -/
def openExercise (d : Disk α γ) (l : LessonM α) (p : Path) : Option (ExerciseM α) := do
  let e ← d.exercise p
  if verifyExercise l e then some e else none

/-- /repo/src/course_library.rs:238-275 `process_lesson_manifest`. -/
def processLesson (d : Disk α γ) (dir : Path) (c : CourseM α γ) (l : LessonM α) :
    Option (LessonM α × List (ExerciseM α)) :=
  if verifyLesson c l then do
    let es ← (filesAt d dir exerciseFile).mapM (openExercise d l)
    some (l, es)
  else none

/-- The body of the loop in /repo/src/course_library.rs:317-342. -/
def openLesson (d : Disk α γ) (c : CourseM α γ) (p : Path) :
    Option (LessonM α × List (ExerciseM α)) := do
  let l ← d.lesson p
  processLesson d p.dropLast c l

/-- /repo/src/course_library.rs:299-311: the course manifest after its generator ran. -/
def updated (c : CourseM α γ) (g : Generated α) : CourseM α γ :=
  { c with
    metadata := g.metadata.or c.metadata
    instructions := g.instructions.or c.instructions }

/-- /repo/src/course_library.rs:292-311: the manifest and the generated lessons. -/
def runGenerator (d : Disk α γ) (dir : Path) (c : CourseM α γ) :
    Option (CourseM α γ × List (LessonM α × List (ExerciseM α))) :=
  match c.gen with
  | none => some (c, [])
  | some cfg => do
    let g ← d.generate cfg dir c
    some (updated c g, g.lessons)

/-- /repo/src/course_library.rs:286-348 `process_course_manifest`. -/
def processCourse (d : Disk α γ) (dir : Path) (c : CourseM α γ) : Option (Opened α γ) :=
  if verifyCourse c then do
    let (c, generated) ← runGenerator d dir c
    let found ← (filesAt d dir lessonFile).mapM (openLesson d c)
    some ⟨c, generated ++ found⟩
  else none

/-- /repo/src/course_library.rs:438-448: the ignored paths made absolute. -/
def ignoredPaths (d : Disk α γ) (prefs : List FPath) : List FPath :=
  prefs.map (fun p => (d.root.absolute d.cwd).push p)

/-- `entry.path()`: the root as given followed by the walked components. /repo/src/course_library.rs:472. -/
def entryPath (d : Disk α γ) (p : Path) : FPath := ⟨d.root.abs, d.root.comps ++ p⟩

/-- The walk of /repo/src/course_library.rs:454-478: course manifests at depth two or more that are not ignored. -/
def courseFiles (d : Disk α γ) (prefs : List FPath) : List Path :=
  (d.walk []).filter (fun p => 2 ≤ p.length && p.getLast? = some courseFile &&
    !(ignoredPaths d prefs).any (fun i => (entryPath d p).startsWith i))

/-- /repo/src/course_library.rs:480-493: every course manifest is read before the first course is processed, and the
courses are processed in parallel; `collect` keeps their order. -/
def openCourses (d : Disk α γ) (prefs : List FPath) : Option (List (Opened α γ)) := do
  let ms ← (courseFiles d prefs).mapM (fun p => (d.course p).map (fun m => (p.dropLast, m)))
  ms.mapM (fun x => processCourse d x.1 x.2)

/-- /repo/src/course_library.rs:427-496 `LocalCourseLibrary::new`. -/
def openLibrary (o : Graph.KeyOrder Str) (fuel : Nat) (d : Disk α γ) (prefs : List FPath) :
    Option (Option (Lib α γ)) :=
  match openCourses d prefs with
  | none => some none
  | some cs => processResults o fuel cs

/-! ### Queries -/

/-- `Vec<Ustr>::sort()`; strings compare by code points. As in /repo/src/course_library.rs:540. -/
def sortIds (l : List Str) : List Str := l.insertionSort (· ≤ ·)

namespace Lib
/-- /repo/src/course_library.rs:526-528. -/
def getCourseManifest (s : Lib α γ) (u : Str) : Option (CourseM α γ) := s.courses.find u
/-- /repo/src/course_library.rs:530-532. -/
def getLessonManifest (s : Lib α γ) (u : Str) : Option (LessonM α) := s.lessons.find u
/-- /repo/src/course_library.rs:534-536. -/
def getExerciseManifest (s : Lib α γ) (u : Str) : Option (ExerciseM α) := s.exercises.find u
/-- /repo/src/course_library.rs:538-542. -/
def getCourseIds (s : Lib α γ) : List Str := sortIds s.courses.keys
/-- /repo/src/course_library.rs:544-554. -/
def getLessonIds (s : Lib α γ) (c : Str) : Option (List Str) := (s.graph.getCourseLessons c).map sortIds
/-- /repo/src/course_library.rs:556-566. -/
def getExerciseIds (s : Lib α γ) (l : Str) : Option (List Str) :=
  (s.graph.getLessonExercises l).map sortIds
/-- /repo/src/course_library.rs:568-607. -/
def getAllExerciseIds (s : Lib α γ) (u : Option Str) : List Str :=
  sortIds (match u with
    | some u =>
      match s.graph.getUnitType u with
      | some .course => ((s.graph.getCourseLessons u).getD []).flatMap
          (fun l => (s.graph.getLessonExercises l).getD [])
      | some .lesson => (s.graph.getLessonExercises u).getD []
      | some .exercise => [u]
      | none => []
    | none => s.exercises.keys)
/-- /repo/src/course_library.rs:609-653. -/
def getMatchingPrefix (s : Lib α γ) (pre : Str) (t : Option UnitType) : List Str :=
  match t with
  | some .course => extendSet [] (s.courses.keys.filter (pre.isPrefixOf ·))
  | some .lesson => extendSet [] (s.lessons.keys.filter (pre.isPrefixOf ·))
  | some .exercise => extendSet [] (s.exercises.keys.filter (pre.isPrefixOf ·))
  | none => extendSet []
      ((s.courses.keys ++ s.lessons.keys ++ s.exercises.keys).filter (pre.isPrefixOf ·))
end Lib

end Trane.Library
