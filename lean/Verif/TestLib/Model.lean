import Verif.Library.BuildSucceeds
import Verif.Tree.Built
import Verif.Gen.Ids

/-!
# Test libraries

Models `/repo/src/test_utils.rs`: libraries made of test courses, and random ones for stress tests.

* Numbers are below 2^64 where they are read.  The weights have the type `F` with the value `val`.
* The courses are built one after the other; `init_test_simulation` (lines 539-556) builds them in parallel, in different
  directories if their ids differ.
* `rand::rng` is a parameter: the numbers it yields. -/

namespace Trane.TestLib
open Trane.Store (Str)
open Trane.Library
open Trane.CourseBuilder
open Trane.Tree (Rest courseM lessonM exerciseM)
open Trane.Json (Generator natOf usizeSize)
open Trane.Gen (dec)
open Trane.Filters (Metadata)

/-! ### Ids -/

/-- `TestId`, /repo/src/test_utils.rs:37-38. -/
structure TestId where
  course : Nat
  lesson : Option Nat := none
  exercise : Option Nat := none
  deriving DecidableEq

namespace TestId

/-- /repo/src/test_utils.rs:44-46. -/
def exerciseInLesson (t l : TestId) : Bool := t.course = l.course && t.lesson = l.lesson && t.exercise.isSome
/-- /repo/src/test_utils.rs:51-53. -/
def exerciseInCourse (t c : TestId) : Bool := t.course = c.course && t.lesson.isSome && t.exercise.isSome
/-- /repo/src/test_utils.rs:63-65. -/
def isCourse (t : TestId) : Bool := t.lesson.isNone && t.exercise.isNone
/-- /repo/src/test_utils.rs:69-71. -/
def isLesson (t : TestId) : Bool := t.lesson.isSome && t.exercise.isNone
/-- /repo/src/test_utils.rs:75-77. -/
def isExercise (t : TestId) : Bool := t.lesson.isSome && t.exercise.isSome

/-- `fmt` and `to_ustr`, /repo/src/test_utils.rs:57-59 and 80-92. -/
def text (t : TestId) : Str :=
  dec t.course ++ (t.lesson.elim [] (fun n => "::".toList ++ dec n)) ++
    (t.exercise.elim [] (fun n => "::".toList ++ dec n))

end TestId

/-- `str::split("::")`. As in /repo/src/test_utils.rs:97. -/
def splitParts : Str → List Str
  | [] => [[]]
  | ':' :: ':' :: s => [] :: splitParts s
  | c :: s =>
    match splitParts s with
    | [] => [[c]]
    | p :: ps => (c :: p) :: ps

/-- `str::parse::<usize>`: digits, with an optional plus sign. As in /repo/src/test_utils.rs:98. -/
def parseUsize : Str → Option Nat
  | '+' :: s => natOf usizeSize s
  | s => natOf usizeSize s

/-- An optional part. /repo/src/test_utils.rs:99-100. -/
def parsePart : Option Str → Option (Option Nat)
  | none => some none
  | some s => (parseUsize s).map some

/-- `TestId::from`, /repo/src/test_utils.rs:94-103; `none` is a panic. -/
def TestId.ofText (s : Str) : Option TestId := do
  let parts := splitParts s
  let course ← parts.head?.bind parseUsize
  let lesson ← parsePart parts[1]?
  let exercise ← parsePart parts[2]?
  some ⟨course, lesson, exercise⟩

/-! ### Courses -/

variable {F : Type}

/-- `TestLesson`, /repo/src/test_utils.rs:106-124. -/
structure TestLesson (F : Type) where
  id : TestId
  dependencies : List TestId := []
  encompassed : List (TestId × F) := []
  superseded : List TestId := []
  metadata : Metadata := []
  numExercises : Nat

/-- `TestCourse`, /repo/src/test_utils.rs:213-231. -/
structure TestCourse (F : Type) where
  id : TestId
  dependencies : List TestId := []
  encompassed : List (TestId × F) := []
  superseded : List TestId := []
  metadata : Metadata := []
  lessons : List (TestLesson F) := []

/-- A file in the directory. As in /repo/src/test_utils.rs:149-156. -/
def file (name contents : String) : Asset := ⟨[name.toList], contents.toList⟩

/-- The manifest of the exercise that the builder makes of the template, /repo/src/test_utils.rs:141-149 and 190-199. -/
def exerciseManifest (l : TestId) (i : Nat) : Json.ExerciseManifest :=
  let id := (TestId.mk l.course l.lesson (some i)).text
  { id := id
    lessonId := l.text
    courseId := (TestId.mk l.course none none).text
    name := "Exercise ".toList ++ id
    description := some ("Description for exercise ".toList ++ id)
    declarative := false
    asset := .flashcard "question.md".toList (some "answer.md".toList) }

/-- The builder of an exercise, /repo/src/test_utils.rs:134-163. -/
def exerciseBuilder (l : TestId) (i : Nat) : ExerciseB Rest where
  dir := "exercise_".toList ++ dec i
  manifest := some (exerciseM (exerciseManifest l i))
  assets := [file "question.md" "question", file "answer.md" "answer"]

/-- The manifest of the lesson, /repo/src/test_utils.rs:172-189 and 278-287. -/
def lessonManifest (l : TestLesson F) : Json.LessonManifest F where
  id := l.id.text
  dependencies := l.dependencies.map TestId.text
  encompassed := l.encompassed.map (fun e => (e.1.text, e.2))
  superseded := l.superseded.map TestId.text
  courseId := (TestId.mk l.id.course none none).text
  name := "Lesson ".toList ++ l.id.text
  description := some ("Description for lesson ".toList ++ l.id.text)
  metadata := some l.metadata
  material := some (.markdown "material.md".toList)
  instructions := some (.markdown "instructions.md".toList)

/-- `TestLesson::lesson_builder`, /repo/src/test_utils.rs:129-209; the course id of the template is in lines 278-279. -/
def lessonBuilder (val : F → ℚ) (l : TestLesson F) : Option (LessonB Rest) :=
  if l.id.isLesson then
    some {
      dir := "lesson_".toList ++ dec (l.id.lesson.getD 0)
      manifest := some (lessonM val (lessonManifest l))
      exercises := (List.range l.numExercises).map (exerciseBuilder l.id)
      assets := [file "instructions.md" "instructions", file "material.md" "material"] }
  else none

/-- The manifest of the course, /repo/src/test_utils.rs:257-277. -/
def courseManifest (c : TestCourse F) : Json.CourseManifest F where
  id := c.id.text
  name := "Course ".toList ++ c.id.text
  dependencies := c.dependencies.map TestId.text
  encompassed := c.encompassed.map (fun e => (e.1.text, e.2))
  superseded := c.superseded.map TestId.text
  description := some ("Description for course ".toList ++ c.id.text)
  authors := none
  metadata := some c.metadata
  material := some (.markdown "material.md".toList)
  instructions := some (.markdown "instructions.md".toList)
  generator := none

/-- `TestCourse::course_builder`, /repo/src/test_utils.rs:236-300. -/
def courseBuilder (val : F → ℚ) (c : TestCourse F) : Option (CourseB Rest Generator) :=
  if c.id.isCourse then
    if c.lessons.all (fun l => l.id.course = c.id.course) then do
      let ls ← c.lessons.mapM (lessonBuilder val)
      some {
        dir := "course_".toList ++ dec c.id.course
        manifest := courseM val (courseManifest c)
        lessons := ls
        assets := [file "instructions.md" "instructions", file "material.md" "material"] }
    else none
  else none

/-- `TestCourse::all_exercises`, /repo/src/test_utils.rs:303-316. -/
def allExercises (c : TestCourse F) : List TestId :=
  c.lessons.flatMap (fun l => (List.range l.numExercises).map (fun i => ⟨c.id.course, l.id.lesson, some i⟩))

/-- `all_test_exercises`, /repo/src/test_utils.rs:321-328. -/
def allTestExercises (cs : List (TestCourse F)) : List TestId := cs.flatMap allExercises

/-! ### Random libraries -/

/-- `RandomCourseLibrary`, /repo/src/test_utils.rs:332-347. -/
structure RandomLibrary where
  numCourses : Nat
  courseDependencies : Nat × Nat
  lessonsPerCourse : Nat × Nat
  lessonDependencies : Nat × Nat
  exercisesPerLesson : Nat × Nat

section
variable (draws : Nat → Nat)

/-- `rng.random_range(lo..=hi)`, which panics if the range is empty.  The second number counts the draws.
As in /repo/src/test_utils.rs:352-430. -/
def between (r : Nat × Nat) (k : Nat) : Option (Nat × Nat) :=
  if r.2 < r.1 then none else some (r.1 + draws k % (r.2 - r.1 + 1), k + 1)

/-- The loops in /repo/src/test_utils.rs:362-368 and 379-389: `n` times one of the numbers below `b`, which is not 0
then, unless the list has it. -/
def pick (b : Nat) : Nat → List Nat → Nat → List Nat × Nat
  | 0, acc, k => (acc, k)
  | n + 1, acc, k =>
    let x := draws k % b
    pick b n (if acc.contains x then acc else acc ++ [x]) (k + 1)

/-- `generate_course_dependencies`, /repo/src/test_utils.rs:352-370, and `generate_lesson_dependencies`, lines
373-390: the indices. -/
def dependencies (r : Nat × Nat) (i : Nat) (k : Nat) : Option (List Nat × Nat) := do
  let (n, k) ← between draws r k
  some (pick draws i (min n i) [] k)

/-- The lessons of a course, /repo/src/test_utils.rs:402-419. -/
def randomLessons (F : Type) (R : RandomLibrary) (c : Nat) : Nat → Nat → Nat → Option (List (TestLesson F) × Nat)
  | 0, _, k => some ([], k)
  | n + 1, j, k => do
    let (m, k) ← between draws R.exercisesPerLesson k
    let (ds, k) ← dependencies draws R.lessonDependencies j k
    let (ls, k) ← randomLessons F R c n (j + 1) k
    some ({ id := ⟨c, some j, none⟩, dependencies := ds.map (fun d => ⟨c, some d, none⟩), numExercises := m } :: ls, k)

/-- The courses, /repo/src/test_utils.rs:397-431. -/
def randomCourses (F : Type) (R : RandomLibrary) : Nat → Nat → Nat → Option (List (TestCourse F) × Nat)
  | 0, _, k => some ([], k)
  | n + 1, i, k => do
    let (m, k) ← between draws R.lessonsPerCourse k
    let (ls, k) ← randomLessons draws F R i m 0 k
    let (ds, k) ← dependencies draws R.courseDependencies i k
    let (cs, k) ← randomCourses F R n (i + 1) k
    some ({ id := ⟨i, none, none⟩, dependencies := ds.map (fun d => ⟨d, none, none⟩), lessons := ls } :: cs, k)

/-- `generate_library`, /repo/src/test_utils.rs:394-433; `none` is a panic. -/
def generateLibrary (F : Type) (R : RandomLibrary) : Option (List (TestCourse F)) :=
  (randomCourses draws F R R.numCourses 0 0).map Prod.fst

end

end Trane.TestLib
