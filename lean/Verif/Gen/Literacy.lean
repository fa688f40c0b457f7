import Verif.Gen.Ids

/-!
# Model of the literacy generator (/repo/src/data/course_generator/literacy.rs)

The course directory is a parameter: its subdirectories with the files in each of them.  A file is given
by its name and by what each way of reading it yields (`none` for a failure); JSON, YAML and line
splitting are part of reading.  Directory entries that cannot be read are absent (`.flatten()`), and
names are valid UTF-8.  Names, descriptions, instructions and asset values of manifests are opaque:
`lessonRest` and `exerciseRest` build them from the lesson. -/

namespace Trane.Gen.Literacy
open Trane.Store Trane.Library Trane.Gen Trane.Filters

/-- `str::strip_suffix`. As in /repo/src/data/course_generator/literacy.rs:197. -/
def stripSuffix (suf s : Str) : Option Str :=
  if suf.isSuffixOf s then some (s.take (s.length - suf.length)) else none

/-- /repo/src/data/course_generator/literacy.rs:85-131 `LiteracyFile`.  `CourseInstructions` is never
produced by `try_from` and is left out. -/
inductive File
  | deps | enc | sup | name | descr | instr
  | example (id : Str) | exception (id : Str)
  | exampleAnswer (id : Str) | exceptionAnswer (id : Str)
  | simpleExamples | simpleExceptions
  | simpleExamplesAnswers | simpleExceptionsAnswers
  deriving DecidableEq

/-- /repo/src/data/course_generator/literacy.rs:35-82: the file names and suffixes. -/
def lessonSuffix : Str := ".lesson".toList
/-- /repo/src/data/course_generator/literacy.rs:37. -/
def depsFile : Str := "lesson.dependencies.json".toList
/-- /repo/src/data/course_generator/literacy.rs:40. -/
def encFile : Str := "lesson.encompassed.json".toList
/-- /repo/src/data/course_generator/literacy.rs:43. -/
def supFile : Str := "lesson.superseded.json".toList
/-- /repo/src/data/course_generator/literacy.rs:46. -/
def nameFile : Str := "lesson.name.json".toList
/-- /repo/src/data/course_generator/literacy.rs:49. -/
def descrFile : Str := "lesson.description.json".toList
/-- /repo/src/data/course_generator/literacy.rs:52. -/
def instrFile : Str := "lesson.instructions.md".toList
/-- /repo/src/data/course_generator/literacy.rs:61. -/
def exampleSuffix : Str := ".example.md".toList
/-- /repo/src/data/course_generator/literacy.rs:64. -/
def exceptionSuffix : Str := ".exception.md".toList
/-- /repo/src/data/course_generator/literacy.rs:67. -/
def answerSuffix : Str := ".answer.md".toList
/-- /repo/src/data/course_generator/literacy.rs:70. -/
def exceptionAnswerSuffix : Str := ".exception_answer.md".toList
/-- /repo/src/data/course_generator/literacy.rs:73. -/
def simpleExamplesFile : Str := "simple_examples.md".toList
/-- /repo/src/data/course_generator/literacy.rs:76. -/
def simpleExceptionsFile : Str := "simple_exceptions.md".toList
/-- /repo/src/data/course_generator/literacy.rs:79. -/
def simpleExamplesAnswersFile : Str := "simple_examples_with_answers.yaml".toList
/-- /repo/src/data/course_generator/literacy.rs:82. -/
def simpleExceptionsAnswersFile : Str := "simple_exceptions_with_answers.yaml".toList

/-- /repo/src/data/course_generator/literacy.rs:184-219 `TryFrom<&str> for LiteracyFile`; `none` is `Err`. -/
def classify (n : Str) : Option File :=
  if n = depsFile then some .deps
  else if n = encFile then some .enc
  else if n = supFile then some .sup
  else if n = nameFile then some .name
  else if n = descrFile then some .descr
  else if n = instrFile then some .instr
  else match stripSuffix exampleSuffix n with
    | some s => some (.example s)
    | none => match stripSuffix exceptionSuffix n with
      | some s => some (.exception s)
      | none => match stripSuffix answerSuffix n with
        | some s => some (.exampleAnswer s)
        | none => match stripSuffix exceptionAnswerSuffix n with
          | some s => some (.exceptionAnswer s)
          | none =>
            if n = simpleExamplesFile then some .simpleExamples
            else if n = simpleExceptionsFile then some .simpleExceptions
            else if n = simpleExamplesAnswersFile then some .simpleExamplesAnswers
            else if n = simpleExceptionsAnswersFile then some .simpleExceptionsAnswers
            else none

/-- What reading a file yields: as a JSON list of ids, of ids with weights, as a JSON string, as text,
as a list of non-empty trimmed lines, and as a YAML list of entries with optional answers
(/repo/src/data/course_generator/literacy.rs:134-180). -/
structure Content where
  ids : Option (List Str) := none
  weights : Option (List (Str × ℚ)) := none
  text : Option Str := none
  md : Option Str := none
  lines : Option (List Str) := none
  entries : Option (List (Str × Option Str)) := none

/-- /repo/src/data/course_generator/literacy.rs:273-311 `LiteracyLesson`. -/
structure Lesson where
  shortId : Str
  deps : List Str := []
  enc : List (Str × ℚ) := []
  sup : List Str := []
  name : Option Str := none
  descr : Option Str := none
  instr : Option Str := none
  examples : List (Str × Option Str) := []
  exceptions : List (Str × Option Str) := []

/-- /repo/src/data/course_generator/literacy.rs:336-353: the answers to the examples and to the exceptions. -/
def answerStep (acc : AMap Str Str × AMap Str Str) (f : File × Content) :
    Option (AMap Str Str × AMap Str Str) :=
  match f.1 with
  | .exampleAnswer id => f.2.md.map (fun t => (acc.1.put id t, acc.2))
  | .exceptionAnswer id => f.2.md.map (fun t => (acc.1, acc.2.put id t))
  | _ => some acc

/-- /repo/src/data/course_generator/literacy.rs:357-439: one file of the second loop. -/
def fileStep (ans : AMap Str Str × AMap Str Str) (l : Lesson) (f : File × Content) : Option Lesson :=
  match f.1 with
  | .deps => f.2.ids.map (fun x => { l with deps := x })
  | .enc => f.2.weights.map (fun x => { l with enc := x })
  | .sup => f.2.ids.map (fun x => { l with sup := x })
  | .name => f.2.text.map (fun x => { l with name := some x })
  | .descr => f.2.text.map (fun x => { l with descr := some x })
  | .instr => f.2.md.map (fun x => { l with instr := some x })
  | .example id => f.2.md.map (fun x => { l with examples := l.examples ++ [(x, ans.1.find id)] })
  | .exception id =>
    f.2.md.map (fun x => { l with exceptions := l.exceptions ++ [(x, ans.2.find id)] })
  | .exampleAnswer _ => some l
  | .exceptionAnswer _ => some l
  | .simpleExamples =>
    f.2.lines.map (fun x => { l with examples := l.examples ++ x.map (fun e => (e, none)) })
  | .simpleExceptions =>
    f.2.lines.map (fun x => { l with exceptions := l.exceptions ++ x.map (fun e => (e, none)) })
  | .simpleExamplesAnswers => f.2.entries.map (fun x => { l with examples := l.examples ++ x })
  | .simpleExceptionsAnswers => f.2.entries.map (fun x => { l with exceptions := l.exceptions ++ x })

/-- The order of `Option<String>` and of pairs used by `sort()`.
/repo/src/data/course_generator/literacy.rs:443-444. -/
def pairLe (a b : Str × Option Str) : Bool :=
  decide (a.1 < b.1) || (decide (a.1 = b.1) && match a.2, b.2 with
    | none, _ => true
    | some _, none => false
    | some x, some y => decide (x ≤ y))

/-- /repo/src/data/course_generator/literacy.rs:315-446 `create_lesson`. -/
def createLesson (shortId : Str) (files : List (File × Content)) : Option Lesson := do
  let ans ← files.foldlM answerStep ([], [])
  let l ← files.foldlM (fileStep ans) { shortId := shortId }
  some { l with
    examples := l.examples.insertionSort (fun a b => pairLe a b = true)
    exceptions := l.exceptions.insertionSort (fun a b => pairLe a b = true) }

/-- /repo/src/data/course_generator/literacy.rs:449-461 `open_lesson`: files with other names are skipped. -/
def openLesson (shortId : Str) (files : List (Str × Content)) : Option Lesson :=
  createLesson shortId (files.filterMap (fun f => (classify f.1).map (fun k => (k, f.2))))

/-- `LiteracyLessonType`. /repo/src/data/course_generator/literacy.rs:222-230. -/
inductive Kind
  | reading | dictation
  deriving DecidableEq

/-- The last part of a full lesson id. /repo/src/data/course_generator/literacy.rs:464-482. -/
def Kind.tag : Kind → Str
  | .reading => "reading".toList
  | .dictation => "dictation".toList

/-- /repo/src/data/course_generator/literacy.rs:464-482: `full_reading_lesson_id` and `full_dictation_lesson_id`. -/
def fullId (k : Kind) (course : Str) (short : List Str) (id : Str) : Str :=
  if id ∈ short then tagged course [id, k.tag] else id

variable {α γ : Type}

/-- How the opaque parts of the manifests are made. /repo/src/data/course_generator/literacy.rs:507-656. -/
structure Rest (α γ : Type) where
  lesson : CourseM α γ → Lesson → Kind → α
  exercise : CourseM α γ → Lesson → Kind → α

/-- `encompassed.sort_by_key(|(id, _)| *id)`, a stable sort. /repo/src/data/course_generator/literacy.rs:533. -/
def sortEnc (l : List (Str × ℚ)) : List (Str × ℚ) := l.insertionSort (fun a b => a.1 ≤ b.1)

/-- `dependencies.sort()`, /repo/src/data/course_generator/literacy.rs:522. -/
def sortIds' (l : List Str) : List Str := l.insertionSort (· ≤ ·)

/-- The metadata key of the lessons, /repo/src/data/course_generator/literacy.rs:58. -/
def lessonMetadata : Str := "literacy_lesson".toList

/-- The exercise of a lesson, /repo/src/data/course_generator/literacy.rs:557-571 and 640-654. -/
def exerciseOf (R : Rest α γ) (c : CourseM α γ) (l : Lesson) (k : Kind) (id : Str) : ExerciseM α :=
  { id := tagged id ["exercise".toList], lessonId := id, courseId := c.id, rest := R.exercise c l k }

/-- /repo/src/data/course_generator/literacy.rs:507-573 `generate_reading_lesson`. -/
def reading (R : Rest α γ) (c : CourseM α γ) (short : List Str) (key : Str) (l : Lesson) :
    LessonM α × List (ExerciseM α) :=
  let id := fullId .reading c.id short key
  ({ id := id
     deps := sortIds' (l.deps.map (fullId .reading c.id short))
     enc := sortEnc (l.enc.map (fun e => (fullId .reading c.id short e.1, e.2)))
     sup := sortIds' (l.sup.map (fullId .reading c.id short))
     courseId := c.id
     metadata := some [(lessonMetadata, [Kind.reading.tag])]
     rest := R.lesson c l .reading }, [exerciseOf R c l .reading id])

/-- /repo/src/data/course_generator/literacy.rs:576-656 `generate_dictation_lesson`. -/
def dictation (R : Rest α γ) (c : CourseM α γ) (short : List Str) (key : Str) (l : Lesson) :
    LessonM α × List (ExerciseM α) :=
  let id := fullId .dictation c.id short key
  let inside := l.deps.filterMap (fun d =>
    let full := fullId .dictation c.id short d
    if full = d then none else some full)
  ({ id := id
     deps := sortIds' (inside ++ [fullId .reading c.id short key])
     enc := sortEnc (l.enc.map (fun e => (fullId .dictation c.id short e.1, e.2)))
     sup := sortIds' (l.sup.map (fullId .dictation c.id short))
     courseId := c.id
     metadata := some [(lessonMetadata, [Kind.dictation.tag])]
     rest := R.lesson c l .dictation }, [exerciseOf R c l .dictation id])

/-- /repo/src/data/course_generator/literacy.rs:659-678: the lessons made from one directory. -/
def manifests (R : Rest α γ) (withDictation : Bool) (c : CourseM α γ) (short : List Str)
    (e : Str × Lesson) : List (LessonM α × List (ExerciseM α)) :=
  if withDictation then [reading R c short e.1 e.2, dictation R c short e.1 e.2]
  else [reading R c short e.1 e.2]

/-- /repo/src/data/course_generator/literacy.rs:712-733: reads the lesson directories. -/
def openLessons (dirs : List (Str × List (Str × Content))) : Option (AMap Str Lesson) :=
  dirs.foldlM (fun m d =>
    match stripSuffix lessonSuffix d.1 with
    | some s => if s.isEmpty then some m else (openLesson s d.2).map (fun l => AMap.put m s l)
    | none => some m) []

/-- The metadata key of the course, /repo/src/data/course_generator/literacy.rs:26. -/
def courseMetadata : Str := "literacy_course".toList

/-- /repo/src/data/course_generator/literacy.rs:735-750: the generated course, given the lessons in the iteration
order of the map and the result of reading the instructions file. -/
def generated (R : Rest α γ) (withDictation : Bool) (c : CourseM α γ) (lessons : AMap Str Lesson)
    (instructions : Option α) : Generated α :=
  { lessons := lessons.flatMap (manifests R withDictation c lessons.keys)
    metadata := some ((c.metadata.getD []).put courseMetadata [['t', 'r', 'u', 'e']])
    instructions := instructions }

/-- /repo/src/data/course_generator/literacy.rs:704-751 `generate_manifests`. `order` is the iteration order of the
map of lessons; the outer `Option` of `instructions` is the failure to read an existing file. -/
def generate (R : Rest α γ) (withDictation : Bool) (order : AMap Str Lesson → AMap Str Lesson)
    (dirs : List (Str × List (Str × Content))) (instructions : Option (Option α)) (c : CourseM α γ) :
    Option (Generated α) := do
  let ls ← openLessons dirs
  let ins ← instructions
  some (generated R withDictation c (order ls) ins)

end Trane.Gen.Literacy
