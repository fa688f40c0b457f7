import Verif.Gen.Ids
import Verif.Gen.Literacy

/-!
# Model of the knowledge base generator (/repo/src/data/course_generator/knowledge_base.rs)

The course directory is a parameter: its subdirectories with the files in each of them.  A file is given
by its name and by what each way of reading it yields (`none` for a failure).  Directory entries that
cannot be read are absent (`.flatten()`), and names are valid UTF-8.  The iteration order of the hash
maps is a parameter.  `mkLesson` and `mkExercise` pack the remaining fields of a manifest. -/

namespace Trane.Gen.Knowledge
open Trane.Store Trane.Library Trane.Gen Trane.Filters
open Trane.Gen.Literacy (stripSuffix)

/-- /repo/src/data/course_generator/knowledge_base.rs:64-109 `KnowledgeBaseFile`. -/
inductive File
  | deps | sup | enc | name | descr | metadata | material | instr | defaultType
  | front (id : Str) | back (id : Str) | exName (id : Str) | exDescr (id : Str) | exType (id : Str)
  deriving DecidableEq

/-- /repo/src/data/course_generator/knowledge_base.rs:20-62: the file names and suffixes. -/
def lessonSuffix : Str := ".lesson".toList
/-- /repo/src/data/course_generator/knowledge_base.rs:23. -/
def depsFile : Str := "lesson.dependencies.json".toList
/-- /repo/src/data/course_generator/knowledge_base.rs:26. -/
def supFile : Str := "lesson.superseded.json".toList
/-- /repo/src/data/course_generator/knowledge_base.rs:29. -/
def encFile : Str := "lesson.encompassed.json".toList
/-- /repo/src/data/course_generator/knowledge_base.rs:32. -/
def nameFile : Str := "lesson.name.json".toList
/-- /repo/src/data/course_generator/knowledge_base.rs:35. -/
def descrFile : Str := "lesson.description.json".toList
/-- /repo/src/data/course_generator/knowledge_base.rs:38. -/
def metadataFile : Str := "lesson.metadata.json".toList
/-- /repo/src/data/course_generator/knowledge_base.rs:41. -/
def instrFile : Str := "lesson.instructions.md".toList
/-- /repo/src/data/course_generator/knowledge_base.rs:44. -/
def materialFile : Str := "lesson.material.md".toList
/-- /repo/src/data/course_generator/knowledge_base.rs:47. -/
def defaultTypeFile : Str := "lesson.default_exercise_type.json".toList
/-- /repo/src/data/course_generator/knowledge_base.rs:50. -/
def frontSuffix : Str := ".front.md".toList
/-- /repo/src/data/course_generator/knowledge_base.rs:53. -/
def backSuffix : Str := ".back.md".toList
/-- /repo/src/data/course_generator/knowledge_base.rs:56. -/
def exNameSuffix : Str := ".name.json".toList
/-- /repo/src/data/course_generator/knowledge_base.rs:59. -/
def exDescrSuffix : Str := ".description.json".toList
/-- /repo/src/data/course_generator/knowledge_base.rs:62. -/
def exTypeSuffix : Str := ".type.json".toList

/-- /repo/src/data/course_generator/knowledge_base.rs:122-160 `TryFrom<&str> for KnowledgeBaseFile`; `none` is `Err`. -/
def classify (n : Str) : Option File :=
  if n = depsFile then some .deps
  else if n = supFile then some .sup
  else if n = encFile then some .enc
  else if n = nameFile then some .name
  else if n = descrFile then some .descr
  else if n = metadataFile then some .metadata
  else if n = materialFile then some .material
  else if n = instrFile then some .instr
  else if n = defaultTypeFile then some .defaultType
  else match stripSuffix frontSuffix n with
    | some s => some (.front s)
    | none => match stripSuffix backSuffix n with
      | some s => some (.back s)
      | none => match stripSuffix exNameSuffix n with
        | some s => some (.exName s)
        | none => match stripSuffix exDescrSuffix n with
          | some s => some (.exDescr s)
          | none => (stripSuffix exTypeSuffix n).map .exType

/-- What reading a file yields: as JSON (a list of ids, a list of ids with weights, a string, metadata,
an exercise type) and as text. /repo/src/data/course_generator/knowledge_base.rs:111-120. -/
structure Content where
  ids : Option (List Str) := none
  weights : Option (List (Str × ℚ)) := none
  text : Option Str := none
  metadata : Option Metadata := none
  type : Option Str := none
  md : Option Str := none

/-- /repo/src/data/course_generator/knowledge_base.rs:183-215 `KnowledgeBaseExercise`. The front is the result of
reading the front file, the back that of reading the back file if there is one. -/
structure Exercise where
  shortId : Str
  front : Option Str := none
  back : Option (Option Str) := none
  name : Option Str := none
  descr : Option Str := none
  type : Option Str := none

/-- /repo/src/data/course_generator/knowledge_base.rs:352-398 `KnowledgeBaseLesson`. -/
structure Lesson where
  shortId : Str
  deps : List Str := []
  enc : List (Str × ℚ) := []
  sup : List Str := []
  name : Option Str := none
  descr : Option Str := none
  metadata : Option Metadata := none
  hasInstr : Bool := false
  hasMaterial : Bool := false
  defaultType : Option Str := none

/-- The short id of the exercise a file belongs to, /repo/src/data/course_generator/knowledge_base.rs:498-508. -/
def File.exercise : File → Option Str
  | .front s => some s
  | .back s => some s
  | .exName s => some s
  | .exDescr s => some s
  | .exType s => some s
  | _ => none

/-- /repo/src/data/course_generator/knowledge_base.rs:308-326: one file of an exercise. -/
def exStep (e : Exercise) (f : File × Content) : Option Exercise :=
  match f.1 with
  | .exName _ => f.2.text.map (fun x => { e with name := some x })
  | .exDescr _ => f.2.text.map (fun x => { e with descr := some x })
  | .exType _ => f.2.type.map (fun x => { e with type := some x })
  | .front _ => some { e with front := f.2.md }
  | .back _ => some { e with back := some f.2.md }
  | _ => some e

/-- /repo/src/data/course_generator/knowledge_base.rs:267-328 `create_exercise`. The front and back are taken from
their files in the same loop: in the code their paths are set beforehand from the short id and the presence of the
back file. -/
def createExercise (shortId : Str) (files : List (File × Content)) : Option Exercise :=
  files.foldlM exStep { shortId := shortId }

/-- /repo/src/data/course_generator/knowledge_base.rs:443-476: one file of a lesson. -/
def lessonStep (l : Lesson) (f : File × Content) : Option Lesson :=
  match f.1 with
  | .deps => f.2.ids.map (fun x => { l with deps := x })
  | .enc => f.2.weights.map (fun x => { l with enc := x })
  | .sup => f.2.ids.map (fun x => { l with sup := x })
  | .name => f.2.text.map (fun x => { l with name := some x })
  | .descr => f.2.text.map (fun x => { l with descr := some x })
  | .metadata => f.2.metadata.map (fun x => { l with metadata := some x })
  | .instr => some { l with hasInstr := true }
  | .material => some { l with hasMaterial := true }
  | .defaultType => f.2.type.map (fun x => { l with defaultType := some x })
  | _ => some l

/-- /repo/src/data/course_generator/knowledge_base.rs:419-478 `create_lesson`. -/
def createLesson (shortId : Str) (files : List (File × Content)) : Option Lesson :=
  files.foldlM lessonStep { shortId := shortId }

/-- The hash map of the files of each exercise. /repo/src/data/course_generator/knowledge_base.rs:497-512. -/
abbrev Groups := AMap Str (List (File × Content))

/-- /repo/src/data/course_generator/knowledge_base.rs:497-512: the files of each exercise. -/
def groups (files : List (File × Content)) : Groups :=
  files.foldl (fun m f => match f.1.exercise with
    | some s => m.upd s [] (fun l => l ++ [f])
    | none => m) []

/-- /repo/src/data/course_generator/knowledge_base.rs:403-416 `filter_matching_exercises`: whether an exercise has a
front file. -/
def hasFront (e : Str × List (File × Content)) : Bool :=
  e.2.any (fun f => match f.1 with | .front _ => true | _ => false)

/-- The recognised files of a directory, /repo/src/data/course_generator/knowledge_base.rs:490-495. -/
def recognised (files : List (Str × Content)) : List (File × Content) :=
  files.filterMap (fun f => (classify f.1).map (fun k => (k, f.2)))

/-- /repo/src/data/course_generator/knowledge_base.rs:481-535 `open_lesson`. `order` is the iteration order of the map
of exercises. -/
def openLesson (order : Groups → Groups) (shortId : Str) (files : List (Str × Content)) :
    Option (Lesson × List Exercise) := do
  let kb := recognised files
  let lesson ← createLesson shortId (kb.filter (fun f => f.1.exercise = none))
  let exercises ← (order (((groups kb).del []).filter hasFront)).mapM
    (fun e => createExercise e.1 e.2)
  some (lesson, exercises)

/-- The asset of an exercise: the contents of the flashcard or the names of its files, relative to the
directory of the lesson. /repo/src/data/course_generator/knowledge_base.rs:221-246. -/
inductive Card
  | inline (front : Str) (back : Option Str)
  | paths (front : Str) (back : Option Str)
  deriving DecidableEq

variable {α γ : Type}

/-- How the remaining fields of manifests are packed.
/repo/src/data/course_generator/knowledge_base.rs:216-264 and 538-566. -/
structure Rest (α : Type) where
  /-- name, description, instructions, material -/
  lesson : Str → Option Str → Bool → Bool → α
  /-- short id of the lesson, name, description, type, asset -/
  exercise : Str → Str → Option Str → Str → Card → α

/-- /repo/src/data/course_generator/knowledge_base.rs:221-246: the asset; `none` is a failure to read a file to be
inlined. -/
def card (inlined : Bool) (e : Exercise) : Option Card :=
  if inlined then
    match e.front, e.back with
    | some f, none => some (.inline f none)
    | some f, some (some b) => some (.inline f (some b))
    | _, _ => none
  else some (.paths (e.shortId ++ frontSuffix) (e.back.map (fun _ => e.shortId ++ backSuffix)))

/-- /repo/src/data/course_generator/knowledge_base.rs:216-264 `to_exercise_manifest`. -/
def exerciseManifest (R : Rest α) (inlined : Bool) (course lesson : Str) (defaultType : Option Str)
    (e : Exercise) : Option (ExerciseM α) := do
  let asset ← card inlined e
  some
    { id := tagged course [lesson, e.shortId]
      lessonId := tagged course [lesson]
      courseId := course
      rest := R.exercise lesson (e.name.getD ("Exercise ".toList ++ e.shortId)) e.descr
        (e.type.getD (defaultType.getD "Procedural".toList)) asset }

/-- /repo/src/data/course_generator/knowledge_base.rs:538-566 `From<KnowledgeBaseLesson> for LessonManifest`. -/
def lessonManifest (R : Rest α) (course : Str) (l : Lesson) : LessonM α :=
  { id := tagged course [l.shortId]
    deps := l.deps
    enc := l.enc
    sup := l.sup
    courseId := course
    metadata := l.metadata
    rest := R.lesson (l.name.getD ("Lesson ".toList ++ l.shortId)) l.descr l.hasInstr l.hasMaterial }

/-- /repo/src/data/course_generator/knowledge_base.rs:590-598: a reference to a lesson of the course by its short id
becomes its full id. -/
def toFull (course : Str) (short : List Str) (id : Str) : Str :=
  if id ∈ short then tagged course [id] else id

/-- /repo/src/data/course_generator/knowledge_base.rs:580-634 `convert_to_full_ids`, for one lesson. -/
def convert (course : Str) (short : List Str) (l : Lesson) : Lesson :=
  { l with
    deps := l.deps.map (toFull course short)
    enc := l.enc.map (fun e => (toFull course short e.1, e.2))
    sup := l.sup.map (toFull course short) }

/-- The hash map of lessons with their exercises. /repo/src/data/course_generator/knowledge_base.rs:645-668. -/
abbrev Lessons := AMap Str (Lesson × List Exercise)

/-- /repo/src/data/course_generator/knowledge_base.rs:645-668: opens the directories whose names end in `.lesson`. -/
def openLessons (order : Groups → Groups) (dirs : List (Str × List (Str × Content))) : Option Lessons :=
  dirs.foldlM (fun m d =>
    match stripSuffix lessonSuffix d.1 with
    | some s => (openLesson order s d.2).map (fun l => AMap.put m s l)
    | none => some m) []

/-- /repo/src/data/course_generator/knowledge_base.rs:675-687: the manifests of one lesson. -/
def manifests (R : Rest α) (inlined : Bool) (course : Str) (short : List Str)
    (x : Str × (Lesson × List Exercise)) : Option (LessonM α × List (ExerciseM α)) := do
  let l := convert course short x.2.1
  let es ← x.2.2.mapM (exerciseManifest R inlined course l.shortId l.defaultType)
  some (lessonManifest R course l, es)

/-- /repo/src/data/course_generator/knowledge_base.rs:637-691 `generate_manifests`, given the iteration orders of the
two hash maps. -/
def generate (R : Rest α) (inlined : Bool) (order : Groups → Groups) (order' : Lessons → Lessons)
    (dirs : List (Str × List (Str × Content))) (c : CourseM α γ) : Option (Generated α) := do
  let ls ← openLessons order dirs
  let ms ← (order' ls).mapM (manifests R inlined c.id ls.keys)
  some { lessons := ms, metadata := none, instructions := none }

end Trane.Gen.Knowledge
