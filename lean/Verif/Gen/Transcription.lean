import Verif.Gen.Ids

/-!
# Model of the transcription generator (/repo/src/data/course_generator/transcription.rs)

The passage directory is a parameter: `readDir dir` is what reading it yields, entry by entry in the
order of `read_dir`; parsing JSON is part of reading a file, `none` is any failure.  The texts of the
manifests (names, descriptions, instructions, and the description of a passage made by
`generate_exercise_asset`, lines 106-149) are opaque: `lessonRest kind` for a lesson and
`asset kind passages start end` for an exercise. -/

namespace Trane.Gen.Transcription
open Trane.Store Trane.Library Trane.Gen Trane.Filters

/-- /repo/src/data/course_generator.rs:18-24 `Instrument`. -/
structure Instrument where
  name : Str
  id : Str
  deriving DecidableEq

/-- /repo/src/data/course_generator/transcription.rs:48-87 `TranscriptionAsset`, which has one case. -/
structure Track where
  shortId : Str
  trackName : Str
  artist : Option Str := none
  album : Option Str := none
  duration : Option Str := none
  link : Option Str := none
  deriving DecidableEq

/-- /repo/src/data/course_generator/transcription.rs:89-103 `TranscriptionPassages`. The hash map of intervals is the
list of its entries in iteration order. -/
structure Passages where
  asset : Track
  intervals : List (Nat × (Str × Str))
  deriving DecidableEq

/-- /repo/src/data/course_generator/transcription.rs:186-222 `TranscriptionConfig`. -/
structure Config where
  deps : List Str := []
  passageDir : Str := []
  inlined : List Passages := []
  skipSinging : Bool := false
  skipAdvanced : Bool := false

/-- The four kinds of lesson. /repo/src/data/course_generator/transcription.rs:284-667. -/
inductive Kind
  | singing
  | advancedSinging
  | transcription (i : Instrument)
  | advancedTranscription (i : Instrument)
  deriving DecidableEq

/-- An entry of a directory: one that cannot be read, something that is not a file, or a file with its
name (`none` if it is not valid UTF-8) and its parsed content.
/repo/src/data/course_generator/transcription.rs:700-732. -/
inductive Entry
  | unreadable
  | notFile
  | file (name : Option Str) (content : Option Passages)

/-- `Path::extension` of a file name: what follows the last dot, unless nothing precedes that dot.
As in /repo/src/data/course_generator/transcription.rs:717. -/
def extension (n : Str) : Option Str :=
  let rev := n.reverse
  let ext := (rev.takeWhile (· ≠ '.')).reverse
  match rev.dropWhile (· ≠ '.') with
  | [] => none
  | _ :: before => if before = [] then none else if n = ['.', '.'] then none else some ext

/-- Lower case of an ASCII letter. As in /repo/src/data/course_generator/transcription.rs:718. -/
def asciiLower (c : Char) : Char :=
  if 'A'.toNat ≤ c.toNat ∧ c.toNat ≤ 'Z'.toNat then Char.ofNat (c.toNat + 32) else c

/-- /repo/src/data/course_generator/transcription.rs:712-718: the extension is `json` in any case. -/
def isJson (n : Str) : Bool :=
  match extension n with
  | some e => e.map asciiLower = "json".toList
  | none => false

/-- The body of the loop in /repo/src/data/course_generator/transcription.rs:701-732; the first component is
`seen_ids`. -/
def readEntry (s : List Str × List Passages) : Entry → Option (List Str × List Passages)
  | .unreadable => none
  | .notFile => some s
  | .file none _ => none
  | .file (some n) content =>
    if !isJson n then some s
    else do
      let p ← content
      if p.asset.shortId ∈ s.1 then none else some (p.asset.shortId :: s.1, s.2 ++ [p])

/-- /repo/src/data/course_generator/transcription.rs:688-734 `open_passage_directory`. -/
def openDirectory (readDir : Str → Option (List Entry)) (cfg : Config) : Option (List Passages) :=
  if cfg.passageDir.isEmpty then some []
  else do
    let es ← readDir cfg.passageDir
    let s ← es.foldlM readEntry ([], [])
    some s.2

/-- /repo/src/data/course_generator/transcription.rs:227-232 `exercise_id`. -/
def exerciseId (lesson short : Str) : Option Nat → Str
  | some n => lesson ++ "::".toList ++ short ++ "::".toList ++ dec n
  | none => lesson ++ "::".toList ++ short

/-- /repo/src/data/course_generator/transcription.rs:235-237. -/
def singingId (course : Str) : Str := course ++ "::singing".toList
/-- /repo/src/data/course_generator/transcription.rs:334-336. -/
def advancedSingingId (course : Str) : Str := course ++ "::advanced_singing".toList
/-- /repo/src/data/course_generator/transcription.rs:433-435. -/
def transcriptionId (course : Str) (i : Instrument) : Str :=
  course ++ "::transcription::".toList ++ i.id
/-- /repo/src/data/course_generator/transcription.rs:561-563. -/
def advancedTranscriptionId (course : Str) (i : Instrument) : Str :=
  course ++ "::advanced_transcription::".toList ++ i.id

/-- `"Start of passage"` and `"End of passage"`, /repo/src/data/course_generator/transcription.rs:254-255. -/
def wholeStart : Str := "Start of passage".toList
/-- /repo/src/data/course_generator/transcription.rs:255. -/
def wholeEnd : Str := "End of passage".toList

/-- `LESSON_METADATA` and the other keys, transcription/constants.rs:44-57.
/repo/src/data/course_generator/transcription/constants.rs:48. -/
def lessonKey : Str := "transcription_lesson".toList
/-- /repo/src/data/course_generator/transcription/constants.rs:57. -/
def instrumentKey : Str := "instrument".toList

variable {α γ : Type}

/-- /repo/src/data/course_generator/transcription.rs:240-281 `generate_singing_exercises`, 339-380
`generate_advanced_singing_exercises`, 438-487 `generate_transcription_exercises` and 566-615
`generate_advanced_transcription_exercises`, which differ only in the texts. -/
def exercises (rest : Passages → Str → Str → α) (course lesson : Str) (p : Passages) :
    List (ExerciseM α) :=
  if p.intervals.isEmpty then
    [{ id := exerciseId lesson p.asset.shortId none, lessonId := lesson, courseId := course,
       rest := rest p wholeStart wholeEnd }]
  else p.intervals.map (fun x =>
    { id := exerciseId lesson p.asset.shortId (some x.1), lessonId := lesson, courseId := course,
      rest := rest p x.2.1 x.2.2 })

section
variable (lessonRest : Kind → α) (asset : Kind → Passages → Str → Str → α)

/-- /repo/src/data/course_generator/transcription.rs:284-331 `generate_singing_lesson`. -/
def singingLesson (cfg : Config) (course : Str) (ps : List Passages) (skip : Bool) :
    LessonM α × List (ExerciseM α) :=
  let id := singingId course
  ({ id := id
     courseId := course
     deps := cfg.deps.map (fun d => d ++ "::singing".toList)
     enc := []
     sup := []
     metadata := some [(instrumentKey, ["voice".toList]), (lessonKey, ["singing".toList])]
     rest := lessonRest .singing },
   if skip then [] else ps.flatMap (exercises (asset .singing) course id))

/-- /repo/src/data/course_generator/transcription.rs:383-430 `generate_advanced_singing_lesson`. -/
def advancedSingingLesson (course : Str) (ps : List Passages) (skip : Bool) :
    LessonM α × List (ExerciseM α) :=
  let id := advancedSingingId course
  ({ id := id
     courseId := course
     deps := [singingId course]
     enc := []
     sup := [singingId course]
     metadata := some [(instrumentKey, ["voice".toList]), (lessonKey, ["advanced_singing".toList])]
     rest := lessonRest .advancedSinging },
   if skip then [] else ps.flatMap (exercises (asset .advancedSinging) course id))

/-- /repo/src/data/course_generator/transcription.rs:491-541 `generate_transcription_lesson`. -/
def transcriptionLesson (cfg : Config) (course : Str) (ps : List Passages) (i : Instrument) :
    LessonM α × List (ExerciseM α) :=
  let id := transcriptionId course i
  ({ id := id
     courseId := course
     deps := cfg.deps.map (fun d => d ++ "::transcription::".toList ++ i.id) ++ [singingId course]
     enc := []
     sup := []
     metadata := some [(instrumentKey, [i.id]), (lessonKey, ["transcription".toList])]
     rest := lessonRest (.transcription i) },
   ps.flatMap (exercises (asset (.transcription i)) course id))

/-- /repo/src/data/course_generator/transcription.rs:619-667 `generate_advanced_transcription_lesson`. -/
def advancedTranscriptionLesson (course : Str) (ps : List Passages) (i : Instrument) :
    LessonM α × List (ExerciseM α) :=
  let id := advancedTranscriptionId course i
  ({ id := id
     courseId := course
     deps := [transcriptionId course i, advancedSingingId course]
     enc := []
     sup := [transcriptionId course i]
     metadata := some [(instrumentKey, [i.id]), (lessonKey, ["advanced_transcription".toList])]
     rest := lessonRest (.advancedTranscription i) },
   ps.flatMap (exercises (asset (.advancedTranscription i)) course id))

/-- /repo/src/data/course_generator/transcription.rs:737-777 `generate_lesson_manifests`. The two flags come from the
configuration stored in the course manifest, if it is one of a transcription course. -/
def lessonManifests (cfg : Config) (own : Option Config) (course : Str)
    (instruments : List Instrument) (ps : List Passages) : List (LessonM α × List (ExerciseM α)) :=
  let skipSinging := match own with | some c => c.skipSinging | none => false
  let skipAdvanced := match own with | some c => c.skipAdvanced | none => false
  if skipAdvanced then
    [singingLesson lessonRest asset cfg course ps skipSinging] ++
      instruments.map (transcriptionLesson lessonRest asset cfg course ps)
  else
    [singingLesson lessonRest asset cfg course ps skipSinging] ++
      [advancedSingingLesson lessonRest asset course ps skipSinging] ++
      instruments.map (transcriptionLesson lessonRest asset cfg course ps) ++
      instruments.map (advancedTranscriptionLesson lessonRest asset course ps)

/-- `COURSE_METADATA`, `ARTIST_METADATA` and `ALBUM_METADATA`.
/repo/src/data/course_generator/transcription/constants.rs:44. -/
def courseKey : Str := "transcription_course".toList
/-- /repo/src/data/course_generator/transcription/constants.rs:51. -/
def artistKey : Str := "transcription_artist".toList
/-- /repo/src/data/course_generator/transcription/constants.rs:54. -/
def albumKey : Str := "transcription_album".toList

/-- One round of the loops in /repo/src/data/course_generator/transcription.rs:790-815. -/
def pushTo (key : Str) (m : Metadata) : Option Str → Metadata
  | some v => m.upd key [] (fun l => l ++ [v])
  | none => m

/-- /repo/src/data/course_generator/transcription.rs:781-818 `generate_course_metadata`. -/
def courseMetadata (m : Option Metadata) (ps : List Passages) : Metadata :=
  let m := (m.getD []).put courseKey ["true".toList]
  let m := ps.foldl (fun m p => pushTo artistKey m p.asset.artist) m
  ps.foldl (fun m p => pushTo albumKey m p.asset.album) m

/-- /repo/src/data/course_generator/transcription.rs:821-862 `generate_manifests`. `instruments` are those of the user
preferences, empty if there are none. `asConfig` tells whether the configuration stored in a manifest is one of a
transcription course. -/
def generate (courseInstructions : α) (asConfig : γ → Option Config)
    (readDir : Str → Option (List Entry)) (cfg : Config) (instruments : List Instrument)
    (c : CourseM α γ) : Option (Generated α) := do
  let found ← openDirectory readDir cfg
  let ps := found ++ cfg.inlined
  some
    { lessons := lessonManifests lessonRest asset cfg (c.gen.bind asConfig) c.id instruments ps
      metadata := some (courseMetadata c.metadata ps)
      instructions := if c.instructions.isNone then some courseInstructions else none }

end

end Trane.Gen.Transcription
