import Verif.Tree.Saved
import Verif.Gen.Knowledge
import Verif.Gen.Literacy

/-!
# Model: the generators, fed from the texts of a course's directory

The models of the generators (Verif/Gen) take what reading a file gives as a parameter and keep names and
assets opaque.  Here both are filled in: the files are those of the tree, and the manifests have the names,
descriptions and assets of the code.

Not computed: YAML, which is a parameter; the iteration order of hash maps, which is one too, except that
the sub-passages of a piece of music and the intervals of a passage come in the order of the text; the long
text of instructions that is compiled into the program.  A directory without files is not in the tree, so
a lesson directory without files makes no lesson here and an empty passage directory is not found.
-/

namespace Trane.Tree
open Trane.Store (Str)
open Trane.Library
open Trane.Assets (join BasicAsset ExerciseAsset)
open Trane.Json (readAs Generator MusicAsset UserPreferences decUserPreferences)
open Trane.Gen

variable {F : Type}

/-! ### Texts -/

/-- `char::is_whitespace`. Used in /repo/src/data/course_generator/literacy.rs:168. -/
def isWhite (c : Char) : Bool :=
  let n := c.toNat
  (9 ≤ n && n ≤ 13) || n == 0x20 || n == 0x85 || n == 0xA0 || n == 0x1680 || (0x2000 ≤ n && n ≤ 0x200A) ||
    n == 0x2028 || n == 0x2029 || n == 0x202F || n == 0x205F || n == 0x3000

/-- `str::trim`. As in /repo/src/data/course_generator/literacy.rs:168. -/
def trim (s : Str) : Str := ((s.dropWhile isWhite).reverse.dropWhile isWhite).reverse

/-- `str::lines`, up to whitespace at the end of lines and an empty line at the end.
As in /repo/src/data/course_generator/literacy.rs:166. -/
def linesOf : Str → List Str
  | [] => [[]]
  | c :: s =>
    if c = '\n' then [] :: linesOf s
    else match linesOf s with
      | [] => [[c]]
      | l :: ls => (c :: l) :: ls

/-- `open_md_list`, /repo/src/data/course_generator/literacy.rs:157-174. -/
def mdList (s : Str) : List Str := ((linesOf s).map trim).filter (fun l => !l.isEmpty)

/-- The name of a course. -/
def Rest.name : Rest → Str
  | .course n _ _ _ => n
  | .lesson n _ _ _ => n
  | .exercise n _ _ _ => n
  | .asset _ => []

/-! ### Music -/

/-- `INSTRUCTIONS`, /repo/src/data/course_generator/music_piece.rs:19-23. -/
def musicInstructions : Str :=
  ("Given the following passage from the piece, start by listening to it repeatedly\n" ++
   "until you can audiate it clearly in your head. You can also attempt to hum or\n" ++
   "sing it if possible. Then, play the passage on your instrument.\n").toList

/-- /repo/src/data/course_generator/music_piece.rs:40-67 `generate_exercise_asset`. -/
def musicExercise (a : MusicAsset) (start stop : Str) : ExerciseAsset :=
  let common := musicInstructions ++ "\n- Passage start: ".toList ++ start ++ "\n- Passage end: ".toList ++ stop ++
    "\n".toList
  match a with
  | .soundSlice url => .soundSlice url (some common) none
  | .localFile path => .basic (.inlined (common ++
      "\nThe file containing the music sheet is located at ".toList ++ path ++
      ". Relative paths are\nrelative to the working directory.\n".toList))

/-! ### Transcription -/

section
open Trane.Gen.Transcription

/-- /repo/src/data/course_generator/transcription/constants.rs:8-43. -/
def kindDescription : Kind → Str
  | .singing =>
    ("Repeatedly listen to the passage until you can audiate and sing its main elements. You should\n" ++
     "also experiment with singing different melodies over the passage and see what works.\n\n" ++
     "Refer to the lesson instructions for more details.\n").toList
  | .advancedSinging =>
    ("Repeatedly listen to the passage until you can audiate and sing it clearly in detail. Same as\n" ++
     "the singing lesson, but the passage should be audiated in more detail and precision, and\n" ++
     "transposed up or down a random number of semitones.\n\n" ++
     "Refer to the lesson instructions for more details.\n").toList
  | .transcription _ =>
    ("Using the stated instrument, play over the passage, using it as a basis for improvising. Playing\n" ++
     "back the exact passage is not required at this stage. Rather, this lesson is about learning to\n" ++
     "navigate the context implied by it.\n\n" ++
     "Refer to the lesson instructions for more details.\n").toList
  | .advancedTranscription _ =>
    ("Using the stated instrument, play over passage back, and use it as a basis for improvising.\n" ++
     "Same as the transcription exercise, but the passage should be played back in more detail and\n" ++
     "precision, and transposed up or down a random number of semitones.\n\n" ++
     "Refer to the lesson instructions for more details.\n").toList

/-- The names of the lessons, /repo/src/data/course_generator/transcription.rs:302,393,511-514,630-633. -/
def kindTitle (course : Str) : Kind → Str
  | .singing => course ++ " - Singing".toList
  | .advancedSinging => course ++ " - Advanced Singing".toList
  | .transcription i => course ++ " - Transcription - ".toList ++ i.name
  | .advancedTranscription i => course ++ " - Advanced Transcription - ".toList ++ i.name

/-- The instrument of a lesson. /repo/src/data/course_generator/transcription.rs:491-667. -/
def kindInstrument : Kind → Option Instrument
  | .transcription i => some i
  | .advancedTranscription i => some i
  | _ => none

/-- The instruction about the instrument, /repo/src/data/course_generator/transcription.rs:127-133. -/
def instrumentText (k : Kind) : Str :=
  match kindInstrument k with
  | some i => "\nTranscribe the passage using the instrument: ".toList ++ i.name ++ ".\n".toList
  | none => []

/-- The text of an exercise, /repo/src/data/course_generator/transcription.rs:116-147. -/
def passageText (k : Kind) (p : Passages) (start stop : Str) : Str :=
  kindDescription k ++ "\n\nThe passage to transcribe is the following:".toList ++
    "\n    - Track name: ".toList ++ p.asset.trackName ++
    "\n    - Artist name: ".toList ++ p.asset.artist.getD [] ++
    "\n    - Album name: ".toList ++ p.asset.album.getD [] ++
    "\n    - Track duration: ".toList ++ p.asset.duration.getD [] ++
    "\n    - External link: ".toList ++ p.asset.link.getD [] ++
    "\n    - Passage interval: ".toList ++ start ++ " - ".toList ++ stop ++ "\n".toList ++
    instrumentText k

/-- /repo/src/data/course_generator/transcription.rs:108-149 `generate_exercise_asset`. -/
def passageExercise (k : Kind) (p : Passages) (start stop : Str) : ExerciseAsset :=
  .transcription (passageText k p start stop) p.asset.link

end

/-! ### Literacy -/

section
open Trane.Gen.Literacy

/-- /repo/src/data/course_generator/literacy.rs:485-504 `course_name` and `lesson_name`. -/
def literacyName (c : CourseM Rest Generator) (l : Lesson) (k : Kind) : Str :=
  (if c.rest.name.isEmpty then c.id else c.rest.name) ++ " - ".toList ++ l.name.getD l.shortId ++ " - ".toList ++
    (match k with | .reading => "Reading".toList | .dictation => "Dictation".toList)

/-- The names, descriptions and assets of the manifests, /repo/src/data/course_generator/literacy.rs:541-573,
624-656. -/
def literacyRest : Literacy.Rest Tree.Rest Generator where
  lesson c l k := .lesson (literacyName c l k) l.descr none (l.instr.map .inlined)
  exercise c l k := .exercise (literacyName c l k) l.descr false
    (.literacy (decide (k = .dictation)) l.examples l.exceptions)

/-- The file with the instructions, /repo/src/data/course_generator/literacy.rs:31. -/
def courseInstructionsFile : Str := "course.instructions.md".toList

end

/-! ### What is not computed -/

/-- The reading of lists of examples and of exceptions in YAML
(/repo/src/data/course_generator/literacy.rs:176-181), the iteration order of hash maps, and the texts of
/repo/src/data/course_generator/transcription/constants.rs:60-117. -/
structure Outside where
  examples : Str → Option (List (Str × Option Str))
  exceptions : Str → Option (List (Str × Option Str))
  exerciseOrder : Knowledge.Groups → Knowledge.Groups
  lessonOrder : Knowledge.Lessons → Knowledge.Lessons
  literacyOrder : AMap Str Literacy.Lesson → AMap Str Literacy.Lesson
  courseInstructions : Str
  lessonInstructions : Transcription.Kind → Str

/-- The orders are orders. -/
structure Outside.Fair (X : Outside) : Prop where
  exercises : ∀ m, (X.exerciseOrder m).Perm m
  lessons : ∀ m, (X.lessonOrder m).Perm m
  literacy : ∀ m, (X.literacyOrder m).Perm m

/-! ### Reading the directory of a course -/

namespace Machine
variable (M : Machine F) (X : Outside)

/-- The names that `read_dir` returns. As in /repo/src/data/course_generator/literacy.rs:451. -/
def names (p : Path) : List Str := (M.order ((childNames M.tree p).map (fun n => [n]))).map (fun q => q.headD [])

/-- The directories in a directory with the files in them, and what reading those gives: lines 645-668 of
/repo/src/data/course_generator/knowledge_base.rs and 712-733 of
/repo/src/data/course_generator/literacy.rs with `open_lesson`.  What is in a directory of a lesson is not
necessarily a file. -/
def subdirs {C : Type} (p : Path) (content : Str → Option Str → C) : Option (List (Str × List (Str × C))) :=
  if isDir M.tree p then
    some (((M.names p).filter (fun n => isDir M.tree (p ++ [n]))).map fun n =>
      (n, (M.names (p ++ [n])).map fun f => (f, content f (M.tree.find (p ++ [n, f])))))
  else none

/-- A list of ids with weights. /repo/src/data/course_generator/knowledge_base.rs:111-120. -/
def weightsOf (text : Str) : Option (List (Str × ℚ)) :=
  (readAs (Json.decWeights M.floats) text).map (List.map (fun e => (e.1, M.val e.2)))

/-- `KnowledgeBaseFile::open`, /repo/src/data/course_generator/knowledge_base.rs:112-119, for every type it is
used at. -/
def knowledgeContent (_ : Str) (text : Option Str) : Knowledge.Content where
  ids := text.bind (readAs (Json.decList Json.decStr))
  weights := text.bind M.weightsOf
  text := text.bind (readAs Json.decStr)
  metadata := text.bind (readAs Json.decMetadata)
  type := text.bind (fun t => (readAs Json.decKind t).map
    (fun d => if d then "Declarative".toList else "Procedural".toList))
  md := text

/-- `LiteracyFile::open_serialized`, `open_md`, `open_md_list` and `open_yml_list`,
/repo/src/data/course_generator/literacy.rs:134-181. -/
def literacyContent (name : Str) (text : Option Str) : Literacy.Content where
  ids := text.bind (readAs (Json.decList Json.decStr))
  weights := text.bind M.weightsOf
  text := text.bind (readAs Json.decStr)
  md := text
  lines := text.map mdList
  entries := text.bind (if name = Literacy.simpleExamplesAnswersFile then X.examples else X.exceptions)

/-- The asset of a flashcard of a lesson in the directory `root`,
/repo/src/data/course_generator/knowledge_base.rs:221-243,276-299. -/
def cardAsset (root : Str) : Knowledge.Card → ExerciseAsset
  | .inline f b => .inlineFlashcard f b
  | .paths f b => .flashcard (join root f) (b.map (join root))

/-- The names, descriptions and assets of the manifests of a knowledge base,
/repo/src/data/course_generator/knowledge_base.rs:216-304,538-566: the files of a flashcard are found from the
directory of the lesson, the instructions and the material of a lesson are just the names of the files. -/
def knowledgeRest (dir : Path) : Knowledge.Rest Rest where
  lesson name descr instr material := .lesson name descr
    (if material then some (.markdown Knowledge.materialFile) else none)
    (if instr then some (.markdown Knowledge.instrFile) else none)
  exercise s name descr type card :=
    let root := join (M.dirText dir) (s ++ Knowledge.lessonSuffix)
    .exercise name descr (decide (type = "Declarative".toList)) (cardAsset root card)

/-- The entries of a passage directory, /repo/src/data/course_generator/transcription.rs:699-709,155-161. -/
def passageEntries (dir : Path) (pd : Str) : Option (List Transcription.Entry) :=
  (M.place (join (M.dirText dir) pd)).bind fun q =>
    if isDir M.tree q then
      some ((M.names q).map fun n => match M.tree.find (q ++ [n]) with
        | some t => .file (some n) (readAs Json.decPassages t)
        | none => .notFile)
    else none

/-- The settings of a transcription course, if it is one. /repo/src/data.rs:273-285. -/
def asTranscription : Generator → Option Transcription.Config
  | .transcription cfg => some cfg
  | _ => none

/-- /repo/src/data/course_generator/literacy.rs:665-668. -/
def asDictation : Option Generator → Bool
  | some (.literacy b) => b
  | _ => false

/-- `generate_manifests` of the four generators, /repo/src/data.rs:314-336. -/
def gen (prefs : UserPreferences) : Generator → Path → CourseM Rest Generator → Option (Generated Rest)
  | .knowledgeBase inlined, dir, c =>
    M.home.bind fun r => (M.subdirs (r ++ dir) M.knowledgeContent).bind fun dirs =>
      Knowledge.generate (M.knowledgeRest dir) inlined X.exerciseOrder X.lessonOrder dirs c
  | .literacy _, dir, c =>
    M.home.bind fun r => (M.subdirs (r ++ dir) (M.literacyContent X)).bind fun dirs =>
      Literacy.generate literacyRest (asDictation c.gen) X.literacyOrder dirs
        (some ((M.tree.find (r ++ dir ++ [courseInstructionsFile])).map (fun t => .asset (.inlined t)))) c
  | .musicPiece a p, _, c =>
    some (Music.generate (.lesson c.rest.name none none none)
      (fun s e => .exercise c.rest.name none false (musicExercise a s e)) p c)
  | .transcription cfg, dir, c =>
    Transcription.generate
      (fun k => .lesson (kindTitle c.rest.name k) (some (kindDescription k)) none
        (some (.inlinedUnique (X.lessonInstructions k))))
      (fun k p s e => .exercise (kindTitle c.rest.name k) none false (passageExercise k p s e))
      (.asset (.inlinedUnique X.courseInstructions)) asTranscription (M.passageEntries dir) cfg
      ((prefs.transcription.map (·.instruments)).getD []) c

/-- The preferences that are read. /repo/src/preferences_manager.rs:27-34. -/
def prefs : UserPreferences := ((M.configContents prefsPath).bind (readAs decUserPreferences)).getD {}

/-- The machine with the generators of the code. -/
def real : Machine F := { M with generate := M.gen X M.prefs }

end Machine

end Trane.Tree
