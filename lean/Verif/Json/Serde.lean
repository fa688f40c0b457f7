import Verif.Json.TextRound
import Verif.Data.Filter
import Verif.Library.Assets
import Verif.Library.Saved
import Verif.Gen.Music
import Verif.Gen.Transcription

/-!
# From values of Rust to JSON and back

Models what `#[derive(Serialize, Deserialize)]` makes of the types that the code writes to files and
reads from them, as far as `serde_json` is concerned:

* a struct is written as an object with all its fields in the order of their declaration.  It is read
  from an object in any order; other members are ignored, a repeated field is an error, and a missing
  one is an error too unless it has `#[serde(default)]`.  It is also read from an array;
* an enum is written as `"Name"` or `{"Name": …}`;
* `Option` is `null` or the value, `Vec` and tuples are arrays, maps are objects;
* a number of a type with `n` values is read from its decimal digits if it is in range.

Simplifications: members that are ignored are read like the others here, while `serde_json` only
skips them and so lets them be nested deeper; the digits of a number that is the key of a map may be written
with escapes here.  `f32` is a parameter: how it is written and read is given by `Floats`.
-/

namespace Trane.Json
open Trane.Store (Str)
open Trane.Filters

/-! ### The building blocks -/

/-- The names of fields. -/
def keys (names : List String) : List Str := names.map String.toList

/-- A struct as it is written. For the derived code as in /repo/src/data.rs:352-460. -/
def encStruct (names : List Str) (vals : List Json) : Json := .obj (names.zip vals)

/-- A struct as it is read, `visit_map` and `visit_seq` of the derived code.
For the derived code as in /repo/src/data.rs:352-460. -/
def decStruct {α : Type} (names : List Str) (f : List (Str × Json) → Option α) : Json → Option α
  | .obj fs => f fs
  | .arr xs => if xs.length ≤ names.length then f (names.zip xs) else none
  | _ => none

/-- A field.  `missing` is its value if there is none: `none` for an error.
For the derived code as in /repo/src/data.rs:352-460. -/
def field {α : Type} (fs : List (Str × Json)) (name : String) (d : Json → Option α) (missing : Option α) :
    Option α :=
  match fs.filter (fun e => e.1 = name.toList) with
  | [] => missing
  | [e] => d e.2
  | _ => none

/-- A variant without data. For the derived code as in /repo/src/data/filter.rs:202-235. -/
def encUnit (name : String) : Json := .str name.toList

/-- A variant with data. For the derived code as in /repo/src/data/filter.rs:202-235. -/
def encData (name : String) (v : Json) : Json := .obj [(name.toList, v)]

/-- The name of the variant and its data. For the derived code as in /repo/src/data/filter.rs:202-235. -/
def variant : Json → Option (Str × Option Json)
  | .str s => some (s, none)
  | .obj [(k, v)] => some (k, some v)
  | _ => none

/-- An enum as it is read: the variants in turn. For the derived code as in /repo/src/data/filter.rs:202-235. -/
def pick {α : Type} (v : Json) (cases : List (String × (Option Json → Option α))) : Option α :=
  match variant v with
  | none => none
  | some (n, p) =>
    match cases.find? (fun c => c.1.toList = n) with
    | some c => c.2 p
    | none => none

/-- A variant without data as it is read. For the derived code as in /repo/src/data/filter.rs:202-235. -/
def unitCase {α : Type} (x : α) : Option Json → Option α
  | none => some x
  | some .null => some x
  | _ => none

/-- A variant with data as it is read. For the derived code as in /repo/src/data/filter.rs:202-235. -/
def dataCase {α : Type} (d : Json → Option α) : Option Json → Option α
  | some v => d v
  | none => none

/-- `String` and `Ustr`. -/
def encStr (s : Str) : Json := .str s
/-- `String` and `Ustr`. -/
def decStr : Json → Option Str
  | .str s => some s
  | _ => none

/-- `bool`. -/
def encBool (b : Bool) : Json := .bool b
/-- `bool`. -/
def decBool : Json → Option Bool
  | .bool b => some b
  | _ => none

/-- The range of `usize`. -/
def usizeSize : Nat := 2 ^ 64

/-- The number written in digits. -/
def natOf (bound : Nat) (t : Str) : Option Nat :=
  if isDigits t ∧ Nat.ofDigitChars 10 t 0 < bound then some (Nat.ofDigitChars 10 t 0) else none

/-- `u32` and `usize`. -/
def encNat (n : Nat) : Json := .num (Nat.toDigits 10 n)
/-- `u32` and `usize`. -/
def decNat (bound : Nat) : Json → Option Nat
  | .num t => natOf bound t
  | _ => none

/-- `Option`. -/
def encOpt {α : Type} (e : α → Json) : Option α → Json
  | none => .null
  | some x => e x
/-- `Option`. -/
def decOpt {α : Type} (d : Json → Option α) : Json → Option (Option α)
  | .null => some none
  | v => (d v).map some

/-- `Vec`. -/
def encList {α : Type} (e : α → Json) (xs : List α) : Json := .arr (xs.map e)
/-- `Vec`. -/
def decList {α : Type} (d : Json → Option α) : Json → Option (List α)
  | .arr xs => xs.mapM d
  | _ => none

/-- A pair. -/
def encPair {α β : Type} (e : α → Json) (f : β → Json) (p : α × β) : Json := .arr [e p.1, f p.2]
/-- A pair. -/
def decPair {α β : Type} (d : Json → Option α) (g : Json → Option β) : Json → Option (α × β)
  | .arr [x, y] => do some (← d x, ← g y)
  | _ => none

/-- `BTreeMap` and `HashMap`, with the way their keys are written. -/
def encMap {κ α : Type} (k : κ → Str) (e : α → Json) (m : List (κ × α)) : Json :=
  .obj (m.map (fun p => (k p.1, e p.2)))
/-- `BTreeMap` and `HashMap`: a later member replaces an earlier one. -/
def decMap {κ α : Type} [DecidableEq κ] (k : Str → Option κ) (d : Json → Option α) :
    Json → Option (List (κ × α))
  | .obj fs => fs.foldlM (fun m f => do some (AMap.put m (← k f.1) (← d f.2))) []
  | _ => none

/-- `usize` as a key: no zero in front. -/
def keyNat (t : Str) : Option Nat := if isNum t then natOf usizeSize t else none

/-- How `f32` is written and read.  A number that is not finite is written as `null` and never read. -/
structure Floats (F : Type) where
  text : F → Option Str
  read : Str → Option F
  text_num : ∀ x t, text x = some t → isNum t = true
  read_text : ∀ x t, text x = some t → read t = some x

/-- `f32`. -/
def encFloat {F : Type} (fl : Floats F) (x : F) : Json :=
  match fl.text x with
  | some t => .num t
  | none => .null
/-- `f32`. -/
def decFloat {F : Type} (fl : Floats F) : Json → Option F
  | .num t => fl.read t
  | _ => none

/-! ### Filters and study sessions -/

/-- /repo/src/data/filter.rs:20-27. -/
def encOp : FilterOp → Json
  | .all => encUnit "All"
  | .any => encUnit "Any"
/-- /repo/src/data/filter.rs:20-27. -/
def decOp (v : Json) : Option FilterOp := pick v [("All", unitCase .all), ("Any", unitCase .any)]

/-- /repo/src/data/filter.rs:30-37. -/
def encType : FilterType → Json
  | .incl => encUnit "Include"
  | .excl => encUnit "Exclude"
/-- /repo/src/data/filter.rs:30-37. -/
def decType (v : Json) : Option FilterType :=
  pick v [("Include", unitCase .incl), ("Exclude", unitCase .excl)]

/-- The fields of the simple filters, /repo/src/data/filter.rs:43-65. -/
def simpleKeys : List Str := keys ["key", "value", "filter_type"]
/-- The fields of a combined filter, /repo/src/data/filter.rs:68-73. -/
def combinedKeys : List Str := keys ["op", "filters"]

mutual
/-- /repo/src/data/filter.rs:40-74. -/
def encKV : KVFilter → Json
  | .course k v t => encData "CourseFilter" (encStruct simpleKeys [encStr k, encStr v, encType t])
  | .lesson k v t => encData "LessonFilter" (encStruct simpleKeys [encStr k, encStr v, encType t])
  | .combined op fs => encData "CombinedFilter" (encStruct combinedKeys [encOp op, .arr (encKVs fs)])
/-- The filters in a combined filter. /repo/src/data/filter.rs:68-73. -/
def encKVs : List KVFilter → List Json
  | [] => []
  | f :: fs => encKV f :: encKVs fs
end

/-- The data of a simple filter. /repo/src/data/filter.rs:43-65. -/
def decSimple (mk : Str → Str → FilterType → KVFilter) : Json → Option KVFilter :=
  decStruct simpleKeys fun fs => do
    some (mk (← field fs "key" decStr none) (← field fs "value" decStr none)
      (← field fs "filter_type" decType none))

/-- /repo/src/data/filter.rs:40-74.  The first argument is the fuel of the recursion; the nesting of
the value is enough. -/
def decKVn : Nat → Json → Option KVFilter
  | 0, _ => none
  | n + 1, v =>
    pick v [("CourseFilter", dataCase (decSimple .course)), ("LessonFilter", dataCase (decSimple .lesson)),
      ("CombinedFilter", dataCase (decStruct combinedKeys fun fs => do
        some (.combined (← field fs "op" decOp none) (← field fs "filters" (decList (decKVn n)) none))))]

/-- `KeyValueFilter::deserialize`. /repo/src/data/filter.rs:40-74. -/
def decKV (v : Json) : Option KVFilter := decKVn (depth v) v

/-- /repo/src/data/filter.rs:202-235. -/
def encUnitFilter : UnitFilter Str → Json
  | .courses ids => encData "CourseFilter" (encStruct (keys ["course_ids"]) [encList encStr ids])
  | .lessons ids => encData "LessonFilter" (encStruct (keys ["lesson_ids"]) [encList encStr ids])
  | .metadata f => encData "MetadataFilter" (encStruct (keys ["filter"]) [encKV f])
  | .reviewList => encUnit "ReviewListFilter"
  | .dependents ids => encData "Dependents" (encStruct (keys ["unit_ids"]) [encList encStr ids])
  | .dependencies ids n =>
    encData "Dependencies" (encStruct (keys ["unit_ids", "depth"]) [encList encStr ids, encNat n])
/-- /repo/src/data/filter.rs:202-235. -/
def decUnitFilter (v : Json) : Option (UnitFilter Str) :=
  pick v [
    ("CourseFilter", dataCase (decStruct (keys ["course_ids"]) fun fs => do
      some (.courses (← field fs "course_ids" (decList decStr) none)))),
    ("LessonFilter", dataCase (decStruct (keys ["lesson_ids"]) fun fs => do
      some (.lessons (← field fs "lesson_ids" (decList decStr) none)))),
    ("MetadataFilter", dataCase (decStruct (keys ["filter"]) fun fs => do
      some (.metadata (← field fs "filter" decKV none)))),
    ("ReviewListFilter", unitCase .reviewList),
    ("Dependents", dataCase (decStruct (keys ["unit_ids"]) fun fs => do
      some (.dependents (← field fs "unit_ids" (decList decStr) none)))),
    ("Dependencies", dataCase (decStruct (keys ["unit_ids", "depth"]) fun fs => do
      some (.dependencies (← field fs "unit_ids" (decList decStr) none)
        (← field fs "depth" (decNat usizeSize) none))))]

/-- `SavedFilter`, /repo/src/data/filter.rs:261-273. -/
abbrev SavedFilter := Saved.Item (UnitFilter Str)

/-- The fields of `SavedFilter`. /repo/src/data/filter.rs:261-273. -/
def savedFilterKeys : List Str := keys ["id", "description", "filter"]
/-- /repo/src/data/filter.rs:261-273. -/
def encSavedFilter (f : SavedFilter) : Json :=
  encStruct savedFilterKeys [encStr f.id, encStr f.description, encUnitFilter f.payload]
/-- /repo/src/data/filter.rs:261-273. -/
def decSavedFilter : Json → Option SavedFilter :=
  decStruct savedFilterKeys fun fs => do
    some ⟨← field fs "id" decStr none, ← field fs "description" decStr none,
      ← field fs "filter" decUnitFilter none⟩

/-- /repo/src/data/filter.rs:279-303. -/
def encPart : SessionPart Str → Json
  | .unitFilter f n =>
    encData "UnitFilter" (encStruct (keys ["filter", "duration"]) [encUnitFilter f, encNat n])
  | .savedFilter i n => encData "SavedFilter" (encStruct (keys ["filter_id", "duration"]) [encStr i, encNat n])
  | .noFilter n => encData "NoFilter" (encStruct (keys ["duration"]) [encNat n])
/-- /repo/src/data/filter.rs:279-303. -/
def decPart (v : Json) : Option (SessionPart Str) :=
  pick v [
    ("UnitFilter", dataCase (decStruct (keys ["filter", "duration"]) fun fs => do
      some (.unitFilter (← field fs "filter" decUnitFilter none) (← field fs "duration" (decNat u32Size) none)))),
    ("SavedFilter", dataCase (decStruct (keys ["filter_id", "duration"]) fun fs => do
      some (.savedFilter (← field fs "filter_id" decStr none) (← field fs "duration" (decNat u32Size) none)))),
    ("NoFilter", dataCase (decStruct (keys ["duration"]) fun fs => do
      some (.noFilter (← field fs "duration" (decNat u32Size) none))))]

/-- `StudySession`, /repo/src/data/filter.rs:319-332. -/
abbrev StudySession := Saved.Item (List (SessionPart Str))

/-- The fields of `StudySession`. /repo/src/data/filter.rs:319-332. -/
def studySessionKeys : List Str := keys ["id", "description", "parts"]
/-- /repo/src/data/filter.rs:319-332. -/
def encStudySession (s : StudySession) : Json :=
  encStruct studySessionKeys [encStr s.id, encStr s.description, encList encPart s.payload]
/-- /repo/src/data/filter.rs:319-332. -/
def decStudySession : Json → Option StudySession :=
  decStruct studySessionKeys fun fs => do
    some ⟨← field fs "id" decStr none, ← field fs "description" decStr (some []),
      ← field fs "parts" (decList decPart) (some [])⟩

/-! ### Preferences -/

/-- The fields of `Instrument`, /repo/src/data/course_generator.rs:15-25. -/
def instrumentKeys : List Str := keys ["name", "id"]
/-- /repo/src/data/course_generator.rs:15-25. -/
def encInstrument (i : Gen.Transcription.Instrument) : Json :=
  encStruct instrumentKeys [encStr i.name, encStr i.id]
/-- /repo/src/data/course_generator.rs:15-25. -/
def decInstrument : Json → Option Gen.Transcription.Instrument :=
  decStruct instrumentKeys fun fs => do
    some ⟨← field fs "name" decStr none, ← field fs "id" decStr none⟩

/-- `TranscriptionPreferences`, /repo/src/data/course_generator/transcription.rs:164-185. -/
structure TranscriptionPreferences where
  instruments : List Gen.Transcription.Instrument := []
  downloadPath : Option Str := none
  downloadPathAlias : Option Str := none
  deriving DecidableEq

/-- The fields of `TranscriptionPreferences`. /repo/src/data/course_generator/transcription.rs:164-185. -/
def transcriptionPreferencesKeys : List Str := keys ["instruments", "download_path", "download_path_alias"]
/-- /repo/src/data/course_generator/transcription.rs:164-185. -/
def encTranscriptionPreferences (p : TranscriptionPreferences) : Json :=
  encStruct transcriptionPreferencesKeys
    [encList encInstrument p.instruments, encOpt encStr p.downloadPath, encOpt encStr p.downloadPathAlias]
/-- /repo/src/data/course_generator/transcription.rs:164-185. -/
def decTranscriptionPreferences : Json → Option TranscriptionPreferences :=
  decStruct transcriptionPreferencesKeys fun fs => do
    some ⟨← field fs "instruments" (decList decInstrument) (some []),
      ← field fs "download_path" (decOpt decStr) (some none),
      ← field fs "download_path_alias" (decOpt decStr) (some none)⟩

/-- `SchedulerPreferences`, /repo/src/data.rs:1071-1077. -/
structure SchedulerPreferences where
  batchSize : Option Nat := none
  deriving DecidableEq

/-- The fields of `SchedulerPreferences`. /repo/src/data.rs:1071-1077. -/
def schedulerPreferencesKeys : List Str := keys ["batch_size"]
/-- /repo/src/data.rs:1071-1077. -/
def encSchedulerPreferences (p : SchedulerPreferences) : Json :=
  encStruct schedulerPreferencesKeys [encOpt encNat p.batchSize]
/-- /repo/src/data.rs:1071-1077. -/
def decSchedulerPreferences : Json → Option SchedulerPreferences :=
  decStruct schedulerPreferencesKeys fun fs => do
    some ⟨← field fs "batch_size" (decOpt (decNat usizeSize)) (some none)⟩

/-- `UserPreferences`, /repo/src/data.rs:1089-1107. -/
structure UserPreferences where
  transcription : Option TranscriptionPreferences := none
  scheduler : Option SchedulerPreferences := none
  ignoredPaths : List Str := []
  deriving DecidableEq

/-- The fields of `UserPreferences`. /repo/src/data.rs:1089-1107. -/
def userPreferencesKeys : List Str := keys ["transcription", "scheduler", "ignored_paths"]
/-- /repo/src/data.rs:1089-1107. -/
def encUserPreferences (p : UserPreferences) : Json :=
  encStruct userPreferencesKeys
    [encOpt encTranscriptionPreferences p.transcription, encOpt encSchedulerPreferences p.scheduler,
      encList encStr p.ignoredPaths]
/-- /repo/src/data.rs:1089-1107. -/
def decUserPreferences : Json → Option UserPreferences :=
  decStruct userPreferencesKeys fun fs => do
    some ⟨← field fs "transcription" (decOpt decTranscriptionPreferences) (some none),
      ← field fs "scheduler" (decOpt decSchedulerPreferences) (some none),
      ← field fs "ignored_paths" (decList decStr) (some [])⟩

/-! ### Assets -/

open Trane.Assets (BasicAsset ExerciseAsset)

/-- /repo/src/data.rs:221-242. -/
def encBasic : BasicAsset → Json
  | .markdown p => encData "MarkdownAsset" (encStruct (keys ["path"]) [encStr p])
  | .inlined c => encData "InlinedAsset" (encStruct (keys ["content"]) [encStr c])
  | .inlinedUnique c => encData "InlinedUniqueAsset" (encStruct (keys ["content"]) [encStr c])
/-- /repo/src/data.rs:221-242. -/
def decBasic (v : Json) : Option BasicAsset :=
  pick v [
    ("MarkdownAsset", dataCase (decStruct (keys ["path"]) fun fs => do
      some (.markdown (← field fs "path" decStr none)))),
    ("InlinedAsset", dataCase (decStruct (keys ["content"]) fun fs => do
      some (.inlined (← field fs "content" decStr none)))),
    ("InlinedUniqueAsset", dataCase (decStruct (keys ["content"]) fun fs => do
      some (.inlinedUnique (← field fs "content" decStr none))))]

/-- `LiteracyLessonType`, /repo/src/data/course_generator/literacy.rs:222-230. -/
def encLesson : Bool → Json
  | false => encUnit "Reading"
  | true => encUnit "Dictation"
/-- `LiteracyLessonType`. /repo/src/data/course_generator/literacy.rs:222-230. -/
def decLesson (v : Json) : Option Bool := pick v [("Reading", unitCase false), ("Dictation", unitCase true)]

/-- `TranscriptionLink`, /repo/src/data/course_generator/transcription.rs:28-34. -/
def encLink (url : Str) : Json := encData "YouTube" (encStr url)
/-- `TranscriptionLink`. /repo/src/data/course_generator/transcription.rs:28-34. -/
def decLink (v : Json) : Option Str := pick v [("YouTube", dataCase decStr)]

/-- Examples and exceptions of literacy exercises. /repo/src/data.rs:588-662. -/
def encExamples : List (Str × Option Str) → Json := encList (encPair encStr (encOpt encStr))
/-- Examples and exceptions of literacy exercises. /repo/src/data.rs:588-662. -/
def decExamples : Json → Option (List (Str × Option Str)) := decList (decPair decStr (decOpt decStr))

/-- /repo/src/data.rs:588-662. -/
def encAsset : ExerciseAsset → Json
  | .basic a => encData "BasicAsset" (encBasic a)
  | .flashcard f b =>
    encData "FlashcardAsset" (encStruct (keys ["front_path", "back_path"]) [encStr f, encOpt encStr b])
  | .inlineFlashcard f b =>
    encData "InlineFlashcardAsset" (encStruct (keys ["front_content", "back_content"]) [encStr f, encOpt encStr b])
  | .literacy t x y =>
    encData "LiteracyAsset" (encStruct (keys ["lesson_type", "examples", "exceptions"])
      [encLesson t, encExamples x, encExamples y])
  | .soundSlice l d b =>
    encData "SoundSliceAsset" (encStruct (keys ["link", "description", "backup"])
      [encStr l, encOpt encStr d, encOpt encStr b])
  | .transcription c l =>
    encData "TranscriptionAsset" (encStruct (keys ["content", "external_link"]) [encStr c, encOpt encLink l])
/-- /repo/src/data.rs:588-662. -/
def decAsset (v : Json) : Option ExerciseAsset :=
  pick v [
    ("BasicAsset", dataCase fun v => (decBasic v).map .basic),
    ("FlashcardAsset", dataCase (decStruct (keys ["front_path", "back_path"]) fun fs => do
      some (.flashcard (← field fs "front_path" decStr none) (← field fs "back_path" (decOpt decStr) (some none))))),
    ("InlineFlashcardAsset", dataCase (decStruct (keys ["front_content", "back_content"]) fun fs => do
      some (.inlineFlashcard (← field fs "front_content" decStr none)
        (← field fs "back_content" (decOpt decStr) (some none))))),
    ("LiteracyAsset", dataCase (decStruct (keys ["lesson_type", "examples", "exceptions"]) fun fs => do
      some (.literacy (← field fs "lesson_type" decLesson none) (← field fs "examples" decExamples (some []))
        (← field fs "exceptions" decExamples (some []))))),
    ("SoundSliceAsset", dataCase (decStruct (keys ["link", "description", "backup"]) fun fs => do
      some (.soundSlice (← field fs "link" decStr none) (← field fs "description" (decOpt decStr) (some none))
        (← field fs "backup" (decOpt decStr) (some none))))),
    ("TranscriptionAsset", dataCase (decStruct (keys ["content", "external_link"]) fun fs => do
      some (.transcription (← field fs "content" decStr (some []))
        (← field fs "external_link" (decOpt decLink) (some none)))))]

/-! ### Generators -/

/-- `MusicAsset`, /repo/src/data/course_generator/music_piece.rs:25-35. -/
inductive MusicAsset
  | soundSlice (link : Str)
  | localFile (path : Str)
  deriving DecidableEq

/-- /repo/src/data/course_generator/music_piece.rs:25-35. -/
def encMusicAsset : MusicAsset → Json
  | .soundSlice l => encData "SoundSlice" (encStr l)
  | .localFile p => encData "LocalFile" (encStr p)
/-- /repo/src/data/course_generator/music_piece.rs:25-35. -/
def decMusicAsset (v : Json) : Option MusicAsset :=
  pick v [("SoundSlice", dataCase fun v => (decStr v).map .soundSlice),
    ("LocalFile", dataCase fun v => (decStr v).map .localFile)]

open Trane.Gen.Music (Passage)

/-- The fields of `MusicPassage`. /repo/src/data/course_generator/music_piece.rs:73-88. -/
def passageKeys : List Str := keys ["start", "end", "sub_passages"]

mutual
/-- /repo/src/data/course_generator/music_piece.rs:73-88. -/
def encPassage : Passage → Json
  | .mk s e subs => encStruct passageKeys [encStr s, encStr e, .obj (encSubs subs)]
/-- One of the sub-passages. /repo/src/data/course_generator/music_piece.rs:73-88. -/
def encSub : Nat × Passage → Str × Json
  | (n, p) => (Nat.toDigits 10 n, encPassage p)
/-- The sub-passages. /repo/src/data/course_generator/music_piece.rs:73-88. -/
def encSubs : List (Nat × Passage) → List (Str × Json)
  | [] => []
  | p :: ps => encSub p :: encSubs ps
end

/-- /repo/src/data/course_generator/music_piece.rs:73-88, with fuel as for filters. -/
def decPassageN : Nat → Json → Option Passage
  | 0, _ => none
  | n + 1, v =>
    decStruct passageKeys (fun fs => do
      some (.mk (← field fs "start" decStr none) (← field fs "end" decStr none)
        (← field fs "sub_passages" (decMap keyNat (decPassageN n)) none))) v

/-- `MusicPassage::deserialize`. /repo/src/data/course_generator/music_piece.rs:73-88. -/
def decPassage (v : Json) : Option Passage := decPassageN (depth v) v

open Trane.Gen.Transcription (Track Passages Config)

/-- The fields of `TranscriptionAsset::Track`. /repo/src/data/course_generator/transcription.rs:48-87. -/
def trackKeys : List Str :=
  keys ["short_id", "track_name", "artist_name", "album_name", "duration", "external_link"]
/-- `TranscriptionAsset`, /repo/src/data/course_generator/transcription.rs:47-77. -/
def encTrack (t : Track) : Json :=
  encData "Track" (encStruct trackKeys
    [encStr t.shortId, encStr t.trackName, encOpt encStr t.artist, encOpt encStr t.album, encOpt encStr t.duration,
      encOpt encLink t.link])
/-- `TranscriptionAsset`. /repo/src/data/course_generator/transcription.rs:48-87. -/
def decTrack (v : Json) : Option Track :=
  pick v [("Track", dataCase (decStruct trackKeys fun fs => do
    some ⟨← field fs "short_id" decStr none, ← field fs "track_name" decStr none,
      ← field fs "artist_name" (decOpt decStr) (some none), ← field fs "album_name" (decOpt decStr) (some none),
      ← field fs "duration" (decOpt decStr) (some none), ← field fs "external_link" (decOpt decLink) (some none)⟩))]

/-- The fields of `TranscriptionPassages`. /repo/src/data/course_generator/transcription.rs:89-103. -/
def passagesKeys : List Str := keys ["asset", "intervals"]
/-- `TranscriptionPassages`, /repo/src/data/course_generator/transcription.rs:89-105. -/
def encPassages (p : Passages) : Json :=
  encStruct passagesKeys [encTrack p.asset, encMap (Nat.toDigits 10) (encPair encStr encStr) p.intervals]
/-- `TranscriptionPassages`. /repo/src/data/course_generator/transcription.rs:89-103. -/
def decPassages : Json → Option Passages :=
  decStruct passagesKeys fun fs => do
    some ⟨← field fs "asset" decTrack none,
      ← field fs "intervals" (decMap keyNat (decPair decStr decStr)) (some [])⟩

/-- The fields of `TranscriptionConfig`. /repo/src/data/course_generator/transcription.rs:186-222. -/
def configKeys : List Str :=
  keys ["transcription_dependencies", "passage_directory", "inlined_passages", "skip_singing_lessons",
    "skip_advanced_lessons"]
/-- `TranscriptionConfig`, /repo/src/data/course_generator/transcription.rs:187-223. -/
def encConfig (c : Config) : Json :=
  encStruct configKeys [encList encStr c.deps, encStr c.passageDir, encList encPassages c.inlined,
    encBool c.skipSinging, encBool c.skipAdvanced]
/-- `TranscriptionConfig`. /repo/src/data/course_generator/transcription.rs:186-222. -/
def decConfig : Json → Option Config :=
  decStruct configKeys fun fs => do
    some ⟨← field fs "transcription_dependencies" (decList decStr) (some []),
      ← field fs "passage_directory" decStr (some []),
      ← field fs "inlined_passages" (decList decPassages) (some []),
      ← field fs "skip_singing_lessons" decBool (some false),
      ← field fs "skip_advanced_lessons" decBool (some false)⟩

/-- `CourseGenerator`, /repo/src/data.rs:270-289, with `KnowledgeBaseConfig`
(/repo/src/data/course_generator/knowledge_base.rs:568-575), `LiteracyConfig`
(/repo/src/data/course_generator/literacy.rs:683-689) and `MusicPieceConfig`
(/repo/src/data/course_generator/music_piece.rs:172-182). -/
inductive Generator
  | knowledgeBase (inlined : Bool)
  | literacy (dictation : Bool)
  | musicPiece (asset : MusicAsset) (passages : Passage)
  | transcription (config : Config)

/-- `CourseGenerator`. /repo/src/data.rs:270-285. -/
def encGenerator : Generator → Json
  | .knowledgeBase b => encData "KnowledgeBase" (encStruct (keys ["inlined"]) [encBool b])
  | .literacy b => encData "Literacy" (encStruct (keys ["generate_dictation"]) [encBool b])
  | .musicPiece a p =>
    encData "MusicPiece" (encStruct (keys ["music_asset", "passages"]) [encMusicAsset a, encPassage p])
  | .transcription c => encData "Transcription" (encConfig c)
/-- `CourseGenerator`. /repo/src/data.rs:270-285. -/
def decGenerator (v : Json) : Option Generator :=
  pick v [
    ("KnowledgeBase", dataCase (decStruct (keys ["inlined"]) fun fs => do
      some (.knowledgeBase (← field fs "inlined" decBool (some false))))),
    ("Literacy", dataCase (decStruct (keys ["generate_dictation"]) fun fs => do
      some (.literacy (← field fs "generate_dictation" decBool (some false))))),
    ("MusicPiece", dataCase (decStruct (keys ["music_asset", "passages"]) fun fs => do
      some (.musicPiece (← field fs "music_asset" decMusicAsset none) (← field fs "passages" decPassage none)))),
    ("Transcription", dataCase fun v => (decConfig v).map .transcription)]

/-! ### Manifests -/

variable {F : Type}

/-- `CourseManifest`, /repo/src/data.rs:351-432. -/
structure CourseManifest (F : Type) where
  id : Str
  name : Str := []
  dependencies : List Str := []
  encompassed : List (Str × F) := []
  superseded : List Str := []
  description : Option Str := none
  authors : Option (List Str) := none
  metadata : Option Metadata := none
  material : Option BasicAsset := none
  instructions : Option BasicAsset := none
  generator : Option Generator := none

/-- Metadata. /repo/src/data.rs:413. -/
def encMetadata : Metadata → Json := encMap id (encList encStr)
/-- Metadata. /repo/src/data.rs:413. -/
def decMetadata : Json → Option Metadata := decMap some (decList decStr)

/-- Encompassed units with their weights. /repo/src/data.rs:352-460. -/
def encWeights (fl : Floats F) : List (Str × F) → Json := encList (encPair encStr (encFloat fl))
/-- Encompassed units with their weights. /repo/src/data.rs:352-460. -/
def decWeights (fl : Floats F) : Json → Option (List (Str × F)) := decList (decPair decStr (decFloat fl))

/-- The fields of `CourseManifest`. /repo/src/data.rs:351-430. -/
def courseKeys : List Str :=
  keys ["id", "name", "dependencies", "encompassed", "superseded", "description", "authors", "metadata",
    "course_material", "course_instructions", "generator_config"]
/-- /repo/src/data.rs:351-432. -/
def encCourse (fl : Floats F) (m : CourseManifest F) : Json :=
  encStruct courseKeys [encStr m.id, encStr m.name, encList encStr m.dependencies, encWeights fl m.encompassed,
    encList encStr m.superseded, encOpt encStr m.description, encOpt (encList encStr) m.authors,
    encOpt encMetadata m.metadata, encOpt encBasic m.material, encOpt encBasic m.instructions,
    encOpt encGenerator m.generator]
/-- /repo/src/data.rs:351-432. -/
def decCourse (fl : Floats F) : Json → Option (CourseManifest F) :=
  decStruct courseKeys fun fs => do
    some ⟨← field fs "id" decStr none, ← field fs "name" decStr (some []),
      ← field fs "dependencies" (decList decStr) (some []),
      ← field fs "encompassed" (decWeights fl) (some []),
      ← field fs "superseded" (decList decStr) (some []),
      ← field fs "description" (decOpt decStr) (some none),
      ← field fs "authors" (decOpt (decList decStr)) (some none),
      ← field fs "metadata" (decOpt decMetadata) (some none),
      ← field fs "course_material" (decOpt decBasic) (some none),
      ← field fs "course_instructions" (decOpt decBasic) (some none),
      ← field fs "generator_config" (decOpt decGenerator) (some none)⟩

/-- `LessonManifest`, /repo/src/data.rs:479-545. -/
structure LessonManifest (F : Type) where
  id : Str
  dependencies : List Str := []
  encompassed : List (Str × F) := []
  superseded : List Str := []
  courseId : Str
  name : Str := []
  description : Option Str := none
  metadata : Option Metadata := none
  material : Option BasicAsset := none
  instructions : Option BasicAsset := none

/-- The fields of `LessonManifest`. /repo/src/data.rs:478-545. -/
def lessonKeys : List Str :=
  keys ["id", "dependencies", "encompassed", "superseded", "course_id", "name", "description", "metadata",
    "lesson_material", "lesson_instructions"]
/-- /repo/src/data.rs:479-545. -/
def encLessonManifest (fl : Floats F) (m : LessonManifest F) : Json :=
  encStruct lessonKeys [encStr m.id, encList encStr m.dependencies, encWeights fl m.encompassed,
    encList encStr m.superseded, encStr m.courseId, encStr m.name, encOpt encStr m.description,
    encOpt encMetadata m.metadata, encOpt encBasic m.material, encOpt encBasic m.instructions]
/-- /repo/src/data.rs:479-545. -/
def decLessonManifest (fl : Floats F) : Json → Option (LessonManifest F) :=
  decStruct lessonKeys fun fs => do
    some ⟨← field fs "id" decStr none,
      ← field fs "dependencies" (decList decStr) (some []),
      ← field fs "encompassed" (decWeights fl) (some []),
      ← field fs "superseded" (decList decStr) (some []),
      ← field fs "course_id" decStr none, ← field fs "name" decStr (some []),
      ← field fs "description" (decOpt decStr) (some none),
      ← field fs "metadata" (decOpt decMetadata) (some none),
      ← field fs "lesson_material" (decOpt decBasic) (some none),
      ← field fs "lesson_instructions" (decOpt decBasic) (some none)⟩

/-- `ExerciseManifest`, /repo/src/data.rs:745-780; `declarative` is `ExerciseType` (lines 338-349), whose
default is `Procedural`. -/
structure ExerciseManifest where
  id : Str
  lessonId : Str
  courseId : Str
  name : Str := []
  description : Option Str := none
  declarative : Bool := false
  asset : ExerciseAsset
  deriving DecidableEq

/-- `ExerciseType`, /repo/src/data.rs:338-349. -/
def encKind : Bool → Json
  | true => encUnit "Declarative"
  | false => encUnit "Procedural"
/-- `ExerciseType`. /repo/src/data.rs:338-348. -/
def decKind (v : Json) : Option Bool := pick v [("Declarative", unitCase true), ("Procedural", unitCase false)]

/-- The fields of `ExerciseManifest`. /repo/src/data.rs:744-790. -/
def exerciseKeys : List Str :=
  keys ["id", "lesson_id", "course_id", "name", "description", "exercise_type", "exercise_asset"]
/-- /repo/src/data.rs:745-780. -/
def encExercise (m : ExerciseManifest) : Json :=
  encStruct exerciseKeys [encStr m.id, encStr m.lessonId, encStr m.courseId, encStr m.name,
    encOpt encStr m.description, encKind m.declarative, encAsset m.asset]
/-- /repo/src/data.rs:745-780. -/
def decExercise : Json → Option ExerciseManifest :=
  decStruct exerciseKeys fun fs => do
    some ⟨← field fs "id" decStr none, ← field fs "lesson_id" decStr none, ← field fs "course_id" decStr none,
      ← field fs "name" decStr (some []), ← field fs "description" (decOpt decStr) (some none),
      ← field fs "exercise_type" decKind (some false), ← field fs "exercise_asset" decAsset none⟩

/-! ### Files -/

/-- `serde_json::from_reader` and `from_str` for a type.
As in /repo/src/course_library.rs:181 and /repo/src/preferences_manager.rs:31. -/
def readAs {α : Type} (d : Json → Option α) (text : Str) : Option α := (parse text).bind d

end Trane.Json
