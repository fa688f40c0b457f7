import Verif.Gen.MusicProps
import Verif.Gen.LiteracyProps
import Verif.Gen.KnowledgeProps
import Verif.Gen.TranscriptionFiles
import Verif.Library.Sample

/-!
# The generators of a library

The choice among the four generators, and the fact that all of them meet the assumption made of
generators in the theorems about opening a library. -/

namespace Trane.Gen
open Trane.Store Trane.Library Trane.Graph

variable {α : Type}

/-- /repo/src/data.rs:273-287 `CourseGenerator` with the settings of each generator the models
use. -/
inductive Config
  | knowledge (inlined : Bool)
  | literacy (withDictation : Bool)
  | music (passage : Music.Passage)
  | transcription (cfg : Transcription.Config)

/-- What the generators read, for every course directory, and the opaque parts of manifests.
/repo/src/data/course_generator/knowledge_base.rs:637-691, /repo/src/data/course_generator/literacy.rs:704-751, /repo/src/data/course_generator/music_piece.rs:186-201 and /repo/src/data/course_generator/transcription.rs:821-862. -/
structure World (α : Type) where
  knowledgeRest : Knowledge.Rest α
  knowledgeDirs : Path → List (Str × List (Str × Knowledge.Content))
  exerciseOrder : Knowledge.Groups → Knowledge.Groups
  lessonOrder : Knowledge.Lessons → Knowledge.Lessons
  literacyRest : Literacy.Rest α Config
  literacyDirs : Path → List (Str × List (Str × Literacy.Content))
  literacyOrder : AMap Str Literacy.Lesson → AMap Str Literacy.Lesson
  literacyInstructions : Path → CourseM α Config → Option (Option α)
  musicLesson : α
  musicAsset : Str → Str → α
  transcriptionLesson : Transcription.Kind → α
  transcriptionAsset : Transcription.Kind → Transcription.Passages → Str → Str → α
  transcriptionInstructions : α
  passageDir : Path → Str → Option (List Transcription.Entry)
  instruments : List Transcription.Instrument

/-- The settings of a transcription course, if it is one. /repo/src/data.rs:273-285. -/
def Config.asTranscription : Config → Option Transcription.Config
  | .transcription cfg => some cfg
  | _ => none

/-- /repo/src/data/course_generator/literacy.rs:665-668: whether to make dictation lessons is read from
the configuration stored in the manifest. -/
def Config.dictation : Option Config → Bool
  | some (.literacy b) => b
  | _ => false

/-- /repo/src/data.rs:314-336 `GenerateManifests for CourseGenerator`. -/
def dispatch (W : World α) : Config → Path → CourseM α Config → Option (Generated α)
  | .knowledge inlined, dir, c =>
    Knowledge.generate W.knowledgeRest inlined W.exerciseOrder W.lessonOrder (W.knowledgeDirs dir) c
  | .literacy _, dir, c =>
    Literacy.generate W.literacyRest (Config.dictation c.gen) W.literacyOrder (W.literacyDirs dir)
      (W.literacyInstructions dir c) c
  | .music p, _, c => some (Music.generate W.musicLesson W.musicAsset p c)
  | .transcription cfg, dir, c =>
    Transcription.generate W.transcriptionLesson W.transcriptionAsset W.transcriptionInstructions
      Config.asTranscription (W.passageDir dir) cfg W.instruments c

/-- With other flags than its own, the transcription generator works like one with those flags. -/
theorem Transcription.manifests_flags (lessonRest : Kind → α) (asset : Kind → Passages → Str → Str → α)
    (cfg : Transcription.Config) (own : Option Transcription.Config) (course : Str)
    (is : List Instrument) (ps : List Passages) :
    ∃ cfg', lessonManifests lessonRest asset cfg own course is ps =
      lessonManifests lessonRest asset cfg' (some cfg') course is ps := by
  cases own with
  | none => exact ⟨{ cfg with skipSinging := false, skipAdvanced := false }, rfl⟩
  | some o => exact ⟨{ cfg with skipSinging := o.skipSinging, skipAdvanced := o.skipAdvanced }, rfl⟩

theorem Transcription.proper_any (lessonRest : Kind → α) (asset : Kind → Passages → Str → Str → α)
    (cfg : Transcription.Config) (own : Option Transcription.Config) (course : Str)
    (is : List Instrument) (ps : List Passages) (l : LessonM α) (es : List (ExerciseM α))
    (h : (l, es) ∈ lessonManifests lessonRest asset cfg own course is ps) :
    l.courseId = course ∧ l.id ≠ [] ∧ ∀ e ∈ es, e.lessonId = l.id ∧ e.courseId = course ∧ e.id ≠ [] := by
  obtain ⟨cfg', he⟩ := manifests_flags lessonRest asset cfg own course is ps
  rw [he] at h
  refine proper (γ := Transcription.Config) lessonRest asset (lessonRest .singing) some (fun _ => some [])
    { cfg' with passageDir := [], inlined := ps } is
    ⟨course, [], [], [], none, none, some { cfg' with passageDir := [], inlined := ps }, lessonRest .singing⟩
    ⟨_, _, _⟩ rfl rfl l es ?_
  exact h

/-- **Every generator** makes lessons of the course it is run for, with non-empty ids, and exercises of
those lessons: the assumption on generators in the theorems about opened libraries is met. -/
theorem generates_proper (W : World α) (d : Disk α Config) (hd : d.generate = dispatch W) :
    GeneratesProper d := by
  rintro cfg dir c g hg ⟨l, es⟩ hl
  rw [hd] at hg
  cases cfg with
  | knowledge b => exact Knowledge.proper _ _ _ _ _ c g hg l es hl
  | literacy b =>
    simp only [dispatch, Literacy.generate, Option.bind_eq_bind, Option.bind_eq_some_iff] at hg
    obtain ⟨ls, _, ins, _, hg⟩ := hg
    cases hg
    exact Literacy.proper _ _ c _ _ l es hl
  | music p =>
    cases hg
    exact Music.proper _ _ p c l es hl
  | transcription cfg =>
    simp only [dispatch, Transcription.generate, Option.bind_eq_bind, Option.bind_eq_some_iff] at hg
    obtain ⟨found, _, hg⟩ := hg
    cases hg
    exact Transcription.proper_any _ _ _ _ _ _ _ l es hl

/-! ### A library with one course of each generator -/

/-- What the generators read for the sample. -/
def sampleWorld : World Unit where
  knowledgeRest := ⟨fun _ _ _ _ => (), fun _ _ _ _ _ => ()⟩
  knowledgeDirs := fun _ => Knowledge.sampleDirs
  exerciseOrder := id
  lessonOrder := id
  literacyRest := ⟨fun _ _ _ => (), fun _ _ _ => ()⟩
  literacyDirs := fun _ => [("vowels.lesson".toList, [("a.example.md".toList, { md := some "cat".toList })])]
  literacyOrder := id
  literacyInstructions := fun _ _ => some none
  musicLesson := ()
  musicAsset := fun _ _ => ()
  transcriptionLesson := fun _ => ()
  transcriptionAsset := fun _ _ _ _ => ()
  transcriptionInstructions := ()
  passageDir := fun _ => Transcription.sampleDir
  instruments := []

/-- A course manifest without anything but a generator. -/
def sampleCourse (id : Str) (deps : List Str) (gen : Config) : CourseM Unit Config :=
  ⟨id, deps, [], [], none, none, some gen, ()⟩

/-- Four directories, each with a course manifest. -/
def sampleDisk : Disk Unit Config where
  cwd := [['u']]
  root := ⟨true, [['r']]⟩
  walk := fun dir => ([[['1'], courseFile], [['2'], courseFile], [['3'], courseFile],
    [['4'], courseFile]] : List Path).filter (fun p => dir.isPrefixOf p)
  course := fun p =>
    if p = [['1'], courseFile] then some (sampleCourse ['k'] [] (.knowledge false))
    else if p = [['2'], courseFile] then some (sampleCourse ['l'] [['k']] (.literacy true))
    else if p = [['3'], courseFile] then some (sampleCourse ['m'] [] (.music Music.samplePassage))
    else if p = [['4'], courseFile] then some (sampleCourse ['t'] [['m']] (.transcription { passageDir := ['p'] }))
    else none
  lesson := fun _ => none
  exercise := fun _ => none
  generate := dispatch sampleWorld

/-- The sample meets the hypothesis. -/
example : GeneratesProper sampleDisk := generates_proper sampleWorld sampleDisk rfl

/-- It opens, with lessons of every generator. -/
example : ((openLibrary (idOrder Str) 100 sampleDisk []).join.map
      (fun lib => lib.getCourseIds.map (fun c => (lib.getLessonIds c).getD []))) =
    some [["k::basics".toList, "k::more".toList],
      ["l::vowels::dictation".toList, "l::vowels::reading".toList],
      ["m::0".toList, "m::0::2".toList, "m::0::2::0".toList, "m::0::2::13".toList, "m::0::5".toList],
      ["t::advanced_singing".toList, "t::singing".toList]] := by
  decide +kernel

end Trane.Gen
