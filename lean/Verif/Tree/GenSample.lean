import Verif.Tree.GenServed
import Verif.Tree.Sample

/-!
# C91: a library of generated courses, and a lesson whose instructions are not found

Four courses in `/l`: a knowledge base `k` with two lessons, a literacy course `w` with dictation, a piece of music
`m` in two parts and a transcription course `t` with one passage file.
-/

namespace Trane.Tree
open Trane.Store (Str)
open Trane.Library
open Trane.Graph (idOrder)
open Trane.Assets (join)
open Trane.Json (Generator readAs)
open Trane.Gen

variable {F : Type}

/-- A machine with the library `/l`, without generators: it is to be given those of the code. -/
def machineOf (t : Tree) (h : GoodTree t) : Machine Unit where
  tree := t
  good := h
  cwd := ["home".toList]
  workingDir := "/l".toList
  libraryRoot := "/l".toList
  order := id
  perm _ := List.Perm.refl _
  floats := Json.noFloats
  val _ := 0
  generate _ _ _ := none

def cards : Machine Unit := machineOf
  [ (["l".toList, ".trane".toList, "user_preferences.json".toList], "{}".toList),
    (["l".toList, "k".toList, courseFile],
      "{\"id\": \"k\", \"generator_config\": {\"KnowledgeBase\": {}}}".toList),
    (["l".toList, "k".toList, "a.lesson".toList, "lesson.instructions.md".toList], "Read this first".toList),
    (["l".toList, "k".toList, "a.lesson".toList, "1.front.md".toList], "?".toList),
    (["l".toList, "k".toList, "a.lesson".toList, "1.back.md".toList], "!".toList),
    (["l".toList, "k".toList, "b.lesson".toList, "lesson.dependencies.json".toList], "[\"a\", \"w\"]".toList) ]
  (by unfold GoodTree; decide +kernel)

def words : Machine Unit := machineOf
  [ (["l".toList, ".trane".toList, "user_preferences.json".toList], "{}".toList),
    (["l".toList, "w".toList, courseFile],
      "{\"id\": \"w\", \"generator_config\": {\"Literacy\": {\"generate_dictation\": true}}}".toList),
    (["l".toList, "w".toList, "x.lesson".toList, "cat.example.md".toList], "cat".toList) ]
  (by unfold GoodTree; decide +kernel)

def piece : Machine Unit := machineOf
  [ (["l".toList, ".trane".toList, "user_preferences.json".toList], "{}".toList),
    (["l".toList, "m".toList, courseFile],
      "{\"id\": \"m\", \"generator_config\": {\"MusicPiece\": {\"music_asset\": {\"SoundSlice\": \"u\"}, \"passages\": {\"start\": \"1\", \"end\": \"9\", \"sub_passages\": {\"0\": {\"start\": \"1\", \"end\": \"4\", \"sub_passages\": {}}}}}}}".toList) ]
  (by unfold GoodTree; decide +kernel)

def tracks : Machine Unit := machineOf
  [ (["l".toList, ".trane".toList, "user_preferences.json".toList],
      "{ \"transcription\": {\"instruments\": [{\"name\": \"Guitar\", \"id\": \"guitar\"}]} }".toList),
    (["l".toList, "t".toList, courseFile],
      "{\"id\": \"t\", \"generator_config\": {\"Transcription\": {\"passage_directory\": \"p\", \"skip_advanced_lessons\": true}}}".toList),
    (["l".toList, "t".toList, "p".toList, "one.json".toList],
      "{\"asset\": {\"Track\": {\"short_id\": \"s\", \"track_name\": \"N\"}}, \"intervals\": {\"3\": [\"0:10\", \"0:20\"]}}".toList) ]
  (by unfold GoodTree; decide +kernel)

/-- Files in the order in which they were found; no YAML. -/
def plain : Outside where
  examples _ := none
  exceptions _ := none
  exerciseOrder := id
  lessonOrder := id
  literacyOrder := id
  courseInstructions := []
  lessonInstructions _ := []

theorem plain_fair : plain.Fair := ⟨fun _ => .refl _, fun _ => .refl _, fun _ => .refl _⟩

theorem opens_of {M : Machine Unit} (h1 : ((M.configContents prefsPath).bind (readAs Json.decUserPreferences)).map
    (·.ignoredPaths) = some []) (h2 : (openLibrary (idOrder Str) 100 M.disk []).join.isSome = true) :
    Opens M (opened M []) := by
  rw [Option.map_eq_some_iff] at h1
  obtain ⟨prefs, h1, h3⟩ := h1
  rw [Option.bind_eq_some_iff] at h1
  obtain ⟨text, h4, h5⟩ := h1
  exact ⟨text, prefs, h4, h5, by rw [h3]; exact opened_loads h2⟩

theorem cards_loads : (openLibrary (idOrder Str) 100 (cards.real plain).disk []).join.isSome = true := by
  decide +kernel

/-- The hypotheses of the theorems can be met. -/
theorem cards_open : Opens (cards.real plain) (opened (cards.real plain) []) :=
  opens_of (by decide +kernel) cards_loads

theorem words_open : Opens (words.real plain) (opened (words.real plain) []) :=
  opens_of (by decide +kernel) (by decide +kernel)

theorem piece_opens : Opens (piece.real plain) (opened (piece.real plain) []) :=
  opens_of (by decide +kernel) (by decide +kernel)

theorem tracks_open : Opens (tracks.real plain) (opened (tracks.real plain) []) :=
  opens_of (by decide +kernel) (by decide +kernel)

/-- What is served of the knowledge base. -/
example :
    (opened (cards.real plain) []).getLessonIds "k".toList = some ["k::a".toList, "k::b".toList] ∧
    ((opened (cards.real plain) []).getLessonManifest "k::b".toList).map (·.deps) =
      some ["k::a".toList, "w".toList] ∧
    ((opened (cards.real plain) []).getExerciseManifest "k::a::1".toList).map (·.rest.paths) =
      some ["/l/k/a.lesson/1.front.md".toList, "/l/k/a.lesson/1.back.md".toList] := by decide +kernel

example : (opened (words.real plain) []).getLessonIds "w".toList =
    some ["w::x::dictation".toList, "w::x::reading".toList] := by decide +kernel

example : (opened (piece.real plain) []).getLessonIds "m".toList =
    some ["m::0".toList, "m::0::0".toList] := by decide +kernel

/-! ### The instructions of a generated lesson -/

theorem leads_name {t : Tree} {p q : Path} {n : Str} (h1 : n ≠ []) (h2 : n ≠ ['.']) (h3 : n ≠ ['.', '.'])
    (h : Leads t p [n] q) : q = p ++ [n] := by
  cases h with
  | stay _ h _ => rcases h with h | h <;> contradiction
  | up => contradiction
  | down _ _ _ _ h => cases h; rfl

/-- The instructions of a lesson of a knowledge base lead to a file only if it is in the current directory of the
process, whatever the lesson: the file in the directory of the lesson is not what is served. -/
theorem instructions_from_cwd (M : Machine F) (q : Path) (h : PathTo M "lesson.instructions.md".toList q) :
    q = M.cwd ++ ["lesson.instructions.md".toList] := by
  obtain ⟨_, h⟩ := h
  have e1 : start M.cwd "lesson.instructions.md".toList = M.cwd := by
    unfold start
    rw [if_neg (by decide +kernel)]
  have e2 : split "lesson.instructions.md".toList = ["lesson.instructions.md".toList] := by decide +kernel
  rw [e1, e2] at h
  exact leads_name (by decide +kernel) (by decide +kernel) (by decide +kernel) h

/-- **C91, negation for the instructions**: the lesson is served with instructions whose path leads nowhere, although
the directory of the lesson has the file. -/
theorem instructions_not_found :
    (∃ text, cards.tree.find ["l".toList, "k".toList, "a.lesson".toList, "lesson.instructions.md".toList] = some text) ∧
    ∃ lib, Opens (cards.real plain) lib ∧
      (lib.getLessonManifest "k::a".toList).map (·.rest.paths) = some ["lesson.instructions.md".toList] ∧
      ¬ ∃ q, PathTo cards "lesson.instructions.md".toList q := by
  refine ⟨⟨_, rfl⟩, _, cards_open, by decide +kernel, ?_⟩
  rintro ⟨q, _, h⟩
  rw [leads_iff] at h
  have : resolve cards.tree (start cards.cwd "lesson.instructions.md".toList) (split "lesson.instructions.md".toList) =
    none := by decide +kernel
  rw [this] at h
  cases h

end Trane.Tree
