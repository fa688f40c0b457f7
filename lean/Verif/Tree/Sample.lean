import Verif.Tree.Open
import Verif.Tree.Built
import Verif.Library.Sample
import Verif.Json.Lenient

/-!
# C90: a library as texts, and a configuration elsewhere

Course `c` has a lesson `c::1` with an exercise `c::1::e`, whose flashcard has its front in a file beside it.  The
directory `x` has a course manifest that is not JSON; the preferences ignore it.
-/

namespace Trane.Tree
open Trane.Store (Str)
open Trane.Library
open Trane.Graph (idOrder)
open Trane.Assets (isAbsolute join)
open Trane.Json (Generator)

instance : DecidablePred GoodName := fun n => by unfold GoodName; infer_instance

def sampleTree : Tree :=
  [ (["l".toList, ".trane".toList, "user_preferences.json".toList], "{ \"ignored_paths\": [\"x\"] }".toList),
    (["l".toList, "c".toList, courseFile], "{\"name\":\"C\", \"id\": \"c\", \"course_material\": {\"MarkdownAsset\": {\"path\": \"1/../m.md\"}}}".toList),
    (["l".toList, "c".toList, "m.md".toList], "# C".toList),
    (["l".toList, "c".toList, "1".toList, lessonFile],
      "{\"id\": \"c::1\", \"course_id\": \"c\", \"name\": \"1\", \"dependencies\": [\"c\\u003a:0\"]}\n".toList),
    (["l".toList, "c".toList, "1".toList, "e".toList, exerciseFile],
      "{\"id\": \"c::1::e\", \"lesson_id\": \"c::1\", \"course_id\": \"c\", \"name\": \"e\", \"exercise_asset\": {\"FlashcardAsset\": {\"front_path\": \"front.md\"}}}".toList),
    (["l".toList, "c".toList, "1".toList, "e".toList, "front.md".toList], "?".toList),
    (["l".toList, "x".toList, courseFile], "{".toList) ]

/-- No generators here. -/
def sampleMachine : Machine Unit where
  tree := sampleTree
  good := by unfold GoodTree; decide +kernel
  cwd := ["home".toList]
  workingDir := "/l".toList
  libraryRoot := "/l".toList
  order := id
  perm _ := List.Perm.refl _
  floats := Json.noFloats
  val _ := 0
  generate _ _ _ := none

/-- The library that the sample machine opens. -/
def opened (M : Machine Unit) (ignored : List FPath) : Lib Rest Generator :=
  ((openLibrary (idOrder Str) 100 M.disk ignored).join).getD {}

theorem opened_loads {M : Machine Unit} {ig : List FPath}
    (h : (openLibrary (idOrder Str) 100 M.disk ig).join.isSome = true) : Loads M.disk ig (opened M ig) := by
  refine ⟨idOrder Str, 100, ⟨fun _ _ => Iff.rfl, fun _ _ _ => Iff.rfl⟩, ?_⟩
  unfold opened
  cases h1 : openLibrary (idOrder Str) 100 M.disk ig with
  | none => rw [h1] at h; cases h
  | some r =>
    cases r with
    | none => rw [h1] at h; cases h
    | some lib => rfl

theorem sample_proper : GeneratesProper sampleMachine.disk := by
  intro cfg dir c g h
  cases h

/-- The hypotheses of the theorems can be met. -/
theorem sample_opens : Opens sampleMachine (opened sampleMachine [components "x".toList]) := by
  refine ⟨"{ \"ignored_paths\": [\"x\"] }".toList, ⟨none, none, ["x".toList]⟩, by decide +kernel, ?_, ?_⟩
  · decide +kernel
  · exact opened_loads (by decide +kernel)

/-- What is served: the lesson's dependency was written with an escape, the paths are those of the files. -/
example :
    (opened sampleMachine [components "x".toList]).getCourseIds = ["c".toList] ∧
    ((opened sampleMachine [components "x".toList]).getLessonManifest "c::1".toList).map (·.deps) =
      some ["c::0".toList] ∧
    ((opened sampleMachine [components "x".toList]).getExerciseManifest "c::1::e".toList).map (·.rest.paths) =
      some ["/l/c/1/e/front.md".toList] ∧
    ((opened sampleMachine [components "x".toList]).getCourseManifest "c".toList).map coursePaths =
      some ["/l/c/m.md".toList] := by decide +kernel

/-- Without the preferences the library does not open: one manifest is not JSON. -/
example : (openLibrary (idOrder Str) 100 sampleMachine.disk []).map Option.isNone = some true := by decide +kernel

/-! ### The configuration is not taken from the working directory -/

/-- A library `lib` in the home directory and another in the directory from which the program was started. -/
def twoLibraries : Machine Unit where
  tree :=
    [ (["home".toList, "lib".toList, "c".toList, courseFile], "{\"name\":\"C\", \"id\": \"c\"}".toList),
      (["home".toList, "lib".toList, ".trane".toList, "user_preferences.json".toList],
        "{ \"ignored_paths\": [\"c\"] }".toList),
      (["tmp".toList, "lib".toList, ".trane".toList, "user_preferences.json".toList], "{}".toList) ]
  good := by unfold GoodTree; decide +kernel
  cwd := ["tmp".toList]
  workingDir := "/home".toList
  libraryRoot := "lib".toList
  order := id
  perm _ := List.Perm.refl _
  floats := Json.noFloats
  val _ := 0
  generate _ _ _ := none

/-- **C90, negation for the configuration**: with a relative root the courses are those in the working directory
that was given, but the configuration is that in the directory of the process.  Here the course is loaded although
the preferences of its library ignore it. -/
theorem config_elsewhere :
    twoLibraries.home = some ["home".toList, "lib".toList] ∧
    twoLibraries.configHome = some ["tmp".toList, "lib".toList] ∧
    Ignores twoLibraries [] ∧
    (∃ lib, Opens twoLibraries lib ∧ lib.getCourseIds = ["c".toList]) := by
  refine ⟨by decide +kernel, by decide +kernel, ?_, opened twoLibraries [], ⟨"{}".toList, ⟨none, none, []⟩,
    by decide +kernel, by decide +kernel, opened_loads (by decide +kernel)⟩, by decide +kernel⟩
  obtain ⟨ig, hi, hl⟩ := opens_ignores (M := twoLibraries) (lib := opened twoLibraries [])
    ⟨"{}".toList, ⟨none, none, []⟩, by decide +kernel, by decide +kernel, opened_loads (by decide +kernel)⟩
  obtain ⟨r, text, v, prefs, h1, h2, h3, h4, h5, h6⟩ := hi
  have h7 : Json.readAs Json.decUserPreferences text = some prefs := (readAs_iff _ _ _).mpr ⟨v, h3, h4, h5⟩
  have e1 : twoLibraries.configHome = some ["tmp".toList, "lib".toList] := by decide +kernel
  rw [e1] at h1
  cases h1
  have e2 : twoLibraries.tree.find (["tmp".toList, "lib".toList] ++ prefsPath) = some "{}".toList := by decide +kernel
  rw [e2] at h2
  cases h2
  have e3 : Json.readAs Json.decUserPreferences "{}".toList = some ⟨none, none, []⟩ := by decide +kernel
  rw [e3] at h7
  cases h7
  exact ⟨_, _, v, _, e1, e2, h3, h4, h5, rfl⟩

end Trane.Tree
