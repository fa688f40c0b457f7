import Verif.TestLib.Random
import Verif.TestLib.SimLibrary
import Verif.Tree.Sample
import Verif.Top.WholeSample

/-! # C97: a test library -/

namespace Trane.TestLib
open Trane.Store (Str)
open Trane.Library
open Trane.CourseBuilder
open Trane.Tree (Rest Machine Holds GoodTree GoodName courseM lessonM exerciseM)
open Trane.Json (Generator noFloats)
open Trane.Graph (KeyOrder)

def sampleLesson : TestLesson Unit := { id := ⟨0, some 0, none⟩, numExercises := 1 }
def sampleFirst : TestCourse Unit := { id := ⟨0, none, none⟩, lessons := [sampleLesson] }
def sampleSecond : TestCourse Unit := { id := ⟨1, none, none⟩, dependencies := [⟨0, none, none⟩] }

/-- A course with a lesson with an exercise, and a course that depends on it. -/
def sampleCourses : List (TestCourse Unit) := [sampleFirst, sampleSecond]

/-- It is a random library. -/
theorem sample_generated : generateLibrary (fun k => if k = 0 ∨ k = 1 ∨ k = 5 then 1 else 0) Unit
    ⟨2, (0, 1), (0, 1), (0, 0), (0, 1)⟩ = some sampleCourses := by
  rfl

example : (RandomLibrary.mk 2 (0, 1) (0, 1) (0, 0) (0, 1)).Valid := by
  constructor <;> decide

/-- With an empty range nothing is generated. -/
example : generateLibrary (fun _ => 0) Unit ⟨1, (0, 1), (1, 1), (0, 0), (2, 1)⟩ = none := by rfl

/-- Two dependencies are asked for; the last course gets one, because the same course was drawn twice. -/
example : (generateLibrary (fun _ => 0) Unit ⟨3, (2, 2), (0, 0), (0, 0), (0, 0)⟩).map
    (fun cs => cs.map (fun c => c.dependencies.length)) = some [0, 1, 1] := by rfl

theorem sample_wellFormed : WellFormedAll sampleCourses := by
  constructor
  · intro c hc
    simp only [sampleCourses, List.mem_cons, List.not_mem_nil, or_false] at hc
    rcases hc with rfl | rfl
    · refine ⟨rfl, ?_, by decide +kernel⟩
      intro l hl
      rw [List.mem_singleton.1 hl]
      decide +kernel
    · exact ⟨rfl, fun l hl => (nomatch hl), by decide +kernel⟩
  · decide +kernel

def first : Path := ["course_0".toList]
def second : Path := ["course_1".toList]

/-- What building writes. -/
def sampleFiles : FS Rest Generator :=
  [ (first ++ [courseFile], .course (courseM (fun _ => 0) (courseManifest sampleFirst))),
    (first ++ ["instructions.md".toList], .text "instructions".toList),
    (first ++ ["material.md".toList], .text "material".toList),
    (first ++ ["lesson_0".toList, lessonFile], .lesson (lessonM (fun _ => 0) (lessonManifest sampleLesson))),
    (first ++ ["lesson_0".toList, "instructions.md".toList], .text "instructions".toList),
    (first ++ ["lesson_0".toList, "material.md".toList], .text "material".toList),
    (first ++ ["lesson_0".toList, "exercise_0".toList, exerciseFile], .exercise (exerciseM (exerciseManifest ⟨0, some 0, none⟩ 0))),
    (first ++ ["lesson_0".toList, "exercise_0".toList, "question.md".toList], .text "question".toList),
    (first ++ ["lesson_0".toList, "exercise_0".toList, "answer.md".toList], .text "answer".toList),
    (second ++ [courseFile], .course (courseM (fun _ => 0) (courseManifest sampleSecond))),
    (second ++ ["instructions.md".toList], .text "instructions".toList),
    (second ++ ["material.md".toList], .text "material".toList) ]

theorem sample_files : buildAll [] [] (sampleCourses.map (courseOf (fun _ => 0))) = (sampleFiles, true) := by
  have h1 : (buildAll [] [] (sampleCourses.map (courseOf (fun _ : Unit => (0 : ℚ))))).1 = sampleFiles := by rfl
  have h2 : (buildAll [] [] (sampleCourses.map (courseOf (fun _ : Unit => (0 : ℚ))))).2 = true := by decide +kernel
  exact Prod.ext h1 h2

/-- The machine with the library `/l`, in which the courses were built. -/
def sampleMachine : Machine Unit where
  tree :=
    [ (["l".toList] ++ (first ++ [courseFile]), Json.print (some 0) (Json.encCourse noFloats (courseManifest sampleFirst)) ++ ['\n']),
      (["l".toList] ++ (first ++ ["instructions.md".toList]), "instructions".toList),
      (["l".toList] ++ (first ++ ["material.md".toList]), "material".toList),
      (["l".toList] ++ (first ++ ["lesson_0".toList, lessonFile]), Json.print (some 0) (Json.encLessonManifest noFloats (lessonManifest sampleLesson)) ++ ['\n']),
      (["l".toList] ++ (first ++ ["lesson_0".toList, "instructions.md".toList]), "instructions".toList),
      (["l".toList] ++ (first ++ ["lesson_0".toList, "material.md".toList]), "material".toList),
      (["l".toList] ++ (first ++ ["lesson_0".toList, "exercise_0".toList, exerciseFile]), Json.print (some 0) (Json.encExercise (exerciseManifest ⟨0, some 0, none⟩ 0)) ++ ['\n']),
      (["l".toList] ++ (first ++ ["lesson_0".toList, "exercise_0".toList, "question.md".toList]), "question".toList),
      (["l".toList] ++ (first ++ ["lesson_0".toList, "exercise_0".toList, "answer.md".toList]), "answer".toList),
      (["l".toList] ++ (second ++ [courseFile]), Json.print (some 0) (Json.encCourse noFloats (courseManifest sampleSecond)) ++ ['\n']),
      (["l".toList] ++ (second ++ ["instructions.md".toList]), "instructions".toList),
      (["l".toList] ++ (second ++ ["material.md".toList]), "material".toList) ]
  good := by unfold GoodTree; decide +kernel
  cwd := []
  workingDir := []
  libraryRoot := ['l', '/']
  order := List.reverse
  perm l := List.reverse_perm l
  floats := noFloats
  val _ := 0
  generate _ _ _ := none

theorem unit_text_plain : ∀ s ∈ Tree.assetPaths (some (.markdown "instructions.md".toList))
    (some (.markdown "material.md".toList)), Tree.Plain s := by
  intro s hs
  exact Or.inr (by
    have : ∀ s ∈ Tree.assetPaths (some (.markdown "instructions.md".toList))
      (some (.markdown "material.md".toList)), ∀ n ∈ Tree.split s, GoodName n := by decide +kernel
    exact this s hs)

theorem sample_course_text (c : TestCourse Unit) (h1 : c.encompassed = []) (h2 : c.metadata = []) :
    Tree.Text sampleMachine (.course (courseM (fun _ => 0) (courseManifest c)))
      (Json.print (some 0) (Json.encCourse noFloats (courseManifest c)) ++ ['\n']) := by
  refine .course (M := sampleMachine) (courseManifest c) ⟨?_, ?_, ?_⟩ unit_text_plain
  · intro w hw
    have : w ∈ c.encompassed.map (fun e => (e.1.text, e.2)) := hw
    rw [h1] at this; cases this
  · intro m hm
    have : some c.metadata = some m := hm
    injection this with this
    rw [← this, h2]; decide +kernel
  · intro g hg; cases hg

theorem sample_lesson_text (l : TestLesson Unit) (h1 : l.encompassed = []) (h2 : l.metadata = []) :
    Tree.Text sampleMachine (.lesson (lessonM (fun _ => 0) (lessonManifest l)))
      (Json.print (some 0) (Json.encLessonManifest noFloats (lessonManifest l)) ++ ['\n']) := by
  refine .lesson (M := sampleMachine) (lessonManifest l) ⟨?_, ?_⟩ unit_text_plain
  · intro w hw
    have : w ∈ l.encompassed.map (fun e => (e.1.text, e.2)) := hw
    rw [h1] at this; cases this
  · intro m hm
    have : some l.metadata = some m := hm
    injection this with this
    rw [← this, h2]; decide +kernel

theorem sample_exercise_text (l : TestId) (i : Nat) :
    Tree.Text sampleMachine (.exercise (exerciseM (exerciseManifest l i)))
      (Json.print (some 0) (Json.encExercise (exerciseManifest l i)) ++ ['\n']) := by
  refine .exercise (M := sampleMachine) (exerciseManifest l i) ?_
  intro s hs
  have hs' : s ∈ (Assets.ExerciseAsset.flashcard "question.md".toList (some "answer.md".toList)).paths := hs
  exact Or.inr (by
    have : ∀ s ∈ (Assets.ExerciseAsset.flashcard "question.md".toList (some "answer.md".toList)).paths,
      ∀ n ∈ Tree.split s, GoodName n := by decide +kernel
    exact this s hs')

theorem sample_holds : Holds sampleMachine ["l".toList] sampleFiles where
  home := by decide +kernel
  distinct := by decide +kernel
  notRoot := by
    cases h : sampleFiles.find [] with
    | none => rfl
    | some x =>
      have h1 : [] ∈ sampleFiles.keys := (AMap.mem_keys_iff _ _).mpr ⟨x, h⟩
      have h2 : [] ∉ sampleFiles.keys := by decide +kernel
      exact absurd h1 h2
  nothing p hp := by
    cases h : sampleMachine.tree.find (["l".toList] ++ p) with
    | none => rfl
    | some x =>
      have h1 : ["l".toList] ++ p ∈ sampleMachine.tree.keys := (AMap.mem_keys_iff _ _).mpr ⟨x, h⟩
      have h2 : sampleMachine.tree.keys = sampleFiles.keys.map (fun p => ["l".toList] ++ p) := by decide +kernel
      rw [h2] at h1
      obtain ⟨q, hq, e⟩ := List.mem_map.mp h1
      rw [List.append_cancel_left e, AMap.mem_keys_iff] at hq
      obtain ⟨y, hy⟩ := hq
      rw [hp] at hy
      cases hy
  text p e he := by
    have hm := AMap.mem_of_find he
    unfold sampleFiles at hm
    rcases List.mem_cons.1 hm with h | hm
    · cases h; exact ⟨_, rfl, sample_course_text _ rfl rfl⟩
    rcases List.mem_cons.1 hm with h | hm
    · cases h; exact ⟨_, by decide +kernel, .text _⟩
    rcases List.mem_cons.1 hm with h | hm
    · cases h; exact ⟨_, by decide +kernel, .text _⟩
    rcases List.mem_cons.1 hm with h | hm
    · cases h; exact ⟨_, by decide +kernel, sample_lesson_text _ rfl rfl⟩
    rcases List.mem_cons.1 hm with h | hm
    · cases h; exact ⟨_, by decide +kernel, .text _⟩
    rcases List.mem_cons.1 hm with h | hm
    · cases h; exact ⟨_, by decide +kernel, .text _⟩
    rcases List.mem_cons.1 hm with h | hm
    · cases h; exact ⟨_, by decide +kernel, sample_exercise_text _ _⟩
    rcases List.mem_cons.1 hm with h | hm
    · cases h; exact ⟨_, by decide +kernel, .text _⟩
    rcases List.mem_cons.1 hm with h | hm
    · cases h; exact ⟨_, by decide +kernel, .text _⟩
    rcases List.mem_cons.1 hm with h | hm
    · cases h; exact ⟨_, by decide +kernel, sample_course_text _ rfl rfl⟩
    rcases List.mem_cons.1 hm with h | hm
    · cases h; exact ⟨_, by decide +kernel, .text _⟩
    rcases List.mem_cons.1 hm with h | hm
    · cases h; exact ⟨_, by decide +kernel, .text _⟩
    cases hm

theorem sample_proper : ProperLinks sampleCourses := shape_links (random_shape sample_generated)

theorem sample_sensible : Sensible (fun _ => 0) sampleCourses := shape_sensible (random_shape sample_generated)

/-- The sample library opens. -/
theorem sample_opens (o : KeyOrder Str) (ho : o.Valid) :
    ∃ N, ∀ fuel, N ≤ fuel → ∃ lib, openLibrary o fuel sampleMachine.disk [] = some (some lib) := by
  obtain ⟨N, hN⟩ := test_library_opens sample_wellFormed sample_proper (builders_of sample_wellFormed) sample_files
    sample_holds (fun cfg dir c g h => by cases h) o ho
  refine ⟨N, fun fuel hf => ?_⟩
  obtain ⟨x, hx, h⟩ := hN fuel hf
  obtain ⟨lib, e⟩ := Option.isSome_iff_exists.1 (h.2 sample_sensible)
  exact ⟨lib, by rw [hx, e]⟩

/-! ### An object for simulations -/

section
open Trane.TopLevel
open Trane.Filters (UnitFilter)
variable {α γ : Type}

open Classical in
/-- The calls with the requests `q`, with fuel that is enough for them. -/
noncomputable def simObject (b : Base ℚ) (q : TopLevel.Top ℚ → Request) : SimApi (TopLevel.Top ℚ) Str where
  wait t τ := (step b t (.wait τ)).1
  batch t :=
    if h : ∃ r : Nat × _ × _, t.batch { q t with fuel := r.1 } = some (r.2.1, some r.2.2) then
      some ((step b t (.getBatch { q t with fuel := h.choose.1 })).1, h.choose.2.2)
    else none
  score t x g τ :=
    if h : ∃ fuel, (step b t (.scoreExercise x g τ fuel id {})).2 = true then
      some (step b t (.scoreExercise x g τ h.choose id {})).1
    else none
  addToBlacklist t u :=
    if (step b t (.addToBlacklist u false)).2 then some (step b t (.addToBlacklist u false)).1 else none

/-- On a library that opens there are objects for simulations with every filter. -/
theorem simObject_exists (d : Disk α γ) (ig : List FPath) (lib : Lib α γ) (b : Base ℚ)
    (hc : ¬ Graph.HasCycle (OnDiskOver d ig)) (f : Option (UnitFilter Str)) : ∃ A, SimObject d ig lib b f A := by
  classical
  have hq : ∀ t : TopLevel.Top ℚ, ∃ q : Request, q.filter = f ∧ Batch.IsChoices q.choices ∧
      ∀ h, Running d ig lib b h t → Serves lib b t q := by
    intro t
    by_cases hr : ∃ h, Running d ig lib b h t
    · obtain ⟨h, hr⟩ := hr
      obtain ⟨env, -, hs⟩ := serves_exists hr hc { sampleRequest with filter := f }
      exact ⟨_, rfl, Batch.firstOf_ok strOrder, fun _ _ => hs⟩
    · exact ⟨{ sampleRequest with filter := f }, rfl, Batch.firstOf_ok strOrder, fun h hh => absurd ⟨h, hh⟩ hr⟩
  choose q h1 h2 h3 using hq
  refine ⟨simObject b q, fun _ _ => rfl, fun _ _ => rfl, ?_, ?_⟩
  · intro h t hr
    refine ⟨q t, h1 t, h2 t, h3 t h hr, ?_, ?_⟩
    · intro t' xs ht
      dsimp only [simObject] at ht
      split at ht
      · rename_i he
        cases ht
        exact ⟨_, _, he.choose_spec, rfl⟩
      · cases ht
    · intro ht N
      dsimp only [simObject] at ht
      split at ht
      · cases ht
      · rename_i he
        exact ⟨N, le_refl N, fun s xs e => he ⟨(N, s, xs), e⟩⟩
  · intro t x g τ
    refine ⟨id, ?_, ?_⟩
    · intro t' ht
      dsimp only [simObject] at ht
      split at ht
      · rename_i he
        cases ht
        exact ⟨_, Prod.ext rfl he.choose_spec⟩
      · cases ht
    · intro ht N
      dsimp only [simObject] at ht
      split at ht
      · cases ht
      · rename_i he
        exact ⟨N, le_refl N, Bool.eq_false_iff.2 (fun e => he ⟨N, e⟩)⟩

/-- A simulation on a library, with a unit that is blacklisted first. -/
example (answer : Nat → Str → Option Trane.MasteryScore) (clock : Nat → Int) : ∃ A s,
    SimObject sampleDisk [] (sampleLib []) chainBase none A ∧
    runSimulation A answer clock 5 [['a']] wholeTop = (s, true) := by
  obtain ⟨A, hA⟩ := simObject_exists sampleDisk [] (sampleLib []) chainBase whole_acyclic none
  obtain ⟨s, h, -⟩ := library_simulation hA whole_running whole_no_empty whole_graded (fun h => by cases h)
    (us := [['a']]) (by decide) answer clock 5
  exact ⟨A, s, hA, h⟩

end

end Trane.TestLib
