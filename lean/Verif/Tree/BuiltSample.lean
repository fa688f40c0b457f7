import Verif.Tree.Sample

/-! # C74 with texts: a built course -/

namespace Trane.Tree
open Trane.Store (Str)
open Trane.Library
open Trane.CourseBuilder
open Trane.Assets (BasicAsset ExerciseAsset)
open Trane.Json (Generator noFloats)

def builtCourse : Json.CourseManifest Unit :=
  { id := ['c'], name := ['C', '"'], material := some (.markdown ['m']), metadata := some [(['k'], [['v']])] }

def builtLesson : Json.LessonManifest Unit := { id := ['c', ':', 'l'], courseId := ['c'], dependencies := [['d']] }

def builtExercise : Json.ExerciseManifest :=
  { id := ['e'], lessonId := ['c', ':', 'l'], courseId := ['c'], asset := .flashcard ['f', '/', 'g'] none }

def builtCourseB : CourseB Rest Generator where
  dir := ['d']
  manifest := courseM (fun _ => 0) builtCourse
  assets := [⟨[['m']], ['t']⟩]
  lessons := [ { dir := ['1'], manifest := some (lessonM (fun _ => 0) builtLesson), exercises :=
    [ { dir := ['x'], manifest := some (exerciseM builtExercise), assets := [⟨[['f'], ['g']], ['u']⟩] } ] } ]

/-- What building writes. -/
def builtFiles : FS Rest Generator :=
  [ ([['d'], courseFile], .course (courseM (fun _ => 0) builtCourse)),
    ([['d'], ['m']], .text ['t']),
    ([['d'], ['1'], lessonFile], .lesson (lessonM (fun _ => 0) builtLesson)),
    ([['d'], ['1'], ['x'], exerciseFile], .exercise (exerciseM builtExercise)),
    ([['d'], ['1'], ['x'], ['f'], ['g']], .text ['u']) ]

theorem built_files : build [] [] builtCourseB = (builtFiles, true) := by
  have h1 : (build [] [] builtCourseB).1 = builtFiles := by
    unfold build run builtCourseB courseSteps
    rfl
  have h2 : (build [] [] builtCourseB).2 = true := by decide +kernel
  exact Prod.ext h1 h2

/-- The machine with the library `/l`, in which the course was built. -/
def builtMachine : Machine Unit where
  tree :=
    [ ([['l'], ['d'], courseFile], Json.print (some 0) (Json.encCourse noFloats builtCourse) ++ ['\n']),
      ([['l'], ['d'], ['m']], ['t']),
      ([['l'], ['d'], ['1'], lessonFile], Json.print (some 0) (Json.encLessonManifest noFloats builtLesson) ++ ['\n']),
      ([['l'], ['d'], ['1'], ['x'], exerciseFile], Json.print (some 0) (Json.encExercise builtExercise) ++ ['\n']),
      ([['l'], ['d'], ['1'], ['x'], ['f'], ['g']], ['u']) ]
  good := by unfold GoodTree; decide +kernel
  cwd := []
  workingDir := []
  libraryRoot := ['l', '/']
  order := List.reverse
  perm l := List.reverse_perm l
  floats := noFloats
  val _ := 0
  generate _ _ _ := none

theorem built_holds : Holds builtMachine [['l']] builtFiles where
  home := by decide +kernel
  distinct := by decide +kernel
  notRoot := by
    cases h : builtFiles.find [] with
    | none => rfl
    | some x =>
      have h1 : [] ∈ builtFiles.keys := (AMap.mem_keys_iff _ _).mpr ⟨x, h⟩
      have h2 : [] ∉ builtFiles.keys := by decide +kernel
      exact absurd h1 h2
  nothing p hp := by
    cases h : builtMachine.tree.find ([['l']] ++ p) with
    | none => rfl
    | some x =>
      have h1 : [['l']] ++ p ∈ builtMachine.tree.keys := (AMap.mem_keys_iff _ _).mpr ⟨x, h⟩
      have h2 : builtMachine.tree.keys = builtFiles.keys.map (fun p => [['l']] ++ p) := by decide +kernel
      rw [h2] at h1
      obtain ⟨q, hq, e⟩ := List.mem_map.mp h1
      rw [List.append_cancel_left e, AMap.mem_keys_iff] at hq
      obtain ⟨y, hy⟩ := hq
      rw [hp] at hy
      cases hy
  text p e he := by
    have hm := AMap.mem_of_find he
    unfold builtFiles at hm
    simp only [List.mem_cons, List.not_mem_nil, or_false, Prod.mk.injEq] at hm
    rcases hm with ⟨rfl, rfl⟩ | ⟨rfl, rfl⟩ | ⟨rfl, rfl⟩ | ⟨rfl, rfl⟩ | ⟨rfl, rfl⟩
    · refine ⟨_, rfl, .course (M := builtMachine) builtCourse ⟨?_, ?_, ?_⟩ ?_⟩
      · intro w hw; cases hw
      · intro m hm; cases hm; decide +kernel
      · intro g hg; cases hg
      · show ∀ s ∈ [['m']], _
        intro s hs
        rw [List.mem_singleton.mp hs]
        exact .inr (by decide +kernel)
    · exact ⟨_, by decide +kernel, .text _⟩
    · refine ⟨_, by decide +kernel, .lesson (M := builtMachine) builtLesson ⟨?_, ?_⟩ ?_⟩
      · intro w hw; cases hw
      · intro m hm; cases hm
      · intro s hs; cases hs
    · refine ⟨_, by decide +kernel, .exercise (M := builtMachine) builtExercise ?_⟩
      show ∀ s ∈ [['f', '/', 'g']], _
      intro s hs
      rw [List.mem_singleton.mp hs]
      exact .inr (by decide +kernel)
    · exact ⟨_, by decide +kernel, .text _⟩

/-- The hypotheses of the theorem can be met. -/
example : ∃ found, processCourse builtMachine.disk [['d']]
    ((mentions [['l']]).courseAt [['d']] builtCourseB.manifest) =
      some ⟨(mentions [['l']]).courseAt [['d']] builtCourseB.manifest, [] ++ found⟩ ∧ found.length = 1 := by
  obtain ⟨_, _, found, hf, ls, hp, h2⟩ := texts_open_as_built (fs := []) (fs' := builtFiles) (parent := [])
    (c := builtCourseB) List.nodup_nil (fun p x h => by cases h) built_files
    (by
      refine ⟨by decide +kernel, ?_, ?_, ?_, ?_⟩
      · intro l hl; rw [List.mem_singleton.1 hl]; decide +kernel
      · intro a ha
        rw [List.mem_singleton.1 ha]
        exact ⟨by decide +kernel, by decide +kernel, by decide +kernel, by decide +kernel⟩
      · intro l hl a ha; rw [List.mem_singleton.1 hl] at ha; cases ha
      · intro l hl e he a ha
        rw [List.mem_singleton.1 hl] at he
        rw [List.mem_singleton.1 he] at ha
        rw [List.mem_singleton.1 ha]
        exact ⟨by decide +kernel, by decide +kernel, by decide +kernel, by decide +kernel⟩)
    (by
      refine ⟨by decide +kernel, ?_, ?_⟩
      · intro l hl m hm
        rw [List.mem_singleton.1 hl] at hm
        injection hm with hm; subst hm; decide +kernel
      · intro l hl m hm e he x hx
        rw [List.mem_singleton.1 hl] at hm he
        injection hm with hm; subst hm
        rw [List.mem_singleton.1 he] at hx
        injection hx with hx; subst hx; decide +kernel)
    built_holds
    (by
      refine ⟨by decide +kernel, ?_, ?_⟩
      · intro l hl m hm r hr
        rw [List.mem_singleton.1 hl] at hm ⊢
        injection hm with hm; subst hm; cases hr
      · intro l hl e he m hm r hr
        rw [List.mem_singleton.1 hl] at he ⊢
        rw [List.mem_singleton.1 he] at hm ⊢
        injection hm with hm; subst hm
        have : (mentions [['l']]).exercise (exerciseM builtExercise) = [[['f'], ['g']]] := by decide +kernel
        rw [this] at hr
        rw [List.mem_singleton.1 hr]; decide +kernel)
    (Or.inl ⟨rfl, rfl, rfl⟩)
  exact ⟨found, hf, by rw [← h2.length_eq, hp.length_eq]; rfl⟩

end Trane.Tree
