import Verif.Library.ListingProps

/-!
# A sample library for the non-vacuity examples

Course `a` has two lessons on disk, `a1` (exercises `x`, `y`) and `a2` (exercise `z`, depends on `a1`,
supersedes it and encompasses it with weight 1/2).  Course `b` depends on `a` and has a generator that
produces lesson `g` with exercise `h`.  Course `c` is only loaded when its directory is not ignored.
-/

namespace Trane.Library
open Trane.Store Trane.Filters Trane.Graph

/-- The file names as characters. -/
theorem file_names : courseFile = ['c', 'o', 'u', 'r', 's', 'e', '_', 'm', 'a', 'n', 'i', 'f', 'e',
    's', 't', '.', 'j', 's', 'o', 'n'] ∧ lessonFile = ['l', 'e', 's', 's', 'o', 'n', '_', 'm', 'a',
    'n', 'i', 'f', 'e', 's', 't', '.', 'j', 's', 'o', 'n'] ∧ exerciseFile = ['e', 'x', 'e', 'r', 'c',
    'i', 's', 'e', '_', 'm', 'a', 'n', 'i', 'f', 'e', 's', 't', '.', 'j', 's', 'o', 'n'] := by
  refine ⟨?_, ?_, ?_⟩ <;> decide +kernel

/-- The files of the sample, as a walk from the root returns them. -/
def sampleFiles : List Path :=
  [ [['a'], courseFile],
    [['a'], ['1'], lessonFile],
    [['a'], ['1'], ['x'], exerciseFile],
    [['a'], ['1'], ['y'], exerciseFile],
    [['a'], ['2'], lessonFile],
    [['a'], ['2'], ['z'], exerciseFile],
    [['n'], ['b'], courseFile],
    [['o'], ['c'], courseFile] ]

/-- A lesson manifest without metadata. -/
def sampleLesson (id c : Str) (deps : List Str) (enc : List (Str × ℚ)) (sup : List Str) :
    LessonM Unit := ⟨id, deps, enc, sup, c, none, ()⟩

def sampleDisk : Disk Unit Unit where
  cwd := [['u']]
  root := ⟨true, [['r']]⟩
  walk := fun dir => sampleFiles.filter (fun p => dir.isPrefixOf p)
  course := fun p =>
    if p = [['a'], courseFile] then some ⟨['a'], [], [], [], none, none, none, ()⟩
    else if p = [['n'], ['b'], courseFile] then some ⟨['b'], [['a']], [], [], none, none, some (), ()⟩
    else if p = [['o'], ['c'], courseFile] then some ⟨['c'], [], [], [], none, none, none, ()⟩
    else none
  lesson := fun p =>
    if p = [['a'], ['1'], lessonFile] then some (sampleLesson ['a', '1'] ['a'] [] [] [])
    else if p = [['a'], ['2'], lessonFile] then
      some (sampleLesson ['a', '2'] ['a'] [['a', '1']] [(['a', '1'], 1/2)] [['a', '1']])
    else none
  exercise := fun p =>
    if p = [['a'], ['1'], ['x'], exerciseFile] then some ⟨['x'], ['a', '1'], ['a'], ()⟩
    else if p = [['a'], ['1'], ['y'], exerciseFile] then some ⟨['y'], ['a', '1'], ['a'], ()⟩
    else if p = [['a'], ['2'], ['z'], exerciseFile] then some ⟨['z'], ['a', '2'], ['a'], ()⟩
    else none
  generate := fun _ _ c => some
    ⟨[(sampleLesson ['g'] c.id [] [] [], [⟨['h'], ['g'], c.id, ()⟩])], some [(['k'], [['v']])], none⟩

theorem sample_generates : GeneratesProper sampleDisk := by
  intro cfg dir c g h l hl
  cases h
  simp only [List.mem_singleton] at hl
  subst hl
  simp [sampleLesson]

/-- The library the sample disk loads when `ignored` is ignored (an empty library if it fails). -/
def sampleLib (ignored : List FPath) : Lib Unit Unit :=
  ((openLibrary (idOrder Str) 100 sampleDisk ignored).join).getD {}

theorem loads_of {d : Disk Unit Unit} {ig : List FPath}
    (h : (openLibrary (idOrder Str) 100 d ig).join.isSome = true) :
    Loads d ig (((openLibrary (idOrder Str) 100 d ig).join).getD {}) := by
  refine ⟨idOrder Str, 100, ⟨fun _ _ => Iff.rfl, fun _ _ _ => Iff.rfl⟩, ?_⟩
  cases h1 : openLibrary (idOrder Str) 100 d ig with
  | none => rw [h1] at h; cases h
  | some r =>
    cases r with
    | none => rw [h1] at h; cases h
    | some lib => rfl

/-- The hypotheses of the library theorems are met by the sample, with and without an ignored
directory. -/
theorem sample_loads : Loads sampleDisk [] (sampleLib []) := loads_of (by decide +kernel)

theorem sample_loads_ignoring :
    Loads sampleDisk [⟨false, [['.'], ['o']]⟩] (sampleLib [⟨false, [['.'], ['o']]⟩]) :=
  loads_of (by decide +kernel)

/-- What the loaded sample contains. -/
example :
    (sampleLib []).getCourseIds = [['a'], ['b'], ['c']] ∧
    (sampleLib []).getLessonIds ['a'] = some [['a', '1'], ['a', '2']] ∧
    (sampleLib []).getLessonIds ['c'] = none ∧
    (sampleLib []).getExerciseIds ['a', '1'] = some [['x'], ['y']] ∧
    (sampleLib []).getAllExerciseIds (some ['a']) = [['x'], ['y'], ['z']] ∧
    (sampleLib []).getAllExerciseIds none = [['h'], ['x'], ['y'], ['z']] ∧
    (sampleLib []).getMatchingPrefix ['a'] none = [['a', '2'], ['a', '1'], ['a']] ∧
    (sampleLib []).getMatchingPrefix ['a'] (some .lesson) = [['a', '2'], ['a', '1']] ∧
    ((sampleLib []).getCourseManifest ['b']).map (·.metadata) = some (some [(['k'], [['v']])]) ∧
    (sampleLib []).graph.getEncompasses ['a', '2'] = some [(['a', '1'], 1/2)] ∧
    (sampleLib []).graph.getCourseLessons ['b'] = some [['g']] := by decide +kernel

/-- Ignoring the directory `o` (C67) leaves out course `c` and nothing else. -/
example : (sampleLib [⟨false, [['.'], ['o']]⟩]).getCourseIds = [['a'], ['b']] ∧
    (sampleLib [⟨false, [['.'], ['o']]⟩]).getAllExerciseIds none = [['h'], ['x'], ['y'], ['z']] := by
  decide +kernel

/-- With a relative root the preference has no effect. -/
example : (((openLibrary (idOrder Str) 100 { sampleDisk with root := ⟨false, [['r']]⟩ }
    [⟨false, [['o']]⟩]).join).map (·.getCourseIds)) = some [['a'], ['b'], ['c']] := by decide +kernel

/-- Libraries that do not load: an id used twice, a dependency cycle, a lesson that names another
course, a weight above one, an unreadable manifest. -/
example :
    openLibrary (idOrder Str) 100 { sampleDisk with
      exercise := fun p => (sampleDisk.exercise p).map (fun e => { e with id := ['x'] }) } [] =
        some none ∧
    openLibrary (idOrder Str) 100 { sampleDisk with
      course := fun p => (sampleDisk.course p).map
        (fun c => if c.id = ['a'] then { c with deps := [['b']] } else c) } [] = some none ∧
    openLibrary (idOrder Str) 100 { sampleDisk with
      lesson := fun p => (sampleDisk.lesson p).map (fun l => { l with courseId := ['b'] }) } [] =
        some none ∧
    openLibrary (idOrder Str) 100 { sampleDisk with
      lesson := fun p => (sampleDisk.lesson p).map (fun l => { l with enc := [(['q'], 2)] }) } [] =
        some none ∧
    openLibrary (idOrder Str) 100 { sampleDisk with
      exercise := fun p => if p = [['a'], ['2'], ['z'], exerciseFile] then none
        else sampleDisk.exercise p } [] = some none := by
  have key : ∀ r : Option (Option (Lib Unit Unit)), r.map Option.isNone = some true → r = some none := by
    rintro (_ | _ | _) h
    · cases h
    · rfl
    · cases h
  refine ⟨key _ ?_, key _ ?_, key _ ?_, key _ ?_, key _ ?_⟩ <;> decide +kernel

end Trane.Library
