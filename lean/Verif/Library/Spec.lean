import Verif.Library.Model
import Verif.Graph.CycleProps

/-!
# Vocabulary for the library properties

What a list of opened courses declares, and what is on the disk, phrased with manifests only.
-/

namespace Trane.Library
open Trane.Store Trane.Filters Trane.Graph

variable {α γ : Type}

/-! ### What the manifests declare -/

/-- The course manifest is among the opened ones. -/
def HasCourse (cs : List (Opened α γ)) (m : CourseM α γ) : Prop := ∃ c ∈ cs, c.manifest = m
/-- The lesson manifest is among the opened ones. -/
def HasLesson (cs : List (Opened α γ)) (m : LessonM α) : Prop := ∃ c ∈ cs, ∃ l ∈ c.lessons, l.1 = m
/-- The exercise manifest is among the opened ones. -/
def HasExercise (cs : List (Opened α γ)) (m : ExerciseM α) : Prop :=
  ∃ c ∈ cs, ∃ l ∈ c.lessons, m ∈ l.2

/-- All unit ids, with repetitions. -/
def unitIds (cs : List (Opened α γ)) : List Str :=
  cs.flatMap (fun c => c.manifest.id :: c.lessons.flatMap (fun l => l.1.id :: l.2.map (·.id)))

/-- Lessons name the course they were found in, exercises their lesson and course. -/
def Proper (cs : List (Opened α γ)) : Prop :=
  ∀ c ∈ cs, ∀ l ∈ c.lessons, l.1.courseId = c.manifest.id ∧
    ∀ e ∈ l.2, e.lessonId = l.1.id ∧ e.courseId = c.manifest.id

/-- A course or lesson manifest with id `u` has dependencies `ds`, encompassed units `es` and
superseded units `ss`. -/
def Declares (cs : List (Opened α γ)) (u : Str) (ds : List Str) (es : List (Str × ℚ))
    (ss : List Str) : Prop :=
  (∃ m, HasCourse cs m ∧ m.id = u ∧ m.deps = ds ∧ m.enc = es ∧ m.sup = ss) ∨
  (∃ m, HasLesson cs m ∧ m.id = u ∧ m.deps = ds ∧ m.enc = es ∧ m.sup = ss)

/-- Some manifest of `u` lists `d` as a dependency. -/
def DeclaresDep (cs : List (Opened α γ)) (u d : Str) : Prop :=
  ∃ ds es ss, Declares cs u ds es ss ∧ d ∈ ds
/-- Some manifest of `u` lists `v` as superseded. -/
def DeclaresSup (cs : List (Opened α γ)) (u v : Str) : Prop :=
  ∃ ds es ss, Declares cs u ds es ss ∧ v ∈ ss
/-- Some manifest of `u` lists `v` as encompassed or as a dependency. -/
def DeclaresEnc (cs : List (Opened α γ)) (u v : Str) : Prop :=
  ∃ ds es ss, Declares cs u ds es ss ∧ (v ∈ ds ∨ ∃ w, (v, w) ∈ es)

/-- The condition under which a set of opened courses forms a library. -/
structure Acceptable (cs : List (Opened α γ)) : Prop where
  /-- No id is used twice. -/
  distinct : (unitIds cs).Nodup
  /-- No unit lists itself as a dependency. -/
  noSelf : ∀ u, ¬ DeclaresDep cs u u
  /-- Weights are between zero and one. -/
  weights : ∀ u ds es ss, Declares cs u ds es ss → ∀ e ∈ es, 0 ≤ e.2 ∧ e.2 ≤ 1
  /-- No cycles. -/
  depAcyclic : ¬ HasCycle (DeclaresDep cs)
  supAcyclic : ¬ HasCycle (DeclaresSup cs)
  encAcyclic : ¬ HasCycle (DeclaresEnc cs)

/-! ### What is on the disk -/

/-- The course manifest file is one the library should load. -/
def IsCourseFile (d : Disk α γ) (ignored : List FPath) (p : Path) : Prop :=
  p ∈ d.walk [] ∧ 2 ≤ p.length ∧ p.getLast? = some courseFile ∧
    ∀ i ∈ ignored, ¬ ((entryPath d p).abs = ((d.root.absolute d.cwd).push i).abs ∧
      ((d.root.absolute d.cwd).push i).comps <+: (entryPath d p).comps)

/-- A file of the given name two levels below a directory. -/
def IsBelow (d : Disk α γ) (dir : Path) (name : Str) (p : Path) : Prop :=
  p ∈ d.walk dir ∧ p.length = dir.length + 2 ∧ p.getLast? = some name

/-- The course in the given directory, with the changes its generator makes, and the generated
lessons. -/
def CourseIn (d : Disk α γ) (dir : Path) (c : CourseM α γ)
    (gen : List (LessonM α × List (ExerciseM α))) (m : CourseM α γ) : Prop :=
  (m.gen = none ∧ c = m ∧ gen = []) ∨
  (∃ cfg g, m.gen = some cfg ∧ d.generate cfg dir m = some g ∧ gen = g.lessons ∧
    c = { m with
      metadata := if g.metadata.isSome then g.metadata else m.metadata
      instructions := if g.instructions.isSome then g.instructions else m.instructions })

/-- The library on disk has a course with this manifest (after generation), directory and generated
lessons. -/
def DiskCourse (d : Disk α γ) (ignored : List FPath) (dir : Path) (c : CourseM α γ)
    (gen : List (LessonM α × List (ExerciseM α))) : Prop :=
  ∃ p m, IsCourseFile d ignored p ∧ p.dropLast = dir ∧ d.course p = some m ∧ CourseIn d dir c gen m

/-- The library on disk has a lesson with this manifest. -/
def DiskLesson (d : Disk α γ) (ignored : List FPath) (l : LessonM α) : Prop :=
  ∃ dir c gen, DiskCourse d ignored dir c gen ∧
    ((∃ es, (l, es) ∈ gen) ∨ ∃ p, IsBelow d dir lessonFile p ∧ d.lesson p = some l)

/-- The library on disk has an exercise with this manifest. -/
def DiskExercise (d : Disk α γ) (ignored : List FPath) (e : ExerciseM α) : Prop :=
  ∃ dir c gen, DiskCourse d ignored dir c gen ∧
    ((∃ l es, (l, es) ∈ gen ∧ e ∈ es) ∨
      ∃ p q, IsBelow d dir lessonFile p ∧ IsBelow d p.dropLast exerciseFile q ∧
        d.exercise q = some e)

/-- Every manifest of the library can be read and names the right parents. -/
structure Readable (d : Disk α γ) (ignored : List FPath) : Prop where
  course : ∀ p, IsCourseFile d ignored p → ∃ m, d.course p = some m ∧ m.id ≠ []
  generates : ∀ p m cfg, IsCourseFile d ignored p → d.course p = some m → m.gen = some cfg →
    ∃ g, d.generate cfg p.dropLast m = some g
  lesson : ∀ p m q, IsCourseFile d ignored p → d.course p = some m →
    IsBelow d p.dropLast lessonFile q →
      ∃ l, d.lesson q = some l ∧ l.id ≠ [] ∧ l.courseId = m.id
  exercise : ∀ p m q l r, IsCourseFile d ignored p → d.course p = some m →
    IsBelow d p.dropLast lessonFile q → d.lesson q = some l →
    IsBelow d q.dropLast exerciseFile r →
      ∃ e, d.exercise r = some e ∧ e.id ≠ [] ∧ e.lessonId = l.id ∧ e.courseId = l.courseId

/-- The opened courses are those of the disk: one per course file, each with its generated lessons
followed by one lesson per lesson file, each with one exercise per exercise file. -/
def IsOpened (d : Disk α γ) (ignored : List FPath) (cs : List (Opened α γ)) : Prop :=
  List.Forall₂ (fun p c => ∃ m gen found, d.course p = some m ∧
      CourseIn d p.dropLast c.manifest gen m ∧ c.lessons = gen ++ found ∧
      List.Forall₂ (fun q l => d.lesson q = some l.1 ∧
          List.Forall₂ (fun r e => d.exercise r = some e) (filesAt d q.dropLast exerciseFile) l.2)
        (filesAt d p.dropLast lessonFile) found)
    (courseFiles d ignored) cs

/-- Generated lessons and exercises name their parents and have an id. -/
def GeneratesProper (d : Disk α γ) : Prop :=
  ∀ cfg dir c g, d.generate cfg dir c = some g → ∀ l ∈ g.lessons,
    l.1.courseId = c.id ∧ l.1.id ≠ [] ∧
      ∀ e ∈ l.2, e.lessonId = l.1.id ∧ e.courseId = c.id ∧ e.id ≠ []

end Trane.Library
