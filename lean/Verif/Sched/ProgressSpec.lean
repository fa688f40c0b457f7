import Verif.Sched.SearchSpec
import Verif.Graph.CycleProps

/-!
# Vocabulary for C105: nothing stays locked while everything on offer is mastered

Phrased with the queries of the unit graph and the answers about scores; searches are without filter.
-/

namespace Trane.Search
open Trane.Graph

variable {ι : Type} [DecidableEq ι]

/-- The student has access to `u` in a search of the whole library. -/
abbrev Open (e : Env ι) (u : ι) : Prop := Reached e none .library (InitialUnit e none) u

/-- `v` comes before `u` in the library: `u` depends on it, or `u` is a starting lesson of a course that
depends on it, or it is a lesson of course `u`. -/
inductive Before (e : Env ι) : ι → ι → Prop
  | dep {u v} : DependsOn e.graph u v → Known e.graph v → Before e u v
  | course {c u v} : CourseStartsWith e.graph c u → DependsOn e.graph c v → Known e.graph v → Before e u v
  | lesson {u v} : CourseHasLesson e.graph u v → Before e u v

/-- Lesson `l` is on offer and not yet mastered: the student has access to it, it is not left out, it offers
an exercise, and units depending on it still wait for it or the search does not yet go past it. -/
def ToLearn (e : Env ι) (l : ι) : Prop :=
  IsLesson e l ∧ Open e l ∧ ¬ LessonSkipped e none l ∧ (∃ x, Offers e l x) ∧
    (¬ Satisfied e l ∨ ¬ LessonPassed e l)

/-- What the layout of the library has to be for this. -/
structure Orderly (e : Env ι) : Prop where
  /-- Nothing comes before itself, taking courses and their lessons together.  The checks made when a library
  is opened look at dependencies alone. -/
  noLoop : ¬ HasCycle (Before e)
  /-- No course or lesson depends on an exercise. -/
  noExercise : ∀ u d, DependsOn e.graph u d → e.graph.getUnitType d ≠ some .exercise
  /-- A course none of whose dependencies is in the library is one of the starting points of the graph, or
  each of its starting lessons has a dependency in the library by which to get there. -/
  starts : ∀ c, IsCourse e c → (∀ d, DependsOn e.graph c d → ¬ Known e.graph d) → StartingUnit e c ∨
    ((∃ l, CourseHasLesson e.graph c l) ∧
      ∀ l, CourseStartsWith e.graph c l → ∃ d, DependsOn e.graph l d ∧ Known e.graph d)
  /-- A lesson is a starting lesson of its course or depends on a lesson of its course. -/
  chain : ∀ c l, CourseHasLesson e.graph c l → CourseStartsWith e.graph c l ∨
    ∃ l', CourseHasLesson e.graph c l' ∧ DependsOn e.graph l l'

/-- A course holds nothing back when none of its lessons does. -/
def CourseFollows (e : Env ι) : Prop :=
  ∀ c, IsCourse e c → (∀ l, CourseHasLesson e.graph c l → Satisfied e l) → Satisfied e c

/-- A lesson left out because its course is superseded holds nothing back. -/
def NothingStranded (e : Env ι) : Prop :=
  ∀ c l, CourseHasLesson e.graph c l → e.superseded c = true → Satisfied e l

/-- A lesson without exercises on offer holds nothing back. -/
def EmptyHoldsNothing (e : Env ι) : Prop :=
  ∀ l, IsLesson e l → (∀ x, ¬ Offers e l x) → Satisfied e l

end Trane.Search
