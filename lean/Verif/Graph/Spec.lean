import Verif.Graph.Model

/-!
# Vocabulary for the graph properties

Everything here is phrased with the queries of the `UnitGraph` trait only.
-/

namespace Trane.Graph

variable {ι : Type} [DecidableEq ι]

/-- `get_dependencies(u)` returns a set containing `d`. -/
def DependsOn (g : Graph ι) (u d : ι) : Prop := ∃ s, g.getDependencies u = some s ∧ d ∈ s
/-- `get_dependents(d)` returns a set containing `u`. -/
def HasDependent (g : Graph ι) (d u : ι) : Prop := ∃ s, g.getDependents d = some s ∧ u ∈ s
/-- `get_supersedes(u)` returns a set containing `v`. -/
def Supersedes (g : Graph ι) (u v : ι) : Prop := ∃ s, g.getSupersedes u = some s ∧ v ∈ s
/-- `get_superseded_by(v)` returns a set containing `u`. -/
def SupersededBy (g : Graph ι) (v u : ι) : Prop := ∃ s, g.getSupersededBy v = some s ∧ u ∈ s
/-- `get_course_lessons(c)` returns a set containing `l`. -/
def CourseHasLesson (g : Graph ι) (c l : ι) : Prop := ∃ s, g.getCourseLessons c = some s ∧ l ∈ s
/-- `get_lesson_exercises(l)` returns a set containing `e`. -/
def LessonHasExercise (g : Graph ι) (l e : ι) : Prop :=
  ∃ s, g.getLessonExercises l = some s ∧ e ∈ s
/-- `get_starting_lessons(c)` returns a set containing `l`. -/
def CourseStartsWith (g : Graph ι) (c l : ι) : Prop := ∃ s, g.getStartingLessons c = some s ∧ l ∈ s
/-- How many times the answer of `get_encompasses(u)` lists `(v, w)`. -/
def encompassCount (g : Graph ι) (u v : ι) (w : ℚ) : Nat :=
  match g.getEncompasses u with
  | none => 0
  | some l => l.count (v, w)
/-- How many times the answer of `get_encompassed_by(v)` lists `(u, w)`. -/
def encompassedByCount (g : Graph ι) (v u : ι) (w : ℚ) : Nat :=
  match g.getEncompassedBy v with
  | none => 0
  | some l => l.count (u, w)
/-- The full reverse-agreement claim of C05, stated on the queries. -/
def EncompassingAgrees (g : Graph ι) : Prop :=
  ∀ u v w, encompassCount g u v w = encompassedByCount g v u w

/-- `u` occurs in the dependency relation, as a unit with an entry or as a dependency. -/
def Mentioned (g : Graph ι) (u : ι) : Prop :=
  (∃ s, g.getDependencies u = some s) ∨ (∃ s, g.getDependents u = some s)
/-- The id is known to the graph. -/
def Known (g : Graph ι) (u : ι) : Prop := ∃ t, g.getUnitType u = some t

end Trane.Graph
