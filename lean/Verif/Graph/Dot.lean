import Verif.Graph.Model
import Verif.Store.Table
import Mathlib.Data.List.Sort
import Mathlib.Data.Char
import Mathlib.Data.List.Lex

/-!
# Model of `generate_dot_graph` (/repo/src/graph.rs:692-775)

Ids are strings (lists of characters); the text is built exactly as the `writeln!` calls build it.
The iteration order of the hash maps is the order of the lists of the model; the code sorts
everything before writing.  `Ustr` is taken to be ordered like the strings.
-/

namespace Trane.Graph

open Trane.Store (Str)

/-- `Vec<Ustr>::sort`, /repo/src/graph.rs:696, 734, 750 and 762. -/
def dotSort (l : List Str) : List Str := l.insertionSort (· ≤ ·)

/-- The id between double quotes, as in every format string of /repo/src/graph.rs:701-765.  Nothing
is escaped. -/
def dotQuote (u : Str) : Str := '"' :: (u ++ ['"'])

/-- /repo/src/graph.rs:694. -/
def dotHeader : Str := "digraph dependent_graph {\n".toList
/-- /repo/src/graph.rs:772. -/
def dotFooter : Str := "}\n".toList
/-- /repo/src/graph.rs:701. -/
def dotCourse (c : Str) : Str :=
  "    ".toList ++ (dotQuote c ++ " [color=red, style=filled]\n".toList)
/-- /repo/src/graph.rs:753. -/
def dotLesson (l : Str) : Str :=
  "    ".toList ++ (dotQuote l ++ " [color=blue, style=filled]\n".toList)
/-- /repo/src/graph.rs:736 and 764. -/
def dotEdge (u v : Str) : Str :=
  "    ".toList ++ (dotQuote u ++ (" -> ".toList ++ (dotQuote v ++ "\n".toList)))

/-- The dependents written for a course, /repo/src/graph.rs:705-732, before sorting. -/
def dotDependents (g : Graph Str) (coursesOnly : Bool) (c : Str) : List Str :=
  ((g.getDependents c).getD []).filter
    (fun d => if coursesOnly then decide (g.getUnitType d = some .course) else true) ++
  (if coursesOnly then [] else (g.getStartingLessons c).getD [])

/-- The part of a lesson, /repo/src/graph.rs:751-766. -/
def dotLessonPart (g : Graph Str) (l : Str) : Str :=
  dotLesson l ++ (dotSort ((g.getDependents l).getD [])).flatMap (dotEdge l)

/-- The part of a course, /repo/src/graph.rs:699-768. -/
def dotCoursePart (g : Graph Str) (coursesOnly : Bool) (c : Str) : Str :=
  dotCourse c ++ ((dotSort (dotDependents g coursesOnly c)).flatMap (dotEdge c) ++
  (if coursesOnly then []
   else (dotSort ((g.getCourseLessons c).getD [])).flatMap (dotLessonPart g)))

/-- /repo/src/graph.rs:692-775 `generate_dot_graph`. -/
def generateDotGraph (g : Graph Str) (coursesOnly : Bool) : Str :=
  dotHeader ++ ((dotSort g.courseLessons.keys).flatMap (dotCoursePart g coursesOnly) ++ dotFooter)

end Trane.Graph
