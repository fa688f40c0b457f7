import Verif.Graph.Dot
import Verif.Graph.Spec

/-!
# What a DOT drawing says

A drawing is a list of lines; `Shows text lines` says that the text is these lines between the
first and the last line of the file.
-/

namespace Trane.Graph

open Trane.Store (Str)

/-- A line of a drawing. -/
inductive DotLine
  /-- A red node. -/
  | course (c : Str)
  /-- A blue node. -/
  | lesson (l : Str)
  /-- An arrow. -/
  | arrow (u v : Str)
  deriving DecidableEq

/-- The line as it is written in the DOT language. -/
def DotLine.text : DotLine → Str
  | .course c => "    \"".toList ++ (c ++ "\" [color=red, style=filled]\n".toList)
  | .lesson l => "    \"".toList ++ (l ++ "\" [color=blue, style=filled]\n".toList)
  | .arrow u v => "    \"".toList ++ (u ++ ("\" -> \"".toList ++ (v ++ "\"\n".toList)))

/-- The ids of the line contain no double quote. -/
def DotLine.Plain : DotLine → Prop
  | .course c => '"' ∉ c
  | .lesson l => '"' ∉ l
  | .arrow u v => '"' ∉ u ∧ '"' ∉ v

/-- The text consists of the given lines. -/
def Shows (text : Str) (lines : List DotLine) : Prop :=
  text = "digraph dependent_graph {\n".toList ++ (lines.flatMap DotLine.text ++ "}\n".toList)

/-- The course has a lesson. -/
def HasLessons (g : Graph Str) (c : Str) : Prop := ∃ l, CourseHasLesson g c l

/-- The lesson is listed under a course. -/
def InCourse (g : Graph Str) (l : Str) : Prop := ∃ c, CourseHasLesson g c l

end Trane.Graph
