import Verif.Graph.Dot
import Verif.Graph.CycleProps

/-!
# The project's own tests of the unit graph, replayed on the model (/repo/src/graph.rs:780-1315)

These are tests of the model, not theorems about it: each `example` makes the calls of one `#[test]`
of the code on the model and checks the assertions of that test.  They are here to show that the
model answers as the code's authors expect the code to answer.  No claim rests on them.
-/

namespace Trane.Conform.Graph

open Trane Trane.Graph
open Trane.Store (Str)

/-- `Ustr::from`. -/
def u (s : String) : Str := s.toList

/-- Every call returns `Ok`. -/
def allOk (g : Graph Str) : List (Op Str) → Bool
  | [] => true
  | o :: os => (g.step o).2 && allOk (g.step o).1 os

/-- The set has exactly these members. -/
def isSet {α : Type} [DecidableEq α] (l : Option (List α)) (m : List α) : Bool :=
  match l with
  | none => false
  | some l => l.length == m.length && m.all (fun x => decide (x ∈ l))

/-- `check_cycles` returns `Ok`, `Err`. -/
def cyclesOk (g : Graph Str) : Bool :=
  match checkCycles g (idOrder Str) 100 with
  | some (.ok _) => true
  | _ => false

/-- `check_cycles` returns `Err`. -/
def cyclesErr (g : Graph Str) : Bool :=
  match checkCycles g (idOrder Str) 100 with
  | some (.error _) => true
  | _ => false

def c1 : Str := u "course1"
def c2 : Str := u "course2"
def c3 : Str := u "course3"
def c4 : Str := u "course4"
def c5 : Str := u "course5"

/-- /repo/src/graph.rs:793-800 `get_unit_type`. -/
example : let ops := [Op.addCourse (u "id1"), .addDependencies (u "id1") .course []]
    allOk empty ops = true ∧ (run ops).getUnitType (u "id1") = some .course := by decide +kernel

/-- The calls of /repo/src/graph.rs:805-821. -/
def lessonsAndExercises : List (Op Str) :=
  [.addCourse c1, .addDependencies c1 .course [], .addLesson (u "course1::lesson1") c1,
   .addExercise (u "course1::lesson1::exercise1") (u "course1::lesson1"),
   .addExercise (u "course1::lesson1::exercise2") (u "course1::lesson1"),
   .addLesson (u "course1::lesson2") c1,
   .addExercise (u "course1::lesson2::exercise1") (u "course1::lesson2"),
   .addExercise (u "course1::lesson2::exercise2") (u "course1::lesson2")]

/-- /repo/src/graph.rs:804-855 `get_course_lessons_and_exercises`. -/
example : let g := run lessonsAndExercises
    allOk empty lessonsAndExercises = true ∧
    isSet (g.getCourseLessons c1) [u "course1::lesson1", u "course1::lesson2"] = true ∧
    isSet (g.getLessonExercises (u "course1::lesson1"))
      [u "course1::lesson1::exercise1", u "course1::lesson1::exercise2"] = true ∧
    g.getExerciseLesson (u "course1::lesson1::exercise1") = some (u "course1::lesson1") ∧
    g.getExerciseLesson (u "course1::lesson1::exercise2") = some (u "course1::lesson1") ∧
    isSet (g.getLessonExercises (u "course1::lesson2"))
      [u "course1::lesson2::exercise1", u "course1::lesson2::exercise2"] = true ∧
    g.getExerciseLesson (u "course1::lesson2::exercise1") = some (u "course1::lesson2") ∧
    g.getExerciseLesson (u "course1::lesson2::exercise2") = some (u "course1::lesson2") := by
  decide +kernel

/-- The five courses of `dependency_graph` and `dependencies_cycle`. -/
def fiveCourses : List (Op Str) :=
  [.addCourse c1, .addCourse c2, .addCourse c3, .addCourse c4, .addCourse c5,
   .addDependencies c1 .course [], .addDependencies c2 .course [c1],
   .addDependencies c3 .course [c1], .addDependencies c4 .course [c2],
   .addDependencies c5 .course [c3]]

/-- `dependency_graph`, /repo/src/graph.rs:859-924. -/
example : let g := run fiveCourses
    allOk empty fiveCourses = true ∧
    isSet (g.getDependents c1) [c2, c3] = true ∧ isSet (g.getDependencies c1) [] = true ∧
    isSet (g.getDependents c2) [c4] = true ∧ isSet (g.getDependencies c2) [c1] = true ∧
    isSet (g.getDependents c3) [c5] = true ∧ isSet (g.getDependencies c3) [c1] = true ∧
    g.getDependents c4 = none ∧ isSet (g.getDependencies c4) [c2] = true ∧
    g.getDependents c5 = none ∧ isSet (g.getDependencies c5) [c3] = true ∧
    isSet (some g.getDependencySinks) [c1] = true ∧ cyclesOk g = true := by
  decide +kernel

/-- `courses_with_starting_dependencies_not_in_sinks`. -/
example : let ops : List (Op Str) :=
      [.addCourse c1, .addCourse c2, .addLesson (u "course2::lesson1") c2,
       .addDependencies c1 .course [], .addDependencies c2 .course [],
       .addDependencies (u "course2::lesson1") .lesson [c1], .updateStartingLessons]
    allOk empty ops = true ∧ isSet (some (run ops).getDependencySinks) [c1] = true := by
  decide +kernel

/-- `encompassing_graph`. -/
example : let ops : List (Op Str) :=
      [.addCourse c1, .addCourse c2, .addCourse c3, .addDependencies c1 .course [],
       .addEncompassed c1 [] [], .addDependencies c2 .course [c1], .addEncompassed c2 [c1] [],
       .addDependencies c3 .course [c1], .addEncompassed c3 [c1] [(c1, 1/2), (c2, 1/2)]]
    let g := run ops
    allOk empty ops = true ∧ g.encompassingEqualsDependency = false ∧
    isSet (g.getEncompasses c1) [] = true ∧
    isSet (g.getEncompassedBy c1) [(c3, 1/2), (c2, 1)] = true ∧
    isSet (g.getEncompasses c3) [(c1, 1/2), (c2, 1/2)] = true ∧
    isSet (g.getEncompassedBy c2) [(c3, 1/2)] = true ∧
    isSet (g.getEncompasses c2) [(c1, 1)] = true ∧
    g.getEncompassedBy c3 = none := by
  decide +kernel

/-- `encompassing_equals_dependencies`. -/
example : let ops : List (Op Str) :=
      [.addCourse c1, .addCourse c2, .addCourse c3, .addDependencies c1 .course [],
       .addDependencies c2 .course [c1], .addDependencies c3 .course [c1]]
    let g := run ops
    allOk empty ops = true ∧ g.encompassingEqualsDependency = true ∧
    isSet (g.getEncompasses c1) [] = true ∧ isSet (g.getDependencies c1) [] = true ∧
    isSet (g.getEncompassedBy c1) [(c2, 1), (c3, 1)] = true ∧
    isSet (g.getDependents c1) [c2, c3] = true ∧
    isSet (g.getEncompasses c2) [(c1, 1)] = true ∧ isSet (g.getDependencies c2) [c1] = true ∧
    g.getEncompassedBy c2 = none ∧ g.getDependents c2 = none ∧
    isSet (g.getEncompasses c3) [(c1, 1)] = true ∧ isSet (g.getDependencies c3) [c1] = true ∧
    g.getEncompassedBy c3 = none ∧ g.getDependents c3 = none := by
  decide +kernel

/-- `superseding_graph`. -/
example : let ops : List (Op Str) :=
      [.addCourse c1, .addCourse c2, .addCourse c3, .addDependencies c1 .course [],
       .addSuperseded c1 [c2], .addDependencies c2 .course [c1], .addSuperseded c2 [c3],
       .addDependencies c3 .course [c2]]
    let g := run ops
    allOk empty ops = true ∧
    isSet (g.getSupersedes c1) [c2] = true ∧ g.getSupersededBy c1 = none ∧
    isSet (g.getSupersedes c2) [c3] = true ∧ isSet (g.getSupersededBy c2) [c1] = true ∧
    g.getSupersedes c3 = none ∧ isSet (g.getSupersededBy c3) [c2] = true := by
  decide +kernel

/-- The calls of `generate_dot_graph`. -/
def drawn : List (Op Str) :=
  [.addLesson (u "1::1") (u "1"), .addLesson (u "1::2") (u "1"), .addLesson (u "2::1") (u "2"),
   .addLesson (u "3::1") (u "3"), .addLesson (u "3::2") (u "3"),
   .addDependencies (u "1") .course [], .addDependencies (u "1::2") .lesson [u "1::1"],
   .addDependencies (u "2") .course [u "1"], .addDependencies (u "3") .course [u "2"],
   .addDependencies (u "3::2") .lesson [u "3::1"], .updateStartingLessons]

/-- `generate_dot_graph`, the drawing with all units and the one with courses only. -/
example : allOk empty drawn = true ∧
    generateDotGraph (run drawn) false = u ("digraph dependent_graph {\n" ++
      "    \"1\" [color=red, style=filled]\n" ++
      "    \"1\" -> \"1::1\"\n" ++
      "    \"1\" -> \"2\"\n" ++
      "    \"1::1\" [color=blue, style=filled]\n" ++
      "    \"1::1\" -> \"1::2\"\n" ++
      "    \"1::2\" [color=blue, style=filled]\n" ++
      "    \"2\" [color=red, style=filled]\n" ++
      "    \"2\" -> \"2::1\"\n" ++
      "    \"2\" -> \"3\"\n" ++
      "    \"2::1\" [color=blue, style=filled]\n" ++
      "    \"3\" [color=red, style=filled]\n" ++
      "    \"3\" -> \"3::1\"\n" ++
      "    \"3::1\" [color=blue, style=filled]\n" ++
      "    \"3::1\" -> \"3::2\"\n" ++
      "    \"3::2\" [color=blue, style=filled]\n" ++
      "}\n") ∧
    generateDotGraph (run drawn) true = u ("digraph dependent_graph {\n" ++
      "    \"1\" [color=red, style=filled]\n" ++
      "    \"1\" -> \"2\"\n" ++
      "    \"2\" [color=red, style=filled]\n" ++
      "    \"2\" -> \"3\"\n" ++
      "    \"3\" [color=red, style=filled]\n" ++
      "}\n") := by
  decide +kernel

/-- `duplicate_ids`: the second call of each kind is refused.  (The test in the code computes
`is_err()` but drops the result, so it asserts nothing about it.) -/
example : let g := run [Op.addCourse (u "course_id"), .addLesson (u "lesson_id") (u "course_id"),
      .addExercise (u "exercise_id") (u "lesson_id")]
    (g.step (.addCourse (u "course_id"))).2 = false ∧
    (g.step (.addLesson (u "lesson_id") (u "course_id"))).2 = false ∧
    (g.step (.addExercise (u "exercise_id") (u "lesson_id"))).2 = false := by
  decide +kernel

/-- `update_unit_type_different_types`. -/
example : let g := (empty : Graph Str).updateUnitType (u "unit_id") .course
    g.2 = true ∧ (g.1.updateUnitType (u "unit_id") .lesson).2 = false := by
  decide +kernel

/-- `dependencies_cycle`. -/
example : let ops := fiveCourses ++ [.addDependencies c1 .course [c5]]
    allOk empty ops = true ∧ cyclesErr (run ops) = true := by
  decide +kernel

/-- `encompassed_cycle`. -/
example : let ops : List (Op Str) :=
      [.addEncompassed c2 [c1] [], .addEncompassed c3 [c1] [], .addEncompassed c4 [c2] [],
       .addEncompassed c5 [c3] [], .addEncompassed c1 [c5] []]
    allOk empty ops = true ∧ cyclesErr (run ops) = true := by
  decide +kernel

/-- `superseded_cycle`. -/
example : cyclesErr (run [Op.addSuperseded c2 [c1], .addSuperseded c3 [c1],
    .addSuperseded c4 [c2], .addSuperseded c5 [c3], .addSuperseded c1 [c5]]) = true := by
  decide +kernel

/-- `missing_dependent_relationship`: the test edits the maps by hand. -/
example : let ops : List (Op Str) :=
      [.addCourse (u "course_id"), .addLesson (u "lesson1_id") (u "course_id"),
       .addLesson (u "lesson2_id") (u "course_id"),
       .addDependencies (u "lesson2_id") .lesson [u "lesson1_id"]]
    let g := run ops
    let g1 := { g with dependents := AMap.put g.dependents (u "lesson1_id") [] }
    let g2 := { g1 with deps := AMap.del g1.deps (u "lesson1_id") }
    allOk empty ops = true ∧ cyclesErr g1 = true ∧ cyclesErr g2 = true := by
  decide +kernel

/-- `missing_encompasing_relationship`. -/
example : let g := run [Op.addEncompassed (u "lesson2_id") [u "lesson1_id"] []]
    let g1 := { g with encBy := AMap.put g.encBy (u "lesson1_id") [] }
    let g2 := { g1 with encBy := AMap.del g1.encBy (u "lesson1_id") }
    cyclesErr g1 = true ∧ cyclesErr g2 = true := by
  decide +kernel

/-- `missing_superseding_relationship`. -/
example : let g := run [Op.addSuperseded (u "lesson2_id") [u "lesson1_id"]]
    let g1 := { g with supBy := AMap.put g.supBy (u "lesson1_id") [] }
    let g2 := { g1 with deps := AMap.del g1.deps (u "lesson1_id") }
    cyclesErr g1 = true ∧ cyclesErr g2 = true := by
  decide +kernel

end Trane.Conform.Graph
