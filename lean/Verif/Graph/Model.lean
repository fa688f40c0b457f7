import Verif.Base
import Mathlib.Algebra.Order.Field.Rat

/-!
# Model of `InMemoryUnitGraph` (/repo/src/graph.rs)

Every `&mut self` method becomes a function returning the new graph; methods returning `Result`
also return a `Bool` (`true` = `Ok`).  The error messages are dropped.  Weights (`f32`) are `ℚ`.
-/

namespace Trane

/-- /repo/src/data.rs:148-161 `UnitType`. -/
inductive UnitType
  | exercise
  | lesson
  | course
  deriving DecidableEq, Repr

/-- /repo/src/graph.rs:182-221 `InMemoryUnitGraph`. -/
structure Graph (ι : Type) where
  types : AMap ι UnitType := []
  courseLessons : AMap ι (List ι) := []
  startingLessons : AMap ι (List ι) := []
  lessonCourse : AMap ι ι := []
  lessonExercises : AMap ι (List ι) := []
  exerciseLesson : AMap ι ι := []
  deps : AMap ι (List ι) := []
  dependents : AMap ι (List ι) := []
  sinks : List ι := []
  enc : AMap ι (List (ι × ℚ)) := []
  encBy : AMap ι (List (ι × ℚ)) := []
  sup : AMap ι (List ι) := []
  supBy : AMap ι (List ι) := []

namespace Graph

variable {ι : Type} [DecidableEq ι]

/-- `InMemoryUnitGraph::default()`. /repo/src/graph.rs:181-221. -/
def empty : Graph ι := {}

/-! ### Queries -/

/-- /repo/src/graph.rs:582-584. -/
def getUnitType (g : Graph ι) (u : ι) : Option UnitType := g.types.find u
/-- /repo/src/graph.rs:586-588. -/
def getCourseLessons (g : Graph ι) (c : ι) : Option (List ι) := g.courseLessons.find c
/-- /repo/src/graph.rs:590-592. -/
def getStartingLessons (g : Graph ι) (c : ι) : Option (List ι) := g.startingLessons.find c
/-- /repo/src/graph.rs:635-637. -/
def getLessonCourse (g : Graph ι) (l : ι) : Option ι := g.lessonCourse.find l
/-- /repo/src/graph.rs:639-641. -/
def getLessonExercises (g : Graph ι) (l : ι) : Option (List ι) := g.lessonExercises.find l
/-- /repo/src/graph.rs:643-645. -/
def getExerciseLesson (g : Graph ι) (e : ι) : Option ι := g.exerciseLesson.find e
/-- /repo/src/graph.rs:647-649. -/
def getDependencies (g : Graph ι) (u : ι) : Option (List ι) := g.deps.find u
/-- /repo/src/graph.rs:651-653. -/
def getDependents (g : Graph ι) (u : ι) : Option (List ι) := g.dependents.find u
/-- /repo/src/graph.rs:655-657. -/
def getDependencySinks (g : Graph ι) : List ι := g.sinks
/-- /repo/src/graph.rs:659-667: falls back to the dependencies with weight 1 when the map is
empty. -/
def getEncompasses (g : Graph ι) (u : ι) : Option (List (ι × ℚ)) :=
  if g.enc.isEmpty then (g.getDependencies u).map (fun ds => ds.map (fun d => (d, 1)))
  else g.enc.find u
/-- /repo/src/graph.rs:669-677. -/
def getEncompassedBy (g : Graph ι) (u : ι) : Option (List (ι × ℚ)) :=
  if g.encBy.isEmpty then (g.getDependents u).map (fun ds => ds.map (fun d => (d, 1)))
  else g.encBy.find u
/-- /repo/src/graph.rs:679-681. -/
def getSupersedes (g : Graph ι) (u : ι) : Option (List ι) := g.sup.find u
/-- /repo/src/graph.rs:683-685. -/
def getSupersededBy (g : Graph ι) (u : ι) : Option (List ι) := g.supBy.find u
/-- /repo/src/graph.rs:565-567. -/
def encompassingEqualsDependency (g : Graph ι) : Bool := g.enc.isEmpty && g.encBy.isEmpty

/-! ### Edits -/

/-- The non-recursive part of `update_dependency_sinks`, /repo/src/graph.rs:226-242: insert or
remove the unit, then remove it if it is a lesson with a known course. -/
def touchSink (g : Graph ι) (u : ι) (newDeps : List ι) : Graph ι :=
  let current := (g.deps.find u).getD []
  let s := if current.isEmpty && newDeps.isEmpty then g.sinks.insert u
           else g.sinks.filter (fun x => x ≠ u)
  let s := if (g.getLessonCourse u).isSome then s.filter (fun x => x ≠ u) else s
  { g with sinks := s }

/-- /repo/src/graph.rs:226-253 `update_dependency_sinks`.  The recursive calls are made with an
empty dependency list and therefore do not recurse further. -/
def updateDependencySinks (g : Graph ι) (u : ι) (ds : List ι) : Graph ι :=
  ds.foldl (fun g d => g.touchSink d []) (g.touchSink u ds)

/-- /repo/src/graph.rs:257-274 `update_unit_type`. -/
def updateUnitType (g : Graph ι) (u : ι) (t : UnitType) : Graph ι × Bool :=
  match g.types.find u with
  | none => ({ g with types := g.types.put u t }, true)
  | some t' => (g, decide (t = t'))

/-- /repo/src/graph.rs:277-287 and 524-527 `add_course`. -/
def addCourse (g : Graph ι) (c : ι) : Graph ι × Bool :=
  if (g.types.find c).isSome then (g, false)
  else g.updateUnitType c .course

/-- /repo/src/graph.rs:290-305 and 529-532 `add_lesson`.  If giving the course its type fails the
lesson keeps the type it was just given. -/
def addLesson (g : Graph ι) (l c : ι) : Graph ι × Bool :=
  if (g.types.find l).isSome then (g, false)
  else
    match g.updateUnitType l .lesson with
    | (g, false) => (g, false)
    | (g, true) =>
      match g.updateUnitType c .course with
      | (g, false) => (g, false)
      | (g, true) =>
        ({ g with
            lessonCourse := g.lessonCourse.put l c
            courseLessons := g.courseLessons.upd c [] (fun s => s.insert l) }, true)

/-- /repo/src/graph.rs:308-323 and 534-537 `add_exercise`. -/
def addExercise (g : Graph ι) (e l : ι) : Graph ι × Bool :=
  if (g.types.find e).isSome then (g, false)
  else
    match g.updateUnitType e .exercise with
    | (g, false) => (g, false)
    | (g, true) =>
      match g.updateUnitType l .lesson with
      | (g, false) => (g, false)
      | (g, true) =>
        ({ g with
            lessonExercises := g.lessonExercises.upd l [] (fun s => s.insert e)
            exerciseLesson := g.exerciseLesson.put e l }, true)

/-- /repo/src/graph.rs:327-347 `verify_dependencies`. -/
def verifyDependencies (g : Graph ι) (u : ι) (t : UnitType) (ds : List ι) : Bool :=
  decide (t ≠ .exercise) && ds.all (fun d => d ≠ u) && (g.types.find u).isSome

/-- /repo/src/graph.rs:350-367 and 539-547 `add_dependencies`. -/
def addDependencies (g : Graph ι) (u : ι) (t : UnitType) (ds : List ι) : Graph ι × Bool :=
  if g.verifyDependencies u t ds then
    let g := g.updateDependencySinks u ds
    let g := { g with deps := g.deps.upd u [] (fun s => extendSet s ds) }
    let g := ds.foldl
      (fun g d => { g with dependents := g.dependents.upd d [] (fun s => s.insert u) }) g
    (g, true)
  else (g, false)

/-- The list built in /repo/src/graph.rs:385-393: the explicit entries followed by every dependency
that has no explicit entry, with weight 1. -/
def fullEncompassed (ds : List ι) (es : List (ι × ℚ)) : List (ι × ℚ) :=
  es ++ (ds.filter (fun d => !(es.any (fun e => e.1 = d)))).map (fun d => (d, 1))

/-- /repo/src/graph.rs:370-407 and 549-557 `add_encompassed`. -/
def addEncompassed (g : Graph ι) (u : ι) (ds : List ι) (es : List (ι × ℚ)) : Graph ι × Bool :=
  if es.all (fun e => decide (0 ≤ e.2 ∧ e.2 ≤ 1)) then
    let full := fullEncompassed ds es
    let g := { g with enc := g.enc.upd u [] (fun l => l ++ full) }
    let g := full.foldl
      (fun g e => { g with encBy := g.encBy.upd e.1 [] (fun l => l ++ [(u, e.2)]) }) g
    (g, true)
  else (g, false)

/-- /repo/src/graph.rs:559-563 `set_encompasing_equals_dependency`. -/
def setEncompassingEqualsDependency (g : Graph ι) : Graph ι := { g with enc := [], encBy := [] }

/-- /repo/src/graph.rs:569-580 `add_superseded`. -/
def addSuperseded (g : Graph ι) (u : ι) (ss : List ι) : Graph ι :=
  if ss.isEmpty then g
  else
    let g := { g with sup := g.sup.upd u [] (fun s => extendSet s ss) }
    ss.foldl (fun g s => { g with supBy := g.supBy.upd s [] (fun l => l.insert u) }) g

/-- /repo/src/graph.rs:599-611: the starting lessons of a course with the given lessons. -/
def startingOf (g : Graph ι) (lessons : List ι) : List ι :=
  lessons.filter (fun l =>
    match g.getDependencies l with
    | none => true
    | some ds => lessons.all (fun x => x ∉ ds))

/-- /repo/src/graph.rs:617-625 `has_starting_dependencies`. -/
def hasStartingDeps (g : Graph ι) (starting : List ι) : Bool :=
  starting.any (fun l =>
    match g.getDependencies l with
    | none => false
    | some ds => !ds.isEmpty && ds.all (fun d => (g.getUnitType d).isSome))

/-- One iteration of the loop in /repo/src/graph.rs:597-632. -/
def updateStartingOne (g : Graph ι) (c : ι) : Graph ι :=
  let lessons := (g.courseLessons.find c).getD []
  let starting := g.startingOf lessons
  let s := if c ∈ g.sinks ∧ g.hasStartingDeps starting then g.sinks.filter (fun x => x ≠ c)
           else g.sinks
  { g with sinks := s, startingLessons := g.startingLessons.put c starting }

/-- /repo/src/graph.rs:594-633 `update_starting_lessons`. -/
def updateStartingLessons (g : Graph ι) : Graph ι :=
  g.courseLessons.keys.foldl updateStartingOne g

/-! ### Histories -/

/-- The mutating calls of the `UnitGraph` trait, /repo/src/graph.rs:40-160. -/
inductive Op (ι : Type)
  | addCourse (c : ι)
  | addLesson (l c : ι)
  | addExercise (e l : ι)
  | addDependencies (u : ι) (t : UnitType) (ds : List ι)
  | addEncompassed (u : ι) (ds : List ι) (es : List (ι × ℚ))
  | setEncompassingEqualsDependency
  | addSuperseded (u : ι) (ss : List ι)
  | updateStartingLessons

/-- Applies one call; the flag says whether it returned `Ok`. /repo/src/graph.rs:524-690. -/
def step (g : Graph ι) : Op ι → Graph ι × Bool
  | .addCourse c => g.addCourse c
  | .addLesson l c => g.addLesson l c
  | .addExercise e l => g.addExercise e l
  | .addDependencies u t ds => g.addDependencies u t ds
  | .addEncompassed u ds es => g.addEncompassed u ds es
  | .setEncompassingEqualsDependency => (g.setEncompassingEqualsDependency, true)
  | .addSuperseded u ss => (g.addSuperseded u ss, true)
  | .updateStartingLessons => (g.updateStartingLessons, true)

/-- Applies a list of calls, going on after failed ones. /repo/src/graph.rs:524-690. -/
def runFrom (g : Graph ι) (ops : List (Op ι)) : Graph ι := ops.foldl (fun g o => (g.step o).1) g

/-- Applies a list of calls to the empty graph. /repo/src/graph.rs:524-690. -/
def run (ops : List (Op ι)) : Graph ι := runFrom empty ops

end Graph
end Trane
