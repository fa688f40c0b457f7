import Verif.Sched.Search
import Verif.Graph.WellFormed

/-!
# Vocabulary for the search properties

Phrased with the queries of the unit graph, the blacklist, the manifests and the scores; nothing here
refers to how the search works.
-/

namespace Trane.Search
open Trane.Filters (KVFilter UnitFilter)
open Trane.Graph

variable {ι : Type} [DecidableEq ι]

/-- `c` is a course of the library. -/
def IsCourse (e : Env ι) (c : ι) : Prop := e.graph.getUnitType c = some .course
/-- `l` is a lesson of the library. -/
def IsLesson (e : Env ι) (l : ι) : Prop := e.graph.getUnitType l = some .lesson

/-- A library as it is after loading: the graph comes from graph calls, the units known to the graph are
those with a manifest, every lesson has a course, and the empty id is not the id of anything.  C47 shows
that opening a library gives this. -/
structure Sane (e : Env ι) : Prop where
  wf : WF e.graph
  course : ∀ u, IsCourse e u ↔ (e.courseMeta u).isSome = true
  lesson : ∀ u, IsLesson e u ↔ (e.lessonMeta u).isSome = true
  exercise : ∀ u, e.graph.getUnitType u = some .exercise ↔ e.hasExercise u = true
  lessonHasCourse : ∀ l, IsLesson e l → ∃ c, e.graph.getLessonCourse l = some c
  dfltUnknown : e.graph.getUnitType e.dflt = none
  dfltBlack : e.black e.dflt = false
  dfltSuperseded : e.superseded e.dflt = false
  unknownScore : ∀ u, e.graph.getUnitType u = none → e.score u = none ∨ e.score u = some none

/-- The filter of the search accepts the unit; without a filter every unit is accepted.  A lesson is
judged together with its course. -/
def Accepts (e : Env ι) : Option KVFilter → ι → Prop
  | none, _ => True
  | some f, u =>
    (IsCourse e u ∧ ∃ m, e.courseMeta u = some m ∧ f.applyToCourse m = true) ∨
    (IsLesson e u ∧ ∃ c cm lm, e.graph.getLessonCourse u = some c ∧ e.courseMeta c = some cm ∧
      e.lessonMeta u = some lm ∧ f.applyToLesson cm lm = true)

/-- The last accepted lessons of a course: no accepted lesson of the course depends on them. -/
def LastAccepted (e : Env ι) (mf : Option KVFilter) (c l : ι) : Prop :=
  CourseHasLesson e.graph c l ∧ Accepts e mf l ∧
    ∀ l', CourseHasLesson e.graph c l' → Accepts e mf l' → ¬ DependsOn e.graph l' l

/-- Dependency `d` of a unit is gated by unit `t`: `d` itself when the filter accepts it.  A dependency
that the filter leaves out is replaced: a course by its last accepted lessons or, if it has none, by its
own dependencies; a lesson by its own dependencies, and also by those of its course if it is a starting
lesson. -/
inductive Gates (e : Env ι) (mf : Option KVFilter) : ι → ι → Prop
  | self {d} : Accepts e mf d → Gates e mf d d
  | lastLesson {d t} : ¬ Accepts e mf d → IsCourse e d → LastAccepted e mf d t → Gates e mf d t
  | throughCourse {d d' t} : ¬ Accepts e mf d → IsCourse e d → (∀ l, ¬ LastAccepted e mf d l) →
      DependsOn e.graph d d' → Gates e mf d' t → Gates e mf d t
  | throughLesson {d d' t} : ¬ Accepts e mf d → IsLesson e d →
      DependsOn e.graph d d' → Gates e mf d' t → Gates e mf d t
  | throughStart {d c d' t} : ¬ Accepts e mf d → IsLesson e d → CourseStartsWith e.graph c d →
      DependsOn e.graph c d' → Gates e mf d' t → Gates e mf d t

/-- The student is done with `t` as far as units depending on it are concerned: it or its course is
blacklisted, it is superseded by mastered material, it has no score or number of trials, or both reach the
passing values. -/
def Satisfied (e : Env ι) (t : ι) : Prop :=
  e.black t = true ∨ (∃ c, e.graph.getLessonCourse t = some c ∧ e.black c = true) ∨
  e.superseded t = true ∨ e.score t = none ∨ e.score t = some none ∨ e.trials t = none ∨
  ∃ s n, e.score t = some (some s) ∧ e.trials t = some n ∧ e.opts.passing.minScore ≤ s ∧
    e.opts.passing.minAvgTrials ≤ n

/-- All dependencies of `u` are met. -/
def Unlocked (e : Env ι) (mf : Option KVFilter) (u : ι) : Prop :=
  ∀ d, DependsOn e.graph u d → ∀ t, Gates e mf d t → Satisfied e t

/-- `x` is an exercise of lesson `l` and neither it nor the lesson nor the course is blacklisted. -/
def Offers (e : Env ι) (l x : ι) : Prop :=
  LessonHasExercise e.graph l x ∧ e.black x = false ∧ e.black l = false ∧
    ∀ c, e.graph.getLessonCourse l = some c → e.black c = false

/-- The lesson gives no exercises and does not hold back what depends on it: it is blacklisted, left out
by the filter, or it or its course is superseded. -/
def LessonSkipped (e : Env ι) (mf : Option KVFilter) (l : ι) : Prop :=
  e.black l = true ∨ ¬ Accepts e mf l ∨ e.superseded l = true ∨
    ∃ c, e.graph.getLessonCourse l = some c ∧ e.superseded c = true

/-- The course does not hold back what depends on it whatever its lessons. -/
def CourseSkipped (e : Env ι) (mf : Option KVFilter) (c : ι) : Prop :=
  e.black c = true ∨ ¬ Accepts e mf c ∨ e.superseded c = true

/-- The average score of the exercises that lesson `l` offers is `a`; exercises without a score count as
0. -/
def LessonAverage (e : Env ι) (l : ι) (a : ℚ) : Prop :=
  ∃ xs : List ι, xs ≠ [] ∧ xs.Nodup ∧ (∀ x, x ∈ xs ↔ Offers e l x) ∧
    a = (xs.map (fun x => ((e.score x).getD none).getD 0)).sum / (xs.length : ℚ)

/-- The student may go on past lesson `l`: it offers no exercises, has no number of trials, or its average
score and trials reach the passing values.  The last case is a corner of the code: when the options ask for
a fraction of 0 at the passing score, a lesson exactly at it contributes nothing and is passed whatever
its trials. -/
def LessonPassed (e : Env ι) (l : ι) : Prop :=
  (∀ x, ¬ Offers e l x) ∨ e.trials l = none ∨
  ∃ a n, LessonAverage e l a ∧ e.trials l = some n ∧
    ((e.opts.passing.minScore ≤ a ∧ e.opts.passing.minAvgTrials ≤ n) ∨
     (a = e.opts.passing.minScore ∧ a < 4 ∧ e.opts.passing.minFraction ≤ 0))

/-- The number of exercises offered by the lesson is `n`. -/
def LessonSize (e : Env ι) (l : ι) (n : Nat) : Prop :=
  ∃ xs : List ι, xs.Nodup ∧ (∀ x, x ∈ xs ↔ Offers e l x) ∧ xs.length = n

/-- Where a search may go: through the whole library, or only through lessons of the given courses. -/
inductive Scope (ι : Type)
  | library
  | courses (cs : List ι)

/-- The search may use the lesson. -/
def InScope (e : Env ι) : Scope ι → ι → Prop
  | .library, _ => True
  | .courses cs, l => ∃ c ∈ cs, e.graph.getLessonCourse l = some c

/-- The units the student has access to from the starting points `init`.  Past a lesson or course one gets
to the units that depend on it and have all their dependencies met. -/
inductive Reached (e : Env ι) (mf : Option KVFilter) (sc : Scope ι) (init : ι → Prop) : ι → Prop
  /-- The starting points. -/
  | init {u} : init u → Reached e mf sc init u
  /-- From a course to its starting lessons. -/
  | start {c l} : sc = .library → Reached e mf sc init c → IsCourse e c →
      CourseStartsWith e.graph c l → Unlocked e mf l → Reached e mf sc init l
  /-- Past a lesson that is left out or passed. -/
  | past {l u} : Reached e mf sc init l → IsLesson e l → InScope e sc l →
      LessonSkipped e mf l ∨ LessonPassed e l → DependsOn e.graph u l → Unlocked e mf u →
      Reached e mf sc init u
  /-- Past a course that is left out. -/
  | pastCourse {c u} : sc = .library → Reached e mf sc init c → IsCourse e c → CourseSkipped e mf c →
      DependsOn e.graph u c → Unlocked e mf u → Reached e mf sc init u
  /-- To a course all of whose lessons have been reached. -/
  | allLessons {c} : sc = .library → IsCourse e c → (∃ l, CourseHasLesson e.graph c l) →
      (∀ l, CourseHasLesson e.graph c l → Reached e mf sc init l) → Reached e mf sc init c
  /-- Past a course all of whose lessons have been reached. -/
  | pastFinished {c u} : sc = .library → Reached e mf sc init c → IsCourse e c →
      (∀ l, CourseHasLesson e.graph c l → Reached e mf sc init l) →
      DependsOn e.graph u c → Unlocked e mf u → Reached e mf sc init u

/-- Where a search of the whole library starts: at the known units that the graph reports as dependency
sinks or that depend on an unknown sink, provided none of their dependencies is known. -/
def StartingUnit (e : Env ι) (u : ι) : Prop :=
  Known e.graph u ∧
  (u ∈ e.graph.getDependencySinks ∨
    ∃ d ∈ e.graph.getDependencySinks, ¬ Known e.graph d ∧ DependsOn e.graph u d) ∧
  ∀ d, DependsOn e.graph u d → ¬ Known e.graph d

/-- The first units of a search of the whole library: the unlocked starting lessons of a starting course,
or the starting unit itself if it has none. -/
def InitialUnit (e : Env ι) (mf : Option KVFilter) (u : ι) : Prop :=
  ∃ s, StartingUnit e s ∧
    ((CourseStartsWith e.graph s u ∧ Unlocked e mf u) ∨
     (u = s ∧ ∀ l, CourseStartsWith e.graph s l → ¬ Unlocked e mf l))

/-- `t` is `n` dependency steps away from `u`, or fewer if it has no dependencies itself. -/
inductive AtDepth (e : Env ι) : Nat → ι → ι → Prop
  | here {u} : AtDepth e 0 u u
  | leaf {n u} : (∀ d, ¬ DependsOn e.graph u d) → AtDepth e n u u
  | step {n u d t} : DependsOn e.graph u d → AtDepth e n d t → AtDepth e (n + 1) u t

/-- The search that a filter stands for: the metadata filter in force, where the search may go and where it
starts.  The lessons filter and the review list are not searches. -/
def SearchOf (e : Env ι) : Option (UnitFilter ι) → Option (Option KVFilter × Scope ι × (ι → Prop))
  | none => some (none, .library, InitialUnit e none)
  | some (.metadata f) => some (some f, .library, InitialUnit e (some f))
  | some (.courses cs) => some (none, .courses cs, fun l => ∃ c ∈ cs, CourseStartsWith e.graph c l)
  | some (.dependents ids) => some (none, .library, fun u => u ∈ ids)
  | some (.dependencies ids depth) =>
    some (none, .library, fun t => ∃ u ∈ ids, AtDepth e depth u t ∧ Known e.graph t)
  | some (.lessons _) => none
  | some .reviewList => none

/-- The number of exercises that a lesson with `n` exercises and average score `a` gives: all of them below
the passing score and from a score of 4; in between a fraction that grows linearly from the minimum to 1,
rounded down but to no less than one exercise unless the fraction is 0. -/
def share (o : PassingScoreOptions) (a : ℚ) (n : Nat) : Nat :=
  if a < o.minScore ∨ 4 ≤ a then n
  else
    let f := o.minFraction + (a - o.minScore) / (4 - o.minScore) * (1 - o.minFraction)
    if f = 0 then 0 else max 1 ⌊f * n⌋₊

end Trane.Search
