import Verif.Sched.Candidate
import Verif.Data.Filter
import Mathlib.Data.Rat.Floor

/-!
# The search for candidates

Models the search part of `/repo/src/scheduler.rs` and the functions of `/repo/src/scheduler/data.rs` it
uses.

* What the scheduler reads during one search is an `Env`.  Scores, numbers of trials, urgencies and
  velocities are arbitrary functions here: `UnitScorer` models how they are computed.  They do not change
  during a search (the caches only make them cheaper and the clock is read as constant).
* A stack (`Vec` with `push`/`pop`) is a list whose head is the top.
* Randomness and the iteration order of hash sets: the `n`-th shuffle or set iteration of a run orders its
  list by `rnd n`, an arbitrary permutation.  The counter is part of the search state.
* Loops take fuel; `none` means that the fuel ran out.
-/

namespace Trane.Search
open Trane.Filters (Metadata KVFilter UnitFilter)

/-- What the search reads: `SchedulerData` (/repo/src/scheduler/data.rs:20-61) and the answers of the unit
scorer (/repo/src/scheduler/unit_scorer.rs). -/
structure Env (ι : Type) where
  graph : Graph ι
  /-- `blacklist.blacklisted(id)`; it never fails (C10). -/
  black : ι → Bool
  /-- `get_course_manifest(id)`, reduced to the metadata. -/
  courseMeta : ι → Option Metadata
  /-- `get_lesson_manifest(id)`, reduced to the metadata. -/
  lessonMeta : ι → Option Metadata
  /-- Whether `get_exercise_manifest(id)` returns a manifest. -/
  hasExercise : ι → Bool
  /-- `Ustr::default()`. -/
  dflt : ι
  opts : SchedulerOptions
  /-- `get_unit_score`; the outer `none` is `Err`. -/
  score : ι → Option (Option ℚ)
  /-- `get_avg_trials`. -/
  trials : ι → Option ℚ
  /-- `get_superseding_recursive` followed by `is_superseded` (`false` for no superseding units). -/
  superseded : ι → Bool
  /-- `get_exercise_urgency`; `none` is `Err`. -/
  urgency : ι → Option ℚ
  /-- `get_exercise_velocity`; the outer `none` is `Err`. -/
  velocity : ι → Option (Option ℚ)
  /-- `frequency_map.get(id).unwrap_or(0)`. -/
  frequency : ι → Nat

/-- The permutations used by the successive shuffles and set iterations.
/repo/src/scheduler.rs:210, 308, 343 and 861. -/
abbrev Rnd := Nat → (α : Type) → List α → List α

variable {ι : Type} [DecidableEq ι]

namespace Env

/-- `get_lesson_course(id).unwrap_or_default()`, /repo/src/scheduler/data.rs:218-220. -/
def courseOf (e : Env ι) (l : ι) : ι := (e.graph.getLessonCourse l).getD e.dflt

/-- `get_dependencies(id).unwrap_or_default()`. As in /repo/src/scheduler.rs:247. -/
def deps (e : Env ι) (u : ι) : List ι := (e.graph.getDependencies u).getD []

/-- `get_all_dependents`, /repo/src/scheduler/data.rs:156-165. -/
def dependents (e : Env ι) (u : ι) : List ι := (e.graph.getDependents u).getD []

/-- `get_starting_lessons(id).unwrap_or_default()`. As in /repo/src/scheduler.rs:266. -/
def starting (e : Env ι) (c : ι) : List ι := (e.graph.getStartingLessons c).getD []

/-- `get_course_lessons(id).unwrap_or_default()`. As in /repo/src/scheduler.rs:402. -/
def lessons (e : Env ι) (c : ι) : List ι := (e.graph.getCourseLessons c).getD []

/-- `unit_exists`, /repo/src/scheduler/data.rs:225-239. -/
def unitExists (e : Env ι) (u : ι) : Bool :=
  match e.graph.getUnitType u with
  | none => false
  | some .course => (e.courseMeta u).isSome
  | some .lesson => (e.lessonMeta u).isSome
  | some .exercise => e.hasExercise u

/-- `all_valid_exercises_in_lesson`, /repo/src/scheduler/data.rs:342-361. -/
def validInLesson (e : Env ι) (l : ι) : List ι :=
  if e.black l then []
  else if e.black (e.courseOf l) then []
  else ((e.graph.getLessonExercises l).getD []).filter (fun x => !e.black x)

/-- `unit_passes_filter`, /repo/src/scheduler/data.rs:268-305; `none` is `Err`. -/
def passesFilter (e : Env ι) (mf : Option KVFilter) (u : ι) : Option Bool :=
  match mf with
  | none => some true
  | some f =>
    match e.graph.getUnitType u with
    | none => none
    | some .exercise => none
    | some .course => (e.courseMeta u).map (fun m => f.applyToCourse m)
    | some .lesson =>
      match e.courseMeta (e.courseOf u), e.lessonMeta u with
      | some cm, some lm => some (f.applyToLesson cm lm)
      | _, _ => none

/-! ### Dependencies -/

/-- `last_matching_lessons_in_course`, /repo/src/scheduler.rs:394-426. -/
def lastMatching (e : Env ι) (mf : Option KVFilter) (c : ι) : List ι :=
  let matching := (e.lessons c).filter (fun l => (e.passesFilter mf l).getD false)
  matching.filter (fun l => (e.dependents l).all (fun d => !decide (d ∈ matching)))

/-- The units through which a filtered-out lesson is bridged, /repo/src/scheduler.rs:456-486. -/
def lessonBridge (e : Env ι) (u : ι) : List ι :=
  if u ∈ e.starting (e.courseOf u) then extendSet (e.deps u) (e.deps (e.courseOf u)) else e.deps u

/-- `resolve_effective_dependencies`, /repo/src/scheduler.rs:429-520: the effective dependencies and the
new visited set.  The first argument bounds the depth of the recursion; `none` means it was exceeded.
The sets of units are iterated in the order of the lists; the resulting set does not depend on it
(`gates_iff`). -/
def resolveF (e : Env ι) (mf : Option KVFilter) : Nat → ι → List ι → Option (List ι × List ι)
  | 0, _, _ => none
  | n + 1, u, visited =>
    if u ∈ visited then some ([], visited)
    else
      let visited := u :: visited
      let all := fun (next : List ι) => next.foldlM (init := (([] : List ι), visited)) (fun p d => do
        let (r, visited) ← resolveF e mf n d p.2
        return (extendSet p.1 r, visited))
      if (e.passesFilter mf u).getD false then some ([u], visited)
      else
        match e.graph.getUnitType u with
        | some .lesson => all (e.lessonBridge u)
        | some .course =>
          let last := e.lastMatching mf u
          if last.isEmpty then all (e.deps u) else some (last, visited)
        | _ => some ([], visited)

/-- The effective dependencies.  The depth given to `resolveF` is never exceeded (`resolveF_total`). -/
def resolve (e : Env ι) (mf : Option KVFilter) (u : ι) : List ι :=
  ((e.resolveF mf (e.graph.types.length + 1) u []).getD ([], [])).1

/-- `passes_threshold`, /repo/src/scheduler.rs:523-535. -/
def passesThreshold (o : PassingScoreOptions) (score trials : Option ℚ) : Bool :=
  match score, trials with
  | some s, some t => decide (s ≥ o.minScore) && decide (t ≥ o.minAvgTrials)
  | _, _ => true

/-- `satisfied_effective_dependency`, /repo/src/scheduler.rs:538-571. -/
def satisfiedEffective (e : Env ι) (u : ι) : Bool :=
  if e.black u then true
  else if e.black (e.courseOf u) then true
  else if e.superseded u then true
  else passesThreshold e.opts.passing ((e.score u).getD none) (e.trials u)

/-- `satisfied_dependency`, /repo/src/scheduler.rs:575-589. -/
def satisfiedDependency (e : Env ι) (mf : Option KVFilter) (u : ι) : Bool :=
  let targets := e.resolve mf u
  if targets.isEmpty then true else targets.all e.satisfiedEffective

/-- `all_satisfied_dependencies`, /repo/src/scheduler.rs:592-605. -/
def allSatisfied (e : Env ι) (mf : Option KVFilter) (u : ι) : Bool :=
  (e.deps u).all (e.satisfiedDependency mf)

/-- `get_valid_dependents`, /repo/src/scheduler.rs:609-619. -/
def validDependents (e : Env ι) (mf : Option KVFilter) (u : ι) : List ι :=
  (e.dependents u).filter (e.allSatisfied mf)

/-- `get_course_valid_starting_lessons`, /repo/src/scheduler.rs:256-275. -/
def validStarting (e : Env ι) (mf : Option KVFilter) (c : ι) : List ι :=
  (e.starting c).filter (e.allSatisfied mf)

/-- `skip_lesson`, /repo/src/scheduler.rs:659-691. -/
def skipLesson (e : Env ι) (mf : Option KVFilter) (l : ι) : Bool :=
  e.black l || !(e.passesFilter mf l).getD true || e.superseded l || e.superseded (e.courseOf l)

/-- The part of `skip_course` that does not depend on the progress of the search,
/repo/src/scheduler.rs:629-654. -/
def skipCourseStatic (e : Env ι) (mf : Option KVFilter) (c : ι) : Bool :=
  e.black c || !(e.passesFilter mf c).getD true || e.superseded c

end Env

/-! ### Candidates of a lesson -/

/-- `f32::clamp`. As in /repo/src/scheduler.rs:331-335. -/
def clampQ (p lo hi : ℚ) : ℚ := if p < lo then lo else if hi < p then hi else p

/-- The number of candidates selected among `n`, /repo/src/scheduler.rs:320-339. -/
def numToSelect (o : PassingScoreOptions) (score : ℚ) (n : Nat) : Nat :=
  if score ≥ fullCandidatesScore ∨ score < o.minScore then n
  else
    let minFraction := clampQ o.minFraction 0 1
    let fraction := minFraction +
      ((score - o.minScore) / (fullCandidatesScore - o.minScore)) * (1 - minFraction)
    let clamped := clampQ fraction 0 1
    let num := ⌊clamped * (n : ℚ)⌋₊
    if clamped > 0 ∧ num = 0 then 1 else num

/-- `select_candidates`, /repo/src/scheduler.rs:315-345. -/
def selectCandidates (rnd : List (Candidate ι) → List (Candidate ι)) (cs : List (Candidate ι)) (score : ℚ)
    (o : PassingScoreOptions) : List (Candidate ι) :=
  if cs.isEmpty then []
  else if score ≥ fullCandidatesScore ∨ score < o.minScore then cs
  else (rnd cs).take (numToSelect o score cs.length)

/-- `StackItem`, /repo/src/scheduler.rs:107-115. -/
structure Item (ι : Type) where
  unit : ι
  depth : Nat
  deriving DecidableEq

/-- The candidate of one exercise, /repo/src/scheduler.rs:360-381; `none` is `Err`. -/
def candidate (e : Env ι) (item : Item ι) (x : ι) : Option (Candidate ι) := do
  let score ← e.score x
  let urgency ← e.urgency x
  let velocity ← e.velocity x
  return { exercise := x, lesson := item.unit, course := e.courseOf item.unit,
           depth := ((item.depth + 1 : Nat) : ℚ), score := score.getD 0, urgency := urgency,
           velocity := velocity, frequency := e.frequency x, deadEnd := false, encompasses := 0,
           encompassed := 0 }

/-- `get_candidates_from_lesson_helper`, /repo/src/scheduler.rs:349-389: the candidates and the average
score.  The exercises come from a set, iterated in the order `rnd k`; `rnd (k + 1)` is the shuffle of the
selection.  `none` is `Err`. -/
def lessonCandidates (e : Env ι) (rnd : Rnd) (k : Nat) (item : Item ι) :
    Option (List (Candidate ι) × ℚ) :=
  let exercises := rnd k ι (e.validInLesson item.unit)
  if exercises.isEmpty then some ([], 0)
  else do
    let cs ← exercises.mapM (candidate e item)
    let avg := (cs.map Candidate.score).sum / (cs.length : ℚ)
    return (selectCandidates (rnd (k + 1) (Candidate ι)) cs avg e.opts.passing, avg)

/-! ### The search -/

/-- The local variables of `get_candidates_from_graph_helper`, /repo/src/scheduler.rs:726-750, and the
counter of the random choices. -/
structure State (ι : Type) where
  stack : List (Item ι)
  visited : List ι
  pending : AMap ι Nat := []
  candidates : List (Candidate ι) := []
  inProgress : List ι := []
  rnd : Nat := 0

/-- `shuffle_to_stack`, /repo/src/scheduler.rs:209-215. -/
def pushAll (rnd : Rnd) (item : Item ι) (units : List ι) (s : State ι) : State ι :=
  { s with
    stack := ((rnd s.rnd ι units).map (fun u => ⟨u, item.depth + 1⟩)).reverse ++ s.stack
    rnd := s.rnd + 1 }

/-- `extend_candidates`, /repo/src/scheduler.rs:695-720. -/
def extendCandidates (o : SchedulerOptions) (cs : List (Candidate ι)) (l : ι) (score : Option ℚ)
    (s : State ι) : State ι :=
  if cs.isEmpty then s
  else
    let inProgress := match score with
      | some x => decide (x ≤ o.targetWindow.hi)
      | none => true
    if inProgress && !decide (l ∈ s.inProgress) then
      if s.inProgress.length ≥ o.maxLessonsInProgress then s
      else { s with candidates := s.candidates ++ cs, inProgress := s.inProgress.insert l }
    else { s with candidates := s.candidates ++ cs }

/-- `MAX_CANDIDATE_FACTOR`, /repo/src/scheduler.rs:48. -/
def maxCandidateFactor : Nat := 10

/-- The parameters of one search. -/
structure Query (ι : Type) where
  filter : Option KVFilter
  allowCourses : Bool
  courses : List ι

/-- The outcome of one iteration. -/
inductive Outcome (ι : Type)
  | next (s : State ι)
  | stop (s : State ι)
  | fail

/-- `pending_course_lessons.entry(c).or_insert_with(…)`, /repo/src/scheduler.rs:639-641 and 805-807. -/
def pendingOf (e : Env ι) (s : State ι) (c : ι) : Nat := (s.pending.find c).getD (e.lessons c).length

/-- The course branch, /repo/src/scheduler.rs:768-787. -/
def visitCourse (e : Env ι) (rnd : Rnd) (q : Query ι) (item : Item ι) (s : State ι) : State ι :=
  let s := pushAll rnd item (e.validStarting q.filter item.unit) s
  let pending := pendingOf e s item.unit
  let s := { s with pending := s.pending.put item.unit pending }
  if e.skipCourseStatic q.filter item.unit || pending == 0 then
    let s := { s with visited := s.visited.insert item.unit }
    pushAll rnd item (e.validDependents q.filter item.unit) s
  else s

/-- The count of pending lessons, /repo/src/scheduler.rs:802-821; `none` is the error for a lesson without
course. -/
def countLesson (e : Env ι) (q : Query ι) (item : Item ι) (s : State ι) : Option (State ι) :=
  if q.allowCourses then
    match e.graph.getLessonCourse item.unit with
    | none => none
    | some c =>
      let pending := pendingOf e s c - 1
      let s := { s with pending := s.pending.put c pending }
      if pending = 0 then some { s with stack := ⟨c, item.depth + 1⟩ :: s.stack } else some s
  else some s

/-- The rest of the lesson branch, /repo/src/scheduler.rs:823-876. -/
def processLesson (e : Env ι) (rnd : Rnd) (q : Query ι) (item : Item ι) (s : State ι) : Outcome ι :=
  let validDeps := e.validDependents q.filter item.unit
  if e.skipLesson q.filter item.unit then .next (pushAll rnd item validDeps s)
  else
    match lessonCandidates e rnd s.rnd item with
    | none => .fail
    | some (cs, avg) =>
      let s := { s with rnd := s.rnd + 2 }
      let avg := if cs.length > 0 then some avg else none
      if Env.passesThreshold e.opts.passing avg (e.trials item.unit) then
        .next (pushAll rnd item validDeps (extendCandidates e.opts cs item.unit avg s))
      else
        let cs := cs.map (fun c => { c with deadEnd := true })
        let s := extendCandidates e.opts cs item.unit avg s
        if s.candidates.length ≥ e.opts.batchSize * maxCandidateFactor then .stop s
        else .next { s with stack := rnd s.rnd (Item ι) s.stack, rnd := s.rnd + 1 }

/-- The lesson branch, /repo/src/scheduler.rs:788-877. -/
def visitLesson (e : Env ι) (rnd : Rnd) (q : Query ι) (item : Item ι) (s : State ι) : Outcome ι :=
  let s := { s with visited := s.visited.insert item.unit }
  if !q.allowCourses && !decide (e.courseOf item.unit ∈ q.courses) then .next s
  else
    match countLesson e q item s with
    | none => .fail
    | some s => processLesson e rnd q item s

/-- One iteration of the loop, /repo/src/scheduler.rs:753-878, for a popped item and the state without it. -/
def visit (e : Env ι) (rnd : Rnd) (q : Query ι) (item : Item ι) (s : State ι) : Outcome ι :=
  if item.unit ∈ s.visited then .next s
  else
    match e.graph.getUnitType item.unit with
    | none => .next s
    | some .exercise => .next s
    | some .course => if q.allowCourses then .next (visitCourse e rnd q item s) else .next s
    | some .lesson => visitLesson e rnd q item s

/-- The loop of `get_candidates_from_graph_helper`, /repo/src/scheduler.rs:753-880.  The outer `none` means
that the fuel ran out, the inner one is `Err`. -/
def loop (e : Env ι) (rnd : Rnd) (q : Query ι) : Nat → State ι → Option (Option (State ι))
  | 0, _ => none
  | n + 1, s =>
    match s.stack with
    | [] => some (some s)
    | item :: rest =>
      match visit e rnd q item { s with stack := rest } with
      | .next s => loop e rnd q n s
      | .stop s => some (some s)
      | .fail => some none

/-! ### Starting points -/

/-- One round of the loop in `get_all_starting_units`, /repo/src/scheduler.rs:225-232. -/
def startRound (e : Env ι) (us : List ι) : List ι :=
  us.foldl (fun acc u => if e.unitExists u then acc.insert u else extendSet acc (e.dependents u)) []

/-- The loop in `get_all_starting_units`, /repo/src/scheduler.rs:224-237; the comparison is one of sets. -/
def startLoop (e : Env ι) : Nat → List ι → Option (List ι)
  | 0, _ => none
  | n + 1, us =>
    let us' := startRound e us
    if us'.all (fun u => decide (u ∈ us)) && us.all (fun u => decide (u ∈ us')) then some us
    else startLoop e n us'

/-- `get_all_starting_units`, /repo/src/scheduler.rs:219-252. -/
def allStartingUnits (e : Env ι) (fuel : Nat) : Option (List ι) :=
  (startLoop e fuel e.graph.getDependencySinks).map
    (fun us => us.filter (fun u => (e.deps u).all (fun d => !e.unitExists d)))

/-- `get_initial_stack`, /repo/src/scheduler.rs:280-310. -/
def initialStack (e : Env ι) (rnd : Rnd) (mf : Option KVFilter) (fuel : Nat) : Option (List (Item ι)) :=
  (allStartingUnits e fuel).map (fun us =>
    rnd 0 (Item ι) (us.flatMap (fun c =>
      let ls := e.validStarting mf c
      if ls.isEmpty then [⟨c, 0⟩] else ls.map (fun l => ⟨l, 0⟩))))

/-- The loop of `get_dependencies_at_depth`, /repo/src/scheduler/data.rs:178-206. -/
def depthLoop (e : Env ι) (depth : Nat) : Nat → List (ι × Nat) → List ι → Option (List ι)
  | 0, _, _ => none
  | _ + 1, [], acc => some acc
  | n + 1, (u, d) :: rest, acc =>
    if d = depth then depthLoop e depth n rest (acc ++ [u])
    else
      match e.graph.getDependencies u with
      | none => depthLoop e depth n rest (acc ++ [u])
      | some ds =>
        if ds.isEmpty then depthLoop e depth n rest (acc ++ [u])
        else depthLoop e depth n ((ds.map (fun x => (x, d + 1))).reverse ++ rest) acc

/-- `get_dependencies_at_depth`, /repo/src/scheduler/data.rs:176-213. -/
def dependenciesAtDepth (e : Env ι) (fuel : Nat) (u : ι) (depth : Nat) : Option (List ι) :=
  (depthLoop e depth fuel [(u, 0)] []).map
    (fun us => us.filter (fun d => (e.graph.getUnitType d).isSome))

/-! ### Modes -/

/-- Results: the outer `none` is lack of fuel, the inner one is `Err`. -/
abbrev Res (α : Type) := Option (Option α)

/-- `get_candidates_from_graph`, /repo/src/scheduler.rs:883-890.  The counter of random choices starts at 1:
the initial stack used number 0. -/
def fromGraph (e : Env ι) (rnd : Rnd) (fuel : Nat) (stack : List (Item ι)) (mf : Option KVFilter) :
    Res (List (Candidate ι)) :=
  (loop e rnd ⟨mf, true, []⟩ fuel { stack := stack, visited := [], rnd := 1 }).map
    (fun r => r.map State.candidates)

/-- `get_candidates_from_course`, /repo/src/scheduler.rs:893-909.  `rnd 0` orders the starting lessons. -/
def fromCourse (e : Env ι) (rnd : Rnd) (fuel : Nat) (courses : List ι) : Res (List (Candidate ι)) :=
  let stack := (courses.flatMap (fun c => (rnd 0 ι (e.starting c)).map (fun l => (⟨l, 0⟩ : Item ι)))).reverse
  (loop e rnd ⟨none, false, courses⟩ fuel { stack := stack, visited := extendSet [] courses, rnd := 1 }).map
    (fun r => r.map State.candidates)

/-- `get_candidates_from_lesson`, /repo/src/scheduler.rs:912-918. -/
def fromLesson (e : Env ι) (rnd : Rnd) (k : Nat) (l : ι) : Option (List (Candidate ι)) :=
  (lessonCandidates e rnd k ⟨l, 0⟩).map Prod.fst

/-- The candidate of an exercise in the review list, /repo/src/scheduler.rs:938-959. -/
def reviewCandidate (e : Env ι) (x : ι) : Option (Candidate ι) := do
  let lesson := (e.graph.getExerciseLesson x).getD e.dflt
  let score ← e.score x
  let urgency ← e.urgency x
  let velocity ← e.velocity x
  return { exercise := x, lesson := lesson, course := e.courseOf lesson, depth := 0, score := score.getD 0,
           urgency := urgency, velocity := velocity, frequency := e.frequency x, deadEnd := false,
           encompasses := 0, encompassed := 0 }

/-- The candidates of one entry of the review list, /repo/src/scheduler.rs:928-961.  `rnd i` are the random
choices made for entry `i`. -/
def reviewEntry (e : Env ι) (rnd : Rnd) (fuel : Nat) (u : ι) : Res (List (Candidate ι)) :=
  match e.graph.getUnitType u with
  | none => some none
  | some .course => fromCourse e rnd fuel [u]
  | some .lesson => some (fromLesson e rnd 0 u)
  | some .exercise => some ((reviewCandidate e u).map (fun c => [c]))

/-- A loop that collects results and stops at the first error. -/
def collect {α β : Type} (f : Nat → α → Res (List β)) : Nat → List α → Res (List β)
  | _, [] => some (some [])
  | i, a :: as =>
    match f i a with
    | none => none
    | some none => some none
    | some (some xs) =>
      match collect f (i + 1) as with
      | none => none
      | some none => some none
      | some (some ys) => some (some (xs ++ ys))

/-- `get_candidates_from_review_list`, /repo/src/scheduler.rs:922-965, for the given entries of the list. -/
def fromReviewList (e : Env ι) (rnds : Nat → Rnd) (fuel : Nat) (entries : List ι) :
    Res (List (Candidate ι)) :=
  collect (fun i u => reviewEntry e (rnds i) fuel u) 0 entries

/-- A search of the whole graph from the starting units, /repo/src/scheduler.rs:972-977 and 990-993. -/
def wholeGraph (e : Env ι) (rnd : Rnd) (fuel : Nat) (mf : Option KVFilter) : Res (List (Candidate ι)) :=
  match initialStack e rnd mf fuel with
  | none => none
  | some stack => fromGraph e rnd fuel stack mf

/-- `flat_map(|id| get_dependencies_at_depth(id, depth))`, /repo/src/scheduler.rs:1008-1013. -/
def depthUnits (e : Env ι) (fuel : Nat) (ids : List ι) (depth : Nat) : Option (List ι) :=
  match ids with
  | [] => some []
  | u :: us =>
    match dependenciesAtDepth e fuel u depth, depthUnits e fuel us depth with
    | some a, some b => some (a ++ b)
    | _, _ => none

/-- `get_initial_candidates` for a unit filter or none, /repo/src/scheduler.rs:968-1024; `entries` is the
content of the review list.  A study session is first turned into a unit filter (`Filters.getPart`,
`Filters.sessionFilter`). -/
def initialCandidates (e : Env ι) (rnds : Nat → Rnd) (fuel : Nat) (entries : List ι) :
    Option (UnitFilter ι) → Res (List (Candidate ι))
  | none => wholeGraph e (rnds 0) fuel none
  | some (.courses ids) => fromCourse e (rnds 0) fuel ids
  | some (.lessons ids) => collect (fun i l => some (fromLesson e (rnds i) 0 l)) 0 ids
  | some (.metadata f) => wholeGraph e (rnds 0) fuel (some f)
  | some .reviewList => fromReviewList e rnds fuel entries
  | some (.dependents ids) => fromGraph e (rnds 0) fuel (ids.map (fun u => ⟨u, 0⟩)).reverse none
  | some (.dependencies ids depth) =>
    match depthUnits e fuel ids depth with
    | none => none
    | some us => fromGraph e (rnds 0) fuel (us.map (fun u => ⟨u, 0⟩)).reverse none

end Trane.Search
