import Verif.Top.Sample
import Verif.Sched.Search

/-!
# The project's own tests of the unit scorer, the selection from lessons and the shared data, replayed on the model

/repo/src/scheduler/unit_scorer.rs:714-917, /repo/src/scheduler.rs:1247-1494 and /repo/src/scheduler/data.rs:505-746.  As in the other files of this directory these are tests of the model, not theorems about
it, and no claim rests on them.  The scorer of an exercise is the one of `Trane.System.sampleConfig` (its grades are read, its
curve is not), with an urgency that grows with time and a velocity.
-/

namespace Trane.Conform.Units

open Trane Trane.Store Trane.UnitScorer Trane.TopLevel

/-- `Ustr::from`. -/
def u (s : String) : Str := s.toList

/-! ### /repo/src/scheduler/unit_scorer.rs -/

/-- `TEST_LIBRARY`, /repo/src/scheduler/unit_scorer.rs:659-712. -/
def library : Graph Str := Graph.run [.addCourse (u "0"), .addDependencies (u "0") .course [],
  .addLesson (u "0::0") (u "0"), .addDependencies (u "0::0") .lesson [],
  .addExercise (u "0::0::0") (u "0::0"), .addExercise (u "0::0::1") (u "0::0"),
  .addLesson (u "0::1") (u "0"), .addDependencies (u "0::1") .lesson [u "0::0"],
  .addExercise (u "0::1::0") (u "0::1"), .addExercise (u "0::1::1") (u "0::1"),
  .addCourse (u "1"), .addDependencies (u "1") .course [u "0"], .addSuperseded (u "1") [u "0"],
  .addLesson (u "1::0") (u "1"), .addDependencies (u "1::0") .lesson [],
  .addExercise (u "1::0::0") (u "1::0"), .addExercise (u "1::0::1") (u "1::0"),
  .addLesson (u "1::1") (u "1"), .addDependencies (u "1::1") .lesson [u "1::0"], .addSuperseded (u "1::1") [u "1::0"],
  .addExercise (u "1::1::0") (u "1::1"), .addExercise (u "1::1::1") (u "1::1"), .updateStartingLessons]

/-- The newest grade, the time since it in place of the urgency and the last change of the grades in place of the velocity. -/
def base : Base ℚ where
  sortV := sampleBase.sortV
  sortW := sampleBase.sortW
  scorer := fun _ _ now st _ _ => ((st.1.head?.map Prod.fst).getD 0, (now - (st.1.head?.map Prod.snd).getD 0 : Int),
    match st.1 with | a :: b :: _ => some (a.1 - b.1) | _ => none)

/-- The scorer made by a test looks at the data of the object with caches of its own. -/
abbrev look (t : TopLevel.Top ℚ) := t.sys.world (t.config base)

/-- What a computation of that scorer answers. -/
abbrev ans {α : Type} (r : Option (α × Caches Str ℚ)) : Option α := r.map Prod.fst

/-- The caches it leaves. -/
abbrev left {α : Type} (r : Option (α × Caches Str ℚ)) : Caches Str ℚ := (r.map Prod.snd).getD {}

/-- `blacklisted_course_score`. -/
example : ans (scoreC (look (runs base (fresh library 0) [.addToBlacklist (u "0") false])) 9 (u "0") {}) = some none := by
  decide +kernel

/-- The grades of the two tests of superseded units. -/
def grades : List (Call ℚ) := ["0::0::0", "0::0::1", "0::1::0", "0::1::1", "1::0::0", "1::0::1", "1::1::0", "1::1::1"].map
  (fun e => .scoreExercise (u e) .five 10 9 id {})

/-- `superseded_course_cached`: the score is asked for twice. -/
example : let w := look (runs base (fresh library 10) grades)
    let r := scoreC w 9 (u "0") {}
    ans r = some none ∧ (left r).cou.find (u "0") = some none ∧ ans (scoreC w 9 (u "0") (left r)) = some none := by
  decide +kernel

/-- `superseded_course_lesson_cached`. -/
example : let w := look (runs base (fresh library 10) grades)
    let r := scoreC w 9 (u "1::0") {}
    ans r = some none ∧ (left r).les.find (u "1::0") = some none ∧ ans (scoreC w 9 (u "1::0") (left r)) = some none := by
  decide +kernel

/-- The caches of `invalidate_cached_scores`. -/
def cached : Caches Str ℚ where
  ex := [(u "a", ⟨5, 0, none, 1⟩), (u "b::a", ⟨5, 0, none, 1⟩)]
  les := [(u "a::a", some 5), (u "c::a", some 5)]

/-- `invalidate_cached_scores`. -/
example : let w := look (fresh library 0)
    let exercise := fun x c => (exC w (u x) c).map (fun r => r.1.score)
    let lesson := fun x c => ans (lessonC w (scoreC w 9) 9 (u x) c)
    let first := invalidatePrefix (fun x => (u "a").isPrefixOf x) cached
    let second := invalidate library (invalidate library first (u "b::a")) (u "c::a")
    exercise "a" cached = some 5 ∧ exercise "b::a" cached = some 5 ∧ lesson "a::a" cached = some (some 5) ∧
    lesson "c::a" cached = some (some 5) ∧ exercise "a" first = some 0 ∧ exercise "b::a" first = some 5 ∧
    lesson "a::a" first = some none ∧ lesson "c::a" first = some (some 5) ∧ exercise "b::a" second = some 0 ∧
    lesson "c::a" second = some none := by
  decide +kernel

/-- The two grades of the three tests below, and the third one. -/
def two (day : Int) : TopLevel.Top ℚ := runs base (fresh library 0) [.scoreExercise (u "0::0::0") .four day 9 id {},
  .scoreExercise (u "0::0::0") .five (2 * day) 9 id {}]
/-- The third grade. -/
def three (day : Int) (g : MasteryScore) : TopLevel.Top ℚ := runs base (two day) [.scoreExercise (u "0::0::0") g (3 * day) 9 id {}]

/-- `get_num_trials`. -/
example : let r := exC (look (two 1)) (u "0::0::0") {}
    let r' := exC (look (two 1)) (u "0::0::0") (left r)
    let stale := exC (look (three 1 .four)) (u "0::0::0") (left r')
    let r'' := exC (look (three 1 .four)) (u "0::0::0") (invalidate library (left r') (u "0::0::0"))
    (ans r).map ExRec.trials = some 2 ∧ (ans r').map ExRec.trials = some 2 ∧ (ans stale).map ExRec.trials = some 2 ∧
    (ans r'').map ExRec.trials = some 3 := by
  decide +kernel

/-- The object of the test with the time set. -/
def at4 (t : TopLevel.Top ℚ) : TopLevel.Top ℚ := runs base t [.overrideTime (some (4 * 86400))]

/-- `get_urgency`. -/
example : let r := exC (look (at4 (two 86400))) (u "0::0::0") {}
    let r' := exC (look (at4 (two 86400))) (u "0::0::0") (left r)
    let r'' := exC (look (at4 (three 86400 .five))) (u "0::0::0") (invalidate library (left r') (u "0::0::0"))
    ((left r).ex.find (u "0::0::0")).isSome ∧ (ans r).map ExRec.urgency = some (2 * 86400) ∧ ans r' = ans r ∧
    (ans r'').map ExRec.urgency = some 86400 := by
  decide +kernel

/-- `get_velocity`. -/
example : let r := exC (look (two 86400)) (u "0::0::0") {}
    let r' := exC (look (two 86400)) (u "0::0::0") (left r)
    let r'' := exC (look (three 86400 .four)) (u "0::0::0") (invalidate library (left r') (u "0::0::0"))
    ((left r).ex.find (u "0::0::0")).isSome ∧ (ans r).map ExRec.velocity = some (some 1) ∧ ans r' = ans r ∧
    (ans r'').map ExRec.velocity = some (some (-1)) := by
  decide +kernel

/-! ### /repo/src/scheduler.rs -/

/-- `candidate`. -/
def cand (n : Nat) : Candidate Nat := { exercise := n, lesson := 100, course := 200, depth := 1 }

/-- `select`: the number of candidates selected, for any shuffle. -/
theorem select_length (rnd : List (Candidate Nat) → List (Candidate Nat)) (hr : ∀ l, (rnd l).Perm l) (score : ℚ) (n : Nat)
    (o : PassingScoreOptions) : (Search.selectCandidates rnd ((List.range n).map cand) score o).length =
      if n = 0 then 0 else if score ≥ fullCandidatesScore ∨ score < o.minScore then n else
        min (Search.numToSelect o score n) n := by
  unfold Search.selectCandidates
  rcases n with _ | n
  · rfl
  · rw [if_neg (by simp), if_neg (Nat.succ_ne_zero n)]
    by_cases h : score ≥ fullCandidatesScore ∨ score < o.minScore
    · rw [if_pos h, if_pos h]; simp
    · rw [if_neg h, if_neg h, List.length_take, (hr _).length_eq]; simp

/-- `select_candidates_empty`, `select_candidates_below_minimum_score`, `select_candidates_below_minimum_score_with_zero_fraction`,
`select_candidates_minimum_score_guarantees_one`, `select_candidates_partial_selection`,
`select_candidates_always_keep_one_when_fraction_positive` and `select_candidates_full_selection`. -/
example (rnd : List (Candidate Nat) → List (Candidate Nat)) (hr : ∀ l, (rnd l).Perm l) :
    let select := fun score n o => (Search.selectCandidates rnd ((List.range n).map cand) score o).length
    let o : PassingScoreOptions := { minScore := 3, minFraction := 1 / 5, minAvgTrials := 2 }
    let o' : PassingScoreOptions := { minScore := 3, minFraction := 0, minAvgTrials := 2 }
    select 0 0 SchedulerOptions.default.passing = 0 ∧ select 2 5 o = 5 ∧ select 2 5 o' = 5 ∧ select 3 2 o = 1 ∧
    select (19 / 5) 10 o = 8 ∧ select (301 / 100) 2 o' = 1 ∧ select 5 11 o = 11 := by
  simp only [select_length rnd hr]
  decide +kernel

/-- `default_options_with_max_lessons`. -/
def maxLessons (n : Nat) : SchedulerOptions := { SchedulerOptions.default with maxLessonsInProgress := n }

/-- The calls of `extend_candidates` of one test: exercise, lesson and score of the lesson.  The numbers of candidates and of
lessons in progress. -/
def extend (n : Nat) (calls : List (Nat × Nat × Option ℚ)) : Nat × Nat :=
  let s := calls.foldl (fun (s : Search.State Nat) c => Search.extendCandidates (maxLessons n) [cand c.1] c.2.1 c.2.2 s)
    { stack := [], visited := [] }
  (s.candidates.length, s.inProgress.length)

/-- `extend_candidates_within_limit`, `extend_candidates_exceeds_limit`, `extend_candidates_already_tracked_lesson`,
`extend_candidates_passed_lessons_bypass_limit` and `extend_candidates_no_score_counts_as_in_progress`. -/
example : extend 3 [(0, 10, some 1), (1, 11, some 1)] = (2, 2) ∧
    extend 2 [(0, 10, some 1), (0, 11, some 1), (2, 12, some 1)] = (2, 2) ∧
    extend 1 [(0, 10, some 1), (1, 10, some 1)] = (2, 1) ∧
    extend 1 [(0, 10, some 1), (1, 11, some 3)] = (2, 1) ∧
    extend 1 [(0, 10, none), (1, 11, none)] = (1, 1) := by
  decide +kernel

/-! ### /repo/src/scheduler/data.rs -/

/-- `TEST_LIBRARY`, /repo/src/scheduler/data.rs:450-503, without the metadata, which no test reads. -/
def plain : Graph Str := Graph.run [.addCourse (u "0"), .addDependencies (u "0") .course [],
  .addLesson (u "0::0") (u "0"), .addDependencies (u "0::0") .lesson [],
  .addExercise (u "0::0::0") (u "0::0"), .addExercise (u "0::0::1") (u "0::0"),
  .addLesson (u "0::1") (u "0"), .addDependencies (u "0::1") .lesson [u "0::0"],
  .addExercise (u "0::1::0") (u "0::1"), .addExercise (u "0::1::1") (u "0::1"), .updateStartingLessons]

/-- The data of the scheduler. -/
def env : Search.Env Str where
  graph := plain
  black := fun _ => false
  courseMeta := fun x => if x = u "0" then some [] else none
  lessonMeta := fun x => if x = u "0::0" ∨ x = u "0::1" then some [] else none
  hasExercise := fun x => plain.getUnitType x = some .exercise
  dflt := []
  opts := SchedulerOptions.default
  score := fun _ => some none
  trials := fun _ => none
  superseded := fun _ => false
  urgency := fun _ => some 0
  velocity := fun _ => some none
  frequency := fun _ => 0

/-- `unit_exists`. -/
example : plain.getUnitType (u "0") = some .course ∧ env.unitExists (u "0") = true ∧
    plain.getUnitType (u "0::0") = some .lesson ∧ env.unitExists (u "0::0") = true ∧
    plain.getUnitType (u "0::0::0") = some .exercise ∧ env.unitExists (u "0::0::0") = true := by
  decide +kernel

/-- `exercise_metadata_filter`. -/
example : env.passesFilter (some (.course (u "key") (u "value") .incl)) (u "0::0::0") = none := by
  rfl

/-- `exercise_frequency`. -/
example : let m := Batch.countBatch ([] : AMap Str Nat) [u "0::0::0"]
    (AMap.find ([] : AMap Str Nat) (u "0::0::0")).getD 0 = 0 ∧ (m.find (u "0::0::0")).getD 0 = 1 := by
  decide +kernel

/-- `get_session_filter`, for any start of the session and builds with and without overflow checks. -/
example (checked : Bool) (start : Int) :
    let saved : Str → Option (Filters.UnitFilter Str) := fun i => if i = u "saved_filter" then some .reviewList else none
    let parts : List (Filters.SessionPart Str) := [.unitFilter .reviewList 1, .noFilter 1, .savedFilter (u "saved_filter") 1]
    let get := fun ps t => (Filters.getPart checked ps start t).bind (Filters.sessionFilter saved)
    get parts start = some (some .reviewList) ∧ get parts (start + 60) = some none ∧ get parts (start + 120) = some (some .reviewList) ∧
    get [.savedFilter (u "unknown_filter") 1] start = none := by
  have e1 : start - start = 0 := by omega
  have e2 : start + 60 - start = 60 := by omega
  have e3 : start + 120 - start = 120 := by omega
  simp only [Filters.getPart, e1, e2, e3]
  cases checked <;> exact ⟨rfl, rfl, rfl, rfl⟩

/-- `all_valid_exercises`: the units put on the blacklist one after another. -/
example : let valid := fun bs x => (look (runs base (fresh plain 0) (bs.map (fun b => .addToBlacklist (u b) false)))).allValid (u x)
    valid [] "unknown" = [] ∧ valid [] "0::0::0" = [u "0::0::0"] ∧ valid ["0::0::0"] "0::0::0" = [] ∧
    (valid ["0::0::0"] "0::1").Perm [u "0::1::0", u "0::1::1"] ∧ valid ["0::0::0", "0::1"] "0::1" = [] ∧
    valid ["0::0::0", "0::1"] "0" = [u "0::0::1"] ∧ valid ["0::0::0", "0::1", "0"] "0" = [] := by
  decide +kernel

/-- `success_rate`. -/
example : let s : Batch.Session Str := {}
    Batch.successRate s = 1 ∧
    Batch.successRate ([MasteryScore.one, .two, .three, .four, .five].foldl Batch.updateRate s) = 3 / 5 := by
  decide +kernel

end Trane.Conform.Units
