import Verif.Base
import Verif.Data.Options
import Mathlib.Tactic.Linarith
import Mathlib.Tactic.FinCases

/-!
# The benchmark

Models `/repo/src/benchmark.rs`: simulated students who practice with a `Trane` object.

* The object is given by the calls that the benchmark makes on it; `σ` is its state, with the random choices to come.
* `f32` is exact.  `u32` does not overflow: the number of days must be below 2^32.
* The copy of the library to a temporary directory (lines 194-208) and the threads (lines 349-382) are in Tree/Copy. -/

namespace Trane.Bench

variable {σ ι : Type} [DecidableEq ι]

/-- `PerformanceProbs`, /repo/src/benchmark.rs:22-24. -/
abbrev Probs := Fin 5 → ℚ

/-- The sum in /repo/src/benchmark.rs:28. -/
def total (p : Probs) : ℚ := p 0 + p 1 + p 2 + p 3 + p 4

/-- `verify_probs`, /repo/src/benchmark.rs:27-34. -/
def verifyProbs (p : Probs) : Bool := decide (|total p - 1| < 1 / 10000)

/-- `StudentProfile`, /repo/src/benchmark.rs:38-61. -/
structure Profile where
  sessionFrequency : Nat
  exercisesPerSession : Nat
  initial : Probs
  trialsBeforeStable : Nat
  stable : Probs
  lapseRate : ℚ

/-- The settings of a `Benchmark` that matter for a student, /repo/src/benchmark.rs:91-125. -/
structure Settings (ι : Type) where
  advancedCourse : ι
  masteryThreshold : ℚ
  maxSessions : Nat

/-- `session_timestamp`, /repo/src/benchmark.rs:184-186. -/
def sessionTimestamp (anchor : Int) (session frequency : Nat) : Int := anchor + session * frequency * 86400

/-- `exercise_timestamp`, /repo/src/benchmark.rs:189-191. -/
def exerciseTimestamp (start : Int) (i : Nat) : Int := start + i

/-- The weight in /repo/src/benchmark.rs:212. If no trials are needed the quotient is NaN or infinite, of which `min`
makes 1. -/
def weight (p : Profile) (n : Nat) : ℚ :=
  if p.trialsBeforeStable = 0 then 1 else min ((n : ℚ) / p.trialsBeforeStable) 1

/-- `interpolate_performance`, /repo/src/benchmark.rs:211-216. -/
def interpolate (p : Profile) (n : Nat) : Probs := fun i => p.initial i * (1 - weight p n) + p.stable i * weight p n

/-- The two random numbers in [0, 1) of `get_score`. /repo/src/benchmark.rs:220-235. -/
structure Draw where
  lapse : ℚ
  choice : ℚ
  lapse_nonneg : 0 ≤ lapse
  lapse_lt : lapse < 1
  choice_nonneg : 0 ≤ choice
  choice_lt : choice < 1

/-- `WeightedIndex::new` and `sample` of the crate `rand`: weights that are negative, or all 0, are an error.  `x` is the
random number in [0, 1) times the sum of the weights; the index is the number of partial sums that are not above it.
Used in /repo/src/benchmark.rs:226. -/
def weightedIndex (w : Probs) (v : ℚ) : Option (Fin 5) :=
  if w 0 < 0 ∨ w 1 < 0 ∨ w 2 < 0 ∨ w 3 < 0 ∨ w 4 < 0 ∨ total w = 0 then none
  else
    let x := v * total w
    if x < w 0 then some 0
    else if x < w 0 + w 1 then some 1
    else if x < w 0 + w 1 + w 2 then some 2
    else if x < w 0 + w 1 + w 2 + w 3 then some 3
    else some 4

/-- The grades in /repo/src/benchmark.rs:228-232. -/
def gradeOf : Fin 5 → MasteryScore
  | 0 => .one
  | 1 => .two
  | 2 => .three
  | 3 => .four
  | 4 => .five

/-- `get_score`, /repo/src/benchmark.rs:220-235; `none` is the panic of `unwrap` in line 226. -/
def getScore (p : Profile) (n : Nat) (d : Draw) : Option MasteryScore :=
  if d.lapse < p.lapseRate ∧ n > p.trialsBeforeStable then some .two
  else (weightedIndex (interpolate p n) d.choice).map gradeOf

/-- The calls on a `Trane` object that the benchmark makes; `none` is `Err`, for a score also `Ok(None)`.
/repo/src/benchmark.rs:260-330. -/
structure Api (σ ι : Type) where
  overrideTime : σ → Int → σ
  batch : σ → Option (σ × List ι)
  score : σ → ι → MasteryScore → Int → Option σ
  unitScore : σ → ι → Option ℚ

/-- What happens, for the specification: a batch that is handed out at a time, and a grade given at a time. -/
inductive Event (ι : Type)
  | batch (time : Int) (ids : List ι)
  | scored (x : ι) (g : MasteryScore) (time : Int)

/-- The variables of the simulation; `events` is for the specification. /repo/src/benchmark.rs:260-330. -/
structure St (σ ι : Type) where
  obj : σ
  counts : AMap ι Nat := []
  practiced : Nat := 0
  events : List (Event ι) := []

/-- How a simulation fails. /repo/src/benchmark.rs:260-330. -/
inductive Failure
  | err
  | panic
  deriving DecidableEq

section
variable (A : Api σ ι) (p : Profile) (draws : Nat → Draw)

/-- The loop over a batch, /repo/src/benchmark.rs:292-304. -/
def practice (start : Int) : List ι → St σ ι → Nat → Except Failure (St σ ι × Nat)
  | [], s, k => .ok (s, k)
  | x :: xs, s, k =>
    if k ≥ p.exercisesPerSession then .ok (s, k)
    else
      let n := (s.counts.find x).getD 0
      match getScore p n (draws s.practiced) with
      | none => .error .panic
      | some g =>
        let t := exerciseTimestamp start k
        match A.score s.obj x g t with
        | none => .error .err
        | some obj =>
          practice start xs ⟨obj, s.counts.put x (n + 1), s.practiced + 1, s.events ++ [.scored x g t]⟩ (k + 1)

/-- The loop of a session, /repo/src/benchmark.rs:282-305.  The Boolean says that a batch was empty.  The first argument
bounds the number of batches; `counts_exact` shows that the number of exercises of a session is enough. -/
def session (start : Int) : Nat → St σ ι → Nat → Except Failure (St σ ι × Nat × Bool)
  | 0, s, k => .ok (s, k, false)
  | fuel + 1, s, k =>
    if k ≥ p.exercisesPerSession then .ok (s, k, false)
    else
      let t := exerciseTimestamp start k
      match A.batch (A.overrideTime s.obj t) with
      | none => .error .err
      | some (obj, ids) =>
        let s := { s with obj := obj, events := s.events ++ [.batch t ids] }
        if ids = [] then .ok (s, k, true)
        else
          match practice A p draws start ids s k with
          | .error e => .error e
          | .ok (s, k) => session start fuel s k

/-- `check_mastery`, /repo/src/benchmark.rs:239-257. -/
def checkMastery (obj : σ) (B : Settings ι) (courses : List ι) : Bool :=
  match A.unitScore obj B.advancedCourse with
  | none => false
  | some a =>
    if a ≥ B.masteryThreshold then
      courses.all (fun c => match A.unitScore obj c with
        | none => false
        | some s => decide (s ≥ B.masteryThreshold))
    else false

/-- `StudentResult`, /repo/src/benchmark.rs:65-76; the last two fields are for the specification: the object at the ends
of the sessions and what happened. -/
structure Result (σ ι : Type) where
  daysToMastery : Option Nat
  sessionsRun : Nat
  exercisesPracticed : Nat
  ends : List σ
  events : List (Event ι)

/-- The loop over the sessions, /repo/src/benchmark.rs:278-323. -/
def sessions (B : Settings ι) (courses : List ι) (anchor : Int) :
    Nat → Nat → St σ ι → List σ → Except Failure (Result σ ι)
  | 0, n, s, ends => .ok ⟨none, n, s.practiced, ends, s.events⟩
  | more + 1, n, s, ends =>
    let start := sessionTimestamp anchor n p.sessionFrequency
    match session A p draws start p.exercisesPerSession s 0 with
    | .error e => .error e
    | .ok (s, _, true) => .ok ⟨none, n, s.practiced, ends, s.events⟩
    | .ok (s, k, false) =>
      let obj := A.overrideTime s.obj (exerciseTimestamp start k)
      if checkMastery A obj B courses then
        .ok ⟨some (n * p.sessionFrequency), n + 1, s.practiced, ends ++ [obj], s.events⟩
      else sessions B courses anchor more (n + 1) { s with obj := obj } (ends ++ [obj])

/-- `simulate_student`, /repo/src/benchmark.rs:260-330, from line 270 on: with an object that has just been opened, the
time and the ids of the courses. -/
def simulate (B : Settings ι) (courses : List ι) (anchor : Int) (obj : σ) : Except Failure (Result σ ι) :=
  sessions A p draws B courses anchor B.maxSessions 0 { obj := obj } []

end

/-- `Benchmark::verify`, /repo/src/benchmark.rs:333-346. -/
def verify (o : SchedulerOptions) (profiles : List Profile) : Bool :=
  o.verify && profiles.all (fun p => verifyProbs p.initial && verifyProbs p.stable)

end Trane.Bench
