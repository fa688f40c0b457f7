import Mathlib.Analysis.SpecialFunctions.Pow.Real
import Mathlib.Algebra.BigOperators.Group.List.Basic

/-!
# The exercise scorer

Models `/repo/src/exercise_scorer.rs`.  `f32` values are real numbers: no rounding, no `NaN`.
Timestamps (`i64` seconds) are integers; `saturating_sub` keeps its saturation.
-/

namespace Trane.Scorer

/-- `ExerciseTrial` (/repo/src/data.rs:103-112) and `ExerciseDelta` (/repo/src/data.rs:117-126), seen
through the trait `TimestampedValue`, /repo/src/exercise_scorer.rs:130-159.  `value` is the score
of a trial and the delta of a delta. -/
structure Entry where
  value : ℝ
  time : ℤ

/-- `ExerciseType`, /repo/src/data.rs:340-349. -/
inductive Kind | declarative | procedural
  deriving DecidableEq

/-- `f32::clamp`. As in /repo/src/exercise_scorer.rs:492. -/
noncomputable def clamp (x lo hi : ℝ) : ℝ := if x < lo then lo else if x > hi then hi else x

/-- `i64::saturating_sub`. As in /repo/src/exercise_scorer.rs:229. -/
def satSub (a b : ℤ) : ℤ := max (-(2 ^ 63)) (min (2 ^ 63 - 1) (a - b))

/-- The difference of two timestamps in days, as computed in
/repo/src/exercise_scorer.rs:231-234, 365-367, 424 and 471-472 before the `.max(0.0)`. -/
noncomputable def daysBetween (a b : ℤ) : ℝ := (satSub a b : ℝ) / 86400

/-- `estimate_difficulty`, /repo/src/exercise_scorer.rs:196-212. -/
noncomputable def estimateDifficulty (trials : List Entry) : ℝ :=
  if trials = [] then 5
  else
    let failures : ℝ := ((trials.filter (fun t => decide (t.value < 3))).length : ℝ)
    let failureRate := failures / (trials.length : ℝ)
    clamp (1 + failureRate * 9) 1 10

/-- A quotient of accumulated sums: `sum (weight * value) / sum weight`, the shape of both averages
in /repo/src/exercise_scorer.rs:225-251. -/
noncomputable def wavg (ps : List (ℝ × ℝ)) : ℝ :=
  (ps.map (fun p => p.1 * p.2)).sum / (ps.map (fun p => p.1)).sum

/-- The time-based weight, /repo/src/exercise_scorer.rs:230-237. -/
noncomputable def timeWeight (newest t : ℤ) : ℝ :=
  max ((95 / 100 : ℝ) ^ (max (daysBetween newest t / 7) 0)) (1 / 10)

/-- The position-based weight, /repo/src/exercise_scorer.rs:247-249. -/
noncomputable def posWeight (i : ℕ) : ℝ := max ((95 / 100 : ℝ) ^ (i : ℝ)) (1 / 10)

/-- `compute_weighted_avg`, /repo/src/exercise_scorer.rs:219-254. -/
noncomputable def weightedAvg (entries : List Entry) : ℝ :=
  match entries with
  | [] => 0
  | e :: _ =>
    let timeAvg := wavg (entries.map (fun x => (timeWeight e.time x.time, x.value)))
    let posAvg := wavg (entries.zipIdx.map (fun x => (posWeight x.2, x.1.value)))
    8 / 10 * timeAvg + 2 / 10 * posAvg

/-- `get_curve_decay`, /repo/src/exercise_scorer.rs:257-262. -/
noncomputable def curveDecay : Kind → ℝ
  | .declarative => -(4 / 10)
  | .procedural => -(2 / 10)

/-- `get_curve_factor`, /repo/src/exercise_scorer.rs:269-272. -/
noncomputable def curveFactor (k : Kind) : ℝ :=
  (9 / 10 : ℝ) ^ (-1 / max |curveDecay k| (1 / 2 ^ 23)) - 1

/-- `compute_retrievability`, /repo/src/exercise_scorer.rs:280-290. -/
noncomputable def retrievability (k : Kind) (days stability : ℝ) : ℝ :=
  clamp ((1 + curveFactor k * days / stability) ^ curveDecay k) 0 1

/-- `compute_spacing_gain`, /repo/src/exercise_scorer.rs:295-309. -/
noncomputable def spacingGain (k : Kind) (days stability performance : ℝ) : ℝ :=
  if performance ≤ 0 then 1
  else clamp (1 + 65 / 100 * (1 - retrievability k days stability)) 1 (1 + 65 / 100)

/-- `update_difficulty`, /repo/src/exercise_scorer.rs:315-323. -/
noncomputable def updateDifficulty (difficulty base score : ℝ) : ℝ :=
  let gradeDelta := (3 - score) / 4 * (105 / 100)
  let adjusted := clamp (difficulty + gradeDelta) 1 10
  clamp (16 / 100 * base + (1 - 16 / 100) * adjusted) 1 10

/-- `apply_stability_transition`, /repo/src/exercise_scorer.rs:326-340. -/
noncomputable def stabilityStep (k : Kind) (stability difficulty score days : ℝ) : ℝ :=
  let p := (score - 1) / 4 - 1 / 2
  let e := (11 - difficulty) / 5
  let gain := spacingGain k days stability p
  let damping := min days 1
  let growth := 5 / 2 * p * e * gain * damping
  clamp (stability * (1 + growth)) (1 / 2) 730

/-- The variables of the loop in `compute_stability`, /repo/src/exercise_scorer.rs:349-352. -/
structure Replay where
  stability : ℝ
  difficulty : ℝ
  previous : Option ℤ

/-- One iteration of the loop, /repo/src/exercise_scorer.rs:355-377. -/
noncomputable def replayStep (k : Kind) (r : Replay) (t : Entry) : Replay :=
  match r.previous with
  | none => { r with previous := some t.time }
  | some prev =>
    let days := max (daysBetween t.time prev) 0
    { stability := stabilityStep k r.stability r.difficulty t.value days
      difficulty := updateDifficulty r.difficulty 5 t.value
      previous := some t.time }

/-- The loop of `compute_stability`, /repo/src/exercise_scorer.rs:344-377 (all its variables). -/
noncomputable def replay (k : Kind) (trials : List Entry) (base : ℝ) : Replay :=
  trials.reverse.foldl (replayStep k) { stability := 1, difficulty := base, previous := none }

/-- `compute_stability`, /repo/src/exercise_scorer.rs:344-379. -/
noncomputable def computeStability (k : Kind) (trials : List Entry) (base : ℝ) : ℝ :=
  (replay k trials base).stability

/-- `apply_old_good_retrievability_floor`, /repo/src/exercise_scorer.rs:384-398. -/
noncomputable def oldGoodFloor (r weighted days : ℝ) (n : ℕ) : ℝ :=
  if 2 ≤ n ∧ 4 ≤ weighted ∧ 50 ≤ days then max r (3 / 4) else r

/-- `compute_delta`, /repo/src/exercise_scorer.rs:401-411. -/
noncomputable def computeDelta (deltas : List Entry) (r : ℝ) : ℝ :=
  if deltas.length < 2 then 0 else weightedAvg deltas * r / 4

/-- `velocity`, /repo/src/exercise_scorer.rs:413-440.  The four accumulators of the loop are list
sums. -/
noncomputable def velocity (trials : List Entry) : Option ℝ :=
  if trials.length < 2 then none
  else
    match trials.getLast? with
    | none => none
    | some oldest =>
      let n : ℝ := (trials.length : ℝ)
      let sumT := (trials.map (fun x => daysBetween x.time oldest.time)).sum
      let sumS := (trials.map (fun x => x.value)).sum
      let sumTS := (trials.map (fun x => daysBetween x.time oldest.time * x.value)).sum
      let sumTT := (trials.map (fun x => daysBetween x.time oldest.time *
        daysBetween x.time oldest.time)).sum
      let denominator := n * sumTT - sumT * sumT
      if |denominator| < 1 / 2 ^ 23 then some 0
      else some ((n * sumTS - sumT * sumS) / denominator)

/-- `ExerciseScore`, /repo/src/data.rs:804-820. -/
structure Score where
  value : ℝ
  urgency : ℝ
  velocity : Option ℝ

/-- The ordering guard `previous_trials.windows(2).any(..)`, /repo/src/exercise_scorer.rs:459-462. -/
def unsorted : List Entry → Bool
  | a :: b :: l => decide (a.time < b.time) || unsorted (b :: l)
  | _ => false

/-- The days since the last trial, /repo/src/exercise_scorer.rs:471-472. -/
noncomputable def daysSinceLast (now : ℤ) (last : Entry) : ℝ := max (daysBetween now last.time) 0

/-- `PowerLawScorer::score`, /repo/src/exercise_scorer.rs:444-498 (`none` is `Err`). -/
noncomputable def score (k : Kind) (trials deltas : List Entry) (now : ℤ) : Option Score :=
  match trials with
  | [] => some { value := 0, urgency := 1, velocity := none }
  | last :: _ =>
    if unsorted trials then none
    else
      let base := estimateDifficulty trials
      let stability := computeStability k trials base
      let days := daysSinceLast now last
      let r := retrievability k days stability
      let weighted := weightedAvg trials
      let effective := oldGoodFloor r weighted days trials.length
      let adjusted := effective * weighted
      let delta := computeDelta deltas effective
      some { value := clamp (adjusted + delta) 0 5, urgency := 1 - r, velocity := velocity trials }

end Trane.Scorer
