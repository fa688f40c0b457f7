import Verif.Scorer.Model

/-!
# The reward scorer

Models `/repo/src/reward_scorer.rs`.  `f32` values are reals.  The clock (`Utc::now()`, read once per
call) is the parameter `now`, in whole seconds: the fraction of a second never changes the number of
whole days since an earlier instant.
-/

namespace Trane.RewardScorer

open Trane.Scorer (Entry)

/-- `UnitReward`, /repo/src/data.rs:131-144, without the unit id (not read by the scorer). -/
structure Reward where
  value : ℝ
  weight : ℝ
  time : ℤ

/-- The instant denoted by a stored timestamp: out of the range of `chrono` it is the epoch
(`unwrap_or_default`), /repo/src/reward_scorer.rs:46-49.  `inRange` is the range `chrono` accepts,
left abstract. -/
def instant (inRange : ℤ → Bool) (t : ℤ) : ℤ := if inRange t then t else 0

/-- `days_since`, /repo/src/reward_scorer.rs:45-51: whole days, at least 0. -/
def daysSince (inRange : ℤ → Bool) (r : Reward) (now : ℤ) : ℤ :=
  max ((now - instant inRange r.time).tdiv 86400) 0

/-- `decay_factor`, /repo/src/reward_scorer.rs:54-56. -/
noncomputable def decayFactor (days : ℝ) : ℝ := (1 / 2 : ℝ) ^ (days / 14)

/-- `decayed_reward`, /repo/src/reward_scorer.rs:59-63. -/
noncomputable def decayed (inRange : ℤ → Bool) (now : ℤ) (r : Reward) : ℝ × ℝ :=
  let d := decayFactor (daysSince inRange r now : ℝ)
  (r.value * d, r.weight * d)

/-- The loop of `weighted_average`, /repo/src/reward_scorer.rs:71-78: the two accumulators. -/
noncomputable def accumulate (inRange : ℤ → Bool) (now : ℤ) : ℝ × ℝ → List Reward → ℝ × ℝ
  | acc, [] => acc
  | acc, r :: rs =>
    let e := decayed inRange now r
    if e.2 < 5 / 100 then accumulate inRange now acc rs
    else accumulate inRange now (acc.1 + e.1 * e.2, acc.2 + e.2) rs

/-- `weighted_average`, /repo/src/reward_scorer.rs:66-85. -/
noncomputable def average (inRange : ℤ → Bool) (now : ℤ) (rs : List Reward) : ℝ :=
  let acc := accumulate inRange now (0, 0) rs
  if acc.2 = 0 then 0 else acc.1 / acc.2

/-- `score_rewards`, /repo/src/reward_scorer.rs:89-115 (it never returns `Err`). -/
noncomputable def scoreRewards (inRange : ℤ → Bool) (now : ℤ) (course lesson : List Reward) : ℝ :=
  let courseScore := average inRange now course
  let lessonScore := average inRange now lesson
  if course = [] ∧ lesson = [] then 0
  else if course = [] then lessonScore
  else if lesson = [] then courseScore
  else (courseScore * (3 / 10) + lessonScore * (7 / 10)) / (3 / 10 + 7 / 10)

/-- `apply_reward`, /repo/src/reward_scorer.rs:117-143. -/
noncomputable def applyReward (now : ℤ) (reward : ℝ) (trials : List Entry) : Bool :=
  if trials.length ≤ 2 then false
  else
    match trials with
    | [] => false
    | last :: _ =>
      let numDays : ℝ := ((now - last.time : ℤ) : ℝ) / 86400
      let avg := ((trials.take 3).map (fun t => t.value)).sum / 3
      if reward > 0 ∧ avg < 3 ∧ numDays < 7 then false
      else if reward < 0 ∧ avg > 7 / 2 ∧ numDays < 7 then false
      else true

end Trane.RewardScorer
