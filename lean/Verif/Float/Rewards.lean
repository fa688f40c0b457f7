import Verif.Float.Props
import Verif.Scorer.RewardModel

/-!
# Rewards, unit scores and selection weights over any arithmetic

Models the arithmetic of `/repo/src/reward_scorer.rs`, of the exercise, lesson and course scores in
`/repo/src/scheduler/unit_scorer.rs` and of the selection weights in `/repo/src/scheduler/filter.rs`, operation by
operation.
-/

namespace Trane.Float

open Trane.Scorer (Kind)

variable {α : Type} (A : Arith α)

/-- `UnitReward`, /repo/src/data.rs:131-144. -/
structure GReward (α : Type) where
  value : α
  weight : α
  time : ℤ

/-- `days_since`, /repo/src/reward_scorer.rs:45-51, before `as f32`. -/
def gDaysSince (inRange : ℤ → Bool) (t now : ℤ) : ℤ :=
  max ((now - RewardScorer.instant inRange t).tdiv 86400) 0

/-- `decay_factor`, /repo/src/reward_scorer.rs:54-56. -/
def gDecay (inRange : ℤ → Bool) (t now : ℤ) : α :=
  A.powf (A.lit (1 / 2)) (A.div (A.ofInt (gDaysSince inRange t now)) (A.lit 14))

/-- `x == 0.0`. -/
def Arith.isZero (x : α) : Bool := A.le x (A.lit 0) && A.le (A.lit 0) x

/-- The loop of `weighted_average`, /repo/src/reward_scorer.rs:71-78, with `decayed_reward`, lines 59-63. -/
def gRewardStep (inRange : ℤ → Bool) (now : ℤ) (s : α × α) (r : GReward α) : α × α :=
  let d := gDecay A inRange r.time now
  let v := A.mul r.value d
  let w := A.mul r.weight d
  if A.lt w (A.lit (5 / 100)) then s else (A.add s.1 (A.mul v w), A.add s.2 w)

/-- `weighted_average`, /repo/src/reward_scorer.rs:66-85. -/
def gRewardAverage (inRange : ℤ → Bool) (now : ℤ) (rs : List (GReward α)) : α :=
  let s := rs.foldl (gRewardStep A inRange now) (A.lit 0, A.lit 0)
  if A.isZero s.2 then A.lit 0 else A.div s.1 s.2

/-- `score_rewards`, /repo/src/reward_scorer.rs:89-115. -/
def gScoreRewards (inRange : ℤ → Bool) (now : ℤ) (course lesson : List (GReward α)) : α :=
  let c := gRewardAverage A inRange now course
  let l := gRewardAverage A inRange now lesson
  if course.isEmpty && lesson.isEmpty then A.lit 0
  else if course.isEmpty then l
  else if lesson.isEmpty then c
  else A.div (A.add (A.mul c (A.lit (3 / 10))) (A.mul l (A.lit (7 / 10))))
    (A.add (A.lit (3 / 10)) (A.lit (7 / 10)))

/-- `apply_reward`, /repo/src/reward_scorer.rs:117-143. -/
def gApplyReward (now : ℤ) (reward : α) (trials : List (GEntry α)) : Bool :=
  if trials.length ≤ 2 then false
  else
    match trials with
    | [] => false
    | last :: _ =>
      let days := A.div (A.ofInt (now - last.time)) (A.lit 86400)
      let avg := A.div ((trials.take 3).foldl (fun s t => A.add s t.value) (A.lit 0)) (A.lit 3)
      if A.lt (A.lit 0) reward && A.lt avg (A.lit 3) && A.lt days (A.lit 7) then false
      else if A.lt reward (A.lit 0) && A.lt (A.lit (7 / 2)) avg && A.lt days (A.lit 7) then false
      else true

/-- The final score of an exercise, /repo/src/scheduler/unit_scorer.rs:208-236. -/
def gExerciseScore (inRange : ℤ → Bool) (k : Kind) (trials deltas : List (GEntry α))
    (course lesson : List (GReward α)) (now rewardNow : ℤ) : Option α :=
  (gScore A k trials deltas now).map (fun s =>
    let reward := gScoreRewards A inRange rewardNow course lesson
    if gApplyReward A rewardNow reward trials then A.clamp (A.add s.value reward) (A.lit 0) (A.lit 5)
    else s.value)

/-- The average of the scores of a lesson's exercises or a course's lessons,
/repo/src/scheduler/unit_scorer.rs:438-442 and 508-512. -/
def gMean (xs : List α) : α :=
  A.div (xs.foldl A.add (A.lit 0)) (A.ofInt xs.length)

/-- `utils::weighted_average`, /repo/src/utils.rs:7-16. -/
def gUtilsAverage (values weights : List α) : α :=
  let cross := ((values.zip weights).map (fun p => A.mul p.1 p.2)).foldl A.add (A.lit 0)
  let total := weights.foldl A.add (A.lit 0)
  if A.isZero total then A.lit 0 else A.div cross total

/-- The parts of a `Candidate` that its weight depends on, /repo/src/scheduler.rs:121-159. -/
structure GCandidate (α : Type) where
  depth : α
  encompasses : α
  encompassed : α
  frequency : ℕ
  deadEnd : Bool
  velocity : Option α
  score : α
  urgency : α

/-- `candidate_cost`, /repo/src/scheduler/filter.rs:105-128. -/
def gCost (ln1p exp : α → α) (c : GCandidate α) : α :=
  let x := A.sub (A.lit 0) (A.mul (A.lit (7 / 10)) (ln1p c.depth))
  let x := A.sub x (A.mul (A.lit (9 / 10)) (ln1p c.encompasses))
  let x := A.add x (A.mul (A.lit (6 / 10)) (ln1p c.encompassed))
  let x := A.add x (A.mul (A.lit 2) (ln1p (A.ofInt c.frequency)))
  let x := if c.deadEnd then A.sub x (A.lit 1) else x
  let x := match c.velocity with
    | none => x
    | some v =>
      let y := A.add x (A.mul (A.lit (5 / 10)) (A.sub (A.lit 0) (ln1p v)))
      if A.lt (A.abs v) (A.lit (2 / 10)) then
        if A.le (A.lit 4) c.score then A.add y (A.lit 1) else A.sub y (A.lit (7 / 10))
      else y
  A.clamp (exp x) (A.lit (5 / 100)) (A.lit 100)

/-- `candidate_weight`, /repo/src/scheduler/filter.rs:134-137. -/
def gWeight (ln1p exp sqrt : α → α) (c : GCandidate α) : α :=
  A.max (A.div c.urgency (sqrt (gCost A ln1p exp c))) (A.lit (5 / 100))

end Trane.Float
