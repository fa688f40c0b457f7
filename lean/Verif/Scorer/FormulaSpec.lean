import Verif.Scorer.RewardModel
import Verif.Sched.Candidate
import Mathlib.Algebra.BigOperators.Fin

/-!
# The formulas behind scores, rewards and weights (C96)

Written out as a reader would write them on paper, from the constants and comments of
/repo/src/exercise_scorer.rs:21-128, /repo/src/reward_scorer.rs:26-37 and
/repo/src/scheduler/filter.rs:19-60, without the definitions of the model: sums over the positions
of a list, a recursion from the newest trial down to the oldest, powers instead of logarithms.
-/

namespace Trane.Formula

open Trane.Scorer (Entry Kind)

/-- `x`, moved into the interval from `lo` to `hi`. -/
noncomputable def within (lo hi x : ℝ) : ℝ := max lo (min hi x)

/-- The days from one instant to a later one; none if it is not later. -/
noncomputable def daysAfter (later earlier : ℤ) : ℝ := max (((later : ℝ) - (earlier : ℝ)) / 86400) 0

/-- The chance of recalling something of stability `s` after `d` days: a power law that is 1 at
once and nine tenths after `s` days. -/
noncomputable def recall : Kind → ℝ → ℝ → ℝ
  | .declarative, d, s => (1 + ((10 / 9 : ℝ) ^ (5 / 2 : ℝ) - 1) * (d / s)) ^ (-(2 / 5) : ℝ)
  | .procedural, d, s => (1 + ((10 / 9 : ℝ) ^ (5 : ℝ) - 1) * (d / s)) ^ (-(1 / 5) : ℝ)

/-- How hard an exercise is at first, from 1 to 10: 1 plus nine times the share of failed trials. -/
noncomputable def hardness (trials : List Entry) : ℝ :=
  1 + 9 * ((trials.countP (fun t => decide (t.value < 3)) : ℝ) / (trials.length : ℝ))

/-- Stability and difficulty after the trials, newest first.  The oldest trial starts the memory; each later
one of grade `v`, `gap` days after the one before, multiplies the stability and moves the
difficulty. -/
noncomputable def memory (k : Kind) (hard : ℝ) : List Entry → ℝ × ℝ
  | [] => (1, hard)
  | [_] => (1, hard)
  | t :: t' :: older =>
    let before := memory k hard (t' :: older)
    let gap := daysAfter t.time t'.time
    let spacing := if t.value ≤ 3 then 1 else 1 + 65 / 100 * (1 - recall k gap before.1)
    (within (1 / 2) 730 (before.1 *
        (1 + 5 / 2 * ((t.value - 3) / 4) * ((11 - before.2) / 5) * spacing * min gap 1)),
      within 1 10 (16 / 100 * 5 + 84 / 100 *
        within 1 10 (before.2 + 105 / 100 * ((3 - t.value) / 4))))

/-- The weight of an entry by age: 5% less per week, but at least a tenth. -/
noncomputable def ageWeight (newest t : ℤ) : ℝ :=
  max ((95 / 100 : ℝ) ^ (daysAfter newest t / 7)) (1 / 10)

/-- The weight of an entry by position: 5% less per entry, but at least a tenth. -/
noncomputable def placeWeight (i : ℕ) : ℝ := max ((95 / 100 : ℝ) ^ i) (1 / 10)

/-- The average of entries, newest first: four fifths by age, one fifth by position. -/
noncomputable def average (l : List Entry) : ℝ :=
  match l with
  | [] => 0
  | newest :: _ =>
    4 / 5 * ((∑ i : Fin l.length, ageWeight newest.time l[i].time * l[i].value) /
      ∑ i : Fin l.length, ageWeight newest.time l[i].time) +
    1 / 5 * ((∑ i : Fin l.length, placeWeight i * l[i].value) / ∑ i : Fin l.length, placeWeight i)

/-- The chance of recall used for the value of a score: exercises with at least two trials, an
average of at least 4 and no practice in fifty days do not fall below three quarters. -/
noncomputable def usedRecall (k : Kind) (trials : List Entry) (now last : ℤ) : ℝ :=
  let r := recall k (daysAfter now last) (memory k (hardness trials) trials).1
  if 2 ≤ trials.length ∧ 4 ≤ average trials ∧ 50 ≤ daysAfter now last then max r (3 / 4) else r

/-- The value of the score of an exercise last practised at `last`. -/
noncomputable def value (k : Kind) (trials deltas : List Entry) (now last : ℤ) : ℝ :=
  within 0 5 (usedRecall k trials now last *
    (average trials + if deltas.length < 2 then 0 else average deltas / 4))

/-- The urgency: the chance of having forgotten. -/
noncomputable def urgency (k : Kind) (trials : List Entry) (now last : ℤ) : ℝ :=
  1 - recall k (daysAfter now last) (memory k (hardness trials) trials).1

/-! ### Rewards -/

open Trane.RewardScorer (Reward)

/-- The whole days since a reward. -/
def age (now : ℤ) (r : Reward) : ℕ := ((now - r.time) / 86400).toNat

/-- What is left of a reward: half after every fourteen days. -/
noncomputable def left (now : ℤ) (r : Reward) : ℝ := (2 : ℝ) ^ (-((age now r : ℝ) / 14))

open Classical in
/-- The average of the rewards that still weigh at least a twentieth. -/
noncomputable def rewardAverage (now : ℤ) (rs : List Reward) : ℝ :=
  let kept := rs.filter (fun r => decide (1 / 20 ≤ r.weight * left now r))
  if kept = [] then 0
  else (kept.map (fun r => r.value * left now r * (r.weight * left now r))).sum /
    (kept.map (fun r => r.weight * left now r)).sum

/-- The reward of an exercise: three tenths from its course, seven tenths from its lesson, or all from the one that has
rewards. -/
noncomputable def reward (now : ℤ) (course lesson : List Reward) : ℝ :=
  match course, lesson with
  | [], _ => rewardAverage now lesson
  | _, [] => rewardAverage now course
  | _, _ => 3 / 10 * rewardAverage now course + 7 / 10 * rewardAverage now lesson

/-- A reward is not added to exercises with fewer than three trials.  In the week after the last one it is not added
either if it goes against the last three: up if they average less than 3, down if more than 3.5. -/
def Counts (now : ℤ) (reward : ℝ) : List Entry → Prop
  | a :: b :: c :: _ =>
    let last := (a.value + b.value + c.value) / 3
    (now : ℝ) - (a.time : ℝ) < 7 * 86400 → (0 < reward → 3 ≤ last) ∧ (reward < 0 → last ≤ 7 / 2)
  | _ => False

open Classical in
/-- The score of an exercise: the value of the trials and deltas as of `now`, moved by the reward as of `today` if it
counts. -/
noncomputable def final (k : Kind) (now today : ℤ) (trials deltas : List Entry) (course lesson : List Reward) : ℝ :=
  match trials with
  | [] => 0
  | last :: _ =>
    if Counts today (reward today course lesson) trials
    then within 0 5 (value k trials deltas now last.time + reward today course lesson)
    else value k trials deltas now last.time

/-! ### Selection weights -/

variable {ι : Type}

/-- The cost of a candidate, as a product of powers: deep and encompassing exercises and dead ends are
cheap, encompassed and often shown ones dear. -/
noncomputable def baseCost (c : Candidate ι) : ℝ :=
  (1 + (c.encompassed : ℝ)) ^ (3 / 5 : ℝ) * (1 + (c.frequency : ℝ)) ^ 2 /
    ((1 + (c.depth : ℝ)) ^ (7 / 10 : ℝ) * (1 + (c.encompasses : ℝ)) ^ (9 / 10 : ℝ) *
      (if c.deadEnd then Real.exp 1 else 1))

/-- The factor of a known velocity `v`: progress makes cheaper; standing still makes mastered
exercises dearer and others cheaper. -/
noncomputable def velocityCost (score v : ℚ) : ℝ :=
  (if |v| < 1 / 5 then (if 4 ≤ score then Real.exp 1 else Real.exp (-(7 / 10))) else 1) /
    Real.sqrt (1 + (v : ℝ))

/-- The selection weight: urgency over the root of the cost, the cost between a twentieth and a hundred, the
weight at least a twentieth. -/
noncomputable def weight (c : Candidate ι) : ℝ :=
  max (1 / 20) ((c.urgency : ℝ) / Real.sqrt (within (1 / 20) 100
    (baseCost c * match c.velocity with | none => 1 | some v => velocityCost c.score v)))

end Trane.Formula
