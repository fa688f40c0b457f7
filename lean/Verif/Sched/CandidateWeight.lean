import Verif.Sched.Candidate
import Mathlib.Analysis.SpecialFunctions.Pow.Real

/-!
# Selection weights

Models `candidate_cost` and `candidate_weight` of `/repo/src/scheduler/filter.rs` over the reals.
`depth`, `encompasses` and `encompassed` are taken to be above -1 (they are sums of non-negative numbers),
so that their logarithms exist; velocities are arbitrary.
-/

namespace Trane.CandidateFilter

variable {ι : Type}

/-- `MIN_CANDIDATE_WEIGHT`, /repo/src/scheduler/filter.rs:22. -/
noncomputable def minWeight : ℝ := 1 / 20

/-- `MIN_CANDIDATE_COST`, /repo/src/scheduler/filter.rs:25. -/
noncomputable def minCost : ℝ := 1 / 20

/-- `MAX_CANDIDATE_COST`, /repo/src/scheduler/filter.rs:28. -/
noncomputable def maxCost : ℝ := 100

/-- `x.ln_1p()` for `x > -1`. As in /repo/src/scheduler/filter.rs:107. -/
noncomputable def lnOnePlus (x : ℝ) : ℝ := Real.log (1 + x)

/-- The part of the log-cost without velocity, /repo/src/scheduler/filter.rs:106-114; coefficients from
lines 31-43. -/
noncomputable def baseLogCost (c : Candidate ι) : ℝ :=
  0 - 7 / 10 * lnOnePlus c.depth - 9 / 10 * lnOnePlus c.encompasses
    + 6 / 10 * lnOnePlus c.encompassed + 2 * lnOnePlus (c.frequency : ℝ)
    - (if c.deadEnd then 1 else 0)

/-- The velocity part of the log-cost for `velocity > -1`, /repo/src/scheduler/filter.rs:116-125;
coefficients from lines 46-60. -/
noncomputable def velocityLogCost (score velocity : ℚ) : ℝ :=
  1 / 2 * -lnOnePlus velocity +
    (if |velocity| < 1 / 5 then (if 4 ≤ score then 1 else -(7 / 10)) else 0)

/-- `f32::clamp` between the cost bounds. /repo/src/scheduler/filter.rs:127. -/
noncomputable def clampCost (x : ℝ) : ℝ := if x < minCost then minCost else if maxCost < x then maxCost else x

/-- `candidate_cost`, /repo/src/scheduler/filter.rs:105-128.  `none` is NaN: the logarithm of a negative
number.  At velocity -1 the logarithm is `-∞`, the cost `+∞`, clamped to the maximum. -/
noncomputable def candidateCost (c : Candidate ι) : Option ℝ :=
  match c.velocity with
  | none => some (clampCost (Real.exp (baseLogCost c)))
  | some v =>
    if v < -1 then none
    else if v = -1 then some maxCost
    else some (clampCost (Real.exp (baseLogCost c + velocityLogCost c.score v)))

/-- `candidate_weight`, /repo/src/scheduler/filter.rs:134-137; `f32::max` ignores NaN. -/
noncomputable def candidateWeight (c : Candidate ι) : ℝ :=
  match candidateCost c with
  | none => minWeight
  | some cost => max ((c.urgency : ℝ) / Real.sqrt cost) minWeight

end Trane.CandidateFilter
