import Verif.Float.F32
import Verif.Scorer.Model

/-!
# The exercise scorer over any arithmetic

Models `/repo/src/exercise_scorer.rs` operation by operation, in the order of the code, for any arithmetic.
With `exact` it is the model of `Verif.Scorer.Model`; with `f32` it is what the machine computes.
-/

namespace Trane.Float

open Trane.Scorer (Kind satSub)

variable {α : Type} (A : Arith α)

/-- A trial or a delta, /repo/src/exercise_scorer.rs:132-158. -/
structure GEntry (α : Type) where
  value : α
  time : ℤ

/-- `(a.saturating_sub(b)) as f32 / SECONDS_PER_DAY`, /repo/src/exercise_scorer.rs:229-230, 364, 428
and 473-474. -/
def gDays (a b : ℤ) : α := A.div (A.ofInt (satSub a b)) (A.lit 86400)

/-- `estimate_difficulty`, /repo/src/exercise_scorer.rs:196-212. -/
def gEstimateDifficulty (trials : List (GEntry α)) : α :=
  if trials.isEmpty then A.lit 5
  else
    let failures := A.ofInt (trials.filter (fun t => A.lt t.value (A.lit 3))).length
    let rate := A.div failures (A.ofInt trials.length)
    A.clamp (A.add (A.lit 1) (A.mul rate (A.lit 9))) (A.lit 1) (A.lit 10)

/-- The two accumulating loops of `compute_weighted_avg`, /repo/src/exercise_scorer.rs:226-239 and 242-251,
over pairs of weight and value. -/
def gAvg (ps : List (α × α)) : α :=
  let s := ps.foldl (fun s p => (A.add s.1 (A.mul p.1 p.2), A.add s.2 p.1)) (A.lit 0, A.lit 0)
  A.div s.1 s.2

/-- The time based weight, /repo/src/exercise_scorer.rs:229-235. -/
def gTimeWeight (newest t : ℤ) : α :=
  A.max (A.powf (A.lit (95 / 100)) (A.max (A.div (gDays A newest t) (A.lit 7)) (A.lit 0)))
    (A.lit (1 / 10))

/-- The position based weight, /repo/src/exercise_scorer.rs:245-247. -/
def gPosWeight (i : ℕ) : α :=
  A.max (A.powf (A.lit (95 / 100)) (A.ofInt i)) (A.lit (1 / 10))

/-- `compute_weighted_avg`, /repo/src/exercise_scorer.rs:219-254. -/
def gWeightedAvg (entries : List (GEntry α)) : α :=
  match entries with
  | [] => A.lit 0
  | e :: _ =>
    let timeAvg := gAvg A (entries.map (fun x => (gTimeWeight A e.time x.time, x.value)))
    let posAvg := gAvg A (entries.zipIdx.map (fun x => (gPosWeight A x.2, x.1.value)))
    A.add (A.mul (A.lit (8 / 10)) timeAvg) (A.mul (A.lit (2 / 10)) posAvg)

/-- `get_curve_decay`, /repo/src/exercise_scorer.rs:257-262. -/
def gCurveDecay : Kind → α
  | .declarative => A.lit (-(4 / 10))
  | .procedural => A.lit (-(2 / 10))

/-- `get_curve_factor`, /repo/src/exercise_scorer.rs:269-272. -/
def gCurveFactor (k : Kind) : α :=
  A.sub (A.powf (A.lit (9 / 10))
    (A.div (A.lit (-1)) (A.max (A.abs (gCurveDecay A k)) (A.lit (1 / 2 ^ 23))))) (A.lit 1)

/-- `compute_retrievability`, /repo/src/exercise_scorer.rs:280-290. -/
def gRetrievability (k : Kind) (days stability : α) : α :=
  A.clamp (A.powf (A.add (A.lit 1) (A.div (A.mul (gCurveFactor A k) days) stability))
    (gCurveDecay A k)) (A.lit 0) (A.lit 1)

/-- `compute_spacing_gain`, /repo/src/exercise_scorer.rs:295-309. -/
def gSpacingGain (k : Kind) (days stability performance : α) : α :=
  if A.le performance (A.lit 0) then A.lit 1
  else A.clamp (A.add (A.lit 1) (A.mul (A.lit (65 / 100))
      (A.sub (A.lit 1) (gRetrievability A k days stability))))
    (A.lit 1) (A.add (A.lit 1) (A.lit (65 / 100)))

/-- `update_difficulty`, /repo/src/exercise_scorer.rs:315-323. -/
def gUpdateDifficulty (difficulty base score : α) : α :=
  let gradeDelta := A.mul (A.div (A.sub (A.lit 3) score) (A.lit 4)) (A.lit (105 / 100))
  let adjusted := A.clamp (A.add difficulty gradeDelta) (A.lit 1) (A.lit 10)
  A.clamp (A.add (A.mul (A.lit (16 / 100)) base)
    (A.mul (A.sub (A.lit 1) (A.lit (16 / 100))) adjusted)) (A.lit 1) (A.lit 10)

/-- `apply_stability_transition`, /repo/src/exercise_scorer.rs:326-340. -/
def gStabilityStep (k : Kind) (stability difficulty score days : α) : α :=
  let p := A.sub (A.div (A.sub score (A.lit 1)) (A.lit 4)) (A.lit (1 / 2))
  let e := A.div (A.sub (A.lit 11) difficulty) (A.lit 5)
  let gain := gSpacingGain A k days stability p
  let damping := A.min days (A.lit 1)
  let growth := A.mul (A.mul (A.mul (A.mul (A.lit (5 / 2)) p) e) gain) damping
  A.clamp (A.mul stability (A.add (A.lit 1) growth)) (A.lit (1 / 2)) (A.lit 730)

/-- The variables of the loop in `compute_stability`, /repo/src/exercise_scorer.rs:350-352. -/
structure GReplay (α : Type) where
  stability : α
  difficulty : α
  previous : Option ℤ

/-- One iteration of the loop, /repo/src/exercise_scorer.rs:355-377. -/
def gReplayStep (k : Kind) (r : GReplay α) (t : GEntry α) : GReplay α :=
  match r.previous with
  | none => { r with previous := some t.time }
  | some prev =>
    let days := A.max (gDays A t.time prev) (A.lit 0)
    { stability := gStabilityStep A k r.stability r.difficulty t.value days
      difficulty := gUpdateDifficulty A r.difficulty (A.lit 5) t.value
      previous := some t.time }

/-- `compute_stability`, /repo/src/exercise_scorer.rs:344-379. -/
def gComputeStability (k : Kind) (trials : List (GEntry α)) (base : α) : α :=
  (trials.reverse.foldl (gReplayStep A k) ⟨A.lit 1, base, none⟩).stability

/-- `apply_old_good_retrievability_floor`, /repo/src/exercise_scorer.rs:384-398. -/
def gOldGoodFloor (r weighted days : α) (n : ℕ) : α :=
  if decide (2 ≤ n) && A.le (A.lit 4) weighted && A.le (A.lit 50) days then A.max r (A.lit (3 / 4))
  else r

/-- `compute_delta`, /repo/src/exercise_scorer.rs:401-411. -/
def gComputeDelta (deltas : List (GEntry α)) (r : α) : α :=
  if deltas.length < 2 then A.lit 0 else A.div (A.mul (gWeightedAvg A deltas) r) (A.lit 4)

/-- The accumulators of `velocity`, /repo/src/exercise_scorer.rs:423-426. -/
structure GSums (α : Type) where
  t : α
  s : α
  ts : α
  tt : α

/-- One iteration of the loop of `velocity`, /repo/src/exercise_scorer.rs:427-433. -/
def gVelocityStep (oldest : ℤ) (a : GSums α) (x : GEntry α) : GSums α :=
  let t := gDays A x.time oldest
  ⟨A.add a.t t, A.add a.s x.value, A.add a.ts (A.mul t x.value), A.add a.tt (A.mul t t)⟩

/-- `velocity`, /repo/src/exercise_scorer.rs:413-440. -/
def gVelocity (trials : List (GEntry α)) : Option α :=
  if trials.length < 2 then none
  else
    match trials.getLast? with
    | none => none
    | some oldest =>
      let n := A.ofInt trials.length
      let a := trials.foldl (gVelocityStep A oldest.time) ⟨A.lit 0, A.lit 0, A.lit 0, A.lit 0⟩
      let denominator := A.sub (A.mul n a.tt) (A.mul a.t a.t)
      if A.lt (A.abs denominator) (A.lit (1 / 2 ^ 23)) then some (A.lit 0)
      else some (A.div (A.sub (A.mul n a.ts) (A.mul a.t a.s)) denominator)

/-- `ExerciseScore`, /repo/src/data.rs:804-820. -/
structure GScore (α : Type) where
  value : α
  urgency : α
  velocity : Option α

/-- The check of the order of the trials, /repo/src/exercise_scorer.rs:460-463. -/
def gUnsorted : List (GEntry α) → Bool
  | a :: b :: l => decide (a.time < b.time) || gUnsorted (b :: l)
  | _ => false

/-- `PowerLawScorer::score`, /repo/src/exercise_scorer.rs:443-499 (`none` is `Err`). -/
def gScore (k : Kind) (trials deltas : List (GEntry α)) (now : ℤ) : Option (GScore α) :=
  match trials with
  | [] => some ⟨A.lit 0, A.lit 1, none⟩
  | last :: _ =>
    if gUnsorted trials then none
    else
      let base := gEstimateDifficulty A trials
      let stability := gComputeStability A k trials base
      let days := A.max (gDays A now last.time) (A.lit 0)
      let r := gRetrievability A k days stability
      let weighted := gWeightedAvg A trials
      let effective := gOldGoodFloor A r weighted days trials.length
      let adjusted := A.mul effective weighted
      let delta := gComputeDelta A deltas effective
      some ⟨A.clamp (A.add adjusted delta) (A.lit 0) (A.lit 5), A.sub (A.lit 1) r,
        gVelocity A trials⟩

end Trane.Float
