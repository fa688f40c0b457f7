import Verif.Graph.Model
import Verif.Data.Options

/-!
# Propagation of rewards

Models `/repo/src/scheduler/reward_propagator.rs`.  `f32` values are rationals.  The work list is a
`Vec` used as a stack: its last element is the head of the list here.  The loop takes fuel; `none` means
that the fuel ran out (in Rust: the loop goes on).  The values of the result map come in an unspecified
order in Rust; theorems speak only of which rewards the result contains.
-/

namespace Trane.Propagator

/-- `UnitReward`, /repo/src/data.rs:131-144. -/
structure UnitReward (ι : Type) where
  unit : ι
  value : ℚ
  weight : ℚ
  time : Int
  deriving DecidableEq, Repr

/-- `MIN_ABS_REWARD`, /repo/src/scheduler/reward_propagator.rs:42. -/
def minAbsReward : ℚ := 1 / 5
/-- `MIN_WEIGHT`, /repo/src/scheduler/reward_propagator.rs:45. -/
def minWeight : ℚ := 1 / 5
/-- `WEIGHT_FACTOR`, /repo/src/scheduler/reward_propagator.rs:49. -/
def weightFactor : ℚ := 4 / 5
/-- `REWARD_FACTOR`, /repo/src/scheduler/reward_propagator.rs:53. -/
def rewardFactor : ℚ := 9 / 10

/-- `initial_reward`, /repo/src/scheduler/reward_propagator.rs:64-72. -/
def initialReward : MasteryScore → ℚ
  | .five => 4 / 5
  | .four => 2 / 5
  | .three => -3 / 10
  | .two => -1 / 2
  | .one => -1

variable {ι : Type} [DecidableEq ι]

/-- `get_next_units`, /repo/src/scheduler/reward_propagator.rs:75-81. -/
def nextUnits (g : Graph ι) (u : ι) (reward : ℚ) : List (ι × ℚ) :=
  if 0 < reward then (g.getEncompasses u).getD [] else (g.getEncompassedBy u).getD []

/-- `stop_propagation`, /repo/src/scheduler/reward_propagator.rs:84-86. -/
def stop (reward weight : ℚ) : Bool := decide (|reward| < minAbsReward) || decide (weight < minWeight)

/-- `resolve_roots`, /repo/src/scheduler/reward_propagator.rs:89-93. -/
def resolveRoots (g : Graph ι) (e : ι) : Option (ι × ι) :=
  (g.getExerciseLesson e).bind fun l => (g.getLessonCourse l).map fun c => (l, c)

/-- The pushes of the initial loop, in order, /repo/src/scheduler/reward_propagator.rs:110-129. -/
def initialItems (g : Graph ι) (l c : ι) (init : ℚ) (t : Int) : List (UnitReward ι) :=
  ((nextUnits g l init ++ nextUnits g c init).filter (fun p => !stop (p.2 * init) p.2)).map
    (fun p => ⟨p.1, p.2 * init, p.2, t⟩)

/-- The pushes for one visited item, in order, /repo/src/scheduler/reward_propagator.rs:143-158. -/
def nextItems (g : Graph ι) (item : UnitReward ι) (t : Int) : List (UnitReward ι) :=
  ((nextUnits g item.unit item.value).filter (fun p =>
      !stop (p.2 * rewardFactor * item.value) (p.2 * weightFactor * item.weight))).map
    (fun p => ⟨p.1, p.2 * rewardFactor * item.value, p.2 * weightFactor * item.weight, t⟩)

/-- The condition to skip an item, /repo/src/scheduler/reward_propagator.rs:135-140. -/
def weaker (results : AMap ι (UnitReward ι)) (item : UnitReward ι) : Bool :=
  match results.find item.unit with
  | some r => decide (|item.value| ≤ |r.value|)
  | none => false

/-- The main loop, /repo/src/scheduler/reward_propagator.rs:133-159. -/
def loop (g : Graph ι) (t : Int) : Nat → AMap ι (UnitReward ι) → List (UnitReward ι) →
    Option (AMap ι (UnitReward ι))
  | _, results, [] => some results
  | 0, _, _ :: _ => none
  | fuel + 1, results, item :: stack =>
    if weaker results item then loop g t fuel results stack
    else loop g t fuel (results.put item.unit item) ((nextItems g item t).reverse ++ stack)

/-- `propagate_rewards_helper`, /repo/src/scheduler/reward_propagator.rs:97-160; `empty` is the id with
no characters. -/
def helper (g : Graph ι) (empty : ι) (fuel : Nat) (l c : ι) (score : MasteryScore) (t : Int) :
    Option (List (UnitReward ι)) :=
  if l = empty ∨ c = empty then some []
  else (loop g t fuel [] (initialItems g l c (initialReward score) t).reverse).map
    (fun m => m.map Prod.snd)

/-- `propagate_rewards`, /repo/src/scheduler/reward_propagator.rs:163-175. -/
def propagate (g : Graph ι) (empty : ι) (fuel : Nat) (e : ι) (score : MasteryScore) (t : Int) :
    Option (List (UnitReward ι)) :=
  match resolveRoots g e with
  | none => some []
  | some (l, c) => helper g empty fuel l c score t

end Trane.Propagator
