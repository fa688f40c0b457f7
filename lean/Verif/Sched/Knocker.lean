import Verif.Sched.Candidate
import Verif.Sched.Propagator

/-!
# Review knock-out

Models `/repo/src/scheduler/review_knocker.rs`.  The set of units that are traversed is iterated in an
unspecified order in Rust: `starts` is that order, any duplicate-free list of the lessons and courses of
the batch.  The traversal takes fuel; `none` means that the fuel ran out.
-/

namespace Trane.Knocker
open Trane.Propagator (stop rewardFactor weightFactor)

/-- /repo/src/scheduler/review_knocker.rs:17. -/
def veryHighlyScore : ℚ := 9 / 2
/-- /repo/src/scheduler/review_knocker.rs:22. -/
def veryHighlyWeight : ℚ := 10
/-- /repo/src/scheduler/review_knocker.rs:25. -/
def highlyScore : ℚ := 15 / 4
/-- /repo/src/scheduler/review_knocker.rs:29. -/
def highlyWeight : ℚ := 5

/-- `WeightQueueItem`, /repo/src/scheduler/review_knocker.rs:44-53. -/
structure Item (ι : Type) where
  unit : ι
  reward : ℚ
  weight : ℚ

variable {ι : Type} [DecidableEq ι]

/-- The units reached from a unit, /repo/src/scheduler/review_knocker.rs:106-110 (`None` gives no
units). -/
def edges (g : Graph ι) (reverse : Bool) (u : ι) : List (ι × ℚ) :=
  if reverse then (g.getEncompassedBy u).getD [] else (g.getEncompasses u).getD []

/-- The edges of an item that are followed, /repo/src/scheduler/review_knocker.rs:112-118. -/
def followed (g : Graph ι) (reverse : Bool) (i : Item ι) : List (ι × ℚ) :=
  (edges g reverse i.unit).filter (fun p => !(decide (p.2 = 0) || stop i.reward i.weight))

/-- The weight update, /repo/src/scheduler/review_knocker.rs:121-122. -/
def addWeight (m : AMap ι ℚ) (p : ι × ℚ) : AMap ι ℚ := m.upd p.1 0 (fun x => x + p.2)

/-- The pushes for one edge, in order, /repo/src/scheduler/review_knocker.rs:123-134. -/
def pushes (g : Graph ι) (i : Item ι) (p : ι × ℚ) : List (Item ι) :=
  ⟨p.1, i.reward * rewardFactor, p.2 * i.weight * weightFactor⟩ ::
    match g.getLessonCourse p.1 with
    | some c => [⟨c, i.reward * rewardFactor, p.2 * i.weight * weightFactor⟩]
    | none => []

/-- The inner loop, /repo/src/scheduler/review_knocker.rs:93-138; the top of the stack is the head of
the list.  The visited units are returned too, to state theorems. -/
def traverse (g : Graph ι) (reverse : Bool) : Nat → List (Item ι) → List ι → AMap ι ℚ →
    Option (List ι × AMap ι ℚ)
  | _, [], visited, m => some (visited, m)
  | 0, _ :: _, _, _ => none
  | fuel + 1, i :: stack, visited, m =>
    if i.unit ∈ visited then traverse g reverse fuel stack visited m
    else
      let fs := followed g reverse i
      traverse g reverse fuel ((fs.flatMap (pushes g i)).reverse ++ stack) (i.unit :: visited)
        (fs.foldl addWeight m)

/-- The outer loop, /repo/src/scheduler/review_knocker.rs:83-139. -/
def unitWeights (g : Graph ι) (reverse : Bool) (fuel : Nat) : List ι → AMap ι ℚ → Option (AMap ι ℚ)
  | [], m => some m
  | s :: rest, m =>
    (traverse g reverse fuel [⟨s, 1, 1⟩] [] m).bind fun r => unitWeights g reverse fuel rest r.2

/-- The last part of `compute_encompassing_map`, /repo/src/scheduler/review_knocker.rs:143-156. -/
def exerciseWeights (batch : List (Candidate ι)) (m : AMap ι ℚ) : AMap ι ℚ :=
  batch.foldl (fun acc c => acc.put c.exercise
    ((m.find c.lesson).getD 0 + (m.find c.course).getD 0)) []

/-- `compute_encompassing_map`, /repo/src/scheduler/review_knocker.rs:71-157. -/
def encompassingMap (g : Graph ι) (fuel : Nat) (starts : List ι) (batch : List (Candidate ι))
    (reverse : Bool) : Option (AMap ι ℚ) :=
  (unitWeights g reverse fuel starts []).map (exerciseWeights batch)

/-- `remove_very_highly_encompassed`, /repo/src/scheduler/review_knocker.rs:160-174. -/
def removeVeryHighly (cs : List (Candidate ι)) (m : AMap ι ℚ) : List (Candidate ι) :=
  cs.filter (fun c => !(decide (veryHighlyWeight ≤ (m.find c.exercise).getD 0) &&
    decide (veryHighlyScore ≤ c.score)))

/-- `get_highly_encompassed`, /repo/src/scheduler/review_knocker.rs:177-193. -/
def highly (cs : List (Candidate ι)) (m : AMap ι ℚ) : List (Candidate ι) :=
  cs.filter (fun c => match m.find c.exercise with
    | none => false
    | some w =>
      if veryHighlyWeight ≤ w ∧ veryHighlyScore ≤ c.score then false
      else decide (highlyWeight ≤ w) && decide (highlyScore ≤ c.score))

/-- `KnockoutResult`, /repo/src/scheduler/review_knocker.rs:32-41. -/
structure Result (ι : Type) where
  candidates : List (Candidate ι)
  highlyEncompassed : List (Candidate ι)

/-- `knock_out_reviews`, /repo/src/scheduler/review_knocker.rs:197-225; the two traversals may iterate
over the units in different orders. -/
def knockOut (g : Graph ι) (fuel : Nat) (starts starts' : List ι) (batch : List (Candidate ι)) :
    Option (Result ι) :=
  (encompassingMap g fuel starts batch false).bind fun by_ =>
  (encompassingMap g fuel starts' batch true).map fun enc =>
  let batch := batch.map (fun c => { c with
    encompasses := (enc.find c.exercise).getD 0, encompassed := (by_.find c.exercise).getD 0 })
  let processed := removeVeryHighly batch by_
  ⟨processed, highly processed by_⟩

end Trane.Knocker
