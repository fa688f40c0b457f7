import Verif.Sched.Knocker
import Mathlib.Data.Rat.Floor

/-!
# From candidates to the batch

Models `/repo/src/scheduler/filter.rs`.  The weighted random choice is a parameter: `pick call n cs` is
what the `call`-th call of `sample_weighted` returns for `n` and `cs`.
-/

namespace Trane.CandidateFilter
open Trane.Knocker (Result)

variable {ι : Type} [DecidableEq ι]

/-- The random choices of one run. /repo/src/scheduler/filter.rs:156. -/
abbrev Picks (ι : Type) := Nat → Nat → List (Candidate ι) → List (Candidate ι)

/-- `candidates_in_window`, /repo/src/scheduler/filter.rs:79-90. -/
def inWindow (cs : List (Candidate ι)) (encompassed : List ι) (w : MasteryWindow) :
    List (Candidate ι) :=
  (cs.filter (fun c => w.inWindow c.score)).filter (fun c => !decide (c.exercise ∈ encompassed))

/-- `select_candidates`, /repo/src/scheduler/filter.rs:144-172. -/
def select (pick : Nat → List (Candidate ι) → List (Candidate ι)) (cs : List (Candidate ι)) (n : Nat) :
    List (Candidate ι) × List (Candidate ι) :=
  if cs.length ≤ n then (cs, [])
  else
    let selected := pick n cs
    let ids := selected.map Candidate.exercise
    (selected, cs.filter (fun c => !decide (c.exercise ∈ ids)))

/-- `add_remainder`, /repo/src/scheduler/filter.rs:176-196. -/
def addRemainder (pick : Nat → List (Candidate ι) → List (Candidate ι)) (batchSize : Nat)
    (final remainder : List (Candidate ι)) (maxAdded : Option Nat) : List (Candidate ι) :=
  if batchSize * 3 / 4 ≤ final.length then final
  else
    let num := batchSize - final.length
    let num := match maxAdded with
      | none => num
      | some m => min num m
    final ++ (select pick remainder num).1

/-- `MIN_DYNAMIC_BATCH_SIZE`, /repo/src/scheduler/filter.rs:64. -/
def minDynamicBatchSize : Nat := 10

/-- `dynamic_batch_size`, /repo/src/scheduler/filter.rs:200-213. -/
def dynamicBatchSize (batchSize num : Nat) : Nat :=
  if batchSize < minDynamicBatchSize then batchSize
  else if num < batchSize * 3 then max (num / 3) minDynamicBatchSize
  else batchSize

/-- `f32::clamp`. As in /repo/src/scheduler/filter.rs:235. -/
def clampQ (p lo hi : ℚ) : ℚ := if p < lo then lo else if hi < p then hi else p

/-- The choice of the shift, /repo/src/scheduler/filter.rs:222-231; `none` is the early return. -/
def shiftOf (rate : ℚ) : Option ℚ :=
  if 9 / 10 < rate then some (1 / 20)
  else if 3 / 4 ≤ rate ∧ rate ≤ 9 / 10 then none
  else if 1 / 2 ≤ rate ∧ rate < 3 / 4 then some (-1 / 20)
  else some (-1 / 10)

/-- `adjusted_mastery_windows`, /repo/src/scheduler/filter.rs:217-254. -/
def adjusted (o : SchedulerOptions) (rate : ℚ) : SchedulerOptions :=
  match shiftOf rate with
  | none => o
  | some shift =>
    let clamp := fun p => clampQ p (1 / 20) (1 / 2)
    let new := clamp (o.newWindow.percentage + shift)
    let target := clamp (o.targetWindow.percentage + shift)
    let easy := clamp (o.easyWindow.percentage - shift)
    let mastered := clamp (o.masteredWindow.percentage - shift)
    let sum := new + target + easy + mastered
    { o with
      newWindow := { o.newWindow with percentage := new }
      targetWindow := { o.targetWindow with percentage := target }
      easyWindow := { o.easyWindow with percentage := easy }
      masteredWindow := { o.masteredWindow with percentage := mastered }
      currentWindow := { o.currentWindow with percentage := max (1 - sum) (1 / 20) } }

/-- `(batch_size_float * percentage).max(1.0) as usize`, /repo/src/scheduler/filter.rs:287-314. -/
def quota (batchSize : Nat) (w : MasteryWindow) : Nat := ⌊max ((batchSize : ℚ) * w.percentage) 1⌋₊

/-- The part of `filter_candidates` after the options and the batch size are known,
/repo/src/scheduler/filter.rs:269-339. -/
def fill (pick : Picks ι) (o : SchedulerOptions) (n : Nat) (r : Result ι) : List (Candidate ι) :=
  let ids := r.highlyEncompassed.map Candidate.exercise
  let mastered := inWindow r.candidates ids o.masteredWindow ++ r.highlyEncompassed
  let easy := inWindow r.candidates ids o.easyWindow
  let current := inWindow r.candidates ids o.currentWindow
  let target := inWindow r.candidates ids o.targetWindow
  let new := inWindow r.candidates ids o.newWindow
  let m := select (pick 0) mastered (quota n o.masteredWindow)
  let e := select (pick 1) easy (quota n o.easyWindow)
  let c := select (pick 2) current (quota n o.currentWindow)
  let t := select (pick 3) target (quota n o.targetWindow)
  let w := select (pick 4) new (quota n o.newWindow)
  let final := m.1 ++ e.1 ++ c.1 ++ t.1 ++ w.1
  let base := max (n / 10) 1
  let final := addRemainder (pick 5) n final c.2 none
  let final := addRemainder (pick 6) n final w.2 (some (5 * base))
  let final := addRemainder (pick 7) n final t.2 (some (3 * base))
  let final := addRemainder (pick 8) n final e.2 none
  addRemainder (pick 9) n final m.2 none

/-- `filter_candidates`, /repo/src/scheduler/filter.rs:258-340. -/
def filterCandidates (pick : Picks ι) (o : SchedulerOptions) (rate : ℚ) (r : Result ι) :
    List (Candidate ι) :=
  let o := adjusted o rate
  fill pick o (dynamicBatchSize o.batchSize r.candidates.length) r

end Trane.CandidateFilter
