import Verif.Float.Interval
import Verif.Sched.CandidateFilter

/-!
# The shares of the mastery windows, over any arithmetic

Models the arithmetic of `/repo/src/scheduler/filter.rs` and of the relearn pile again, this time over the operations
that the code uses, so that it can be read with `f32` and without rounding.  Scores and the bounds of the windows are
only compared with each other, which is exact; they remain rational numbers here.
-/

namespace Trane.Float
open Trane.CandidateFilter (Picks inWindow select addRemainder dynamicBatchSize)
open Trane.Knocker (Result)

variable {α : Type}

/-- The percentages of the five windows, /repo/src/data.rs:884-887 and 913-935. -/
structure Shares (α : Type) where
  mastered : α
  easy : α
  current : α
  target : α
  new : α

/-- `get_success_rate`, /repo/src/scheduler/data.rs:412-420. -/
def gSuccessRate (A : Arith α) (passed failed : Nat) : α :=
  if passed + failed = 0 then A.lit 1 else A.div (A.ofInt passed) (A.ofInt (passed + failed : Nat))

/-- The choice of the shift, /repo/src/scheduler/filter.rs:222-231; `none` is the early return. -/
def gShift (A : Arith α) (rate : α) : Option α :=
  if A.lt (A.lit (9 / 10)) rate then some (A.lit (1 / 20))
  else if A.le (A.lit (3 / 4)) rate && A.le rate (A.lit (9 / 10)) then none
  else if A.le (A.lit (1 / 2)) rate && A.lt rate (A.lit (3 / 4)) then some (A.lit (-1 / 20))
  else some (A.lit (-1 / 10))

/-- `adjusted_mastery_windows`, /repo/src/scheduler/filter.rs:217-254. -/
def gAdjusted (A : Arith α) (p : Shares α) (rate : α) : Shares α :=
  match gShift A rate with
  | none => p
  | some shift =>
    let clamp := fun x => A.clamp x (A.lit (1 / 20)) (A.lit (1 / 2))
    let new := clamp (A.add p.new shift)
    let target := clamp (A.add p.target shift)
    let easy := clamp (A.sub p.easy shift)
    let mastered := clamp (A.sub p.mastered shift)
    let sum := A.add (A.add (A.add new target) easy) mastered
    ⟨mastered, easy, A.max (A.sub (A.lit 1) sum) (A.lit (1 / 20)), target, new⟩

/-- `(batch_size_float * percentage).max(1.0) as usize`, /repo/src/scheduler/filter.rs:287-314; `cut` is `as usize`. -/
def gQuota (A : Arith α) (cut : α → Nat) (n : Nat) (p : α) : Nat :=
  cut (A.max (A.mul (A.ofInt n) p) (A.lit 1))

/-- `(batch_size as f32 * relearn_fraction) as usize`, /repo/src/scheduler/relearn_pile.rs:46. -/
def gRelearnCount (A : Arith α) (cut : α → Nat) (n : Nat) (fraction : α) : Nat := cut (A.mul (A.ofInt n) fraction)

/-- `as usize` on an `f32`: the digits after the point are cut off, what does not fit becomes the nearest number that
does, and NaN becomes 0. As in /repo/src/scheduler/filter.rs:288. -/
noncomputable def F.toUsize : F → Nat
  | .num x => Nat.min ⌊x⌋₊ (2 ^ 64 - 1)
  | .inf neg => if neg then 0 else 2 ^ 64 - 1
  | .nan => 0

/-- The sum of the percentages in `SchedulerOptions::verify` and its comparison with 1,
/repo/src/data.rs:964-966 and 981-989; `f32::EPSILON` is 2^-23. -/
def gSumIsOne (A : Arith α) (p : Shares α) : Bool :=
  A.lt (A.abs (A.sub (A.add (A.add (A.add (A.add p.mastered p.easy) p.current) p.target) p.new) (A.lit 1)))
    (A.lit (1 / 2 ^ 23))

/-- The default percentages, /repo/src/data.rs:1041-1060. -/
def gDefaultShares (A : Arith α) : Shares α :=
  ⟨A.lit (1 / 10), A.lit (1 / 5), A.lit (3 / 10), A.lit (1 / 5), A.lit (1 / 5)⟩

variable {ι : Type} [DecidableEq ι]

/-- `filter_candidates` after the numbers of exercises per window are known, /repo/src/scheduler/filter.rs:269-339. -/
def gFill (pick : Picks ι) (o : SchedulerOptions) (k : Shares Nat) (n : Nat) (r : Result ι) : List (Candidate ι) :=
  let ids := r.highlyEncompassed.map Candidate.exercise
  let mastered := inWindow r.candidates ids o.masteredWindow ++ r.highlyEncompassed
  let easy := inWindow r.candidates ids o.easyWindow
  let current := inWindow r.candidates ids o.currentWindow
  let target := inWindow r.candidates ids o.targetWindow
  let new := inWindow r.candidates ids o.newWindow
  let m := select (pick 0) mastered k.mastered
  let e := select (pick 1) easy k.easy
  let c := select (pick 2) current k.current
  let t := select (pick 3) target k.target
  let w := select (pick 4) new k.new
  let final := m.1 ++ e.1 ++ c.1 ++ t.1 ++ w.1
  let base := max (n / 10) 1
  let final := addRemainder (pick 5) n final c.2 none
  let final := addRemainder (pick 6) n final w.2 (some (5 * base))
  let final := addRemainder (pick 7) n final t.2 (some (3 * base))
  let final := addRemainder (pick 8) n final e.2 none
  addRemainder (pick 9) n final m.2 none

/-- The numbers of exercises per window. /repo/src/scheduler/filter.rs:287-314. -/
def gQuotas (A : Arith α) (cut : α → Nat) (n : Nat) (p : Shares α) : Shares Nat :=
  ⟨gQuota A cut n p.mastered, gQuota A cut n p.easy, gQuota A cut n p.current, gQuota A cut n p.target,
    gQuota A cut n p.new⟩

/-- `filter_candidates`, /repo/src/scheduler/filter.rs:258-340.  `p` are the percentages of the options `o`, of which
only the rest is used; `passed` and `failed` are the counts of the session. -/
def gFilterCandidates (A : Arith α) (cut : α → Nat) (pick : Picks ι) (o : SchedulerOptions) (p : Shares α)
    (passed failed : Nat) (r : Result ι) : List (Candidate ι) :=
  let p := gAdjusted A p (gSuccessRate A passed failed)
  let n := dynamicBatchSize o.batchSize r.candidates.length
  gFill pick o (gQuotas A cut n p) n r

end Trane.Float
