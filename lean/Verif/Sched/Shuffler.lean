import Verif.Sched.Candidate

/-!
# The final shuffle

Models `/repo/src/scheduler/shuffler.rs`.  Randomness is given by two parameters: `shuffle i l` is the
result of the `i`-th `slice::shuffle`, and `draw i` in `[0, 1)` is the position of the `i`-th random number
within its range.  `le` is the order of course ids.
-/

namespace Trane.Shuffler

variable {ι : Type} [DecidableEq ι]

/-- `chunk.chunks(MAX_GROUP_SIZE)`, /repo/src/scheduler/shuffler.rs:9, 63-66: blocks of three, the last one
possibly shorter. -/
def chunks {α : Type} : List α → List (List α)
  | a :: b :: c :: d :: rest => [a, b, c] :: chunks (d :: rest)
  | [] => []
  | l => [l]

/-- The mean score of a group, /repo/src/scheduler/shuffler.rs:33-34. -/
def avgScore (group : List (Candidate ι)) : ℚ :=
  (group.map Candidate.score).sum / (group.length : ℚ)

/-- `group_sort_key`, /repo/src/scheduler/shuffler.rs:29-40; `u` is the random position. -/
def groupSortKey (u : ℚ) (group : List (Candidate ι)) : ℚ :=
  if group = [] then 0
  else if avgScore group ≤ 1 then 1 / 5 + u * (1 - 1 / 5)
  else 0 + u * (4 / 5 - 0)

/-- The groups before sorting, /repo/src/scheduler/shuffler.rs:49-75. -/
def allGroups (le : ι → ι → Bool) (shuffle : Nat → List (Candidate ι) → List (Candidate ι))
    (o : SchedulerOptions) (cs : List (Candidate ι)) : List (List (Candidate ι)) :=
  let threshold := o.targetWindow.hi
  let low := cs.filter (fun c => decide (c.score ≤ threshold))
  let high := cs.filter (fun c => !decide (c.score ≤ threshold))
  let low := low.mergeSort (fun a b => le a.course b.course)
  let lowGroups := (low.splitBy (fun a b => decide (a.course = b.course))).zipIdx.flatMap
    (fun p => chunks (shuffle p.2 p.1))
  lowGroups ++ high.map (fun c => [c])

/-- `shuffle_candidates`, /repo/src/scheduler/shuffler.rs:45-83. -/
def shuffleCandidates (le : ι → ι → Bool) (shuffle : Nat → List (Candidate ι) → List (Candidate ι))
    (draw : Nat → ℚ) (o : SchedulerOptions) (cs : List (Candidate ι)) : List (Candidate ι) :=
  let keyed := (allGroups le shuffle o cs).zipIdx.map (fun p => (groupSortKey (draw p.2) p.1, p.1))
  let keyed := keyed.mergeSort (fun a b => decide (a.1 ≤ b.1))
  keyed.flatMap Prod.snd

end Trane.Shuffler
