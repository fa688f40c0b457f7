import Verif.Conc.Code
import Mathlib.Data.List.Forall2

/-! # What is said about threads -/

namespace Trane.Conc

/-- `s'` can be reached from `s` by `n` steps of any threads. -/
def Runs (strict : Bool) (s : List Thread) (n : Nat) (s' : List Thread) : Prop :=
  ∃ schedule : List Nat, schedule.length = n ∧ exec strict s schedule = some s'

def Reach (strict : Bool) (s s' : List Thread) : Prop := ∃ n, Runs strict s n s'

/-- All threads have done all their calls. -/
def Finished (s : List Thread) : Prop := ∀ t ∈ s, t.rest = []

/-- No thread can do a step (while waiting writers hold back readers), yet not all are done. -/
def Deadlock (s : List Thread) : Prop := (∀ i, stepAt true s i = none) ∧ ¬ Finished s

/-- A `RefCell` is borrowed for writing and borrowed a second time, by another thread or by the same
one: the second borrow panics (or, as `RefCell` is not made for threads, is a data race). -/
def Clash (s : List Thread) : Prop :=
  ∃ (c : Cell) (i : Nat) (t : Thread), s[i]? = some t ∧ (Res.cell c, Mode.write) ∈ t.held ∧
    ((∃ (j : Nat) (u : Thread) (m : Mode), j ≠ i ∧ s[j]? = some u ∧ (Res.cell c, m) ∈ u.held) ∨
     ∃ m : Mode, (Res.cell c, m) ∈ t.held.erase (Res.cell c, Mode.write))

/-- Threads that do the given calls, each in one of the ways the code allows. -/
def Threads (calls : List (List Api)) (acts : List (List Act)) : Prop :=
  List.Forall₂ CallsTrace calls acts

/-- Calls that compute scores or touch the cached scores. -/
def Api.scores : Api → Bool
  | .getBatch | .getBatchReviewList | .scoreExercise | .getUnitScore | .invalidateCachedScore
  | .invalidateCachedScores | .addToBlacklist | .removeFromBlacklist
  | .removePrefixFromBlacklist => true
  | _ => false

end Trane.Conc
