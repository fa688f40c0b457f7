import Verif.Conc.Object

/-! # What is said about threads that share an object -/

namespace Trane.Threads
open Trane.Conc (Mode)

variable {σ κ α τ : Type}

/-- `one` says what a call does and answers when it is made alone.  The calls of the log, made one after another in this order, give
the answers of the log. -/
def Sequential (one : τ → κ → τ × α) : τ → List (Nat × κ × α) → Prop
  | _, [] => True
  | t, (_, k, a) :: l => a = (one t k).2 ∧ Sequential one (one t k).1 l

/-- The state after the calls of the log, made one after another. -/
def after1 (one : τ → κ → τ × α) (t : τ) (l : List (Nat × κ × α)) : τ := l.foldl (fun t e => (one t e.2.1).1) t

/-- The calls thread `i` has made, in the order of the log. -/
def callsOf (i : Nat) (l : List (Nat × κ × α)) : List κ := (l.filter (fun e => e.1 = i)).map (fun e => e.2.1)

/-- Every thread makes its calls in its order: those of the log, the one it is in the middle of, those it has still to make. -/
def InOrder (calls : List (List κ)) (s : Shared σ κ α) : Prop :=
  s.clients.length = calls.length ∧ ∀ i c, s.clients[i]? = some c →
    calls[i]? = some (callsOf i s.log ++ (c.inside.map Prod.fst).toList ++ c.todo)

end Trane.Threads
