import Verif.Conc.ObjectSpec

/-! # One thread writes, the others read without waiting -/

namespace Trane.Threads
open Trane.Conc (Mode)

variable {σ κ α : Type}

/-- The number of writing calls thread `w` has finished. -/
def finished (isW : κ → Bool) (w : Nat) (s : Shared σ κ α) : Nat := (callsOf w s.log).countP isW

/-- The number of writing calls thread `w` has begun. -/
def begun (isW : κ → Bool) (w : Nat) (s : Shared σ κ α) : Nat :=
  finished isW w s + (match (s.clients[w]?).bind (fun c => c.inside) with
    | some (k, _) => if isW k then 1 else 0
    | none => 0)

/-- The data after the first `m` writing calls of the list, where `one` is what a call alone does. -/
def afterFirst (isW : κ → Bool) (one : σ → κ → σ) (d : σ) (ks : List κ) (m : Nat) : σ := ((ks.filter isW).take m).foldl one d

end Trane.Threads
