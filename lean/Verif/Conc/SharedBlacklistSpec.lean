import Verif.Conc.SharedBlacklist
import Verif.Conc.ObjectSpec

/-! # C116: the blacklist used by several threads -/

namespace Trane.Threads
open Trane.Conc (Mode)
open Trane.Store

/-- What the calls do to the list of blacklisted ids, and answer, if nobody else is there. -/
def plainBlacklist (l : List Str) : BCall → List Str × BAns
  | .add u fails => if u ∈ l then (l, .done true) else if fails then (l, .done false) else (l ++ [u], .done true)
  | .remove u fails => if fails then (l, .done false) else (l.filter (fun x => x ≠ u), .done true)
  | .removePrefix p none => (l.filter (fun x => !likePrefix p x), .done true)
  | .removePrefix p (some n) => (l.filter (fun x => x ∉ (l.filter (likePrefix p)).take n), .done false)
  | .blacklisted u => (l, .member (decide (u ∈ l)))
  | .entries => (l, .listing l)

end Trane.Threads
