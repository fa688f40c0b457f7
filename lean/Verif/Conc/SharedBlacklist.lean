import Verif.Conc.Object
import Verif.Store.Blacklist

/-!
# The blacklist, shared by threads

`LocalBlacklist` (/repo/src/blacklist.rs:37-44) has two locks of its own, for the cache and for the connection; the object is shared
behind a third, `Arc<RwLock<dyn Blacklist>>` (/repo/src/lib.rs:142).  A step here is what happens under one of the two inner locks, or
one statement.
-/

namespace Trane.Threads
open Trane.Conc (Mode)
open Trane.Store

/-- The calls of the trait (/repo/src/blacklist.rs:18-35), with the failures of `Store.Blacklist.Op`. -/
inductive BCall
  | add (u : Str) (dbFails : Bool)
  | remove (u : Str) (dbFails : Bool)
  | removePrefix (p : Str) (failAt : Option Nat)
  | blacklisted (u : Str)
  | entries
  deriving DecidableEq

/-- What the calls return: `Ok` or an error, whether an id is on the blacklist, the ids on it. -/
inductive BAns | done (ok : Bool) | member (b : Bool) | listing (l : List Str)
  deriving DecidableEq

/-- /repo/src/blacklist.rs:92-101 `has_entry`: look into the cache (93), and if nothing is there, write `false` to it (99).  The guard
of line 93 is given back before line 99. -/
def hasEntryCode (u : Str) (next : Bool → Prog Blacklist BAns) : Prog Blacklist BAns :=
  .act id (fun s => match s.cache.find u with
    | some v => next v
    | none => .act (fun s => { s with cache := s.cache.put u false }) (fun _ => next false))

/-- The loop of /repo/src/blacklist.rs:145-151 over the ids found: delete the row, then write to the cache. -/
def removeRowsCode : List Str → Prog Blacklist BAns → Prog Blacklist BAns
  | [], next => next
  | u :: us, next => .act (fun s => { s with db := s.db.filter (fun x => x ≠ u) }) (fun _ =>
      .act (fun s => { s with cache := s.cache.put u false }) (fun _ => removeRowsCode us next))

/-- The calls step by step: /repo/src/blacklist.rs:104-119 (look up, insert the row, write to the cache), 122-131, 134-155 (find the
rows, the loop), 190-192, 158-171. -/
def blacklistCode : BCall → Prog Blacklist BAns
  | .add u f => hasEntryCode u (fun v => if v then .done (.done true) else
      .act (fun s => if f || u ∈ s.db then s else { s with db := s.db ++ [u] }) (fun s =>
        if f || u ∈ s.db then .done (.done false)
        else .act (fun s => { s with cache := s.cache.put u true }) (fun _ => .done (.done true))))
  | .remove u f => if f then .done (.done false) else
      .act (fun s => { s with db := s.db.filter (fun x => x ≠ u) }) (fun _ =>
        .act (fun s => { s with cache := s.cache.put u false }) (fun _ => .done (.done true)))
  | .removePrefix p f => .act id (fun s =>
      let rows := s.db.filter (likePrefix p)
      match f with
      | none => removeRowsCode rows (.done (.done true))
      | some k => removeRowsCode (rows.take k) (.done (.done false)))
  | .blacklisted u => hasEntryCode u (fun v => .done (.member v))
  | .entries => .act id (fun s => .done (.listing s.db))

/-- Which guard of the outer lock the calls take: /repo/src/lib.rs:374, 380, 386, 390, 394. -/
def blacklistMode : BCall → Mode
  | .add .. | .remove .. | .removePrefix .. => .write
  | .blacklisted .. | .entries => .read

/-- The shared blacklist. /repo/src/lib.rs:370-396. -/
def sharedBlacklist : Obj Blacklist BCall BAns := ⟨blacklistMode, blacklistCode⟩

end Trane.Threads
