import Verif.Top.Props

/-!
# Several objects on one library

Nothing stops a user from opening the same library directory twice, in one program or in two: the databases are opened in WAL mode
(/repo/src/utils.rs:19-27) and there is no lock file.  Each object keeps in memory what it read or computed before; the files are common.

The calls of the objects are taken one at a time: an SQL statement of one that has to wait for another, and gives up, is a database error,
which the calls carry already.
-/

namespace Trane.TopLevel
open Trane.Store

variable {R : Type}

/-- What the objects have in common: the files of `.trane` (/repo/src/lib.rs:106-130) and the clock of the computer. -/
structure Common (R : Type) where
  black : List Str := []
  review : ReviewList.Table := []
  trials : Table R := {}
  deltas : Table R := {}
  rewards : Table (ℚ × ℚ) := {}
  prefs : Preferences := {}
  clock : Int

/-- What one object leaves for the others. /repo/src/lib.rs:106-130; /repo/src/blacklist.rs:37-44 and /repo/src/practice_rewards.rs:96-102 keep
a part in memory. -/
def Top.common (t : Top R) : Common R where
  black := t.blacklist.db
  review := t.review
  trials := t.trials
  deltas := t.deltas
  rewards := t.rewards.table
  prefs := t.prefs
  clock := t.clock

/-- An object with the files as they are now: what it keeps in memory stays. /repo/src/blacklist.rs:37-44,
/repo/src/practice_rewards.rs:96-102. -/
def Top.facing (t : Top R) (f : Common R) : Top R :=
  { t with
    blacklist := ⟨t.blacklist.cache, f.black⟩
    review := f.review
    trials := f.trials
    deltas := f.deltas
    rewards := { t.rewards with table := f.rewards }
    prefs := f.prefs
    clock := f.clock }

/-- A library and the objects opened on it; each `Top` is the object as of its last call. /repo/src/lib.rs:137-177. -/
structure Site (R : Type) where
  common : Common R
  object : Nat → Top R

/-- The object with the given number as it is now. /repo/src/lib.rs:137-177. -/
def Site.sees (s : Site R) (i : Nat) : Top R := (s.object i).facing s.common

variable [Field R] [LinearOrder R]

/-- A call on one of the objects. /repo/src/lib.rs:370-739. -/
def Site.step (b : Base R) (s : Site R) (k : Nat × Call R) : Site R × Bool :=
  let r := TopLevel.step b (s.sees k.1) k.2
  (⟨r.1.common, Function.update s.object k.1 r.1⟩, r.2)

/-- Several calls on several objects. /repo/src/lib.rs:370-739. -/
def Site.runs (b : Base R) (s : Site R) (h : List (Nat × Call R)) : Site R := h.foldl (fun s k => (s.step b k).1) s

/-- A new library, opened several times. /repo/src/lib.rs:239-330. -/
def newSite (g : Graph Str) (clock : Int) : Site R where
  common := (fresh g clock).common
  object := fun _ => fresh g clock

end Trane.TopLevel
