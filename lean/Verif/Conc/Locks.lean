/-!
# Threads, locks and cells

`Trane` is declared `Send` and `Sync` (/repo/src/lib.rs:739-742), so several threads may call its
`&self` methods at the same time.  This file models what such threads do to the locks and to the
`RefCell`s they share; everything else a call does is left out.

Locks are the `parking_lot` read-write locks and mutexes of the code (a mutex is a lock that is
only taken for writing).  `parking_lot` may hold back readers while a writer waits, even readers of
a thread that has the lock for reading already.
-/

namespace Trane.Conc

inductive Mode | read | write
  deriving DecidableEq, Repr

/-- The locks reachable from a `Trane` object: /repo/src/lib.rs:142-176,
/repo/src/scheduler/data.rs:31-60, /repo/src/scheduler/relearn_pile.rs:20, /repo/src/blacklist.rs:40-43
and the `connection` fields of the stores. -/
inductive Lock
  | graph | library | blacklist | reviewList | filters | sessions | preferences
  | stats | deltas | rewards
  | blacklistCache | blacklistConn | reviewConn | statsConn | deltasConn | rewardsConn
  | frequency | trialCounts | pile
  deriving DecidableEq, Repr

/-- The `RefCell`s: /repo/src/scheduler/unit_scorer.rs:41-53. -/
inductive Cell | exercise | lesson | course | lessonTrials | courseTrials
  deriving DecidableEq, Repr

inductive Res | lock (l : Lock) | cell (c : Cell)
  deriving DecidableEq, Repr

/-- What a thread does: take a lock or borrow a cell (`read`, `write`, `lock`, `borrow`,
`borrow_mut` of the Rust types), and drop the guard. -/
inductive Act | take (r : Res) (m : Mode) | drop (r : Res) (m : Mode)
  deriving DecidableEq, Repr

/-- A thread: the guards it has, whether it waits for a lock it wants to write (and has announced
this), and what it still has to do. -/
structure Thread where
  held : List (Res × Mode) := []
  waiting : Bool := false
  rest : List Act
  deriving DecidableEq, Repr

/-- The thread has announced that it wants to write `l`. -/
def Thread.wants (t : Thread) (l : Lock) : Bool :=
  t.waiting && decide (t.rest.head? = some (.take (.lock l) .write))

def Thread.has (t : Thread) (l : Lock) : Bool :=
  t.held.contains (.lock l, .read) || t.held.contains (.lock l, .write)

/-- The `i`-th thread does its next step, if it can.  With `strict`, waiting writers hold back all
readers; otherwise they hold back none.  `parking_lot` is in between.  A `RefCell` holds nobody
back: a borrow that breaks its rule is a panic or, between threads, a data race (see `Clash`). -/
def stepAt (strict : Bool) (s : List Thread) (i : Nat) : Option (List Thread) :=
  match s[i]? with
  | none => none
  | some t =>
    match t.rest with
    | [] => none
    | .drop r m :: rest => some (s.set i ⟨t.held.erase (r, m), false, rest⟩)
    | .take (.cell c) m :: rest => some (s.set i ⟨(.cell c, m) :: t.held, false, rest⟩)
    | .take (.lock l) .read :: rest =>
      if s.all (fun u => !u.held.contains (.lock l, .write)) &&
          (!strict || s.all (fun u => !u.wants l)) then
        some (s.set i ⟨(.lock l, .read) :: t.held, false, rest⟩)
      else none
    | .take (.lock l) .write :: rest =>
      if t.waiting then
        if s.all (fun u => !u.has l) then
          some (s.set i ⟨(.lock l, .write) :: t.held, false, rest⟩)
        else none
      else some (s.set i ⟨t.held, true, t.rest⟩)

/-- Threads that start with nothing in their hands. -/
def start (acts : List (List Act)) : List Thread := acts.map (fun a => ⟨[], false, a⟩)

/-- The state after the threads named in the schedule have done a step each; `none` if one of them
could not. -/
def exec (strict : Bool) (s : List Thread) : List Nat → Option (List Thread)
  | [] => some s
  | i :: is => (stepAt strict s i).bind (fun s => exec strict s is)

end Trane.Conc
