import Verif.Conc.Locks

/-!
# Threads that share one object behind a read-write lock

The stores of a `Trane` object are shared as `Arc<RwLock<dyn …>>` (/repo/src/lib.rs:142-176).  `Locks.lean` follows the locks and leaves
out the data; here it is the other way round: one lock, and what the calls do to the data behind it, step by step.
-/

namespace Trane.Threads
open Trane.Conc (Mode)

/-- What a call does once it has the lock: it ends with an answer, or does one indivisible step (a step under one of the inner locks)
that changes the data and decides from the data how to go on. -/
inductive Prog (σ α : Type)
  | done (a : α)
  | act (f : σ → σ) (next : σ → Prog σ α)

/-- An object: which lock the calls take and what they do. -/
structure Obj (σ κ α : Type) where
  mode : κ → Mode
  code : κ → Prog σ α

/-- A thread: the calls it has still to make and the call it is in the middle of, if any; it has the lock exactly then. -/
structure Client (σ κ α : Type) where
  todo : List κ
  inside : Option (κ × Prog σ α)

/-- The data, the threads, and the calls that have returned, in the order of giving back the lock: thread, call, answer. -/
structure Shared (σ κ α : Type) where
  data : σ
  clients : List (Client σ κ α)
  log : List (Nat × κ × α)

variable {σ κ α : Type}

/-- The lock can be taken: for reading if nobody writes, for writing if nobody has it. -/
def Obj.free (o : Obj σ κ α) (cs : List (Client σ κ α)) : Mode → Bool
  | .read => cs.all (fun c => match c.inside with | none => true | some (k, _) => decide (o.mode k = .read))
  | .write => cs.all (fun c => c.inside.isNone)

/-- The `i`-th thread does its next step, if it can: take the lock, do a step of the call, or give back the lock and return. -/
def Obj.stepAt (o : Obj σ κ α) (s : Shared σ κ α) (i : Nat) : Option (Shared σ κ α) :=
  match s.clients[i]? with
  | none => none
  | some c =>
    match c.inside with
    | some (k, .done a) => some ⟨s.data, s.clients.set i ⟨c.todo, none⟩, s.log ++ [(i, k, a)]⟩
    | some (k, .act f next) => some ⟨f s.data, s.clients.set i ⟨c.todo, some (k, next s.data)⟩, s.log⟩
    | none =>
      match c.todo with
      | [] => none
      | k :: ks =>
        if o.free s.clients (o.mode k) then some ⟨s.data, s.clients.set i ⟨ks, some (k, o.code k)⟩, s.log⟩ else none

/-- The state after the threads named in the schedule have done a step each; `none` if one of them could not. -/
def Obj.exec (o : Obj σ κ α) (s : Shared σ κ α) : List Nat → Option (Shared σ κ α)
  | [] => some s
  | i :: is => (o.stepAt s i).bind (fun s => o.exec s is)

/-- The threads are about to make the given calls. -/
def Shared.start (d : σ) (calls : List (List κ)) : Shared σ κ α := ⟨d, calls.map (fun ks => ⟨ks, none⟩), []⟩

end Trane.Threads
