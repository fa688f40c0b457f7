import Verif.Base
import Verif.Store.Like

/-!
# The tables behind practice stats, deltas and rewards

`/repo/src/practice_stats.rs`, `/repo/src/practice_deltas.rs` and `/repo/src/practice_rewards.rs` use
the same schema and statements, with a different payload: the score, the delta, and the pair of
reward and weight.  The model is generic in the payload `α`.
-/

namespace Trane.Store

/-- A row of `practice_stats(id, unit_uid, score, timestamp)`, /repo/src/practice_stats.rs:57-63
(`practice_deltas`, /repo/src/practice_deltas.rs:56-62; `practice_rewards`,
/repo/src/practice_rewards.rs:113-121). -/
structure Row (α : Type) where
  id : Nat
  uid : Nat
  val : α
  ts : Int

/-- The two tables `uids(unit_uid, unit_id)` and the row table. /repo/src/practice_stats.rs:54-63. -/
structure Table (α : Type) where
  uids : List (Nat × Str) := []
  rows : List (Row α) := []

/-- One value passed to a `record_…` call. /repo/src/practice_stats.rs:133-137. -/
structure Entry (α : Type) where
  unit : Str
  val : α
  ts : Int

/-- How SQLite answers `ORDER BY timestamp DESC`: some rearrangement of the rows that is sorted.
The order among equal timestamps is left open. /repo/src/practice_stats.rs:113. -/
structure SortDesc (α : Type) where
  sort : List (Row α) → List (Row α)
  perm : ∀ l, (sort l).Perm l
  sorted : ∀ l, (sort l).Pairwise (fun a b => b.ts ≤ a.ts)

namespace Table
variable {α : Type}

/-- `SELECT unit_uid FROM uids WHERE unit_id = $1`. As in /repo/src/practice_stats.rs:144. -/
def uidOf (t : Table α) (u : Str) : Option Nat :=
  (t.uids.find? (fun e => e.2 = u)).map Prod.fst

/-- The next `INTEGER PRIMARY KEY`: one more than the largest in use. Used in /repo/src/practice_stats.rs:141-144. -/
def nextKey (ks : List Nat) : Nat := ks.foldl Nat.max 0 + 1

/-- `INSERT OR IGNORE INTO uids(unit_id) VALUES ($1)`, /repo/src/practice_stats.rs:140-141. -/
def intern (t : Table α) (u : Str) : Table α :=
  if (t.uidOf u).isSome then t
  else { t with uids := t.uids ++ [(nextKey (t.uids.map Prod.fst), u)] }

/-- `INSERT INTO practice_stats … VALUES ((SELECT unit_uid …), $2, $3)`,
/repo/src/practice_stats.rs:142-145; `none` is the `NOT NULL` violation when the id is unknown. -/
def insert (t : Table α) (e : Entry α) : Option (Table α) :=
  match t.uidOf e.unit with
  | none => none
  | some k => some { t with rows := t.rows ++ [⟨nextKey (t.rows.map Row.id), k, e.val, e.ts⟩] }

/-- One iteration of the loop in /repo/src/practice_stats.rs:146-153. -/
def recordOne (t : Table α) (e : Entry α) : Option (Table α) := (t.intern e.unit).insert e

/-- `record_exercise_scores`, /repo/src/practice_stats.rs:134-157 (deltas:
/repo/src/practice_deltas.rs:117-138).  `none` means the transaction is rolled back. -/
def record : Table α → List (Entry α) → Option (Table α)
  | t, [] => some t
  | t, e :: es =>
    match t.recordOne e with
    | none => none
    | some t => record t es

/-- The rows selected by `WHERE unit_uid = (SELECT unit_uid FROM uids WHERE unit_id = $1)`.
As in /repo/src/practice_stats.rs:112. -/
def rowsOf (t : Table α) (u : Str) : List (Row α) :=
  match t.uidOf u with
  | none => []
  | some k => t.rows.filter (fun r => r.uid = k)

/-- `get_scores`, /repo/src/practice_stats.rs:107-131 (deltas: /repo/src/practice_deltas.rs:92-114,
rewards: /repo/src/practice_rewards.rs:159-185). -/
def get (S : SortDesc α) (t : Table α) (u : Str) (n : Nat) : List (α × Int) :=
  ((S.sort (t.rowsOf u)).take n).map (fun r => (r.val, r.ts))

/-- One `DELETE … AND timestamp NOT IN (SELECT timestamp … ORDER BY timestamp DESC LIMIT ?2)`,
/repo/src/practice_stats.rs:170-175. -/
def trimUidByTime (S : SortDesc α) (n k : Nat) (rows : List (Row α)) : List (Row α) :=
  rows.filter (fun r => r.uid ≠ k ||
    (((S.sort (rows.filter (fun r => r.uid = k))).take n).map Row.ts).contains r.ts)

/-- One `DELETE … WHERE id IN (SELECT id … ORDER BY timestamp DESC LIMIT -1 OFFSET ?2)`,
/repo/src/practice_rewards.rs:213-220 and 239-246. -/
def trimUidById (S : SortDesc α) (n k : Nat) (rows : List (Row α)) : List (Row α) :=
  rows.filter (fun r =>
    !(((S.sort (rows.filter (fun r => r.uid = k))).drop n).map Row.id).contains r.id)

/-- `trim_scores`, /repo/src/practice_stats.rs:160-182 (deltas: /repo/src/practice_deltas.rs:141-160):
one statement per uid, each committed on its own; `stop = some k` is a failure (or crash) after the
first `k` statements. -/
def trimByTime (S : SortDesc α) (t : Table α) (n : Nat) (stop : Option Nat) : Table α :=
  let ks := t.uids.map Prod.fst
  let ks := match stop with | none => ks | some k => ks.take k
  { t with rows := ks.foldl (fun rows k => trimUidByTime S n k rows) t.rows }

/-- `trim_rewards`, /repo/src/practice_rewards.rs:232-248. -/
def trimById (S : SortDesc α) (t : Table α) (n : Nat) (stop : Option Nat) : Table α :=
  let ks := t.uids.map Prod.fst
  let ks := match stop with | none => ks | some k => ks.take k
  { t with rows := ks.foldl (fun rows k => trimUidById S n k rows) t.rows }

/-- `remove_scores_with_prefix`, /repo/src/practice_stats.rs:185-205 (deltas:
/repo/src/practice_deltas.rs:163-180, rewards: /repo/src/practice_rewards.rs:251-268). -/
def removePrefix (t : Table α) (p : Str) (stop : Option Nat) : Table α :=
  let ks := (t.uids.filter (fun e => likePrefix p e.2)).map Prod.fst
  let ks := match stop with | none => ks | some k => ks.take k
  { t with rows := ks.foldl (fun rows k => rows.filter (fun r => r.uid ≠ k)) t.rows }

/-- Everything stored for a unit, in insertion order. /repo/src/practice_stats.rs:106-130 without the limit. -/
def history (t : Table α) (u : Str) : List (α × Int) := (t.rowsOf u).map (fun r => (r.val, r.ts))

end Table

/-! ### Practice stats and practice deltas as state machines -/

/-- The mutating calls of `PracticeStats` (/repo/src/practice_stats.rs:17-39) and `PracticeDeltas`
(/repo/src/practice_deltas.rs:16-40), with failures, and reopening the database. -/
inductive LogOp (α : Type)
  /-- `record_…`; `commitFails` is any database error inside the transaction. -/
  | record (es : List (Entry α)) (commitFails : Bool)
  /-- `trim_…(n)`; `stop = some k` fails or crashes after `k` units. -/
  | trim (n : Nat) (stop : Option Nat)
  /-- `remove_…_with_prefix(p)`. -/
  | removePrefix (p : Str) (stop : Option Nat)
  | reopen

namespace Table
variable {α : Type}

/-- One call and whether it returned `Ok`. /repo/src/practice_stats.rs:209-234. -/
def step (S : SortDesc α) (t : Table α) : LogOp α → Table α × Bool
  | .record es commitFails =>
    match t.record es with
    | none => (t, false)
    | some t' => if commitFails then (t, false) else (t', true)
  | .trim n stop => (t.trimByTime S n stop, stop.isNone)
  | .removePrefix p stop => (t.removePrefix p stop, stop.isNone)
  | .reopen => (t, true)

/-- A history on a fresh database. /repo/src/practice_stats.rs:209-234. -/
def run (S : SortDesc α) (ops : List (LogOp α)) : Table α :=
  ops.foldl (fun t o => (t.step S o).1) {}

theorem run_snoc (S : SortDesc α) (ops : List (LogOp α)) (o : LogOp α) :
    run S (ops ++ [o]) = ((run S ops).step S o).1 := by simp [run]

end Table
end Trane.Store
