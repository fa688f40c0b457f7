import Verif.Base
import Verif.Store.Like

/-!
# Model of `LocalBlacklist` (/repo/src/blacklist.rs)

The table `blacklist(unit_id TEXT NOT NULL UNIQUE)` is a list of ids.  Each statement may also fail
(disk full, …): the `…Fails` operations model a database error before the statement takes effect.
-/

namespace Trane.Store

/-- /repo/src/blacklist.rs:37-44 `LocalBlacklist`. -/
structure Blacklist where
  cache : AMap Str Bool
  db : List Str

namespace Blacklist

/-- /repo/src/blacklist.rs:69-82 `new`: the cache gets an entry for every stored id. -/
def openDb (db : List Str) : Blacklist :=
  { cache := db.foldl (fun c u => c.put u true) [], db := db }

/-- /repo/src/blacklist.rs:92-101 `has_entry`: a miss is cached as `false`. -/
def hasEntry (b : Blacklist) (u : Str) : Blacklist × Bool :=
  match b.cache.find u with
  | some v => (b, v)
  | none => ({ b with cache := b.cache.put u false }, false)

/-- /repo/src/blacklist.rs:104-119: `INSERT` fails if the `UNIQUE` constraint is violated or if
the database fails (`dbFails`). -/
def add (b : Blacklist) (u : Str) (dbFails : Bool) : Blacklist × Bool :=
  match b.hasEntry u with
  | (b, true) => (b, true)
  | (b, false) =>
    if dbFails || u ∈ b.db then (b, false)
    else ({ cache := b.cache.put u true, db := b.db ++ [u] }, true)

/-- /repo/src/blacklist.rs:122-131. -/
def remove (b : Blacklist) (u : Str) (dbFails : Bool) : Blacklist × Bool :=
  if dbFails then (b, false)
  else ({ cache := b.cache.put u false, db := b.db.filter (fun x => x ≠ u) }, true)

/-- One iteration of the loop in /repo/src/blacklist.rs:145-151. -/
def removeRow (b : Blacklist) (u : Str) : Blacklist :=
  { cache := b.cache.put u false, db := b.db.filter (fun x => x ≠ u) }

/-- /repo/src/blacklist.rs:134-155: delete the matching rows one by one.  `failAt = some k` is a
database error at the `k`-th deletion (or, past the last row, in `VACUUM`). -/
def removePrefix (b : Blacklist) (p : Str) (failAt : Option Nat) : Blacklist × Bool :=
  let rows := b.db.filter (likePrefix p)
  match failAt with
  | none => (rows.foldl removeRow b, true)
  | some k => ((rows.take k).foldl removeRow b, false)

/-- /repo/src/blacklist.rs:190-192 `blacklisted`. -/
def blacklisted (b : Blacklist) (u : Str) : Bool := (b.hasEntry u).2

/-- /repo/src/blacklist.rs:158-171 `get_blacklist_entries`. -/
def entries (b : Blacklist) : List Str := b.db

/-- The calls of the `Blacklist` trait (/repo/src/blacklist.rs:18-35), with possible database
failures, plus closing and reopening the database. -/
inductive Op
  | add (u : Str) (dbFails : Bool)
  | remove (u : Str) (dbFails : Bool)
  | removePrefix (p : Str) (failAt : Option Nat)
  | query (u : Str)
  | reopen

/-- One call. /repo/src/blacklist.rs:103-198. -/
def step (b : Blacklist) : Op → Blacklist × Bool
  | .add u f => b.add u f
  | .remove u f => b.remove u f
  | .removePrefix p f => b.removePrefix p f
  | .query u => ((b.hasEntry u).1, true)
  | .reopen => (openDb b.db, true)

/-- A history starting from a fresh database. /repo/src/blacklist.rs:103-198. -/
def run (ops : List Op) : Blacklist := ops.foldl (fun b o => (b.step o).1) (openDb [])

theorem run_snoc (ops : List Op) (o : Op) : run (ops ++ [o]) = ((run ops).step o).1 := by
  simp [run]

/-- Cache and table agree, and the table has no duplicates. -/
structure Inv (b : Blacklist) : Prop where
  agree : ∀ u, (b.cache.find u = some true → u ∈ b.db) ∧
    (u ∈ b.db → b.cache.find u = some true)
  nodup : b.db.Nodup

theorem Inv.find {b : Blacklist} (h : Inv b) (u : Str) :
    (b.cache.find u = some true ↔ u ∈ b.db) := ⟨(h.agree u).1, (h.agree u).2⟩

theorem inv_open (db : List Str) (h : db.Nodup) : Inv (openDb db) := by
  have key : ∀ (c : AMap Str Bool) (l : List Str) (u : Str),
      (l.foldl (fun c u => c.put u true) c).find u =
        if u ∈ l then some true else c.find u := by
    intro c l u
    induction l generalizing c with
    | nil => simp
    | cons x l ih =>
      rw [List.foldl_cons, ih, AMap.find_put]
      by_cases h1 : u ∈ l
      · simp [h1]
      · by_cases h2 : x = u
        · simp [h2]
        · simp [h1, h2, Ne.symm h2]
  refine ⟨fun u => ?_, h⟩
  simp only [openDb, key]
  by_cases hu : u ∈ db <;> simp [hu]

theorem hasEntry_eq (b : Blacklist) (u : Str) (h : Inv b) :
    (b.hasEntry u).2 = decide (u ∈ b.db) ∧ (b.hasEntry u).1.db = b.db ∧ Inv (b.hasEntry u).1 := by
  unfold hasEntry
  cases hc : b.cache.find u with
  | some v =>
    refine ⟨?_, rfl, h⟩
    have := h.find u
    cases v <;> simp_all
  | none =>
    have hu : u ∉ b.db := fun hu => by rw [(h.agree u).2 hu] at hc; cases hc
    refine ⟨by simp [hu], rfl, ⟨fun v => ?_, h.nodup⟩⟩
    simp only [AMap.find_put]
    by_cases hv : u = v
    · subst hv; simp [hu]
    · simp only [hv, if_false]; exact h.agree v

theorem inv_removeRow (b : Blacklist) (u : Str) (h : Inv b) : Inv (b.removeRow u) := by
  refine ⟨fun v => ?_, h.nodup.filter _⟩
  simp only [removeRow, AMap.find_put, List.mem_filter]
  by_cases hv : u = v
  · subst hv; simp
  · simp only [hv, if_false]
    simp [Ne.symm hv, h.find v]

theorem foldl_removeRow (b : Blacklist) (l : List Str) (h : Inv b) :
    Inv (l.foldl removeRow b) ∧ (l.foldl removeRow b).db = b.db.filter (fun x => x ∉ l) := by
  induction l generalizing b with
  | nil => exact ⟨h, (List.filter_eq_self.2 (by simp)).symm⟩
  | cons u l ih =>
    obtain ⟨h1, h2⟩ := ih (b.removeRow u) (inv_removeRow b u h)
    refine ⟨h1, ?_⟩
    rw [List.foldl_cons, h2, removeRow, List.filter_filter]
    apply List.filter_congr
    intro x _
    simp only [List.mem_cons, not_or, ne_eq]
    by_cases hx : x = u <;> by_cases hl : x ∈ l <;> simp [hx, hl]

theorem inv_step (b : Blacklist) (o : Op) (h : Inv b) : Inv (b.step o).1 := by
  cases o with
  | add u f =>
    obtain ⟨e1, e2, e3⟩ := hasEntry_eq b u h
    simp only [step, add]
    generalize b.hasEntry u = r at *
    obtain ⟨b', v⟩ := r
    simp only at e1 e2 e3 ⊢
    cases v with
    | true => exact e3
    | false =>
      simp only
      split
      · exact e3
      · rename_i hu
        simp only [Bool.or_eq_true, decide_eq_true_eq, not_or] at hu
        refine ⟨fun x => ?_, ?_⟩
        · simp only [AMap.find_put, List.mem_append, List.mem_singleton]
          by_cases hx : u = x
          · simp [hx]
          · simp only [hx, if_false, Ne.symm hx, or_false]; exact e3.agree x
        · rw [List.nodup_append]
          refine ⟨e3.nodup, by simp, ?_⟩
          intro a ha c hc hac
          rw [List.mem_singleton] at hc
          subst hc hac
          exact hu.2 ha
  | remove u f =>
    simp only [step, remove]
    split
    · exact h
    · exact inv_removeRow b u h
  | removePrefix p f =>
    simp only [step, removePrefix]
    cases f with
    | none => exact (foldl_removeRow b _ h).1
    | some k => exact (foldl_removeRow b _ h).1
  | query u => exact (hasEntry_eq b u h).2.2
  | reopen => exact inv_open b.db h.nodup

theorem inv_run (ops : List Op) : Inv (run ops) := by
  unfold run
  have : ∀ b, Inv b → Inv (ops.foldl (fun b o => (b.step o).1) b) := by
    induction ops with
    | nil => exact fun b h => h
    | cons o ops ih => exact fun b h => ih _ (inv_step b o h)
  exact this _ (inv_open [] (by simp))

end Blacklist
end Trane.Store
