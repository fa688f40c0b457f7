import Verif.Sql.Calls

/-!
# Migrations

Migrations that create tables and create and drop indexes keep what is in the tables.
-/

set_option linter.unusedSectionVars false

namespace Trane.Sql
open Trane.Store (Str Table)

variable {R : Type} [DecidableEq R]

/-- Statements that only create tables and create and drop indexes. -/
def Stmt.additive : Stmt → Bool
  | .createTable .. => true
  | .createIndex .. => true
  | .dropIndex _ => true
  | _ => false

/-- The tables and their columns. -/
def Db.columns (db : Db R) : List (Str × List Col) := db.tables.map (fun e => (e.1, e.2.cols))

/-- Two files with the same tables, columns and indexes. -/
structure SameSchema (d e : Db R) : Prop where
  columns : d.columns = e.columns
  indexes : d.indexes = e.indexes

/-- The rows of `d` are in `e`, and `e` has no others. -/
def KeepsRows (d e : Db R) : Prop :=
  ∃ new, e.tables = d.tables ++ new ∧ ∀ x ∈ new, x.2.rows = []

theorem find_columns (d : Db R) (n : Str) :
    (d.find n).map Tab.cols = (d.columns.find? (fun e => e.1 = n)).map Prod.snd := by
  unfold Db.find Db.columns
  rw [List.find?_map]
  simp [Option.map_map, Function.comp_def]

theorem SameSchema.find {d e : Db R} (h : SameSchema d e) (n : Str) :
    (d.find n).isSome = (e.find n).isSome ∧ (d.table n).names = (e.table n).names := by
  have h1 := find_columns d n
  rw [h.columns, ← find_columns] at h1
  unfold Db.table
  cases hd : d.find n with
  | none =>
    cases he : e.find n with
    | none => exact ⟨rfl, rfl⟩
    | some x => rw [hd, he] at h1; simp at h1
  | some y =>
    cases he : e.find n with
    | none => rw [hd, he] at h1; simp at h1
    | some x =>
      rw [hd, he] at h1
      simp only [Option.map_some, Option.some.injEq] at h1
      exact ⟨rfl, by simp [Tab.names, h1]⟩

theorem SameSchema.known {d e : Db R} (h : SameSchema d e) {s : Stmt} (hs : s.additive = true) :
    s.known d = s.known e := by
  have hn : ∀ n, (d.find n).isNone = (e.find n).isNone := by
    intro n
    have := (h.find n).1
    cases hd : d.find n <;> cases he : e.find n <;> simp_all
  have hi := h.indexes
  cases s with
  | createTable n cs => simp only [Stmt.known]; rw [hn, hi]
  | createIndex n t cs => simp only [Stmt.known]; rw [hn, hi, (h.find t).1, (h.find t).2]
  | dropIndex n => simp [Stmt.known, h.indexes]
  | _ => simp [Stmt.additive] at hs

theorem exec_additive (S S' : Scan R) {d e : Db R} (h : SameSchema d e) {s : Stmt} (hs : s.additive = true) :
    ∃ d' e', exec S d [] s = some d' ∧ exec S' e [] s = some e' ∧ SameSchema d' e' ∧ KeepsRows d d' := by
  cases s with
  | createTable n cs =>
    refine ⟨_, _, rfl, rfl, ⟨?_, h.indexes⟩, ⟨[(n, ⟨cs, []⟩)], rfl, by simp⟩⟩
    have := h.columns
    simp only [Db.columns, List.map_append] at this ⊢
    rw [this]
  | createIndex n t cs =>
    refine ⟨_, _, rfl, rfl, ⟨h.columns, ?_⟩, ⟨[], by simp, by simp⟩⟩
    simp [h.indexes]
  | dropIndex n =>
    refine ⟨_, _, rfl, rfl, ⟨h.columns, ?_⟩, ⟨[], by simp, by simp⟩⟩
    simp [h.indexes]
  | _ => simp [Stmt.additive] at hs

theorem KeepsRows.refl (d : Db R) : KeepsRows d d := ⟨[], by simp, by simp⟩

theorem KeepsRows.trans {c d e : Db R} (h : KeepsRows c d) (h' : KeepsRows d e) : KeepsRows c e := by
  obtain ⟨n1, e1, h1⟩ := h
  obtain ⟨n2, e2, h2⟩ := h'
  refine ⟨n1 ++ n2, by rw [e2, e1, List.append_assoc], ?_⟩
  intro x hx
  rcases List.mem_append.mp hx with hx | hx
  · exact h1 x hx
  · exact h2 x hx

/-- The text is one of these statements. -/
def Additive (m : Text) : Prop := ∃ s, parse m = some (s, 0) ∧ s.additive = true

theorem execute_additive (S S' : Scan R) {d e : Db R} (h : SameSchema d e) {m : Text} (hm : Additive m) {e' : Db R}
    (he : execute S' e m [] = some e') : ∃ d', execute S d m [] = some d' ∧ SameSchema d' e' ∧ KeepsRows d d' := by
  obtain ⟨s, hp, hs⟩ := hm
  unfold execute prepare at he ⊢
  rw [hp] at he ⊢
  simp only at he ⊢
  rw [h.known hs]
  by_cases hk : s.known e = true
  · simp only [hk, if_true, List.length_nil] at he ⊢
    obtain ⟨d', e2, h1, h2, h3, h4⟩ := exec_additive S S' h hs
    rw [h2] at he
    injection he with he
    subst he
    exact ⟨d', h1, h3, h4⟩
  · simp [hk] at he

/-- Running texts one after the other. -/
def runTexts (S : Scan R) (ms : List Text) (d : Db R) : Option (Db R) :=
  ms.foldl (fun o m => o.bind (fun d => execute S d m [])) (some d)

theorem foldl_bind_none {σ τ : Type} (f : τ → σ → Option σ) (ms : List τ) :
    ms.foldl (fun o m => o.bind (f m)) none = none := by
  induction ms with
  | nil => rfl
  | cons m ms ih => exact ih

theorem runTexts_cons (S : Scan R) (m : Text) (ms : List Text) (d : Db R) :
    runTexts S (m :: ms) d = (execute S d m []).bind (runTexts S ms) := by
  unfold runTexts
  rw [List.foldl_cons, Option.bind_some]
  cases execute S d m [] with
  | none => exact foldl_bind_none _ _
  | some d' => rfl

theorem runTexts_append (S : Scan R) (ms ns : List Text) (d : Db R) :
    runTexts S (ms ++ ns) d = (runTexts S ms d).bind (runTexts S ns) := by
  unfold runTexts
  rw [List.foldl_append]
  cases ms.foldl (fun o m => o.bind (fun d => execute S d m [])) (some d) with
  | none => exact foldl_bind_none _ _
  | some d' => rfl

theorem runTexts_additive (S S' : Scan R) {ms : List Text} (hm : ∀ m ∈ ms, Additive m) : ∀ {d e e' : Db R},
    SameSchema d e → runTexts S' ms e = some e' →
    ∃ d', runTexts S ms d = some d' ∧ SameSchema d' e' ∧ KeepsRows d d' := by
  induction ms with
  | nil =>
    intro d e e' h he
    injection he with he
    subst he
    exact ⟨d, rfl, h, KeepsRows.refl d⟩
  | cons m ms ih =>
    intro d e e' h he
    rw [runTexts_cons] at he ⊢
    cases h1 : execute S' e m [] with
    | none => rw [h1] at he; simp at he
    | some e1 =>
      rw [h1, Option.bind_some] at he
      obtain ⟨d1, g1, g2, g3⟩ := execute_additive S S' h (hm m (by simp)) h1
      obtain ⟨d2, k1, k2, k3⟩ := ih (fun x hx => hm x (by simp [hx])) g2 he
      exact ⟨d2, by rw [g1, Option.bind_some, k1], k2, g3.trans k3⟩

theorem toLatest_eq (S : Scan R) (ms : List Text) (db : Db R) (h0 : ms ≠ []) (hv : db.version ≤ ms.length) :
    toLatest S ms db = (runTexts S (ms.drop db.version) db).map (fun d => { d with version := ms.length }) := by
  unfold toLatest runTexts
  rw [if_neg]
  push Not
  exact ⟨h0, hv⟩

/-- The file of a release with the first `k` migrations: its tables, columns and indexes, and any rows. -/
def OfRelease (ms : List Text) (k : Nat) (d : Db R) : Prop :=
  d.version = k ∧ ∃ (S : Scan R) (e : Db R), runTexts S (ms.take k) {} = some e ∧ SameSchema d e

theorem toLatest_keeps (S S' : Scan R) {ms : List Text} (h0 : ms ≠ []) (hm : ∀ m ∈ ms, Additive m) {last : Db R}
    (hl : runTexts S' ms {} = some last) {k : Nat} (hk : k ≤ ms.length) {d : Db R} (hd : OfRelease ms k d) :
    ∃ d', toLatest S ms d = some d' ∧ d'.version = ms.length ∧ SameSchema d' last ∧ KeepsRows d d' := by
  obtain ⟨hv, S1, e, he, hs⟩ := hd
  have hl' := hl
  rw [← List.take_append_drop k ms, runTexts_append] at hl'
  cases h1 : runTexts S' (ms.take k) {} with
  | none => rw [h1] at hl'; simp at hl'
  | some e1 =>
    rw [h1, Option.bind_some] at hl'
    have hm1 : ∀ m ∈ ms.take k, Additive m := fun m h => hm m (List.mem_of_mem_take h)
    have hm2 : ∀ m ∈ ms.drop k, Additive m := fun m h => hm m (List.mem_of_mem_drop h)
    obtain ⟨e2, g1, g2, _⟩ := runTexts_additive S1 S' hm1 (d := ({} : Db R)) ⟨rfl, rfl⟩ h1
    rw [he] at g1
    injection g1 with g1
    subst g1
    obtain ⟨d', k1, k2, k3⟩ := runTexts_additive S S' hm2
      (d := d) (e := e1) ⟨hs.columns.trans g2.columns, hs.indexes.trans g2.indexes⟩ hl'
    rw [toLatest_eq S ms d h0 (by omega), hv, k1]
    exact ⟨_, rfl, rfl, ⟨k2.columns, k2.indexes⟩, k3⟩

end Trane.Sql
