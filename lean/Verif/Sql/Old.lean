import Verif.Sql.Histories
import Verif.Sql.Lists

/-!
# Files of earlier releases: lemmas
-/

set_option linter.unusedSectionVars false

namespace Trane.Sql
open Trane.Store (Str LogOp Table)
open Trane.Store.Table (Wf AbsStep)

variable {R : Type} [DecidableEq R] {α : Type}

/-! ### Queries only look at the tables -/

theorem find_tables {d e : Db R} (h : d.tables = e.tables) (n : Str) : d.find n = e.find n := by
  unfold Db.find; rw [h]

theorem table_tables {d e : Db R} (h : d.tables = e.tables) (n : Str) : d.table n = e.table n := by
  unfold Db.table; rw [find_tables h]

section
variable (S : Scan R) {d e : Db R} (h : d.tables = e.tables) (ps : List (Val R))
include h

mutual
theorem expr_tables : ∀ (x : Expr) (sc : List (List Str × Record R)), x.eval S d ps sc = x.eval S e ps sc
  | .col _, _ => by simp only [Expr.eval]
  | .param _, _ => by simp only [Expr.eval]
  | .num _, _ => by simp only [Expr.eval]
  | .sub q, sc => by simp only [Expr.eval]; rw [select_tables q sc]
theorem cond_tables : ∀ (x : Cond) (sc : List (List Str × Record R)), x.eval S d ps sc = x.eval S e ps sc
  | .always, _ => by simp only [Cond.eval]
  | .eq a b, sc => by simp only [Cond.eval]; rw [expr_tables a sc, expr_tables b sc]
  | .like a b, sc => by simp only [Cond.eval]; rw [expr_tables a sc, expr_tables b sc]
  | .isIn _ a q, sc => by simp only [Cond.eval]; rw [expr_tables a sc, select_tables q sc]
  | .and a b, sc => by simp only [Cond.eval]; rw [cond_tables a sc, cond_tables b sc]
theorem select_tables : ∀ (x : Select) (sc : List (List Str × Record R)), x.eval S d ps sc = x.eval S e ps sc
  | .mk cols t c o l f, sc => by
    simp only [Select.eval]
    rw [table_tables h t, expr_tables l sc, expr_tables f sc]
    have : (fun r => decide (c.eval S d ps (((e.table t).names, r) :: sc) = some true)) =
        fun r => decide (c.eval S e ps (((e.table t).names, r) :: sc) = some true) := by
      funext r
      rw [cond_tables c]
    rw [this]
end

omit S ps

mutual
theorem exprKnown_tables : ∀ (x : Expr) (sc : List Str), x.known d sc = x.known e sc
  | .col _, _ => by simp only [Expr.known]
  | .param _, _ => by simp only [Expr.known]
  | .num _, _ => by simp only [Expr.known]
  | .sub q, sc => by simp only [Expr.known]; rw [selectKnown_tables q sc]
theorem condKnown_tables : ∀ (x : Cond) (sc : List Str), x.known d sc = x.known e sc
  | .always, _ => by simp only [Cond.known]
  | .eq a b, sc => by simp only [Cond.known]; rw [exprKnown_tables a sc, exprKnown_tables b sc]
  | .like a b, sc => by simp only [Cond.known]; rw [exprKnown_tables a sc, exprKnown_tables b sc]
  | .isIn _ a q, sc => by simp only [Cond.known]; rw [exprKnown_tables a sc, selectKnown_tables q sc]
  | .and a b, sc => by simp only [Cond.known]; rw [condKnown_tables a sc, condKnown_tables b sc]
theorem selectKnown_tables : ∀ (x : Select) (sc : List Str), x.known d sc = x.known e sc
  | .mk cols t c o l f, sc => by
    simp only [Select.known]
    rw [table_tables h t, find_tables h t, exprKnown_tables l [], exprKnown_tables f [], condKnown_tables c _]
end
end

theorem query_tables (S : Scan R) {d e : Db R} (h : d.tables = e.tables) {text : Text} {q : Select} {n : Nat}
    (hp : parse text = some (.select q, n)) (ps : List (Val R)) : query S d text ps = query S e text ps := by
  unfold query prepare
  rw [hp]
  have hk' : (Stmt.select q).known d = (Stmt.select q).known e := by
    simp only [Stmt.known]
    exact selectKnown_tables h q []
  by_cases hk : (Stmt.select q).known e = true
  · simp only [hk'.trans hk, hk, if_true]
    rw [select_tables S h ps q []]
  · rw [← hk'] at hk
    have hk2 := hk
    rw [hk'] at hk2
    simp [hk, hk2]

/-! ### Opening the file of a release -/

theorem keeps_all {d e last : Db R} (h : KeepsRows d e) (hs : SameSchema e last)
    (hl : last.tables.length ≤ d.tables.length) : e.tables = d.tables := by
  obtain ⟨new, h1, _⟩ := h
  have h2 := congrArg List.length hs.columns
  simp only [Db.columns, List.length_map, h1, List.length_append] at h2
  have : new = [] := List.length_eq_zero_iff.mp (by omega)
  rw [h1, this, List.append_nil]

/-- A release that has all the tables. -/
theorem release_tables {ms : List Text} (hm : ∀ m ∈ ms, Additive m) (S : Scan R) {last first : Db R} {j k : Nat}
    (hl : runTexts S ms {} = some last) (hf : runTexts S (ms.take j) {} = some first)
    (ht : first.tables = last.tables) (hk : j ≤ k) :
    ∃ e, runTexts S (ms.take k) {} = some e ∧ e.tables = last.tables := by
  have hm1 : ∀ m ∈ (ms.take k).drop j, Additive m := fun m h => hm m (List.mem_of_mem_take (List.mem_of_mem_drop h))
  have hm2 : ∀ m ∈ ms.drop k, Additive m := fun m h => hm m (List.mem_of_mem_drop h)
  have hl' := hl
  rw [← List.take_append_drop k ms, runTexts_append] at hl'
  cases he : runTexts S (ms.take k) {} with
  | none => rw [he] at hl'; simp at hl'
  | some e =>
    rw [he, Option.bind_some] at hl'
    refine ⟨e, rfl, ?_⟩
    have he' := he
    rw [← List.take_append_drop j (ms.take k), List.take_take, min_eq_left hk, runTexts_append, hf,
      Option.bind_some] at he'
    obtain ⟨e2, g1, _, n1, g2, _⟩ := runTexts_additive S S hm1 (d := first) (e := first) ⟨rfl, rfl⟩ he'
    rw [he'] at g1
    injection g1 with g1
    subst g1
    obtain ⟨e3, g3, _, n2, g4, _⟩ := runTexts_additive S S hm2 (d := e) (e := e) ⟨rfl, rfl⟩ hl'
    rw [hl'] at g3
    injection g3 with g3
    subst g3
    rw [g2, List.append_assoc, ht] at g4
    have : n1 ++ n2 = [] := by
      have := congrArg List.length g4
      rw [List.length_append] at this
      exact List.length_eq_zero_iff.mp (by omega)
    rw [g2, ht, (List.append_eq_nil_iff.mp this).1, List.append_nil]

/-- The number of tables of a release. -/
theorem ofRelease_length {ms : List Text} (hm : ∀ m ∈ ms, Additive m) (S : Scan R) {last first : Db R} {j k : Nat}
    (hl : runTexts S ms {} = some last) (hf : runTexts S (ms.take j) {} = some first)
    (ht : first.tables = last.tables) (hk : j ≤ k) {d : Db R} (hd : OfRelease ms k d) :
    last.tables.length ≤ d.tables.length := by
  obtain ⟨_, S1, e1, h1, hs⟩ := hd
  obtain ⟨e, h2, h3⟩ := release_tables hm S hl hf ht hk
  obtain ⟨e2, g1, g2, _⟩ := runTexts_additive S1 S (fun m h => hm m (List.mem_of_mem_take h)) (d := ({} : Db R))
    ⟨rfl, rfl⟩ h2
  rw [h1] at g1
  injection g1 with g1
  subst g1
  have e1l := congrArg List.length (hs.columns.trans g2.columns)
  simp only [Db.columns, List.length_map] at e1l
  rw [e1l, h3]

variable {sh : Shape} {P : Payload R α} {T : Texts}

/-- Texts with the first migrations only: an earlier release. -/
def Texts.release (T : Texts) (k : Nat) : Texts := { T with migrations := T.migrations.take k }

theorem release_reads {trim : Cond} (hT : Reads sh T trim) (k : Nat) : Reads sh (T.release k) trim :=
  ⟨hT.get, hT.intern, hT.insert, hT.uids, hT.trim, hT.like, hT.delete⟩

/-- The file of a table after it has been opened by the last release. -/
theorem open_old {idx idx' : List (Str × Str × List Str)} (hm : ∀ m ∈ T.migrations, Additive m)
    (hl : ∀ S : Scan R, runTexts S T.migrations {} = some (ofTable sh P 0 idx {})) {first : Scan R → Db R} {j k : Nat}
    (hf : ∀ S : Scan R, runTexts S (T.migrations.take j) {} = some (first S))
    (ht : ∀ S, (first S).tables = (ofTable (R := R) sh P 0 idx {}).tables) (hj : j ≤ k) (h0 : T.migrations ≠ [])
    (hk : k ≤ T.migrations.length) (S S0 : Scan R) {e : Db R} (he : runTexts S0 (T.migrations.take k) {} = some e)
    (hi : e.indexes = idx') (t : Table α) :
    openStore S T (ofTable sh P k idx' t) = some (ofTable sh P T.migrations.length idx t) := by
  have hd : OfRelease T.migrations k (ofTable sh P k idx' t) := by
    refine ⟨rfl, S0, e, he, ⟨?_, hi.symm⟩⟩
    obtain ⟨e', h1, h2⟩ := release_tables hm S0 (hl S0) (hf S0) (ht S0) hj
    rw [he] at h1
    injection h1 with h1
    subst h1
    unfold Db.columns
    rw [h2]
    simp [ofTable]
  obtain ⟨d', g1, g2, g3, g4⟩ := toLatest_keeps S S h0 hm (hl S) hk hd
  have := keeps_all g4 g3 (by simp [ofTable])
  unfold openStore
  rw [g1]
  have hidx := g3.indexes
  cases d' with
  | mk v tb ix =>
    simp only at g2 this hidx
    subst g2
    rw [this, hidx]
    rfl

theorem answers_old {ms : List Text} (hm : ∀ m ∈ ms, Additive m) (h0 : ms ≠ []) {last first : Db R} {j k : Nat}
    (S : Scan R) (hl : runTexts S ms {} = some last) (hf : runTexts S (ms.take j) {} = some first)
    (ht : first.tables = last.tables) (hj : j ≤ k) (hk : k ≤ ms.length) {d : Db R} (hd : OfRelease ms k d) :
    ∃ d', toLatest S ms d = some d' ∧ d'.tables = d.tables := by
  obtain ⟨d', g1, _, g3, g4⟩ := toLatest_keeps S S h0 hm hl hk hd
  exact ⟨d', g1, keeps_all g4 g3 (ofRelease_length hm S hl hf ht hj hd)⟩

theorem getEntries_tables {sh : Shape} {T : Texts} {trim : Cond} {P : Payload R α} (hT : Reads sh T trim)
    (S : Scan R) {d e : Db R} (h : d.tables = e.tables) (u : Str) (n : Nat) :
    getEntries S T P d u n = getEntries S T P e u n := by
  unfold getEntries
  rw [query_tables S h hT.get]

theorem stats_first (S : Scan R) : ∃ e : Db R, runTexts S (statsTexts.migrations.take 2) {} = some e ∧
    e.tables = (ofTable statsShape (one (R := R)) 0 statsIndexes {}).tables := by
  refine ⟨ofTable statsShape (one (R := R)) 0 [] {}, ?_, rfl⟩
  simp only [statsTexts, List.take_succ_cons, List.take_zero, runTexts_parsed S parse_uids,
      runTexts_parsed S parse_stats_table]
  rfl

theorem deltas_first (S : Scan R) : ∃ e : Db R, runTexts S (deltasTexts.migrations.take 2) {} = some e ∧
    e.tables = (ofTable deltasShape (one (R := R)) 0 deltasIndexes {}).tables := by
  refine ⟨ofTable deltasShape (one (R := R)) 0 [] {}, ?_, rfl⟩
  simp only [deltasTexts, List.take_succ_cons, List.take_zero, runTexts_parsed S parse_uids,
      runTexts_parsed S parse_deltas_table]
  rfl

theorem rewards_first (S : Scan R) : ∃ e : Db R, runTexts S (rewardsTexts.migrations.take 2) {} = some e ∧
    e.tables = (ofTable rewardsShape (two (R := R)) 0 rewardsIndexes {}).tables := by
  refine ⟨ofTable rewardsShape (two (R := R)) 0 [] {}, ?_, rfl⟩
  simp only [rewardsTexts, List.take_succ_cons, List.take_zero, runTexts_parsed S parse_uids,
      runTexts_parsed S parse_rewards_table]
  rfl

theorem blacklist_first (S : Scan R) : ∃ e : Db R, runTexts S (blacklistTexts.migrations.take 1) {} = some e ∧
    e.tables = (ofList (R := R) nBlacklist 0 (listIndexes nBlacklist) []).tables := by
  refine ⟨ofList (R := R) nBlacklist 0 [] [], ?_, rfl⟩
  simp only [blacklistTexts, List.take_succ_cons, List.take_zero, runTexts_parsed S parse_blacklist]
  rfl

theorem review_first (S : Scan R) : ∃ e : Db R, runTexts S (reviewListTexts.migrations.take 1) {} = some e ∧
    e.tables = (ofList (R := R) nReview 0 (listIndexes nReview) []).tables := by
  refine ⟨ofList (R := R) nReview 0 [] [], ?_, rfl⟩
  simp only [reviewListTexts, List.take_succ_cons, List.take_zero, runTexts_parsed S parse_review]
  rfl

end Trane.Sql
