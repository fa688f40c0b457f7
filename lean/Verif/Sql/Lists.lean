import Verif.Sql.Open
import Verif.Store.BlacklistProps

/-!
# The files of the blacklist and the review list: lemmas
-/

set_option linter.unusedSectionVars false

namespace Trane.Sql
open Trane.Store (Str likePrefix)

variable {R : Type} [DecidableEq R] {tab : Str} {v : Nat} {idx : List (Str × Str × List Str)} {l : List Str}

/-- A row of a list. -/
def encId (u : Str) : Record R := [.text u]

/-- The texts are these statements. -/
structure ReadsList (tab : Str) (T : ListTexts) (ignore : Bool) : Prop where
  add : parse T.add = some (.insert ignore tab [nUnit] [.param 1], 1)
  remove : parse T.remove = some (.delete tab (.eq (.col nUnit) (.param 1)), 1)
  entries : parse T.entries = some (.select (.mk [nUnit] tab .always none (.num (-1)) (.num 0)), 0)

theorem blacklist_reads : ReadsList nBlacklist blacklistTexts false := by
  constructor <;> decide +kernel

theorem blacklistLike_reads : parse blacklistLike =
    some (.select (.mk [nUnit] nBlacklist (.like (.col nUnit) (.param 1)) none (.num (-1)) (.num 0)), 1) := by
  decide +kernel

theorem review_reads : ReadsList nReview reviewListTexts true := by
  constructor <;> decide +kernel

theorem find_list : (ofList (R := R) tab v idx l).find tab = some ⟨listCols, l.map encId⟩ := by
  simp [Db.find, ofList]
  exact fun _ _ => rfl

theorem table_list : (ofList (R := R) tab v idx l).table tab = ⟨listCols, l.map encId⟩ := by
  rw [Db.table, find_list]; rfl

theorem names_list (rows : List (Record R)) : Tab.names ⟨listCols, rows⟩ = [nUnit] := rfl

theorem set_list (m : List Str) :
    (ofList (R := R) tab v idx l).setRows tab (m.map encId) = ofList tab v idx m := by
  simp [Db.setRows, ofList]
  exact fun _ _ => rfl

theorem lookup_id (u : Str) : lookup [([nUnit], encId (R := R) u)] nUnit = .text u := by
  simp [lookup, encId]

theorem column_list : Tab.column ⟨listCols, l.map (encId (R := R))⟩ nUnit = l.map .text := by
  simp [Tab.column, names_list, lookup_id]

theorem eval_id_eq (S : Scan R) (db : Db R) (u x : Str) :
    Cond.eval S db [.text u] (.eq (.col nUnit) (.param 1)) [([nUnit], encId x)] = some (decide (x = u)) := by
  rw [Cond.eval, Expr.eval, lookup_id, param_one]
  simp [Val.eq]

/-- `INSERT INTO … (unit_id) VALUES (?1)`. -/
theorem execute_add {T : ListTexts} {ignore : Bool} (hT : ReadsList tab T ignore) (S : Scan R) (u : Str) :
    execute S (ofList tab v idx l) T.add [.text u] =
      if u ∈ l then (if ignore then some (ofList tab v idx l) else none) else some (ofList tab v idx (l ++ [u])) := by
  unfold execute prepare
  rw [hT.add]
  have hk : (Stmt.insert ignore tab [nUnit] [.param 1]).known (ofList (R := R) tab v idx l) = true := by
    simp [Stmt.known, find_list, table_list, names_list, Expr.known]
  simp only [hk, if_true, List.length_singleton]
  unfold exec
  simp only [table_list]
  have hr : newRow ⟨listCols, l.map (encId (R := R))⟩ [nUnit]
      ([Expr.param 1].map (fun e => Expr.eval S (ofList tab v idx l) [.text u] e [])) = encId u := by
    simp [newRow, listCols, param_one, lookup, encId]
  rw [hr]
  have hf : (listCols.zip (encId (R := R) u)).all (fun (c, v) => c.fits v) = true := by
    simp [listCols, encId, Col.fits]
  have ha : allowed ⟨listCols, l.map (encId (R := R))⟩ (encId u) = decide (u ∉ l) := by
    have hc : ∀ t : Tab R, t.cols = listCols → allowed t (encId u) = decide ((.text u : Val R) ∉ t.column nUnit) := by
      intro t ht
      unfold allowed
      rw [ht]
      simp [listCols, encId]
    rw [hc _ rfl, column_list]
    simp
  have hrf : refers (ofList tab v idx l) ⟨listCols, l.map (encId (R := R))⟩ (encId u) = true := by
    simp [refers, listCols, encId]
  rw [if_pos hf, ha]
  by_cases hu : u ∈ l
  · simp [hu]
  · simp only [hu, not_false_eq_true, decide_true, if_true, hrf, if_false]
    have := set_list (R := R) (tab := tab) (v := v) (idx := idx) (l := l) (l ++ [u])
    rw [List.map_append] at this
    exact congrArg some this

/-- `DELETE FROM … WHERE unit_id = $1`. -/
theorem execute_remove {T : ListTexts} {ignore : Bool} (hT : ReadsList tab T ignore) (S : Scan R) (u : Str) :
    execute S (ofList tab v idx l) T.remove [.text u] = some (ofList tab v idx (l.filter (fun x => x ≠ u))) := by
  unfold execute prepare
  rw [hT.remove]
  have hk : (Stmt.delete tab (.eq (.col nUnit) (.param 1))).known (ofList (R := R) tab v idx l) = true := by
    simp [Stmt.known, find_list, table_list, names_list, Cond.known, Expr.known]
  simp only [hk, if_true, List.length_singleton]
  unfold exec
  simp only [table_list, names_list]
  rw [if_pos]
  · rw [filter_map_enc, set_list]
    congr 2
    apply List.filter_congr
    intro x _
    rw [eval_id_eq]
    simp
  · rw [List.all_eq_true]
    intro r _
    simp [unreferenced, ofList, listCols]

/-- Some of the ids, in some order. -/
theorem query_ids (S : Scan R) {text : Text} {c : Cond} {n : Nat} {ps : List (Val R)} {g : Str → Bool}
    (hp : parse text = some (.select (.mk [nUnit] tab c none (.num (-1)) (.num 0)), n)) (hn : n = ps.length)
    (hk : Cond.known (ofList (R := R) tab v idx l) c [nUnit] = true)
    (hg : ∀ u ∈ l, Cond.eval S (ofList tab v idx l) ps c [([nUnit], encId u)] = some true ↔ g u = true) :
    ∃ us : List Str, us.Perm (l.filter g) ∧
      (query S (ofList tab v idx l) text ps).bind readTexts = some us := by
  have hk : Select.known (ofList (R := R) tab v idx l) (.mk [nUnit] tab c none (.num (-1)) (.num 0)) [] = true := by
    simp [find_list, table_list, names_list, Select.known, hk, Expr.known]
  rw [query_eq S hp hk hn, Option.bind_some, Select.eval]
  simp only [table_list, names_list]
  have e : (l.map (encId (R := R))).filter (fun r =>
      Cond.eval S (ofList tab v idx l) ps c [([nUnit], r)] = some true) = (l.filter g).map encId := by
    rw [filter_map_enc]
    congr 1
    apply List.filter_congr
    intro x hx
    rw [Bool.eq_iff_iff, decide_eq_true_iff]
    exact hg x hx
  rw [e]
  generalize l.filter g = k
  have hpm := S.perm (.mk [nUnit] tab c none (.num (-1)) (.num 0)) (k.map (encId (R := R)))
  generalize S.scan (.mk [nUnit] tab c none (.num (-1)) (.num 0)) (k.map (encId (R := R))) = m at hpm
  obtain ⟨us, hus, rfl⟩ : ∃ us : List Str, us.Perm k ∧ us.map encId = m := by
    let dec : Record R → Option Str := fun r => match r with
      | [.text s] => some s
      | _ => none
    have hdec : ∀ u : Str, dec (encId u) = some u := fun _ => rfl
    have h1 : ∀ k : List Str, (k.map encId).filterMap dec = k := by
      intro k
      induction k with
      | nil => rfl
      | cons e k ih => rw [List.map_cons, List.filterMap_cons, hdec]; simp [ih]
    refine ⟨m.filterMap dec, ?_, ?_⟩
    · have := hpm.filterMap dec
      rwa [h1] at this
    · have : ∀ x ∈ m, ∃ u, x = encId u := by
        intro x hx
        obtain ⟨e, _, h⟩ := List.mem_map.mp (hpm.mem_iff.mp hx)
        exact ⟨e, h.symm⟩
      clear hpm
      induction m with
      | nil => rfl
      | cons x m ih =>
        obtain ⟨e, he⟩ := this x (by simp)
        rw [he, List.filterMap_cons, hdec]
        simp [ih (fun y hy => this y (by simp [hy]))]
  refine ⟨us, hus, ?_⟩
  simp only [sortRows, Expr.eval, window]
  clear hus hpm e
  simp only [List.map_cons, List.map_nil]
  have hz : (Int.toNat 0) = 0 := rfl
  simp only [hz, List.drop_zero, show ((-1 : Int) < 0) from by omega, if_true]
  induction us with
  | nil => rfl
  | cons e us ih =>
    unfold readTexts at ih ⊢
    rw [List.map_cons, List.map_cons, List.mapM_cons, ih]
    simp [lookup_id]

theorem listEntries_eq {T : ListTexts} {ignore : Bool} (hT : ReadsList tab T ignore) (S : Scan R) :
    ∃ us : List Str, us.Perm l ∧ listEntries S T (ofList tab v idx l) = some us := by
  have := query_ids (R := R) (tab := tab) (v := v) (idx := idx) (l := l) S (g := fun _ => true) (ps := []) hT.entries rfl
    (by simp [Cond.known]) (by intro e _; simp [Cond.eval])
  simpa [listEntries] using this

theorem query_blacklistLike (S : Scan R) (p : Str) :
    ∃ us : List Str, us.Perm (l.filter (likePrefix p)) ∧
      (query S (ofList nBlacklist v idx l) blacklistLike [.text (p ++ ['%'])]).bind readTexts = some us := by
  refine query_ids (R := R) (tab := nBlacklist) (v := v) (idx := idx) (l := l) S (g := likePrefix p)
    (ps := [.text (p ++ ['%'])]) blacklistLike_reads rfl ?_ ?_
  · simp [Cond.known, Expr.known]
  · intro e _
    rw [Cond.eval, Expr.eval, lookup_id, param_one]
    simp [Val.like, likePrefix]

/-! ### The review list -/

/-- The file of the review list. -/
def reviewFile (l : List Str) : Db R := ofList nReview reviewListTexts.migrations.length (listIndexes nReview) l

theorem reviewStep_eq (S : Scan R) (l : List Str) (o : Store.ReviewList.Op) :
    reviewStep S (reviewFile l) o = (reviewFile (Store.ReviewList.step l o).1, (Store.ReviewList.step l o).2) := by
  cases o with
  | add u f =>
    cases f with
    | true => rfl
    | false =>
      simp only [reviewStep, Store.ReviewList.step, Store.ReviewList.add, Bool.false_eq_true, if_false]
      rw [reviewFile, execute_add review_reads]
      by_cases hu : u ∈ l
      · simp only [hu, if_true, reviewStep.change]; rfl
      · simp [hu, reviewStep.change, reviewFile]
  | remove u f =>
    cases f with
    | true => rfl
    | false =>
      simp only [reviewStep, Store.ReviewList.step, Store.ReviewList.remove, Bool.false_eq_true, if_false]
      rw [reviewFile, execute_remove review_reads]
      rfl
  | reopen =>
    simp only [reviewStep, Store.ReviewList.step]
    rw [toLatest_same S (by simp [reviewListTexts]) rfl]
    rfl

/-! ### The blacklist -/

namespace BlacklistState
open Trane.Store.Blacklist (Inv AbsStep)

/-- The file of the blacklist. -/
def file (l : List Str) : Db R := ofList nBlacklist blacklistTexts.migrations.length (listIndexes nBlacklist) l

/-- The state that belongs to a state of the model of the blacklist. -/
def ofBlacklist (b : Store.Blacklist) : BlacklistState R := ⟨b.cache, file b.db⟩

theorem hasEntry_of (b : Store.Blacklist) (u : Str) :
    (ofBlacklist (R := R) b).hasEntry u = (ofBlacklist (b.hasEntry u).1, (b.hasEntry u).2) := by
  unfold hasEntry Store.Blacklist.hasEntry ofBlacklist
  simp only
  cases b.cache.find u <;> rfl

theorem add_of (S : Scan R) (b : Store.Blacklist) (u : Str) (f : Bool) :
    (ofBlacklist b).add S u f = (ofBlacklist (b.add u f).1, (b.add u f).2) := by
  unfold add Store.Blacklist.add
  rw [hasEntry_of]
  cases hb : b.hasEntry u with
  | mk b' x =>
    cases x with
    | true => rfl
    | false =>
      simp only
      cases f with
      | true => rfl
      | false =>
        simp only [Bool.false_eq_true, if_false, Bool.false_or]
        rw [ofBlacklist, file, execute_add blacklist_reads]
        by_cases hu : u ∈ b'.db
        · simp [hu]; rfl
        · simp [hu]; rfl

theorem remove_of (S : Scan R) (b : Store.Blacklist) (u : Str) :
    (ofBlacklist b).remove S u = (ofBlacklist (b.removeRow u), true) := by
  unfold remove
  rw [ofBlacklist, file, execute_remove blacklist_reads]
  rfl

theorem removeAll_of (S : Scan R) (us : List Str) : ∀ b : Store.Blacklist,
    removeAll S (ofBlacklist b) us = (ofBlacklist (us.foldl Store.Blacklist.removeRow b), true) := by
  induction us with
  | nil => intro b; rfl
  | cons u us ih =>
    intro b
    rw [removeAll, remove_of]
    simp only
    rw [ih]
    rfl

theorem openDb_of (S : Scan R) (b : Store.Blacklist) (h : Inv b) :
    ∃ b', openDb S (file b.db) = some (ofBlacklist b') ∧ b'.db = b.db ∧ Inv b' := by
  unfold openDb
  rw [toLatest_same S (by simp [blacklistTexts]) rfl, Option.bind_some]
  obtain ⟨us, hp, e⟩ := listEntries_eq (R := R) (tab := nBlacklist) (v := blacklistTexts.migrations.length)
    (idx := listIndexes nBlacklist) (l := b.db) blacklist_reads S
  refine ⟨⟨us.foldl (fun c u => c.put u true) [], b.db⟩, ?_, rfl, ?_⟩
  · rw [file, e]
    rfl
  · have := Store.Blacklist.inv_open us (hp.nodup_iff.mpr h.nodup)
    refine ⟨fun u => ?_, h.nodup⟩
    have h1 := this.agree u
    simp only [Store.Blacklist.openDb] at h1
    rw [hp.mem_iff] at h1
    exact h1

/-- Whether the machine fails in the call. -/
def blacklistFails : Store.Blacklist.Op → Bool
  | .add _ f => f
  | .remove _ f => f
  | .removePrefix _ f => f.isSome
  | .query _ => false
  | .reopen => false

theorem step_spec (S : Scan R) (b : Store.Blacklist) (h : Inv b) (o : Store.Blacklist.Op) :
    ∃ b' ok, (ofBlacklist b).step S o = (ofBlacklist b', ok) ∧ Inv b' ∧
      AbsStep (fun x => x ∈ b.db) (fun x => x ∈ b'.db) o ok ∧ (blacklistFails o = false → ok = true) := by
  cases o with
  | add u f =>
    have hi := Store.Blacklist.inv_step b (.add u f) h
    refine ⟨_, _, add_of S b u f, hi, ?_⟩
    obtain ⟨i1, i2, i3⟩ := Store.Blacklist.hasEntry_eq b u h
    simp only [Store.Blacklist.add]
    generalize b.hasEntry u = r at *
    obtain ⟨b', x⟩ := r
    simp only at i1 i2 i3 ⊢
    cases x with
    | true =>
      have hu : u ∈ b.db := by simpa using i1
      refine ⟨?_, fun _ => rfl⟩
      simp only [AbsStep, i2]
      intro x
      constructor
      · exact Or.inl
      · rintro (hx | rfl)
        · exact hx
        · exact hu
    | false =>
      have hu : u ∉ b.db := by simpa using i1
      cases f with
      | true =>
        simp only [Bool.true_or, if_true]
        refine ⟨fun x => ?_, fun h => by simp [blacklistFails] at h⟩
        rw [i2]
      | false =>
        simp only [Bool.false_or, i2, hu, decide_false, Bool.false_eq_true, if_false]
        exact ⟨fun x => by simp, fun _ => trivial⟩
  | remove u f =>
    cases f with
    | true => exact ⟨b, false, rfl, h, fun x => Iff.rfl, fun h => by simp [blacklistFails] at h⟩
    | false =>
      refine ⟨b.removeRow u, true, ?_, Store.Blacklist.inv_removeRow b u h, ?_, fun _ => rfl⟩
      · simp only [step, Bool.false_eq_true, if_false]
        exact remove_of S b u
      · intro x
        simp [Store.Blacklist.removeRow]
  | removePrefix p f =>
    obtain ⟨us, hp, e⟩ := query_blacklistLike (R := R) (v := blacklistTexts.migrations.length)
      (idx := listIndexes nBlacklist) (l := b.db) S p
    have hm : ∀ x, x ∈ us ↔ x ∈ b.db ∧ likePrefix p x = true := by
      intro x
      rw [hp.mem_iff, List.mem_filter]
    simp only [step, removePrefix]
    rw [show (ofBlacklist (R := R) b).db = ofList nBlacklist blacklistTexts.migrations.length (listIndexes nBlacklist) b.db
      from rfl, e]
    cases f with
    | none =>
      obtain ⟨g1, g2⟩ := Store.Blacklist.foldl_removeRow b us h
      refine ⟨us.foldl Store.Blacklist.removeRow b, true, ?_, g1, ?_, fun _ => rfl⟩
      · simp only
        rw [removeAll_of]
        simp only [execute_vacuum]
        rfl
      · intro x
        simp only [g2, List.mem_filter, decide_eq_true_eq, hm]
        constructor
        · rintro ⟨a, c⟩
          refine ⟨a, ?_⟩
          by_contra hc
          exact c ⟨a, by simpa using hc⟩
        · rintro ⟨a, c⟩
          exact ⟨a, fun hx => by rw [hx.2] at c; cases c⟩
    | some k =>
      obtain ⟨g1, g2⟩ := Store.Blacklist.foldl_removeRow b (us.take k) h
      refine ⟨(us.take k).foldl Store.Blacklist.removeRow b, false, ?_, g1, ?_, fun h => by simp [blacklistFails] at h⟩
      · simp only
        rw [removeAll_of]
      · intro x
        simp only [g2, List.mem_filter, decide_eq_true_eq]
        refine ⟨fun hx => hx.1, fun hx => ?_⟩
        by_cases hk : x ∈ us.take k
        · right
          exact ((hm x).mp (List.mem_of_mem_take hk)).2
        · exact Or.inl ⟨hx, hk⟩
  | query u =>
    obtain ⟨i1, i2, i3⟩ := Store.Blacklist.hasEntry_eq b u h
    refine ⟨(b.hasEntry u).1, true, ?_, i3, ?_, fun _ => rfl⟩
    · simp only [step]
      rw [hasEntry_of]
    · intro x
      simp only [i2]
  | reopen =>
    obtain ⟨b', e, hd, hi⟩ := openDb_of S b h
    refine ⟨b', true, ?_, hi, ?_, fun _ => rfl⟩
    · simp only [step]
      rw [show (ofBlacklist (R := R) b).db = file b.db from rfl, e]
    · intro x
      simp only [hd]

end BlacklistState

end Trane.Sql
