import Verif.Sql.Refine

/-!
# What each text does to the file of a table
-/

namespace Trane.Sql
open Trane.Store (Str LogOp Entry Reward Row Table SortDesc)
open Trane.Store.Table (Wf)

set_option linter.unusedSectionVars false

variable {R : Type} [DecidableEq R] {α : Type}

/-! ### Columns -/

theorem lookup_all {names : List Str} {row : Record R} (hn : names.Nodup) (hl : names.length = row.length) :
    names.map (lookup [(names, row)]) = row := by
  apply List.ext_getElem
  · simpa using hl
  · intro i h1 h2
    simp only [List.length_map] at h1
    simp [lookup, List.Nodup.idxOf_getElem hn, h2]

theorem lookup_uid (e : Nat × Str) :
    lookup [([nUid, nUnit], encUid (R := R) e)] nUid = .int e.1 ∧
    lookup [([nUid, nUnit], encUid (R := R) e)] nUnit = .text e.2 := by
  have h := lookup_all (R := R) (names := [nUid, nUnit]) (row := encUid e) (by decide +kernel) rfl
  unfold encUid at h ⊢
  simp only [List.map_cons, List.map_nil, List.cons.injEq] at h
  exact ⟨h.1, h.2.1⟩

section
variable {sh : Shape} {P : Payload R α} (hP : Fits sh P)
include hP

/-- The names of the columns of the table with the entries. -/
def rowNames (sh : Shape) : List Str := nId :: nUid :: (sh.vals ++ [nTime])

omit hP in
theorem names_rowCols (rows : List (Record R)) : Tab.names ⟨rowCols sh, rows⟩ = rowNames sh := by
  simp [Tab.names, rowCols, rowNames, Function.comp_def]

theorem lookup_row (r : Row α) :
    lookup [(rowNames sh, encRow P r)] nId = .int r.id ∧
    lookup [(rowNames sh, encRow P r)] nUid = .int r.uid ∧
    sh.vals.map (lookup [(rowNames sh, encRow P r)]) = P.enc r.val ∧
    lookup [(rowNames sh, encRow P r)] nTime = .int r.ts := by
  have h := lookup_all (R := R) (names := rowNames sh) (row := encRow P r) sh.nodup (by
    simp [rowNames, encRow, hP.length])
  generalize lookup [(rowNames sh, encRow P r)] = f at h ⊢
  unfold rowNames encRow at h
  simp only [List.map_cons, List.map_append, List.map_nil, List.cons.injEq] at h
  obtain ⟨h1, h2, h3⟩ := h
  have h4 := List.append_inj h3 (by simp [hP.length])
  refine ⟨h1, h2, h4.1, ?_⟩
  simpa using h4.2

end

section
variable {sh : Shape} {P : Payload R α} {v : Nat} {idx : List (Str × Str × List Str)} {t : Table α}

theorem find_uids : (ofTable sh P v idx t).find nUids = some ⟨uidCols, t.uids.map encUid⟩ := by
  simp [Db.find, ofTable]

theorem find_tab : (ofTable sh P v idx t).find sh.tab = some ⟨rowCols sh, t.rows.map (encRow P)⟩ := by
  simp [Db.find, ofTable, Ne.symm sh.other]

theorem table_uids : (ofTable sh P v idx t).table nUids = ⟨uidCols, t.uids.map encUid⟩ := by
  rw [Db.table, find_uids]; rfl

theorem table_tab : (ofTable sh P v idx t).table sh.tab = ⟨rowCols sh, t.rows.map (encRow P)⟩ := by
  rw [Db.table, find_tab]; rfl

theorem set_uids (us : List (Nat × Str)) :
    (ofTable sh P v idx t).setRows nUids (us.map encUid) = ofTable sh P v idx { t with uids := us } := by
  simp [Db.setRows, ofTable, sh.other]

theorem set_rows (rows : List (Row α)) :
    (ofTable sh P v idx t).setRows sh.tab (rows.map (encRow P)) = ofTable sh P v idx { t with rows := rows } := by
  simp [Db.setRows, ofTable, Ne.symm sh.other]

theorem names_uidCols (rows : List (Record R)) : Tab.names ⟨uidCols, rows⟩ = [nUid, nUnit] := rfl

theorem filter_map_enc {β : Type} (f : β → Record R) (p : Record R → Bool) (l : List β) :
    (l.map f).filter p = (l.filter (fun x => p (f x))).map f := by
  induction l with
  | nil => rfl
  | cons x l ih => by_cases h : p (f x) <;> simp [h, ih]

/-- `SELECT unit_uid FROM uids WHERE unit_id = $1`. -/
theorem eval_uidSel (S : Scan R) (h : Wf t) (u : Str) (ps : List (Val R)) (sc : List (List Str × Record R)) :
    Select.eval S (ofTable sh P v idx t) (.text u :: ps) uidSel sc =
      match t.uidOf u with
      | none => []
      | some k => [[.int k]] := by
  have e : (t.uids.map (encUid (R := R))).filter (fun r =>
      Cond.eval S (ofTable sh P v idx t) (.text u :: ps) (.eq (.col nUnit) (.param 1)) (([nUid, nUnit], r) :: sc) = some true) =
      (t.uids.filter (fun e => e.2 = u)).map encUid := by
    rw [filter_map_enc]
    congr 1
    apply List.filter_congr
    intro x _
    have hl : lookup (([nUid, nUnit], encUid x) :: sc) nUnit = (.text x.2 : Val R) := by
      have h1 := (lookup_uid (R := R) x).2
      unfold lookup at h1 ⊢
      rw [if_pos (by simp)] at h1 ⊢
      exact h1
    have he : Cond.eval S (ofTable sh P v idx t) (.text u :: ps) (.eq (.col nUnit) (.param 1))
        (([nUid, nUnit], encUid x) :: sc) = some (decide (x.2 = u)) := by
      rw [Cond.eval, Expr.eval, Expr.eval, hl]
      simp [Val.eq]
    simp [he]
  unfold uidSel
  rw [Select.eval, table_uids, names_uidCols]
  simp only [e]
  simp only [sortRows, Expr.eval, window]
  have hn : (t.uids.filter (fun e => e.2 = u)) = match t.uidOf u with | none => [] | some k => [(k, u)] := by
    cases hk : t.uidOf u with
    | none =>
      rw [List.filter_eq_nil_iff]
      intro e he
      have := (Table.uidOf_none.mp hk) e.1
      intro h2
      simp only [decide_eq_true_eq] at h2
      subst h2
      exact this he
    | some k =>
      have hm := (Table.uidOf_some h).mp hk
      have hnd : (t.uids.filter (fun e => e.2 = u)).Nodup :=
        (List.Nodup.of_map _ h.unitNodup).filter _
      have hall : ∀ e ∈ t.uids.filter (fun e => e.2 = u), e = (k, u) := by
        intro e he
        rw [List.mem_filter, decide_eq_true_eq] at he
        exact List.inj_on_of_nodup_map h.unitNodup he.1 hm he.2
      have hin : (k, u) ∈ t.uids.filter (fun e => e.2 = u) := by simp [hm]
      show _ = [(k, u)]
      cases hf : t.uids.filter (fun e => e.2 = u) with
      | nil => rw [hf] at hin; simp at hin
      | cons a l =>
        rw [hf] at hnd hall
        have ha := hall a (by simp)
        cases l with
        | nil => rw [ha]
        | cons b l =>
          have hb := hall b (by simp)
          rw [ha, hb] at hnd
          simp at hnd
  rw [hn]
  cases hk : t.uidOf u with
  | none =>
    have := (S.perm (.mk [nUid] nUids (.eq (.col nUnit) (.param 1)) none (.num (-1)) (.num 0)) []).eq_nil
    simp [this]
  | some k =>
    have hp := S.perm (.mk [nUid] nUids (.eq (.col nUnit) (.param 1)) none (.num (-1)) (.num 0)) [encUid (R := R) (k, u)]
    simp only [List.map_cons, List.map_nil]
    rw [List.perm_singleton.mp hp]
    simp [(lookup_uid (R := R) (k, u)).1]

theorem eval_uidSub (S : Scan R) (h : Wf t) (u : Str) (ps : List (Val R)) (sc : List (List Str × Record R)) :
    Expr.eval S (ofTable sh P v idx t) (.text u :: ps) (.sub uidSel) sc =
      match t.uidOf u with
      | none => .null
      | some k => .int k := by
  rw [Expr.eval, eval_uidSel S h]
  cases t.uidOf u <;> rfl

/-! ### New keys -/

theorem asInt_int (i : Int) : (.int i : Val R).asInt = i := rfl

theorem nextKey_ints (ks : List Nat) :
    nextKey (ks.map (fun k : Nat => (.int k : Val R))) = (Table.nextKey ks : Nat) := by
  have key : ∀ (l : List Nat) (a : Nat),
      (l.map (fun k : Nat => (.int k : Val R))).foldl
        (fun m v => max m v.asInt) (a : Int) = (l.foldl Nat.max a : Nat) := by
    intro l
    induction l with
    | nil => intro a; rfl
    | cons b l ih =>
      intro a
      simp only [List.map_cons, List.foldl_cons, asInt_int]
      have : max (a : Int) (b : Int) = ((Nat.max a b : Nat) : Int) := by
        show _ = ((max a b : Nat) : Int)
        omega
      rw [this, ih]
  cases ks with
  | nil => rfl
  | cons k ks =>
    simp only [List.map_cons, nextKey, Table.nextKey, List.foldl_cons, asInt_int]
    rw [key]
    have : Nat.max 0 k = k := Nat.zero_max k
    rw [this]
    rfl

theorem column_uid : Tab.column ⟨uidCols, t.uids.map (encUid (R := R))⟩ nUid = t.uids.map (fun e => .int e.1) := by
  simp [Tab.column, names_uidCols, (lookup_uid (R := R) _).1]

theorem column_unit : Tab.column ⟨uidCols, t.uids.map (encUid (R := R))⟩ nUnit = t.uids.map (fun e => .text e.2) := by
  simp [Tab.column, names_uidCols, (lookup_uid (R := R) _).2]

theorem column_id (hP : Fits sh P) :
    Tab.column ⟨rowCols sh, t.rows.map (encRow P)⟩ nId = t.rows.map (fun r => .int r.id) := by
  simp [Tab.column, names_rowCols, (lookup_row hP _).1]

theorem int_inj_mem {l : List Nat} {k : Nat} (h : (.int k : Val R) ∈ l.map (fun k : Nat => (.int k : Val R))) : k ∈ l := by
  obtain ⟨j, hj, e⟩ := List.mem_map.mp h
  injection e with e
  have : j = k := by exact_mod_cast e
  exact this ▸ hj

/-! ### `INSERT OR IGNORE INTO uids` -/

theorem known_intern : internStmt.known (ofTable sh P v idx t) = true := by
  simp [internStmt, Stmt.known, find_uids, table_uids, names_uidCols, Expr.known]

theorem execute_intern {T : Texts} {trim : Cond} (hT : Reads sh T trim) (S : Scan R) (u : Str) :
    execute S (ofTable sh P v idx t) T.intern [.text u] = some (ofTable sh P v idx (t.intern u)) := by
  unfold execute prepare
  rw [hT.intern]
  simp only [known_intern, if_true, List.length_singleton]
  unfold internStmt exec
  simp only [table_uids]
  have hr : newRow ⟨uidCols, t.uids.map (encUid (R := R))⟩ [nUnit]
      ([Expr.param 1].map (fun e => Expr.eval S (ofTable sh P v idx t) [.text u] e [])) =
      encUid (Table.nextKey (t.uids.map Prod.fst), u) := by
    have hne : nUid ∉ [nUnit] := by decide +kernel
    simp only [newRow, uidCols, List.map_cons, List.map_nil, Expr.eval]
    have h1 : lookup [([nUnit], [((([(.text u : Val R)])[1 - 1]?).getD .null)])] nUid = .null := by
      simp only [lookup, if_neg hne]
    have h2 : lookup [([nUnit], [((([(.text u : Val R)])[1 - 1]?).getD .null)])] nUnit = .text u := by
      simp [lookup]
    rw [h1, h2]
    have h3 := column_uid (R := R) (t := t)
    unfold uidCols at h3
    rw [h3]
    have h4 : t.uids.map (fun e => (.int e.1 : Val R)) = (t.uids.map Prod.fst).map (fun k : Nat => (.int k : Val R)) := by
      simp
    rw [h4, nextKey_ints]
    simp [encUid]
  simp only [hr]
  have hf : (uidCols.zip (encUid (R := R) (Table.nextKey (t.uids.map Prod.fst), u))).all (fun (c, v) => c.fits v) = true := by
    simp [uidCols, encUid, Col.fits]
  have hfresh : (.int (Table.nextKey (t.uids.map Prod.fst) : Nat) : Val R) ∉
      Tab.column ⟨uidCols, t.uids.map (encUid (R := R))⟩ nUid := by
    rw [column_uid]
    intro hm
    have h4 : t.uids.map (fun e => (.int e.1 : Val R)) = (t.uids.map Prod.fst).map (fun k : Nat => (.int k : Val R)) := by
      simp
    rw [h4] at hm
    exact Table.nextKey_fresh _ (int_inj_mem hm)
  have ha : allowed ⟨uidCols, t.uids.map (encUid (R := R))⟩ (encUid (Table.nextKey (t.uids.map Prod.fst), u)) =
      (t.uidOf u).isNone := by
    have hu : (.text u : Val R) ∈ Tab.column ⟨uidCols, t.uids.map (encUid (R := R))⟩ nUnit ↔ ∃ k, (k, u) ∈ t.uids := by
      rw [column_unit, List.mem_map]
      constructor
      · rintro ⟨e, he, h⟩
        injection h with h
        subst h
        exact ⟨e.1, he⟩
      · rintro ⟨k, hk⟩
        exact ⟨(k, u), hk, rfl⟩
    have e : allowed ⟨uidCols, t.uids.map (encUid (R := R))⟩ (encUid (Table.nextKey (t.uids.map Prod.fst), u)) =
        decide ((.text u : Val R) ∉ Tab.column ⟨uidCols, t.uids.map (encUid (R := R))⟩ nUnit) := by
      have hc : ∀ tab : Tab R, tab.cols = uidCols → (.int (Table.nextKey (t.uids.map Prod.fst) : Nat) : Val R) ∉ tab.column nUid →
          allowed tab (encUid (Table.nextKey (t.uids.map Prod.fst), u)) = decide ((.text u : Val R) ∉ tab.column nUnit) := by
        intro tab hcols hk
        unfold allowed
        rw [hcols]
        simp [uidCols, encUid, hk]
      exact hc _ rfl hfresh
    rw [e]
    cases hk : t.uidOf u with
    | none =>
      have := Table.uidOf_none.mp hk
      simp only [Option.isNone_none, decide_eq_true_eq]
      rw [hu]
      rintro ⟨k, h⟩
      exact this k h
    | some k =>
      simp only [Option.isNone_some, decide_eq_false_iff_not, not_not]
      rw [hu]
      have : t.uidOf u ≠ none := by simp [hk]
      rw [ne_eq, Table.uidOf_none] at this
      push Not at this
      exact this
  have hrf : refers (ofTable sh P v idx t) ⟨uidCols, t.uids.map (encUid (R := R))⟩
      (encUid (Table.nextKey (t.uids.map Prod.fst), u)) = true := by
    simp [refers, uidCols, encUid]
  rw [if_pos hf, ha]
  unfold Table.intern
  cases hk : t.uidOf u with
  | none =>
    simp only [Option.isNone_none, if_true, hrf, Option.isSome_none, Bool.false_eq_true, if_false]
    have := set_uids (sh := sh) (P := P) (v := v) (idx := idx) (t := t) (t.uids ++ [(Table.nextKey (t.uids.map Prod.fst), u)])
    rw [List.map_append] at this
    exact congrArg some this
  | some k => simp


/-! ### Rows in some order -/

/-- The entry in a row. -/
def decRow (P : Payload R α) : Record R → Option (Row α)
  | .int i :: .int k :: rest =>
    match P.dec rest.dropLast, rest.getLast? with
    | some x, some (.int ts) => some ⟨i.toNat, k.toNat, x, ts⟩
    | _, _ => none
  | _ => none

theorem decRow_encRow (hP : Fits sh P) (r : Row α) : decRow P (encRow P r) = some r := by
  simp [decRow, encRow, hP.dec]

theorem filterMap_dec (hP : Fits sh P) (l : List (Row α)) : (l.map (encRow P)).filterMap (decRow P) = l := by
  induction l with
  | nil => rfl
  | cons r l ih => simp [decRow_encRow hP, ih]

theorem map_filterMap_dec (hP : Fits sh P) {l : List (Record R)} {m : List (Row α)} (h : l.Perm (m.map (encRow P))) :
    (l.filterMap (decRow P)).map (encRow P) = l := by
  have : ∀ x ∈ l, ∃ r, x = encRow P r := by
    intro x hx
    obtain ⟨r, _, e⟩ := List.mem_map.mp (h.mem_iff.mp hx)
    exact ⟨r, e.symm⟩
  clear h
  induction l with
  | nil => rfl
  | cons x l ih =>
    obtain ⟨r, e⟩ := this x (by simp)
    rw [e, List.filterMap_cons, decRow_encRow hP]
    simp [ih (fun y hy => this y (by simp [hy]))]

/-- The order in which the rows of a query with `ORDER BY timestamp DESC` come. -/
def sortOf (hP : Fits sh P) (S : Scan R) (q : Select) : SortDesc α where
  sort l := ((S.scan q (l.map (encRow P))).filterMap (decRow P)).insertionSort (fun a b => b.ts ≤ a.ts)
  perm l := by
    refine (List.perm_insertionSort _ _).trans ?_
    have := (S.perm q (l.map (encRow P))).filterMap (decRow P)
    rwa [filterMap_dec hP] at this
  sorted l := by
    have : Std.Total (fun a b : Row α => b.ts ≤ a.ts) := ⟨fun a b => by omega⟩
    have : IsTrans (Row α) (fun a b : Row α => b.ts ≤ a.ts) := ⟨fun a b c h1 h2 => by omega⟩
    exact List.pairwise_insertionSort _ _

theorem sortRows_eq (hP : Fits sh P) (S : Scan R) (q : Select) (l : List (Row α)) :
    sortRows (rowNames sh) (some (nTime, true)) (S.scan q (l.map (encRow P))) =
      ((sortOf hP S q).sort l).map (encRow P) := by
  have e := map_filterMap_dec hP (S.perm q (l.map (encRow P)))
  unfold sortRows sortOf
  simp only
  conv_lhs => rw [← e]
  symm
  apply List.map_insertionSort
  intro a _ b _
  rw [(lookup_row hP a).2.2.2, (lookup_row hP b).2.2.2]
  simp [Val.le]

theorem lookup_inner {names : List Str} {r : Record R} {n : Str} (h : n ∈ names) (sc : List (List Str × Record R)) :
    lookup ((names, r) :: sc) n = lookup [(names, r)] n := by
  simp [lookup, h]

theorem mem_names : nId ∈ rowNames sh ∧ nUid ∈ rowNames sh ∧ nTime ∈ rowNames sh ∧ ∀ n ∈ sh.vals, n ∈ rowNames sh := by
  simp +contextual [rowNames]

/-- `LIMIT` and `OFFSET` on rows. -/
def cut (n : Option Nat) (k : Nat) (l : List (Row α)) : List (Row α) :=
  match n with
  | none => l.drop k
  | some n => (l.drop k).take n

/-- The values of `LIMIT` and `OFFSET`. -/
def IsCut (l o : Val R) (n : Option Nat) (k : Nat) : Prop :=
  o = .int k ∧ match n with | none => l = .int (-1) | some n => l = .int n

theorem window_map {l o : Val R} {n : Option Nat} {k : Nat} (h : IsCut l o n k) (m : List (Row α)) :
    window l o (m.map (encRow P)) = (cut n k m).map (encRow P) := by
  obtain ⟨ho, h⟩ := h
  cases n with
  | none =>
    simp only at h
    subst h ho
    simp [window, cut]
  | some n =>
    simp only at h
    subst h ho
    simp [window, cut]

/-- A query for rows, newest first. -/
theorem eval_rows (hP : Fits sh P) (S : Scan R) {ps : List (Val R)} {sc : List (List Str × Record R)}
    {cols : List Str} {c : Cond} {l f : Expr} {g : Row α → Bool}
    (hg : ∀ r ∈ t.rows,
      Cond.eval S (ofTable sh P v idx t) ps c ((rowNames sh, encRow P r) :: sc) = some true ↔ g r = true)
    {n : Option Nat} {k : Nat}
    (hc : IsCut (Expr.eval S (ofTable sh P v idx t) ps l sc) (Expr.eval S (ofTable sh P v idx t) ps f sc) n k) :
    Select.eval S (ofTable sh P v idx t) ps (.mk cols sh.tab c (some (nTime, true)) l f) sc =
      (cut n k ((sortOf hP S (.mk cols sh.tab c (some (nTime, true)) l f)).sort (t.rows.filter g))).map
        (fun r => cols.map (lookup [(rowNames sh, encRow P r)])) := by
  rw [Select.eval]
  simp only [table_tab, names_rowCols]
  have e : (t.rows.map (encRow P)).filter (fun r =>
      Cond.eval S (ofTable sh P v idx t) ps c ((rowNames sh, r) :: sc) = some true) =
      (t.rows.filter g).map (encRow P) := by
    rw [filter_map_enc]
    congr 1
    apply List.filter_congr
    intro x hx
    simp [hg x hx]
  rw [e, sortRows_eq hP, window_map hc, List.map_map]
  rfl

/-- `DELETE` of some rows. -/
theorem exec_delete (S : Scan R) {ps : List (Val R)} {c : Cond} {g : Row α → Bool}
    (hg : ∀ r ∈ t.rows, Cond.eval S (ofTable sh P v idx t) ps c [(rowNames sh, encRow P r)] = some (g r)) :
    exec S (ofTable sh P v idx t) ps (.delete sh.tab c) =
      some (ofTable sh P v idx { t with rows := t.rows.filter (fun r => !g r) }) := by
  unfold exec
  simp only [table_tab, names_rowCols]
  rw [if_pos]
  · rw [filter_map_enc, set_rows]
    congr 3
    apply List.filter_congr
    intro x hx
    simp [hg x hx]
  · rw [List.all_eq_true]
    intro r _
    simp [unreferenced, ofTable, uidCols, rowCols, Ne.symm sh.other]

/-! ### Conditions -/

theorem eval_uid_eq (hP : Fits sh P) (S : Scan R) {db : Db R} {ps : List (Val R)} {e : Expr} {r : Row α}
    {sc : List (List Str × Record R)} {k : Nat}
    (he : Expr.eval S db ps e ((rowNames sh, encRow P r) :: sc) = .int k) :
    Cond.eval S db ps (.eq (.col nUid) e) ((rowNames sh, encRow P r) :: sc) = some (decide (r.uid = k)) := by
  rw [Cond.eval, Expr.eval, he, lookup_inner mem_names.2.1, (lookup_row hP r).2.1]
  simp [Val.eq]

theorem isIn_ints (i : Int) (l : List Int) : (.int i : Val R).isIn (l.map .int) = some (l.contains i) := by
  unfold Val.isIn
  by_cases h : l = []
  · simp [h]
  · simp only [List.map_eq_nil_iff, h, if_false]
    have h1 : (.int i : Val R) ≠ .null := by simp
    have h2 : (.null : Val R) ∉ l.map .int := by simp
    have h3 : ((.int i : Val R) ∈ l.map .int) ↔ i ∈ l := by simp
    rw [if_neg h1]
    by_cases hi : i ∈ l
    · rw [if_pos (h3.mpr hi)]; simp [hi]
    · rw [if_neg (fun h => hi (h3.mp h)), if_neg h2]; simp [hi]

theorem param_one (S : Scan R) (db : Db R) (x : Val R) (ps : List (Val R)) (sc : List (List Str × Record R)) :
    Expr.eval S db (x :: ps) (.param 1) sc = x := by
  rw [Expr.eval]; rfl

theorem param_two (S : Scan R) (db : Db R) (x y : Val R) (ps : List (Val R)) (sc : List (List Str × Record R)) :
    Expr.eval S db (x :: y :: ps) (.param 2) sc = y := by
  rw [Expr.eval]; rfl

/-- `SELECT timestamp … WHERE unit_uid = $1 ORDER BY timestamp DESC LIMIT ?2`. -/
theorem eval_timeSel (hP : Fits sh P) (S : Scan R) (k n : Nat) (sc : List (List Str × Record R)) :
    (Select.eval S (ofTable sh P v idx t) [.int k, .int n] (timeSel sh) sc).map (fun r => r.headD .null) =
      ((((sortOf hP S (timeSel sh)).sort (t.rows.filter (fun r => r.uid = k))).take n).map Row.ts).map .int := by
  unfold timeSel
  rw [eval_rows hP S (g := fun r => decide (r.uid = k)) (n := some n) (k := 0)]
  · simp [cut, Function.comp_def, (lookup_row hP _).2.2.2]
  · intro r _
    rw [eval_uid_eq hP S (param_one ..)]; simp
  · exact ⟨by rw [Expr.eval]; rfl, by simp only [param_two]⟩

/-- `SELECT id … ORDER BY timestamp DESC LIMIT -1 OFFSET …`. -/
theorem eval_idSel (hP : Fits sh P) (S : Scan R) {ps : List (Val R)} {e o : Expr} {k n : Nat}
    {sc : List (List Str × Record R)}
    (he : ∀ r ∈ t.rows, Expr.eval S (ofTable sh P v idx t) ps e ((rowNames sh, encRow P r) :: sc) = .int k)
    (ho : Expr.eval S (ofTable sh P v idx t) ps o sc = .int n) :
    (Select.eval S (ofTable sh P v idx t) ps (idSel sh e o) sc).map (fun r => r.headD .null) =
      ((((sortOf hP S (idSel sh e o)).sort (t.rows.filter (fun r => r.uid = k))).drop n).map
        (fun r => (r.id : Int))).map .int := by
  unfold idSel
  rw [eval_rows hP S (g := fun r => decide (r.uid = k)) (n := none) (k := n)]
  · simp [cut, Function.comp_def, (lookup_row hP _).1]
  · intro r hr
    rw [eval_uid_eq hP S (he r hr)]; simp
  · exact ⟨ho, by simp only [Expr.eval]⟩

theorem contains_cast (l : List Nat) (i : Nat) : (l.map (fun k : Nat => (k : Int))).contains (i : Int) = l.contains i := by
  rw [Bool.eq_iff_iff, List.contains_iff_mem, List.contains_iff_mem]
  simp

end

end Trane.Sql
