import Verif.Sql.Steps
import Verif.Store.RewardsProps

/-!
# What each call does to the file of a table
-/

set_option linter.unusedSectionVars false

namespace Trane.Sql
open Trane.Store (Str LogOp Entry Reward Row Table SortDesc likePrefix)
open Trane.Store.Table (Wf)

variable {R : Type} [DecidableEq R] {α : Type}
variable {sh : Shape} {P : Payload R α} {v : Nat} {idx : List (Str × Str × List Str)} {t : Table α}
variable {T : Texts} {trim : Cond}

/-! ### One statement -/

theorem known_uidSel (sc : List Str) : Select.known (ofTable sh P v idx t) uidSel sc = true := by
  simp [uidSel, Select.known, find_uids, table_uids, names_uidCols, Cond.known, Expr.known]

theorem known_uidSub (sc : List Str) : Expr.known (ofTable sh P v idx t) (.sub uidSel) sc = true := by
  have h := known_uidSel (sh := sh) (P := P) (v := v) (idx := idx) (t := t) sc
  unfold uidSel at h ⊢
  simp [Expr.known, h]

/-- `INSERT INTO … VALUES ((SELECT unit_uid …), …)`. -/
theorem execute_insert (hT : Reads sh T trim) (hP : Fits sh P) (S : Scan R) (h : Wf t) (e : Entry α) :
    execute S (ofTable sh P v idx t) T.insert (.text e.unit :: P.enc e.val ++ [.int e.ts]) =
      (t.insert e).map (ofTable sh P v idx) := by
  unfold execute prepare
  rw [hT.insert]
  have hk : (insertStmt sh).known (ofTable sh P v idx t) = true := by
    simp only [insertStmt, Stmt.known, find_tab, table_tab, names_rowCols, Option.isSome_some, Bool.true_and,
      Bool.and_eq_true, List.all_eq_true, decide_eq_true_eq, List.mem_cons, List.mem_append, List.mem_map]
    refine ⟨⟨?_, by simp⟩, ?_⟩
    · rintro c (rfl | hc | rfl | hc)
      · exact mem_names.2.1
      · exact mem_names.2.2.2 c hc
      · exact mem_names.2.2.1
      · simp at hc
    · rintro c (rfl | ⟨i, _, rfl⟩)
      · exact known_uidSub _
      · simp [Expr.known]
  simp only [hk, if_true]
  rw [if_pos (by simp [hP.length])]
  unfold insertStmt exec
  simp only [table_tab]
  have hps : (Expr.sub uidSel :: (List.range (sh.vals.length + 1)).map (fun i => Expr.param (i + 2))).map
      (fun x => Expr.eval S (ofTable sh P v idx t) (.text e.unit :: P.enc e.val ++ [.int e.ts]) x []) =
      (match t.uidOf e.unit with | none => .null | some k => .int k) :: (P.enc e.val ++ [.int e.ts]) := by
    rw [List.map_cons, List.cons_append, eval_uidSub S h]
    congr 1
    apply List.ext_getElem
    · simp [hP.length]
    · intro i h1 h2
      simp only [List.length_append, List.length_singleton] at h2
      have : i + 2 - 1 = i + 1 := by omega
      simp only [List.map_map, List.getElem_map, Function.comp, List.getElem_range, Expr.eval, this,
        List.getElem?_cons_succ]
      rw [List.getElem?_eq_getElem (by simpa using h2)]
      rfl
  rw [hps]
  have hn : nId ∉ nUid :: (sh.vals ++ [nTime]) := (List.nodup_cons.mp sh.nodup).1
  have hnd : (nUid :: (sh.vals ++ [nTime])).Nodup := (List.nodup_cons.mp sh.nodup).2
  have hrow : ∀ x : Val R, newRow ⟨rowCols sh, t.rows.map (encRow P)⟩ (nUid :: (sh.vals ++ [nTime]))
      (x :: (P.enc e.val ++ [.int e.ts])) =
      .int (Table.nextKey (t.rows.map Row.id) : Nat) :: x :: (P.enc e.val ++ [.int e.ts]) := by
    intro x
    have hl := lookup_all (R := R) (names := nUid :: (sh.vals ++ [nTime])) (row := x :: (P.enc e.val ++ [.int e.ts])) hnd
      (by simp [hP.length])
    have hi : lookup [(nUid :: (sh.vals ++ [nTime]), x :: (P.enc e.val ++ [.int e.ts]))] nId = .null := by
      simp only [lookup, if_neg hn]
    have hc := column_id (t := t) hP
    unfold newRow
    simp only
    rw [show rowCols sh = { name := nId, ty := .integer, key := true } :: ((rowCols sh).tail) from rfl, List.map_cons]
    congr 1
    · simp only [hi, and_self, if_true]
      rw [show ({ name := nId, ty := .integer, key := true } :: ((rowCols sh).tail)) = rowCols sh from rfl, hc]
      have h4 : t.rows.map (fun r => (.int r.id : Val R)) = (t.rows.map Row.id).map (fun k : Nat => (.int k : Val R)) := by
        simp
      rw [h4, nextKey_ints]
    · refine Eq.trans ?_ hl
      have e2 : (rowCols sh).tail.map Col.name = nUid :: (sh.vals ++ [nTime]) := by
        simp [rowCols, Function.comp_def]
      generalize hL : lookup [(nUid :: (sh.vals ++ [nTime]), x :: (P.enc e.val ++ [.int e.ts]))] = L
      rw [← e2, List.map_map]
      apply List.map_congr_left
      intro c hc
      have : c.key = false := by
        simp only [rowCols, List.tail_cons, List.mem_cons, List.mem_append, List.mem_map] at hc
        rcases hc with rfl | ⟨n, _, rfl⟩ | rfl | hc
        · rfl
        · rfl
        · rfl
        · simp at hc
      simp only [Function.comp, this, Bool.false_eq_true, false_and, if_false]
  rw [hrow]
  have hreal := hP.real e.val
  have hlen := hP.length e.val
  have hzip : ∀ (f : Col × Val R → Bool), (∀ n x, f ({ name := n, ty := .real }, .real x) = true) →
      ((sh.vals.map (fun n => ({ name := n, ty := .real } : Col))).zip (P.enc e.val)).all f = true := by
    intro f hf
    rw [List.all_eq_true]
    rintro ⟨c, x⟩ hx
    have h1 := (List.of_mem_zip hx).1
    obtain ⟨n, _, rfl⟩ := List.mem_map.mp h1
    obtain ⟨y, rfl⟩ := hreal x (List.of_mem_zip hx).2
    exact hf n y
  have hall : ∀ (f : Col × Val R → Bool) (a b : Val R), (∀ n x, f ({ name := n, ty := .real }, .real x) = true) →
      ((rowCols sh).zip (a :: b :: (P.enc e.val ++ [.int e.ts]))).all f =
        (f ({ name := nId, ty := .integer, key := true }, a) &&
          (f ({ name := nUid, ty := .integer, notNull := true, refs := some (nUids, nUid) }, b) &&
            f ({ name := nTime, ty := .integer }, .int e.ts))) := by
    intro f a b hf
    unfold rowCols
    rw [List.zip_cons_cons, List.zip_cons_cons, List.zip_append (by simp [hlen])]
    simp [hzip f hf]
  unfold Table.insert
  cases hu : t.uidOf e.unit with
  | none =>
    simp only [allowed]
    rw [hall _ _ _ (by intro n x; simp [Col.fits]), hall _ _ _ (by intro n x; simp)]
    simp [Col.fits]
  | some k =>
    have hm := (Table.uidOf_some h).mp hu
    have hfresh : (.int (Table.nextKey (t.rows.map Row.id) : Nat) : Val R) ∉
        Tab.column ⟨rowCols sh, t.rows.map (encRow P)⟩ nId := by
      rw [column_id hP]
      intro hm
      have h4 : t.rows.map (fun r => (.int r.id : Val R)) = (t.rows.map Row.id).map (fun k : Nat => (.int k : Val R)) := by
        simp
      rw [h4] at hm
      exact Table.nextKey_fresh _ (int_inj_mem hm)
    have href : (.int k : Val R) ∈ Tab.column ((ofTable sh P v idx t).table nUids) nUid := by
      rw [table_uids, column_uid]
      exact List.mem_map.mpr ⟨(k, e.unit), hm, rfl⟩
    have hF : ((rowCols sh).zip (.int (Table.nextKey (t.rows.map Row.id) : Nat) :: .int k ::
        (P.enc e.val ++ [.int e.ts]))).all (fun (c, v) => c.fits v) = true := by
      rw [hall _ _ _ (by intro n x; simp [Col.fits])]
      simp [Col.fits]
    have hA : allowed ⟨rowCols sh, t.rows.map (encRow P)⟩ (.int (Table.nextKey (t.rows.map Row.id) : Nat) :: .int k ::
        (P.enc e.val ++ [.int e.ts])) = true := by
      unfold allowed
      rw [hall _ _ _ (by intro n x; simp)]
      simp [hfresh]
    have hR : refers (ofTable sh P v idx t) ⟨rowCols sh, t.rows.map (encRow P)⟩
        (.int (Table.nextKey (t.rows.map Row.id) : Nat) :: .int k :: (P.enc e.val ++ [.int e.ts])) = true := by
      unfold refers
      rw [hall _ _ _ (by intro n x; simp)]
      simp [href]
    simp only []
    rw [if_pos hF, if_pos hA, if_pos hR]
    have hs := set_rows (sh := sh) (P := P) (v := v) (idx := idx) (t := t)
      (t.rows ++ [⟨Table.nextKey (t.rows.map Row.id), k, e.val, e.ts⟩])
    rw [List.map_append] at hs
    rw [Option.map_some, ← hs]
    rfl

/-- One entry. -/
theorem insertEntry_eq (hT : Reads sh T trim) (hP : Fits sh P) (S : Scan R) (h : Wf t) (e : Entry α) :
    insertEntry S T P (ofTable sh P v idx t) e = (t.recordOne e).map (ofTable sh P v idx) := by
  unfold insertEntry
  rw [execute_intern hT]
  have hw : Wf (t.intern e.unit) := (Table.intern_spec t e.unit h).1
  rw [Option.bind_some, execute_insert hT hP S hw]
  rfl

/-- A batch. -/
theorem insertAll_eq (hT : Reads sh T trim) (hP : Fits sh P) (S : Scan R) (es : List (Entry α)) : ∀ {t : Table α}, Wf t →
    insertAll S T P (ofTable sh P v idx t) es = (t.record es).map (ofTable sh P v idx) := by
  induction es with
  | nil => intro t h; rfl
  | cons e es ih =>
    intro t h
    rw [insertAll, insertEntry_eq hT hP S h, Table.record]
    obtain ⟨t', h1, h2, _⟩ := Table.recordOne_spec t e h
    rw [h1]
    simp [ih h2]

/-- `DELETE … WHERE unit_uid = $1`. -/
theorem execute_delete (hT : Reads sh T trim) (hP : Fits sh P) (S : Scan R) (k : Nat) :
    execute S (ofTable sh P v idx t) T.delete [.int k] =
      some (ofTable sh P v idx { t with rows := t.rows.filter (fun r => r.uid ≠ k) }) := by
  unfold execute prepare
  rw [hT.delete]
  have hk : (deleteStmt sh).known (ofTable sh P v idx t) = true := by
    simp [deleteStmt, Stmt.known, find_tab, table_tab, names_rowCols, Cond.known, Expr.known, mem_names.2.1]
  simp only [hk, if_true, List.length_singleton]
  unfold deleteStmt
  rw [exec_delete S (g := fun r => decide (r.uid = k))]
  · simp
  · intro r _
    exact eval_uid_eq hP S (param_one ..)

theorem known_param (db : Db R) (i : Nat) (sc : List Str) : Expr.known db (.param i) sc = true := by
  rw [Expr.known]

/-- `DELETE … AND timestamp NOT IN (…)`. -/
theorem execute_trimTime (hT : Reads sh T (trimByTimeCond sh)) (hP : Fits sh P) (S : Scan R) (k n : Nat) :
    execute S (ofTable sh P v idx t) T.trim [.int k, .int n] =
      some (ofTable sh P v idx { t with rows := Table.trimUidByTime (sortOf hP S (timeSel sh)) n k t.rows }) := by
  unfold execute prepare
  rw [hT.trim]
  have hk : (Stmt.delete sh.tab (trimByTimeCond sh)).known (ofTable sh P v idx t) = true := by
    simp [trimByTimeCond, timeSel, Stmt.known, find_tab, table_tab, names_rowCols, Cond.known, Expr.known, mem_names.2.1,
      Select.known, mem_names.2.2.1]
  simp only [hk, if_true, List.length_cons, List.length_nil]
  rw [exec_delete S (g := fun r => decide (r.uid = k) &&
    !((((sortOf hP S (timeSel sh)).sort (t.rows.filter (fun r => r.uid = k))).take n).map Row.ts).contains r.ts)]
  · congr 3
    apply List.filter_congr
    intro r _
    simp
  · intro r _
    unfold trimByTimeCond
    rw [Cond.eval, eval_uid_eq hP S (param_one ..), Cond.eval, Expr.eval, lookup_inner mem_names.2.2.1,
      (lookup_row hP r).2.2.2, eval_timeSel hP, isIn_ints]
    by_cases h1 : r.uid = k
    · rw [decide_eq_true h1]
      cases ((((sortOf hP S (timeSel sh)).sort (t.rows.filter (fun r => r.uid = k))).take n).map Row.ts).contains r.ts <;>
        simp [and3]
    · simp [h1, and3]

/-- Rows whose number is among those of a query. -/
theorem eval_idIn (hP : Fits sh P) (S : Scan R) {db : Db R} {ps : List (Val R)} {q : Select} {r : Row α} {l : List (Row α)}
    (hq : (Select.eval S db ps q [(rowNames sh, encRow P r)]).map (fun r => r.headD .null) =
      (l.map (fun r => (r.id : Int))).map .int) :
    Cond.eval S db ps (.isIn false (.col nId) q) [(rowNames sh, encRow P r)] = some ((l.map Row.id).contains r.id) := by
  rw [Cond.eval, Expr.eval, (lookup_row hP r).1, hq, isIn_ints]
  have := contains_cast (l.map Row.id) r.id
  rw [List.map_map] at this
  simp only [Function.comp_def] at this
  rw [this]
  simp

/-- `DELETE … WHERE id IN (… OFFSET ?2)`. -/
theorem execute_trimId (hT : Reads sh T (trimByIdCond sh)) (hP : Fits sh P) (S : Scan R) (k n : Nat) :
    execute S (ofTable sh P v idx t) T.trim [.int k, .int n] =
      some (ofTable sh P v idx
        { t with rows := Table.trimUidById (sortOf hP S (idSel sh (.param 1) (.param 2))) n k t.rows }) := by
  unfold execute prepare
  rw [hT.trim]
  have hk : (Stmt.delete sh.tab (trimByIdCond sh)).known (ofTable sh P v idx t) = true := by
    simp [trimByIdCond, idSel, Stmt.known, find_tab, table_tab, names_rowCols, Cond.known, Expr.known, mem_names.2.1,
      Select.known, mem_names.2.2.1, mem_names.1]
  simp only [hk, if_true, List.length_cons, List.length_nil]
  rw [exec_delete S (g := fun r => ((((sortOf hP S (idSel sh (.param 1) (.param 2))).sort
    (t.rows.filter (fun r => r.uid = k))).drop n).map Row.id).contains r.id)]
  · rfl
  · intro r _
    unfold trimByIdCond
    exact eval_idIn hP S (eval_idSel hP S (fun r _ => param_one ..) (param_two ..))

/-- `DELETE … OFFSET 20`. -/
theorem execute_truncate {P : Payload ℚ (ℚ × ℚ)} {t : Table (ℚ × ℚ)} (hP : Fits rewardsShape P) (S : Scan ℚ) (h : Wf t)
    (u : Str) :
    execute S (ofTable rewardsShape P v idx t) truncateText [.text u] =
      some (ofTable rewardsShape P v idx
        (Store.Rewards.truncate (sortOf hP S (idSel rewardsShape (.sub uidSel) (.num 20))) t u)) := by
  unfold execute prepare
  rw [truncate_reads]
  generalize rewardsShape = sh at *
  have hk : (Stmt.delete sh.tab (.isIn false (.col nId) (idSel sh (.sub uidSel) (.num 20)))).known
      (ofTable sh P v idx t) = true := by
    simp [idSel, Stmt.known, find_tab, table_tab, names_rowCols, Cond.known, Select.known, mem_names.2.2.1,
      mem_names.1, known_uidSub]
    simp [Expr.known, mem_names.2.1, mem_names.1]
  simp only [hk, if_true, List.length_cons, List.length_nil]
  unfold Store.Rewards.truncate
  cases hu : t.uidOf u with
  | none =>
    rw [exec_delete S (g := fun _ => false)]
    · simp
    · intro r _
      have hz : Select.eval S (ofTable sh P v idx t) [.text u] (idSel sh (.sub uidSel) (.num 20))
          [(rowNames sh, encRow P r)] = [] := by
        unfold idSel
        rw [eval_rows hP S (g := fun _ => false) (n := none) (k := 20)]
        · have : (t.rows.filter (fun _ => false)) = [] := by simp
          rw [this, (List.Perm.eq_nil ((sortOf hP S _).perm []))]
          simp [cut]
        · intro r _
          rw [Cond.eval, eval_uidSub S h, hu]
          simp only [Expr.eval, lookup_inner mem_names.2.1, (lookup_row hP r).2.1]
          simp [Val.eq]
        · exact ⟨by rw [Expr.eval]; rfl, by simp only [Expr.eval]⟩
      rw [Cond.eval, hz]
      simp [Val.isIn]
  | some k =>
    rw [exec_delete S (g := fun r => ((((sortOf hP S (idSel sh (.sub uidSel) (.num 20))).sort
      (t.rows.filter (fun r => r.uid = k))).drop 20).map Row.id).contains r.id)]
    · rfl
    · intro r _
      refine eval_idIn hP S (eval_idSel hP S (fun r _ => ?_) ?_)
      · rw [eval_uidSub S h, hu]
      · rw [Expr.eval]; rfl

theorem execute_vacuum (S : Scan R) (db : Db R) : execute S db ["VACUUM;"] [] = some db := by
  unfold execute prepare
  rw [vacuum_reads]
  simp [Stmt.known, exec]

/-! ### Queries -/

theorem query_eq (S : Scan R) {db : Db R} {text : Text} {q : Select} {n : Nat} {ps : List (Val R)}
    (hp : parse text = some (.select q, n)) (hk : Select.known db q [] = true) (hn : n = ps.length) :
    query S db text ps = some (Select.eval S db ps q []) := by
  unfold query prepare
  rw [hp]
  simp [Stmt.known, hk, hn]

theorem readRow_enc (hP : Fits sh P) (r : Row α) :
    readRow P ((sh.vals ++ [nTime]).map (lookup [(rowNames sh, encRow P r)])) = some (r.val, r.ts) := by
  obtain ⟨_, _, h1, h2⟩ := lookup_row hP r
  rw [List.map_append, h1, List.map_cons, List.map_nil, h2]
  simp [readRow, hP.dec]

theorem mapM_some {β γ : Type} {f : β → Option γ} {g : β → γ} {l : List β} (h : ∀ x ∈ l, f x = some (g x)) :
    l.mapM f = some (l.map g) := by
  induction l with
  | nil => rfl
  | cons x l ih =>
    rw [List.mapM_cons, h x (by simp), ih (fun y hy => h y (by simp [hy]))]
    rfl

/-- `get_scores`, `get_deltas`, `get_rewards`. -/
theorem getEntries_eq (hT : Reads sh T trim) (hP : Fits sh P) (S : Scan R) (h : Wf t) (u : Str) (n : Nat) :
    getEntries S T P (ofTable sh P v idx t) u n = some (t.get (sortOf hP S (getSel sh)) u n) := by
  have hk : Select.known (ofTable sh P v idx t) (getSel sh) [] = true := by
    simp [getSel, find_tab, table_tab, names_rowCols, Cond.known, Select.known, mem_names.2.2.1, known_uidSub]
    simp [Expr.known, mem_names.2.1]
    exact mem_names.2.2.2
  unfold getEntries
  rw [query_eq S hT.get hk rfl]
  have hc : IsCut (Expr.eval S (ofTable sh P v idx t) [.text u, .int n] (.param 2) [])
      (Expr.eval S (ofTable sh P v idx t) [.text u, .int n] (.num 0) []) (some n) 0 :=
    ⟨by rw [Expr.eval]; rfl, by simp only [param_two]⟩
  have hm : ∀ l : List (Row α), (l.map (fun r => (sh.vals ++ [nTime]).map (lookup [(rowNames sh, encRow P r)]))).mapM
      (readRow P) = some (l.map (fun r => (r.val, r.ts))) := by
    intro l
    induction l with
    | nil => rfl
    | cons r l ih =>
      rw [List.map_cons, List.mapM_cons, readRow_enc hP, ih]
      rfl
  unfold Table.get Table.rowsOf
  cases hu : t.uidOf u with
  | none =>
    unfold getSel
    rw [eval_rows hP S (g := fun _ => false) ?_ hc, Option.bind_some, hm]
    · simp [cut]
    · intro r _
      rw [Cond.eval, eval_uidSub S h, hu]
      simp only [Expr.eval, (lookup_row hP r).2.1]
      simp [Val.eq]
  | some k =>
    unfold getSel
    rw [eval_rows hP S (g := fun r => decide (r.uid = k)) ?_ hc, Option.bind_some, hm]
    · simp [cut]
    · intro r _
      rw [eval_uid_eq hP S (by rw [eval_uidSub S h, hu])]
      simp

/-- The numbers of some units, in some order. -/
theorem query_uids (S : Scan R) {text : Text} {c : Cond} {n : Nat} {ps : List (Val R)} {g : Nat × Str → Bool}
    (hp : parse text = some (.select (.mk [nUid] nUids c none (.num (-1)) (.num 0)), n)) (hn : n = ps.length)
    (hk : Cond.known (ofTable sh P v idx t) c [nUid, nUnit] = true)
    (hg : ∀ e ∈ t.uids, Cond.eval S (ofTable sh P v idx t) ps c [([nUid, nUnit], encUid e)] = some true ↔ g e = true) :
    ∃ us : List (Nat × Str), us.Perm (t.uids.filter g) ∧
      (query S (ofTable sh P v idx t) text ps).bind readInts = some (us.map (fun e => (e.1 : Int))) := by
  have hk : Select.known (ofTable sh P v idx t) (.mk [nUid] nUids c none (.num (-1)) (.num 0)) [] = true := by
    simp [find_uids, table_uids, names_uidCols, Select.known, hk, Expr.known]
  rw [query_eq S hp hk hn, Option.bind_some, Select.eval]
  simp only [table_uids, names_uidCols]
  have e : (t.uids.map (encUid (R := R))).filter (fun r =>
      Cond.eval S (ofTable sh P v idx t) ps c [([nUid, nUnit], r)] = some true) = (t.uids.filter g).map encUid := by
    rw [filter_map_enc]
    congr 1
    apply List.filter_congr
    intro x hx
    rw [Bool.eq_iff_iff, decide_eq_true_iff]
    exact hg x hx
  rw [e]
  generalize t.uids.filter g = l
  have hpm := S.perm (.mk [nUid] nUids c none (.num (-1)) (.num 0)) (l.map (encUid (R := R)))
  generalize S.scan (.mk [nUid] nUids c none (.num (-1)) (.num 0)) (l.map (encUid (R := R))) = m at hpm
  obtain ⟨us, hus, rfl⟩ : ∃ us : List (Nat × Str), us.Perm l ∧ us.map encUid = m := by
    let dec : Record R → Option (Nat × Str) := fun r => match r with
      | [.int i, .text s] => some (i.toNat, s)
      | _ => none
    have hdec : ∀ e : Nat × Str, dec (encUid e) = some e := by
      intro e; simp [dec, encUid]
    have h1 : ∀ l : List (Nat × Str), (l.map encUid).filterMap dec = l := by
      intro l
      induction l with
      | nil => rfl
      | cons e l ih => rw [List.map_cons, List.filterMap_cons, hdec]; simp [ih]
    refine ⟨m.filterMap dec, ?_, ?_⟩
    · have := hpm.filterMap dec
      rwa [h1] at this
    · have : ∀ x ∈ m, ∃ e, x = encUid e := by
        intro x hx
        obtain ⟨e, _, h⟩ := List.mem_map.mp (hpm.mem_iff.mp hx)
        exact ⟨e, h.symm⟩
      clear hpm
      induction m with
      | nil => rfl
      | cons x m ih =>
        obtain ⟨e, he⟩ := this x (by simp)
        rw [he, List.filterMap_cons, hdec]
        simp [ih (fun y hy => this y (by simp [hy]))]
  refine ⟨us, hus, ?_⟩
  simp only [sortRows, Expr.eval, window]
  clear hus hpm e
  simp only [List.map_cons, List.map_nil]
  have hz : (Int.toNat 0) = 0 := rfl
  simp only [hz, List.drop_zero, show ((-1 : Int) < 0) from by omega, if_true]
  induction us with
  | nil => rfl
  | cons e us ih =>
    unfold readInts at ih ⊢
    rw [List.map_cons, List.map_cons, List.mapM_cons, ih]
    simp [(lookup_uid (R := R) e).1]

theorem query_all (hT : Reads sh T trim) (S : Scan R) :
    ∃ us : List (Nat × Str), us.Perm t.uids ∧
      (query S (ofTable sh P v idx t) T.uids []).bind readInts = some (us.map (fun e => (e.1 : Int))) := by
  have := query_uids (sh := sh) (P := P) (v := v) (idx := idx) (t := t) S (g := fun _ => true) (ps := []) hT.uids rfl
    (by simp [Cond.known]) (by intro e _; simp [Cond.eval])
  simpa using this

theorem query_like (hT : Reads sh T trim) (S : Scan R) (p : Str) :
    ∃ us : List (Nat × Str), us.Perm (t.uids.filter (fun e => likePrefix p e.2)) ∧
      (query S (ofTable sh P v idx t) T.like [.text (p ++ ['%'])]).bind readInts =
        some (us.map (fun e => (e.1 : Int))) := by
  refine query_uids (sh := sh) (P := P) (v := v) (idx := idx) (t := t) S (g := fun e => likePrefix p e.2)
    (ps := [.text (p ++ ['%'])]) hT.like rfl ?_ ?_
  · simp [Cond.known, Expr.known]
  · intro e _
    rw [Cond.eval, Expr.eval, (lookup_uid (R := R) e).2, param_one]
    simp [Val.like, likePrefix]

/-! ### A statement for each unit -/

theorem forEach_eq (S : Scan R) {text : Text} {ps : Int → List (Val R)} {f : Nat → List (Row α) → List (Row α)}
    (hf : ∀ (t : Table α) (k : Nat), execute S (ofTable sh P v idx t) text (ps k) =
      some (ofTable sh P v idx { t with rows := f k t.rows })) (ks : List Nat) : ∀ (t : Table α),
    forEach S text ps (ofTable sh P v idx t) (ks.map (fun k : Nat => (k : Int))) =
      (ofTable sh P v idx { t with rows := ks.foldl (fun rows k => f k rows) t.rows }, true) := by
  induction ks with
  | nil => intro t; rfl
  | cons k ks ih =>
    intro t
    rw [List.map_cons, forEach, hf t k]
    simp only
    rw [ih]
    rfl

theorem forUids_eq (S : Scan R) {find text : Text} {args : List (Val R)} {ps : Int → List (Val R)}
    {f : Nat → List (Row α) → List (Row α)} {us : List (Nat × Str)}
    (hq : (query S (ofTable sh P v idx t) find args).bind readInts = some (us.map (fun e => (e.1 : Int))))
    (hf : ∀ (t : Table α) (k : Nat), execute S (ofTable sh P v idx t) text (ps k) =
      some (ofTable sh P v idx { t with rows := f k t.rows })) (vacuum : Bool) (stop : Option Nat) :
    forUids S find args text ps vacuum stop (ofTable sh P v idx t) =
      (ofTable sh P v idx { t with rows := ((match stop with
        | none => us.map Prod.fst
        | some k => (us.map Prod.fst).take k).foldl (fun rows k => f k rows) t.rows) }, stop.isNone) := by
  have hu : us.map (fun e => (e.1 : Int)) = (us.map Prod.fst).map (fun k : Nat => (k : Int)) := by simp
  unfold forUids
  rw [hq, hu]
  cases stop with
  | none =>
    simp only
    rw [forEach_eq S hf]
    cases vacuum
    · rfl
    · simp [execute_vacuum]
  | some k =>
    simp only
    rw [← List.map_take, forEach_eq S hf]
    rfl

/-- The order in which units are listed does not matter for their rows. -/
theorem rowsOf_reorder (h : Wf t) {us : List (Nat × Str)} (hp : us.Perm t.uids) :
    Wf { t with uids := us } ∧ ∀ (rows : List (Row α)) (u : Str),
      ({ t with uids := us, rows := rows } : Table α).rowsOf u = ({ t with rows := rows } : Table α).rowsOf u := by
  have hw : Wf { t with uids := us } :=
    ⟨(hp.map _).nodup_iff.mpr h.uidNodup, (hp.map _).nodup_iff.mpr h.unitNodup, h.idNodup,
      fun r hr => (hp.map _).mem_iff.mpr (h.owned r hr)⟩
  refine ⟨hw, fun rows u => ?_⟩
  have : ({ t with uids := us, rows := rows } : Table α).uidOf u = ({ t with rows := rows } : Table α).uidOf u := by
    show ({ t with uids := us } : Table α).uidOf u = t.uidOf u
    cases hu : t.uidOf u with
    | none =>
      rw [Table.uidOf_none] at hu ⊢
      exact fun k hk => hu k (hp.mem_iff.mp hk)
    | some k =>
      rw [Table.uidOf_some h] at hu
      rw [Table.uidOf_some hw]
      exact hp.mem_iff.mpr hu
  unfold Table.rowsOf
  rw [this]

/-- `trim_scores` and `trim_deltas`. -/
theorem trimTime_eq (hT : Reads sh T (trimByTimeCond sh)) (hP : Fits sh P) (S : Scan R) (n : Nat)
    (stop : Option Nat) (vacuum : Bool) :
    ∃ us : List (Nat × Str), us.Perm t.uids ∧ trimAll S T vacuum n stop (ofTable sh P v idx t) =
      (ofTable sh P v idx
        { t with rows := (({ t with uids := us } : Table α).trimByTime (sortOf hP S (timeSel sh)) n stop).rows },
        stop.isNone) := by
  obtain ⟨us, hp, hq⟩ := query_all (sh := sh) (P := P) (v := v) (idx := idx) (t := t) hT S
  exact ⟨us, hp, forUids_eq S hq (fun t k => execute_trimTime hT hP S k n) vacuum stop⟩

/-- `trim_rewards`. -/
theorem trimId_eq (hT : Reads sh T (trimByIdCond sh)) (hP : Fits sh P) (S : Scan R) (n : Nat)
    (stop : Option Nat) (vacuum : Bool) :
    ∃ us : List (Nat × Str), us.Perm t.uids ∧ trimAll S T vacuum n stop (ofTable sh P v idx t) =
      (ofTable sh P v idx
        { t with rows := (({ t with uids := us } : Table α).trimById
          (sortOf hP S (idSel sh (.param 1) (.param 2))) n stop).rows }, stop.isNone) := by
  obtain ⟨us, hp, hq⟩ := query_all (sh := sh) (P := P) (v := v) (idx := idx) (t := t) hT S
  exact ⟨us, hp, forUids_eq S hq (fun t k => execute_trimId hT hP S k n) vacuum stop⟩

/-- `remove_scores_with_prefix` and its like. -/
theorem removeLike_eq (hT : Reads sh T trim) (hP : Fits sh P) (S : Scan R) (p : Str) (stop : Option Nat) :
    ∃ us : List (Nat × Str), us.Perm t.uids ∧ removeLike S T p stop (ofTable sh P v idx t) =
      (ofTable sh P v idx { t with rows := (({ t with uids := us } : Table α).removePrefix p stop).rows },
        stop.isNone) := by
  obtain ⟨us, hp, hq⟩ := query_like (sh := sh) (P := P) (v := v) (idx := idx) (t := t) hT S p
  refine ⟨us ++ t.uids.filter (fun e => !likePrefix p e.2), ?_, ?_⟩
  · exact (hp.append_right _).trans (List.filter_append_perm _ _)
  · unfold removeLike
    rw [forUids_eq S hq (fun t k => execute_delete hT hP S k) true stop]
    have : (us ++ t.uids.filter (fun e => !likePrefix p e.2)).filter (fun e => likePrefix p e.2) = us := by
      rw [List.filter_append, List.filter_filter]
      have h1 : us.filter (fun e => likePrefix p e.2) = us := by
        rw [List.filter_eq_self]
        intro e he
        exact (List.mem_filter.mp (hp.mem_iff.mp he)).2
      have h2 : t.uids.filter (fun e => likePrefix p e.2 && !likePrefix p e.2) = [] := by
        rw [List.filter_eq_nil_iff]
        intro e _
        simp
      rw [h1, h2, List.append_nil]
    unfold Table.removePrefix
    simp only [this]
    cases stop <;> rfl

end Trane.Sql
