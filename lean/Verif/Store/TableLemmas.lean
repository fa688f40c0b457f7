import Verif.Store.Table
import Mathlib.Data.List.Nodup
import Mathlib.Data.List.Perm.Basic
import Mathlib.Data.List.Count
import Mathlib.Order.Basic
import Mathlib.Tactic.Tauto

/-! Helper lemmas about the tables. -/

namespace Trane.Store.Table
variable {α : Type}

theorem foldl_max_ge (ks : List Nat) (m : Nat) :
    m ≤ ks.foldl Nat.max m ∧ ∀ k ∈ ks, k ≤ ks.foldl Nat.max m := by
  induction ks generalizing m with
  | nil => simp
  | cons x ks ih =>
    obtain ⟨h1, h2⟩ := ih (Nat.max m x)
    have hm : m ≤ Nat.max m x := Nat.le_max_left _ _
    have hx : x ≤ Nat.max m x := Nat.le_max_right _ _
    refine ⟨Nat.le_trans hm h1, ?_⟩
    intro k hk
    rcases List.mem_cons.1 hk with rfl | hk
    · exact Nat.le_trans hx h1
    · exact h2 k hk

theorem nextKey_fresh (ks : List Nat) : nextKey ks ∉ ks := by
  intro h
  have := (foldl_max_ge ks 0).2 _ h
  unfold nextKey at this
  omega

/-- Keys and unit ids are unique, row ids are unique, and rows belong to registered units. -/
structure Wf (t : Table α) : Prop where
  uidNodup : (t.uids.map Prod.fst).Nodup
  unitNodup : (t.uids.map Prod.snd).Nodup
  idNodup : (t.rows.map Row.id).Nodup
  owned : ∀ r ∈ t.rows, r.uid ∈ t.uids.map Prod.fst

theorem wf_empty : Wf ({} : Table α) := ⟨by simp, by simp, by simp, by simp⟩

theorem find_snd {l : List (Nat × Str)} {u : Str} {k : Nat} (hn : (l.map Prod.snd).Nodup) :
    (l.find? (fun e => e.2 = u)).map Prod.fst = some k ↔ (k, u) ∈ l := by
  induction l with
  | nil => simp
  | cons e l ih =>
    obtain ⟨a, b⟩ := e
    simp only [List.map_cons, List.nodup_cons, List.mem_map, Prod.exists, exists_eq_right,
      not_exists] at hn
    simp only [List.find?_cons]
    by_cases h : b = u
    · subst h
      simp only [decide_true, Option.map_some, Option.some.injEq, List.mem_cons, Prod.mk.injEq,
        and_true]
      constructor
      · rintro rfl; exact Or.inl rfl
      · rintro (h | h)
        · exact h.symm
        · exact (hn.1 _ h).elim
    · simp only [h, decide_false, ih hn.2, List.mem_cons, Prod.mk.injEq]
      constructor
      · exact Or.inr
      · rintro (h' | h')
        · exact (h h'.2.symm).elim
        · exact h'

theorem uidOf_some {t : Table α} (h : Wf t) {u : Str} {k : Nat} :
    t.uidOf u = some k ↔ (k, u) ∈ t.uids := find_snd h.unitNodup

theorem uidOf_none {t : Table α} {u : Str} : t.uidOf u = none ↔ ∀ k, (k, u) ∉ t.uids := by
  simp only [uidOf, Option.map_eq_none_iff, List.find?_eq_none, decide_eq_true_eq, Prod.forall]
  constructor
  · intro h k hk; exact h k u hk rfl
  · rintro h a b hab rfl; exact h a hab

theorem uid_inj {t : Table α} (h : Wf t) {u v : Str} {k : Nat}
    (h1 : t.uidOf u = some k) (h2 : t.uidOf v = some k) : u = v := by
  rw [uidOf_some h] at h1 h2
  have hn := h.uidNodup
  have := List.inj_on_of_nodup_map hn h1 h2 rfl
  exact (Prod.mk.inj this).2

/-! ### Interning and inserting -/

theorem intern_spec (t : Table α) (u : Str) (h : Wf t) :
    Wf (t.intern u) ∧ (t.intern u).rows = t.rows ∧ (∃ k, (t.intern u).uidOf u = some k) ∧
    (∀ v k, t.uidOf v = some k → (t.intern u).uidOf v = some k) ∧
    (∀ v, t.uidOf v = none → (t.intern u).rowsOf v = []) := by
  unfold intern
  split
  · rename_i hs
    refine ⟨h, rfl, Option.isSome_iff_exists.1 hs, fun v k h => h, ?_⟩
    intro v hv
    simp [rowsOf, hv]
  · rename_i hs
    have hs : t.uidOf u = none := by simpa using hs
    have hf := nextKey_fresh (t.uids.map Prod.fst)
    generalize nextKey (t.uids.map Prod.fst) = k at *
    have hu : ∀ k', (k', u) ∉ t.uids := uidOf_none.1 hs
    have hw : Wf { t with uids := t.uids ++ [(k, u)] } := by
      refine ⟨?_, ?_, h.idNodup, ?_⟩
      · simp only [List.map_append, List.map_cons, List.map_nil]
        rw [List.nodup_append]
        refine ⟨h.uidNodup, by simp, ?_⟩
        intro a ha b hb hab
        simp only [List.mem_singleton] at hb
        subst hb hab
        exact hf ha
      · simp only [List.map_append, List.map_cons, List.map_nil]
        rw [List.nodup_append]
        refine ⟨h.unitNodup, by simp, ?_⟩
        intro a ha b hb hab
        simp only [List.mem_singleton] at hb
        subst hb hab
        obtain ⟨⟨x, y⟩, hm, hxy⟩ := List.mem_map.1 ha
        simp only at hxy; subst hxy
        exact hu x hm
      · intro r hr
        simp only [List.map_append, List.mem_append]
        exact Or.inl (h.owned r hr)
    refine ⟨hw, rfl, ⟨k, ?_⟩, ?_, ?_⟩
    · rw [uidOf_some hw]; simp
    · intro v k' hv
      rw [uidOf_some hw]
      rw [uidOf_some h] at hv
      exact List.mem_append_left _ hv
    · intro v hv
      unfold rowsOf
      split
      · rfl
      · rename_i k' hk'
        rw [uidOf_some hw] at hk'
        simp only [List.mem_append, List.mem_singleton, Prod.mk.injEq] at hk'
        rcases hk' with hk' | ⟨rfl, rfl⟩
        · exact (uidOf_none.1 hv k' hk').elim
        · rw [List.filter_eq_nil_iff]
          intro r hr
          simp only [decide_eq_true_eq]
          rintro rfl
          exact hf (h.owned r hr)

theorem rowsOf_intern (t : Table α) (u v : Str) (h : Wf t) :
    (t.intern u).rowsOf v = t.rowsOf v := by
  obtain ⟨_, h2, _, h4, h5⟩ := intern_spec t u h
  cases hv : t.uidOf v with
  | none => rw [h5 v hv]; simp [rowsOf, hv]
  | some k => simp only [rowsOf, h4 v k hv, hv, h2]

/-- The row written by a successful insert. -/
theorem recordOne_spec (t : Table α) (e : Entry α) (h : Wf t) :
    ∃ t', t.recordOne e = some t' ∧ Wf t' ∧ ∃ i k, (∀ r ∈ t.rows, r.id ≠ i) ∧
      t'.uidOf e.unit = some k ∧
      (∀ u, t'.rowsOf u = t.rowsOf u ++ if e.unit = u then [⟨i, k, e.val, e.ts⟩] else []) := by
  obtain ⟨h1, h2, ⟨k, h3⟩, h4, h5⟩ := intern_spec t e.unit h
  have hr : ∀ v, (t.intern e.unit).rowsOf v = t.rowsOf v := fun v => rowsOf_intern t e.unit v h
  unfold recordOne insert
  rw [h3]
  simp only [Option.some.injEq, exists_eq_left', h2]
  have hfr := nextKey_fresh (t.rows.map Row.id)
  generalize nextKey (t.rows.map Row.id) = i at *
  refine ⟨⟨h1.uidNodup, h1.unitNodup, ?_, ?_⟩, i, k, ?_, h3, ?_⟩
  · simp only [List.map_append, List.map_cons, List.map_nil]
    rw [List.nodup_append]
    refine ⟨h.idNodup, by simp, ?_⟩
    intro a ha b hb hab
    simp only [List.mem_singleton] at hb
    subst hb hab
    exact hfr ha
  · intro r hr'
    simp only [List.mem_append, List.mem_singleton] at hr'
    rcases hr' with hr' | rfl
    · exact h1.owned r (by rw [h2]; exact hr')
    · rw [uidOf_some h1] at h3
      exact List.mem_map.2 ⟨_, h3, rfl⟩
  · intro r hr' hi
    exact hfr (List.mem_map.2 ⟨r, hr', hi⟩)
  · intro u
    rw [← hr u]
    unfold rowsOf
    change (match (t.intern e.unit).uidOf u with | none => _ | some k => _) = _
    cases hu : (t.intern e.unit).uidOf u with
    | none =>
      have : e.unit ≠ u := by rintro rfl; rw [h3] at hu; cases hu
      simp [this]
    | some k' =>
      simp only [List.filter_append, h2]
      congr 1
      by_cases heu : e.unit = u
      · subst heu
        rw [h3] at hu; injection hu with hu; subst hu
        simp
      · have : k ≠ k' := by rintro rfl; exact heu (uid_inj h1 h3 hu)
        simp [heu, this]

/-- The entries of a batch that concern a unit. -/
def forUnit (es : List (Entry α)) (u : Str) : List (α × Int) :=
  (es.filter (fun e => e.unit = u)).map (fun e => (e.val, e.ts))

theorem record_spec (t : Table α) (es : List (Entry α)) (h : Wf t) :
    ∃ t', t.record es = some t' ∧ Wf t' ∧
      (∀ u, t'.history u = t.history u ++ forUnit es u) ∧
      (∀ u, (∀ e ∈ es, e.unit ≠ u) → t'.rowsOf u = t.rowsOf u) := by
  induction es generalizing t with
  | nil => exact ⟨t, rfl, h, fun u => by simp [forUnit], fun u _ => rfl⟩
  | cons e es ih =>
    obtain ⟨t1, h1, h2, i, k, _, _, h3⟩ := recordOne_spec t e h
    obtain ⟨t2, h4, h5, h6, h7⟩ := ih t1 h2
    refine ⟨t2, by simp [record, h1, h4], h5, ?_, ?_⟩
    · intro u
      rw [h6 u, history, h3 u]
      by_cases heu : e.unit = u <;> simp [forUnit, history, heu]
    · intro u hu
      rw [h7 u (fun e he => hu e (List.mem_cons_of_mem _ he)), h3 u,
        if_neg (hu e (by simp)), List.append_nil]

/-! ### Sorting -/

/-- In a list sorted by descending time, a time is among the first `n` iff fewer than `n` members are
strictly newer. -/
theorem mem_take_times {M : List (Row α)} (hs : M.Pairwise (fun a b => b.ts ≤ a.ts)) (x : Row α)
    (hx : x ∈ M) (n : Nat) :
    x.ts ∈ (M.take n).map Row.ts ↔ M.countP (fun y => x.ts < y.ts) < n := by
  have hx' : x.ts ∈ M.map Row.ts := List.mem_map.2 ⟨x, hx, rfl⟩
  generalize x.ts = t at *
  clear hx
  induction M generalizing n with
  | nil => simp at hx'
  | cons a M ih =>
    rw [List.pairwise_cons] at hs
    cases n with
    | zero => simp
    | succ n =>
      simp only [List.take_succ_cons, List.map_cons, List.mem_cons, List.countP_cons]
      by_cases hat : t < a.ts
      · have hne : t ≠ a.ts := by omega
        have hM : t ∈ M.map Row.ts := by
          simp only [List.map_cons, List.mem_cons] at hx'
          exact hx'.resolve_left hne
        have := ih hs.2 n hM
        simp only [hne, false_or, hat, decide_true, if_true, this]
        omega
      · have hle : ∀ y ∈ M, ¬ t < y.ts := fun y hy h => hat (by have := hs.1 y hy; omega)
        have hta : t = a.ts := by
          simp only [List.map_cons, List.mem_cons] at hx'
          rcases hx' with h | h
          · exact h
          · obtain ⟨y, hy, rfl⟩ := List.mem_map.1 h
            have := hs.1 y hy; omega
        have hc : M.countP (fun y => decide (t < y.ts)) = 0 := by
          rw [List.countP_eq_zero]
          intro y hy; simp; have := hle y hy; omega
        rw [hc]
        simp [hta]

/-- Selecting by a unique key in the first `n` members selects the first `n` members. -/
theorem filter_key_take {β κ : Type} [DecidableEq κ] (f : β → κ) (M : List β) (hn : (M.map f).Nodup)
    (n : Nat) : M.filter (fun x => ((M.take n).map f).contains (f x)) = M.take n := by
  have hd : ∀ x ∈ M.drop n, f x ∉ (M.take n).map f := by
    intro x hx hm
    rw [← List.take_append_drop n M, List.map_append, List.nodup_append] at hn
    exact hn.2.2 _ hm _ (List.mem_map.2 ⟨x, hx, rfl⟩) rfl
  conv_lhs => rw [← List.take_append_drop n M]
  rw [List.filter_append]
  have e1 : (M.take n).filter (fun x => (((M.take n ++ M.drop n).take n).map f).contains (f x)) =
      M.take n := by
    rw [List.take_append_drop]
    rw [List.filter_eq_self]
    intro x hx
    rw [List.contains_iff_mem]
    exact List.mem_map.2 ⟨x, hx, rfl⟩
  have e2 : (M.drop n).filter (fun x => (((M.take n ++ M.drop n).take n).map f).contains (f x)) =
      [] := by
    rw [List.take_append_drop]
    rw [List.filter_eq_nil_iff]
    intro x hx
    rw [List.contains_iff_mem]
    exact hd x hx
  rw [e1, e2, List.append_nil]

/-- Dropping by a unique key of the members after the first `n` keeps the first `n` members. -/
theorem filter_key_drop {β κ : Type} [DecidableEq κ] (f : β → κ) (M : List β) (hn : (M.map f).Nodup)
    (n : Nat) : M.filter (fun x => !((M.drop n).map f).contains (f x)) = M.take n := by
  rw [← filter_key_take f M hn n]
  apply List.filter_congr
  intro x hx
  have hd : ∀ a ∈ (M.take n).map f, ∀ b ∈ (M.drop n).map f, a ≠ b := by
    rw [← List.take_append_drop n M, List.map_append, List.nodup_append] at hn
    simpa using hn.2.2
  rw [← List.take_append_drop n M, List.mem_append] at hx
  rcases hx with hx | hx
  · have h1 : f x ∈ (M.take n).map f := List.mem_map.2 ⟨x, hx, rfl⟩
    have h2 : f x ∉ (M.drop n).map f := fun h => hd _ h1 _ h rfl
    rw [List.contains_iff_mem.2 h1]
    simpa using h2
  · have h1 : f x ∈ (M.drop n).map f := List.mem_map.2 ⟨x, hx, rfl⟩
    have h2 : f x ∉ (M.take n).map f := fun h => hd _ h _ h1 rfl
    rw [List.contains_iff_mem.2 h1]
    simpa using h2

/-- Two sorted rearrangements of rows with distinct times are equal. -/
theorem sorted_unique {L M : List (Row α)} (hp : L.Perm M)
    (hL : L.Pairwise (fun a b => b.ts ≤ a.ts)) (hM : M.Pairwise (fun a b => b.ts ≤ a.ts))
    (hn : (L.map Row.ts).Nodup) : L = M := by
  refine hp.eq_of_pairwise ?_ hL hM
  intro a b ha hb h1 h2
  have hb' : b ∈ L := hp.mem_iff.2 hb
  exact List.inj_on_of_nodup_map hn ha hb' (by omega)

/-! ### Trimming and removing -/

/-- The entries kept by the time-based trim: those with fewer than `n` strictly newer entries. -/
def newest {β : Type} (time : β → Int) (n : Nat) (l : List β) : List β :=
  l.filter (fun x => l.countP (fun y => time x < time y) < n)

theorem trimUidByTime_same (S : SortDesc α) (n k : Nat) (rows : List (Row α)) :
    (trimUidByTime S n k rows).filter (fun r => r.uid = k) =
      newest Row.ts n (rows.filter (fun r => r.uid = k)) := by
  unfold trimUidByTime newest
  rw [List.filter_filter, List.filter_filter]
  apply List.filter_congr
  intro x hx
  by_cases hk : x.uid = k
  · have hxm : x ∈ rows.filter (fun r => r.uid = k) := by simp [hx, hk]
    have hxs := (S.perm (rows.filter (fun r => r.uid = k))).mem_iff.2 hxm
    have := mem_take_times (S.sorted _) x hxs n
    rw [(S.perm _).countP_eq] at this
    simp only [hk, ne_eq, not_true_eq_false, decide_false, Bool.false_or, decide_true,
      Bool.true_and, Bool.and_true]
    rw [Bool.eq_iff_iff, List.contains_iff_mem, decide_eq_true_iff]
    exact this
  · simp [hk]

theorem trimUidByTime_other (S : SortDesc α) (n k j : Nat) (rows : List (Row α)) (h : j ≠ k) :
    (trimUidByTime S n k rows).filter (fun r => r.uid = j) = rows.filter (fun r => r.uid = j) := by
  unfold trimUidByTime
  rw [List.filter_filter]
  apply List.filter_congr
  intro x hx
  by_cases hk : x.uid = j
  · simp [hk, h]
  · simp [hk]

theorem foldl_trimByTime (S : SortDesc α) (n : Nat) (ks : List Nat) (hn : ks.Nodup) (j : Nat)
    (rows : List (Row α)) :
    (ks.foldl (fun rows k => trimUidByTime S n k rows) rows).filter (fun r => r.uid = j) =
      if j ∈ ks then newest Row.ts n (rows.filter (fun r => r.uid = j))
      else rows.filter (fun r => r.uid = j) := by
  induction ks generalizing rows with
  | nil => simp
  | cons k ks ih =>
    rw [List.nodup_cons] at hn
    rw [List.foldl_cons, ih hn.2]
    by_cases hj : j = k
    · subst hj; simp [hn.1, trimUidByTime_same]
    · simp [hj, trimUidByTime_other S n k j rows hj]

theorem foldl_removeUid (ks : List Nat) (j : Nat) (rows : List (Row α)) :
    (ks.foldl (fun rows k => rows.filter (fun r => r.uid ≠ k)) rows).filter (fun r => r.uid = j) =
      if j ∈ ks then [] else rows.filter (fun r => r.uid = j) := by
  induction ks generalizing rows with
  | nil => simp
  | cons k ks ih =>
    rw [List.foldl_cons, ih]
    by_cases hj : j = k
    · subst hj
      have : (rows.filter (fun r => r.uid ≠ j)).filter (fun r => r.uid = j) = [] := by
        rw [List.filter_filter, List.filter_eq_nil_iff]; simp
      rw [this]
      simp
    · have : (rows.filter (fun r => r.uid ≠ k)).filter (fun r => r.uid = j) =
          rows.filter (fun r => r.uid = j) := by
        rw [List.filter_filter]
        apply List.filter_congr
        intro x _
        by_cases hx : x.uid = j <;> simp [hx, hj]
      rw [this]
      simp [hj]

theorem sublist_wf {t : Table α} (h : Wf t) {rows : List (Row α)} (hs : rows.Sublist t.rows) :
    Wf { t with rows := rows } :=
  ⟨h.uidNodup, h.unitNodup, h.idNodup.sublist (hs.map _), fun r hr => h.owned r (hs.subset hr)⟩

theorem foldl_sublist {κ : Type} (f : κ → List (Row α) → List (Row α))
    (hf : ∀ k l, (f k l).Sublist l) (ks : List κ) (rows : List (Row α)) :
    (ks.foldl (fun rows k => f k rows) rows).Sublist rows := by
  induction ks generalizing rows with
  | nil => exact List.Sublist.refl _
  | cons k ks ih => exact (ih _).trans (hf k rows)

theorem wf_trimByTime (S : SortDesc α) (t : Table α) (n : Nat) (stop : Option Nat) (h : Wf t) :
    Wf (t.trimByTime S n stop) :=
  sublist_wf h (foldl_sublist (fun k l => trimUidByTime S n k l)
    (fun _ _ => List.filter_sublist) _ _)

theorem wf_trimById (S : SortDesc α) (t : Table α) (n : Nat) (stop : Option Nat) (h : Wf t) :
    Wf (t.trimById S n stop) :=
  sublist_wf h (foldl_sublist (fun k l => trimUidById S n k l)
    (fun _ _ => List.filter_sublist) _ _)

theorem wf_removePrefix (t : Table α) (p : Str) (stop : Option Nat) (h : Wf t) :
    Wf (t.removePrefix p stop) :=
  sublist_wf h (foldl_sublist (fun k l => l.filter (fun r => r.uid ≠ k))
    (fun _ _ => List.filter_sublist) _ _)

theorem rowsOf_trimByTime (S : SortDesc α) (t : Table α) (n : Nat) (stop : Option Nat) (h : Wf t)
    (u : Str) :
    (stop = none → (t.trimByTime S n stop).rowsOf u = newest Row.ts n (t.rowsOf u)) ∧
    ((t.trimByTime S n stop).rowsOf u = t.rowsOf u ∨
      (t.trimByTime S n stop).rowsOf u = newest Row.ts n (t.rowsOf u)) := by
  unfold rowsOf
  have e : (t.trimByTime S n stop).uidOf u = t.uidOf u := rfl
  rw [e]
  cases hu : t.uidOf u with
  | none => simp [newest]
  | some k =>
    have hk : k ∈ t.uids.map Prod.fst :=
      List.mem_map.2 ⟨_, (uidOf_some h).1 hu, rfl⟩
    simp only [trimByTime]
    cases stop with
    | none =>
      rw [foldl_trimByTime S n _ h.uidNodup, if_pos hk]
      exact ⟨fun _ => rfl, Or.inr rfl⟩
    | some m =>
      refine ⟨by simp, ?_⟩
      rw [foldl_trimByTime S n _ (h.uidNodup.sublist (List.take_sublist _ _))]
      split
      · exact Or.inr rfl
      · exact Or.inl rfl

theorem rowsOf_removePrefix (t : Table α) (p : Str) (stop : Option Nat) (h : Wf t) (u : Str) :
    (stop = none → (t.removePrefix p stop).rowsOf u =
      if likePrefix p u then [] else t.rowsOf u) ∧
    ((t.removePrefix p stop).rowsOf u = t.rowsOf u ∨
      (likePrefix p u = true ∧ (t.removePrefix p stop).rowsOf u = [])) := by
  unfold rowsOf
  have e : (t.removePrefix p stop).uidOf u = t.uidOf u := rfl
  rw [e]
  cases hu : t.uidOf u with
  | none => simp
  | some k =>
    have hm := (uidOf_some h).1 hu
    have hk : k ∈ (t.uids.filter (fun e => likePrefix p e.2)).map Prod.fst ↔
        likePrefix p u = true := by
      rw [List.mem_map]
      constructor
      · rintro ⟨⟨k', v⟩, hm', rfl⟩
        rw [List.mem_filter] at hm'
        have := List.inj_on_of_nodup_map h.uidNodup hm'.1 hm rfl
        rw [(Prod.mk.inj this).2] at hm'
        exact hm'.2
      · intro hl
        exact ⟨(k, u), List.mem_filter.2 ⟨hm, hl⟩, rfl⟩
    simp only [removePrefix]
    cases stop with
    | none =>
      rw [foldl_removeUid]
      by_cases hl : likePrefix p u = true
      · rw [if_pos (hk.2 hl), if_pos hl]
        exact ⟨fun _ => rfl, Or.inr ⟨hl, rfl⟩⟩
      · rw [if_neg (fun h => hl (hk.1 h)), if_neg hl]
        exact ⟨fun _ => rfl, Or.inl rfl⟩
    | some m =>
      refine ⟨by simp, ?_⟩
      rw [foldl_removeUid]
      by_cases hmem : k ∈ ((t.uids.filter (fun e => likePrefix p e.2)).map Prod.fst).take m
      · rw [if_pos hmem]
        exact Or.inr ⟨hk.1 (List.mem_of_mem_take hmem), rfl⟩
      · rw [if_neg hmem]
        exact Or.inl rfl

theorem wf_step (S : SortDesc α) (t : Table α) (o : LogOp α) (h : Wf t) : Wf (t.step S o).1 := by
  cases o with
  | record es f =>
    obtain ⟨t', h1, h2, -⟩ := record_spec t es h
    simp only [step, h1]
    split
    · exact h
    · exact h2
  | trim n stop => exact wf_trimByTime S t n stop h
  | removePrefix p stop => exact wf_removePrefix t p stop h
  | reopen => exact h

theorem wf_run (S : SortDesc α) (ops : List (LogOp α)) : Wf (run S ops) := by
  unfold run
  have : ∀ t : Table α, Wf t → Wf (ops.foldl (fun t o => (t.step S o).1) t) := by
    induction ops with
    | nil => exact fun t h => h
    | cons o ops ih => exact fun t h => ih _ (wf_step S t o h)
  exact this _ wf_empty

theorem history_newest (n : Nat) (rows : List (Row α)) :
    (newest Row.ts n rows).map (fun r => (r.val, r.ts)) =
      newest Prod.snd n (rows.map (fun r => (r.val, r.ts))) := by
  unfold newest
  rw [List.filter_map]
  congr 1
  apply List.filter_congr
  intro x _
  simp only [Function.comp, List.countP_map]
  rfl

end Trane.Store.Table
