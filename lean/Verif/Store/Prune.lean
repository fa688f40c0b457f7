import Verif.Store.LogProps
import Mathlib.Data.List.Sort

/-!
# Tables that agree on the newest entries

Two tables that differ in old entries only: whatever is recorded, trimmed or removed afterwards in both, they go on agreeing on
the newest entries.  Used for C112.
-/

namespace Trane.Store.Table
variable {α : Type}

/-! ### Sorted lists -/

/-- The newest first. -/
def desc (l : List (α × Int)) : List (α × Int) := l.insertionSort (fun a b => b.2 ≤ a.2)

instance : Std.Total (fun a b : α × Int => b.2 ≤ a.2) := ⟨fun a b => le_total b.2 a.2⟩
instance : IsTrans (α × Int) (fun a b => b.2 ≤ a.2) := ⟨fun _ _ _ h1 h2 => h2.trans h1⟩

theorem desc_perm (l : List (α × Int)) : (desc l).Perm l := List.perm_insertionSort _ l

theorem desc_sorted (l : List (α × Int)) : (desc l).Pairwise (fun a b => b.2 ≤ a.2) := List.pairwise_insertionSort _ l

theorem desc_unique {l M : List (α × Int)} (hn : (l.map Prod.snd).Nodup) (hp : M.Perm l) (hs : M.Pairwise (fun a b => b.2 ≤ a.2)) :
    M = desc l := by
  refine (hp.trans (desc_perm l).symm).eq_of_pairwise ?_ hs (desc_sorted l)
  intro a b ha hb h1 h2
  exact List.inj_on_of_nodup_map hn (hp.mem_iff.1 ha) ((desc_perm l).mem_iff.1 hb) (le_antisymm h2 h1)

theorem desc_snoc {l : List (α × Int)} {e : α × Int} (hn : ((l ++ [e]).map Prod.snd).Nodup) :
    desc (l ++ [e]) = (desc l).orderedInsert (fun a b => b.2 ≤ a.2) e := by
  refine (desc_unique hn ?_ ?_).symm
  · refine (List.perm_orderedInsert _ _ _).trans ?_
    exact ((desc_perm l).cons e).trans (List.perm_append_singleton e l).symm
  · exact (desc_sorted l).orderedInsert e _

theorem take_orderedInsert (e : α × Int) : ∀ (L : List (α × Int)) (N : Nat),
    (L.orderedInsert (fun a b => b.2 ≤ a.2) e).take N = ((L.take N).orderedInsert (fun a b => b.2 ≤ a.2) e).take N := by
  intro L
  induction L with
  | nil => intro N; simp
  | cons a L ih =>
    intro N
    cases N with
    | zero => rfl
    | succ N =>
      simp only [List.take_succ_cons, List.orderedInsert_cons]
      split
      · simp only [List.take_succ_cons]
        cases N with
        | zero => rfl
        | succ N => simp [List.take_take]
      · simp only [List.take_succ_cons]
        rw [ih N]

/-- Two logs have the same `N` newest entries. -/
def SameTop (N : Nat) (l l' : List (α × Int)) : Prop := (desc l').take N = (desc l).take N

theorem sameTop_append {N : Nat} {l l' : List (α × Int)} (h : SameTop N l l') : ∀ (es : List (α × Int)),
    ((l ++ es).map Prod.snd).Nodup → ((l' ++ es).map Prod.snd).Nodup → SameTop N (l ++ es) (l' ++ es) := by
  intro es
  induction es generalizing l l' with
  | nil => intro _ _; simpa using h
  | cons e es ih =>
    intro h1 h2
    rw [show l ++ e :: es = (l ++ [e]) ++ es by simp] at h1 ⊢
    rw [show l' ++ e :: es = (l' ++ [e]) ++ es by simp] at h2 ⊢
    refine ih ?_ h1 h2
    have n1 : ((l ++ [e]).map Prod.snd).Nodup := h1.sublist (List.Sublist.map _ (List.sublist_append_left _ _))
    have n2 : ((l' ++ [e]).map Prod.snd).Nodup := h2.sublist (List.Sublist.map _ (List.sublist_append_left _ _))
    unfold SameTop
    rw [desc_snoc n1, desc_snoc n2, take_orderedInsert, take_orderedInsert e (desc l), h]

/-! ### The answers of a table -/

theorem get_desc (S : SortDesc α) {t : Table α} {u : Str} (hn : ((t.history u).map Prod.snd).Nodup) (n : Nat) :
    t.get S u n = (desc (t.history u)).take n := by
  unfold get
  rw [List.map_take]
  congr 1
  refine desc_unique hn ((S.perm _).map _) ?_
  rw [List.pairwise_map]
  exact S.sorted _

theorem desc_newest (n : Nat) {l : List (α × Int)} (hn : (l.map Prod.snd).Nodup) :
    desc (newest Prod.snd n l) = (desc l).take n := by
  have hs : (newest Prod.snd n l).Sublist l := List.filter_sublist
  refine (desc_unique (hn.sublist (hs.map _)) ?_ ((desc_sorted l).sublist (List.take_sublist _ _))).symm
  -- by the rows of a table with these entries
  let rows : List (Row α) := l.map (fun e => ⟨0, 0, e.1, e.2⟩)
  let S : SortDesc α :=
    { sort := fun r => r.insertionSort (fun a b => b.ts ≤ a.ts)
      perm := fun r => List.perm_insertionSort _ r
      sorted := fun r => by
        haveI : Std.Total (fun a b : Row α => b.ts ≤ a.ts) := ⟨fun a b => le_total b.ts a.ts⟩
        haveI : IsTrans (Row α) (fun a b => b.ts ≤ a.ts) := ⟨fun _ _ _ h1 h2 => h2.trans h1⟩
        exact List.pairwise_insertionSort _ r }
  have hl : rows.map (fun r => (r.val, r.ts)) = l := by simp [rows, List.map_map, Function.comp_def]
  have hr : (rows.map Row.ts).Nodup := by
    have : rows.map Row.ts = l.map Prod.snd := by simp [rows, List.map_map, Function.comp_def]
    rw [this]; exact hn
  have hp := (newest_perm S rows hr n).map (fun r => (r.val, r.ts))
  rw [history_newest, hl, List.map_take] at hp
  have : (S.sort rows).map (fun r => (r.val, r.ts)) = desc l := by
    refine desc_unique hn ?_ ?_
    · have := (S.perm rows).map (fun r => (r.val, r.ts))
      rw [hl] at this
      exact this
    · rw [List.pairwise_map]
      exact S.sorted rows
  rw [this] at hp
  exact hp.symm

/-! ### Calls -/

/-- The units whose rows a call that works through `ks` reaches before it stops. -/
def reached (ks : List Nat) (stop : Option Nat) : List Nat := match stop with | none => ks | some k => ks.take k

theorem history_trim (S : SortDesc α) (t : Table α) (n : Nat) (stop : Option Nat) (h : Wf t) (u : Str) :
    (t.trimByTime S n stop).history u =
      if ∃ k, t.uidOf u = some k ∧ k ∈ reached (t.uids.map Prod.fst) stop then newest Prod.snd n (t.history u) else t.history u := by
  unfold history rowsOf
  have e : (t.trimByTime S n stop).uidOf u = t.uidOf u := rfl
  rw [e]
  cases hu : t.uidOf u with
  | none => simp
  | some k =>
    have hnd : (reached (t.uids.map Prod.fst) stop).Nodup := by
      unfold reached
      split
      · exact h.uidNodup
      · exact h.uidNodup.sublist (List.take_sublist _ _)
    have := foldl_trimByTime S n (reached (t.uids.map Prod.fst) stop) hnd k t.rows
    have e2 : (t.trimByTime S n stop).rows = (reached (t.uids.map Prod.fst) stop).foldl (fun rows k => trimUidByTime S n k rows) t.rows := rfl
    dsimp only
    rw [e2, this]
    by_cases hk : k ∈ reached (t.uids.map Prod.fst) stop
    · rw [if_pos hk, if_pos ⟨k, rfl, hk⟩, history_newest]
    · rw [if_neg hk, if_neg (by rintro ⟨k', e, hk'⟩; cases e; exact hk hk')]

theorem history_remove (t : Table α) (p : Str) (stop : Option Nat) (u : Str) :
    (t.removePrefix p stop).history u =
      if ∃ k, t.uidOf u = some k ∧ k ∈ reached ((t.uids.filter (fun e => likePrefix p e.2)).map Prod.fst) stop then [] else t.history u := by
  unfold history rowsOf
  have e : (t.removePrefix p stop).uidOf u = t.uidOf u := rfl
  rw [e]
  cases hu : t.uidOf u with
  | none => simp
  | some k =>
    have := foldl_removeUid (reached ((t.uids.filter (fun e => likePrefix p e.2)).map Prod.fst) stop) k t.rows
    have e2 : (t.removePrefix p stop).rows = (reached ((t.uids.filter (fun e => likePrefix p e.2)).map Prod.fst) stop).foldl
      (fun rows k => rows.filter (fun r => r.uid ≠ k)) t.rows := rfl
    dsimp only
    rw [e2, this]
    by_cases hk : k ∈ reached ((t.uids.filter (fun e => likePrefix p e.2)).map Prod.fst) stop
    · rw [if_pos hk, if_pos ⟨k, rfl, hk⟩]; rfl
    · rw [if_neg hk, if_neg (by rintro ⟨k', e, hk'⟩; cases e; exact hk hk')]

theorem record_uids (t t' : Table α) (es : List (Entry α)) (hu : t'.uids = t.uids) {t1 t1' : Table α} (h1 : t.record es = some t1)
    (h1' : t'.record es = some t1') : t1'.uids = t1.uids := by
  induction es generalizing t t' with
  | nil => cases h1; cases h1'; exact hu
  | cons e es ih =>
    simp only [record] at h1 h1'
    cases ho : t.recordOne e with
    | none => rw [ho] at h1; cases h1
    | some a =>
      cases ho' : t'.recordOne e with
      | none => rw [ho'] at h1'; cases h1'
      | some a' =>
        rw [ho] at h1
        rw [ho'] at h1'
        refine ih a a' ?_ h1 h1'
        have hi : (t'.intern e.unit).uids = (t.intern e.unit).uids := by
          unfold intern uidOf
          rw [hu]
          split <;> simp [hu]
        have key : ∀ {x y : Table α}, x.insert e = some y → y.uids = x.uids := by
          intro x y hxy
          unfold insert at hxy
          split at hxy
          · cases hxy
          · cases hxy; rfl
        rw [key ho', key ho, hi]

/-- The dates given to a call, by unit. -/
def stampsOf (es : List (Entry α)) : List (Str × Int) := es.map (fun e => (e.unit, e.ts))

/-- The dates of one unit. -/
def datesOf (st : List (Str × Int)) (u : Str) : List Int := (st.filter (fun e => e.1 = u)).map Prod.snd

theorem dates_nodup {st : List (Str × Int)} (h : st.Nodup) (u : Str) : (datesOf st u).Nodup := by
  unfold datesOf
  refine List.Nodup.map_on ?_ (h.filter _)
  intro a ha b hb e
  simp only [List.mem_filter, decide_eq_true_eq] at ha hb
  exact Prod.ext (ha.2.trans hb.2.symm) e

/-- Two tables to which entries with the dates `st` were given, all different for each unit, and whose `N` newest entries agree. -/
structure Agree (N : Nat) (st : List (Str × Int)) (t t' : Table α) : Prop where
  wf : Wf t
  wf' : Wf t'
  uids : t'.uids = t.uids
  nodup : st.Nodup
  dates : ∀ u, ((t.history u).map Prod.snd).Sublist (datesOf st u)
  dates' : ∀ u, ((t'.history u).map Prod.snd).Sublist (datesOf st u)
  top : ∀ u, SameTop N (t.history u) (t'.history u)

namespace Agree
variable {N : Nat} {st : List (Str × Int)} {t t' : Table α}

theorem refl (h : Wf t) (hn : st.Nodup) (hd : ∀ u, ((t.history u).map Prod.snd).Sublist (datesOf st u)) : Agree N st t t :=
  ⟨h, h, rfl, hn, hd, hd, fun _ => rfl⟩

theorem nodup_left (h : Agree N st t t') (u : Str) : ((t.history u).map Prod.snd).Nodup := (dates_nodup h.nodup u).sublist (h.dates u)
theorem nodup_right (h : Agree N st t t') (u : Str) : ((t'.history u).map Prod.snd).Nodup := (dates_nodup h.nodup u).sublist (h.dates' u)

theorem get (h : Agree N st t t') (S : SortDesc α) (u : Str) : t'.get S u N = t.get S u N := by
  rw [get_desc S (h.nodup_left u), get_desc S (h.nodup_right u)]
  exact h.top u

theorem get_le (h : Agree N st t t') (S : SortDesc α) (u : Str) {n : Nat} (hn : n ≤ N) : t'.get S u n = t.get S u n := by
  rw [get_desc S (h.nodup_left u), get_desc S (h.nodup_right u)]
  have := congrArg (List.take n) (h.top u)
  rw [List.take_take, List.take_take, min_eq_left hn] at this
  exact this

theorem more (h : Agree N st t t') {x : List (Str × Int)} (hn : (st ++ x).Nodup) : Agree N (st ++ x) t t' := by
  have hs : ∀ u, (datesOf st u).Sublist (datesOf (st ++ x) u) := fun u =>
    ((List.sublist_append_left st x).filter _).map _
  exact ⟨h.wf, h.wf', h.uids, hn, fun u => (h.dates u).trans (hs u), fun u => (h.dates' u).trans (hs u), h.top⟩

theorem datesOf_append (st x : List (Str × Int)) (u : Str) : datesOf (st ++ x) u = datesOf st u ++ datesOf x u := by
  simp [datesOf]

theorem dates_forUnit (es : List (Entry α)) (u : Str) : (forUnit es u).map Prod.snd = datesOf (stampsOf es) u := by
  unfold forUnit datesOf stampsOf
  rw [List.filter_map, List.map_map, List.map_map]
  rfl

theorem record (h : Agree N st t t') (S : SortDesc α) (es : List (Entry α)) (f : Bool) (hn : (st ++ stampsOf es).Nodup) :
    Agree N (st ++ stampsOf es) (t.step S (.record es f)).1 (t'.step S (.record es f)).1 ∧
      (t'.step S (.record es f)).2 = (t.step S (.record es f)).2 := by
  obtain ⟨t1, e1, w1, h1, -⟩ := record_spec t es h.wf
  obtain ⟨t1', e1', w1', h1', -⟩ := record_spec t' es h.wf'
  simp only [step, e1, e1']
  cases f with
  | true => exact ⟨h.more hn, rfl⟩
  | false =>
    have d : ∀ u, ((t1.history u).map Prod.snd).Sublist (datesOf (st ++ stampsOf es) u) := fun u => by
      rw [h1, List.map_append, dates_forUnit, datesOf_append]
      exact (h.dates u).append (List.Sublist.refl _)
    have d' : ∀ u, ((t1'.history u).map Prod.snd).Sublist (datesOf (st ++ stampsOf es) u) := fun u => by
      rw [h1', List.map_append, dates_forUnit, datesOf_append]
      exact (h.dates' u).append (List.Sublist.refl _)
    refine ⟨⟨w1, w1', record_uids t t' es h.uids e1 e1', hn, d, d', fun u => ?_⟩, rfl⟩
    have n1 := (dates_nodup hn u).sublist (d u)
    have n2 := (dates_nodup hn u).sublist (d' u)
    show SameTop N (t1.history u) (t1'.history u)
    rw [h1] at n1 ⊢
    rw [h1'] at n2 ⊢
    exact sameTop_append (h.top u) _ n1 n2

theorem newest_dates {l : List (α × Int)} {d : List Int} (n : Nat) (h : (l.map Prod.snd).Sublist d) :
    ((newest Prod.snd n l).map Prod.snd).Sublist d := ((List.filter_sublist).map _).trans h

theorem trim (h : Agree N st t t') (S : SortDesc α) (n : Nat) (stop : Option Nat) :
    Agree N st (t.step S (.trim n stop)).1 (t'.step S (.trim n stop)).1 := by
  have e : ∀ u, t'.uidOf u = t.uidOf u := fun u => by unfold uidOf; rw [h.uids]
  refine ⟨wf_trimByTime S t n stop h.wf, wf_trimByTime S t' n stop h.wf', h.uids, h.nodup, fun u => ?_, fun u => ?_, fun u => ?_⟩
  · show (((t.trimByTime S n stop).history u).map Prod.snd).Sublist _
    rw [history_trim S t n stop h.wf]
    split
    · exact newest_dates n (h.dates u)
    · exact h.dates u
  · show (((t'.trimByTime S n stop).history u).map Prod.snd).Sublist _
    rw [history_trim S t' n stop h.wf']
    split
    · exact newest_dates n (h.dates' u)
    · exact h.dates' u
  · show SameTop N ((t.trimByTime S n stop).history u) ((t'.trimByTime S n stop).history u)
    rw [history_trim S t n stop h.wf, history_trim S t' n stop h.wf', e, h.uids]
    split
    · unfold SameTop
      rw [desc_newest n (h.nodup_left u), desc_newest n (h.nodup_right u), List.take_take, List.take_take]
      have := congrArg (List.take (min N n)) (h.top u)
      rw [List.take_take, List.take_take, min_eq_left (min_le_left N n)] at this
      exact this
    · exact h.top u

/-- Trimming one of the tables to `N` entries or more. -/
theorem trim_right (h : Agree N st t t') (S : SortDesc α) {n : Nat} (hn : N ≤ n) (stop : Option Nat) :
    Agree N st t (t'.step S (.trim n stop)).1 := by
  refine ⟨h.wf, wf_trimByTime S t' n stop h.wf', h.uids, h.nodup, h.dates, fun u => ?_, fun u => ?_⟩
  · show (((t'.trimByTime S n stop).history u).map Prod.snd).Sublist _
    rw [history_trim S t' n stop h.wf']
    split
    · exact newest_dates n (h.dates' u)
    · exact h.dates' u
  · show SameTop N (t.history u) ((t'.trimByTime S n stop).history u)
    rw [history_trim S t' n stop h.wf']
    split
    · unfold SameTop
      rw [desc_newest n (h.nodup_right u), List.take_take, min_eq_left hn]
      exact h.top u
    · exact h.top u

theorem remove (h : Agree N st t t') (S : SortDesc α) (p : Str) (stop : Option Nat) :
    Agree N st (t.step S (.removePrefix p stop)).1 (t'.step S (.removePrefix p stop)).1 := by
  have e : ∀ u, t'.uidOf u = t.uidOf u := fun u => by unfold uidOf; rw [h.uids]
  refine ⟨wf_removePrefix t p stop h.wf, wf_removePrefix t' p stop h.wf', h.uids, h.nodup, fun u => ?_, fun u => ?_, fun u => ?_⟩
  · show (((t.removePrefix p stop).history u).map Prod.snd).Sublist _
    rw [history_remove]
    split
    · exact List.nil_sublist _
    · exact h.dates u
  · show (((t'.removePrefix p stop).history u).map Prod.snd).Sublist _
    rw [history_remove]
    split
    · exact List.nil_sublist _
    · exact h.dates' u
  · show SameTop N ((t.removePrefix p stop).history u) ((t'.removePrefix p stop).history u)
    rw [history_remove, history_remove, e, h.uids]
    split
    · rfl
    · exact h.top u

end Agree
end Trane.Store.Table
