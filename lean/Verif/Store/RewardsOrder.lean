import Verif.Store.RewardsProps

/-!
# Rewards recorded in another order

The values of a hash map are recorded in an order that differs from run to run.  What each unit has stored in the end,
and what the cache remembers of it, does not depend on this order; only the numbers of the rows do.
-/

namespace Trane.Store

/-- How rows with equal timestamps are ordered does not depend on the numbers the rows and units were given. -/
def Blind {α : Type} (S : SortDesc α) : Prop :=
  ∀ f : Row α → Row α, (∀ r, (f r).val = r.val ∧ (f r).ts = r.ts) → ∀ l, S.sort (l.map f) = (S.sort l).map f

namespace Table
variable {α : Type}

/-- Equal values under different numbers: the second list is the first with other numbers. -/
theorem relabel (l l' : List (Row α)) (hn : (l.map Row.id).Nodup)
    (h : l'.map (fun r => (r.val, r.ts)) = l.map (fun r => (r.val, r.ts))) :
    ∃ f : Row α → Row α, (∀ r, (f r).val = r.val ∧ (f r).ts = r.ts) ∧ l' = l.map f := by
  induction l generalizing l' with
  | nil => exact ⟨id, fun _ => ⟨rfl, rfl⟩, by simpa using h⟩
  | cons r l ih =>
    cases l' with
    | nil => simp at h
    | cons r' l' =>
      simp only [List.map_cons, List.cons.injEq, Prod.mk.injEq, List.nodup_cons] at h hn
      obtain ⟨f, hf, hl⟩ := ih l' hn.2 h.2
      refine ⟨fun x => if x.id = r.id then ⟨r'.id, r'.uid, x.val, x.ts⟩ else f x, fun x => ?_, ?_⟩
      · dsimp only
        split
        · exact ⟨rfl, rfl⟩
        · exact hf x
      · rw [List.map_cons, if_pos rfl, ← h.1.1, ← h.1.2]
        congr 1
        rw [hl]
        refine List.map_congr_left (fun x hx => ?_)
        rw [if_neg]
        intro e
        exact hn.1 (List.mem_map.2 ⟨x, hx, e⟩)

/-- What is left of the rows of a unit after `DELETE … OFFSET n`. -/
theorem same_kept (S : SortDesc α) (hS : Blind S) (n : Nat) {l l' : List (Row α)} (hn : (l.map Row.id).Nodup)
    (hn' : (l'.map Row.id).Nodup) (h : l'.map (fun r => (r.val, r.ts)) = l.map (fun r => (r.val, r.ts))) :
    (l'.filter (fun x => !(((S.sort l').drop n).map Row.id).contains x.id)).map (fun r => (r.val, r.ts)) =
      (l.filter (fun x => !(((S.sort l).drop n).map Row.id).contains x.id)).map (fun r => (r.val, r.ts)) := by
  obtain ⟨f, hf, rfl⟩ := relabel l l' hn h
  have inj : ∀ x ∈ l, ∀ y ∈ l, (f x).id = (f y).id → x = y := by
    rw [List.map_map] at hn'
    exact fun x hx y hy e => List.inj_on_of_nodup_map hn' hx hy e
  rw [hS f hf, ← List.map_drop, List.filter_map, List.map_map]
  have e1 : ((fun r : Row α => (r.val, r.ts)) ∘ f) = fun r => (r.val, r.ts) := by
    funext r; simp [hf r]
  rw [e1]
  congr 1
  refine List.filter_congr (fun x hx => ?_)
  simp only [Function.comp, List.map_map]
  congr 1
  rw [Bool.eq_iff_iff, List.contains_iff_mem, List.contains_iff_mem]
  have sub : ∀ y ∈ (S.sort l).drop n, y ∈ l := fun y hy => (S.perm l).mem_iff.1 (List.mem_of_mem_drop hy)
  constructor
  · intro hm
    obtain ⟨y, hy, e⟩ := List.mem_map.1 hm
    rw [← inj y (sub y hy) x hx e]
    exact List.mem_map.2 ⟨y, hy, rfl⟩
  · intro hm
    obtain ⟨y, hy, e⟩ := List.mem_map.1 hm
    have := List.inj_on_of_nodup_map hn (sub y hy) hx e
    subst this
    exact List.mem_map.2 ⟨y, hy, rfl⟩

theorem rowsOf_nodup {t : Table α} (h : Wf t) (u : Str) : ((t.rowsOf u).map Row.id).Nodup := by
  unfold rowsOf
  split
  · simp
  · exact h.idNodup.sublist (List.filter_sublist.map _)

/-- Equal histories give equal answers. -/
theorem same_get (S : SortDesc α) (hS : Blind S) {t t' : Table α} (h : Wf t) (u : Str) (e : t'.history u = t.history u)
    (n : Nat) : t'.get S u n = t.get S u n := by
  unfold get
  obtain ⟨f, hf, hl⟩ := relabel _ _ (rowsOf_nodup h u) e
  rw [hl, hS f hf, ← List.map_take, List.map_map]
  congr 1
  funext r
  simp [hf r]

theorem trimUidById_filter (S : SortDesc α) (n k : Nat) (rows : List (Row α)) :
    (trimUidById S n k rows).filter (fun r => r.uid = k) = (rows.filter (fun r => r.uid = k)).filter
      (fun x => !(((S.sort (rows.filter (fun r => r.uid = k))).drop n).map Row.id).contains x.id) := by
  unfold trimUidById
  rw [List.filter_filter, List.filter_filter]
  apply List.filter_congr
  intro x _
  rw [Bool.and_comm]

theorem foldl_trimById_filter (S : SortDesc α) (n : Nat) (ks : List Nat) (hn : ks.Nodup) (j : Nat) (hj : j ∈ ks)
    (rows : List (Row α)) (hi : (rows.map Row.id).Nodup) :
    (ks.foldl (fun rows k => trimUidById S n k rows) rows).filter (fun r => r.uid = j) =
      (rows.filter (fun r => r.uid = j)).filter
        (fun x => !(((S.sort (rows.filter (fun r => r.uid = j))).drop n).map Row.id).contains x.id) := by
  induction ks generalizing rows with
  | nil => simp at hj
  | cons k ks ih =>
    rw [List.nodup_cons] at hn
    have hi' : ((trimUidById S n k rows).map Row.id).Nodup := hi.sublist (List.filter_sublist.map _)
    rw [List.foldl_cons]
    by_cases e : j = k
    · subst e
      rw [(foldl_trimById S n ks hn.2 j _ hi').2 hn.1, trimUidById_filter]
    · rw [ih hn.2 (by simpa [e] using hj) _ hi', trimUidById_other S n k j rows hi e]

theorem same_trim (S : SortDesc α) (hS : Blind S) {t t' : Table α} (h : Wf t) (h' : Wf t') (n : Nat) (u : Str)
    (e : t'.history u = t.history u) : (t'.trimById S n none).history u = (t.trimById S n none).history u := by
  have key : ∀ (t : Table α), Wf t → (t.trimById S n none).rowsOf u =
      (t.rowsOf u).filter (fun x => !(((S.sort (t.rowsOf u)).drop n).map Row.id).contains x.id) := by
    intro t h
    have eu : (t.trimById S n none).uidOf u = t.uidOf u := rfl
    unfold rowsOf
    rw [eu]
    cases hu : t.uidOf u with
    | none => simp
    | some k =>
      have hk : k ∈ t.uids.map Prod.fst := List.mem_map.2 ⟨_, (uidOf_some h).1 hu, rfl⟩
      exact foldl_trimById_filter S n _ h.uidNodup k hk t.rows h.idNodup
  unfold history
  rw [key t h, key t' h']
  exact same_kept S hS n (rowsOf_nodup h u) (rowsOf_nodup h' u) e

theorem same_remove {t t' : Table α} (h : Wf t) (h' : Wf t') (p u : Str) (e : t'.history u = t.history u) :
    (t'.removePrefix p none).history u = (t.removePrefix p none).history u := by
  unfold history
  rw [(rowsOf_removePrefix t p none h u).1 rfl, (rowsOf_removePrefix t' p none h' u).1 rfl]
  split
  · rfl
  · exact e

end Table

namespace Rewards
open Table

/-- The stores agree on a unit. -/
structure SameAt (s s' : Rewards) (u : Str) : Prop where
  history : s'.table.history u = s.table.history u
  cache : AMap.find s'.cache u = AMap.find s.cache u

/-- The stores agree on every unit, and both are in order. -/
structure Alike (s s' : Rewards) : Prop where
  at_ : ∀ u, SameAt s s' u
  wf : Wf s.table
  wf' : Wf s'.table

/-- The store after one reward. -/
def add (S : SortDesc (ℚ × ℚ)) (s : Rewards) (r : Reward) : Rewards :=
  if hasSimilar s.cache r then s
  else match s.table.recordOne ⟨r.unit, (r.value, r.weight), r.ts⟩ with
    | none => s
    | some t => ⟨truncate S t r.unit, addCache s.cache r⟩

theorem add_eq (S : SortDesc (ℚ × ℚ)) {s : Rewards} (h : Wf s.table) (r : Reward) (hs : hasSimilar s.cache r = false) :
    ∃ t, s.table.recordOne ⟨r.unit, (r.value, r.weight), r.ts⟩ = some t ∧ Wf t ∧
      add S s r = ⟨truncate S t r.unit, addCache s.cache r⟩ ∧ Wf (truncate S t r.unit) ∧
      (∀ u, t.history u = s.table.history u ++ if r.unit = u then [payload r] else []) ∧
      (∀ u, u ≠ r.unit → (truncate S t r.unit).history u = s.table.history u) := by
  obtain ⟨t, h1, h2, i, k, _, _, h3⟩ := recordOne_spec s.table ⟨r.unit, (r.value, r.weight), r.ts⟩ h
  obtain ⟨t1, -, t3⟩ := truncate_spec S t r.unit h2
  have hh : ∀ u, t.history u = s.table.history u ++ if r.unit = u then [payload r] else [] := by
    intro u
    rw [history, h3 u]
    dsimp only
    by_cases hu : r.unit = u <;> simp [hu, history, payload]
  refine ⟨t, h1, h2, ?_, t1, hh, fun u hu => ?_⟩
  · unfold add; rw [hs, h1]; rfl
  · rw [history, t3 u hu]
    have := hh u
    rw [if_neg (Ne.symm hu), List.append_nil] at this
    exact this

theorem add_wf (S : SortDesc (ℚ × ℚ)) {s : Rewards} (h : Wf s.table) (r : Reward) : Wf (add S s r).table := by
  cases hs : hasSimilar s.cache r with
  | true => unfold add; rw [hs]; exact h
  | false =>
    obtain ⟨t, -, -, e, hw, -⟩ := add_eq S h r hs
    rw [e]; exact hw

theorem add_other (S : SortDesc (ℚ × ℚ)) {s : Rewards} (h : Wf s.table) (r : Reward) {u : Str} (hu : u ≠ r.unit) :
    SameAt s (add S s r) u := by
  cases hs : hasSimilar s.cache r with
  | true => unfold add; rw [hs]; exact ⟨rfl, rfl⟩
  | false =>
    obtain ⟨t, -, -, e, -, -, ho⟩ := add_eq S h r hs
    rw [e]
    refine ⟨ho u hu, ?_⟩
    simp only [addCache, AMap.find_upd, if_neg (Ne.symm hu)]

theorem same_similar {s s' : Rewards} {r : Reward} (h : SameAt s s' r.unit) : hasSimilar s'.cache r = hasSimilar s.cache r := by
  unfold hasSimilar; rw [h.cache]

theorem same_truncate (S : SortDesc (ℚ × ℚ)) (hS : Blind S) {t t' : Table (ℚ × ℚ)} (h : Wf t) (h' : Wf t') (u : Str)
    (e : t'.history u = t.history u) : (truncate S t' u).history u = (truncate S t u).history u := by
  have key : ∀ (t : Table (ℚ × ℚ)), (truncate S t u).rowsOf u =
      (t.rowsOf u).filter (fun x => !(((S.sort (t.rowsOf u)).drop 20).map Row.id).contains x.id) := by
    intro t
    have eu := uidOf_truncate S t u u
    unfold rowsOf
    rw [eu]
    cases hu : t.uidOf u with
    | none => simp
    | some k =>
      have : (truncate S t u).rows = trimUidById S 20 k t.rows := by simp [truncate, hu]
      dsimp only
      rw [this, trimUidById_filter]
  unfold history
  rw [key t, key t']
  exact same_kept S hS 20 (rowsOf_nodup h u) (rowsOf_nodup h' u) e

theorem add_same (S : SortDesc (ℚ × ℚ)) (hS : Blind S) {s s' : Rewards} (h : Wf s.table) (h' : Wf s'.table) (r : Reward)
    {u : Str} (e : SameAt s s' u) : SameAt (add S s r) (add S s' r) u := by
  by_cases hu : u = r.unit
  · subst hu
    have hsim := same_similar e
    cases hs : hasSimilar s.cache r with
    | true =>
      rw [hs] at hsim
      unfold add
      rw [hs, hsim]; exact e
    | false =>
      rw [hs] at hsim
      obtain ⟨t, -, w1, e1, -, hh, -⟩ := add_eq S h r hs
      obtain ⟨t', -, w1', e1', -, hh', -⟩ := add_eq S h' r hsim
      rw [e1, e1']
      refine ⟨same_truncate S hS w1 w1' _ (by rw [hh, hh', e.history]), ?_⟩
      simp only [addCache, AMap.find_upd, e.cache]
  · have a := add_other S h r hu
    have b := add_other S h' r hu
    exact ⟨by rw [b.history, e.history, a.history], by rw [b.cache, e.cache, a.cache]⟩

/-- The loop without database errors. -/
theorem loop_add (S : SortDesc (ℚ × ℚ)) (rs : List Reward) : ∀ s : Rewards, Wf s.table →
    (loop S s rs none).1 = rs.foldl (add S) s ∧ (loop S s rs none).2.2 = true ∧ Wf (rs.foldl (add S) s).table := by
  induction rs with
  | nil => intro s h; exact ⟨rfl, rfl, h⟩
  | cons r rs ih =>
    intro s h
    have hw := add_wf S h r
    rw [List.foldl_cons]
    cases hs : hasSimilar s.cache r with
    | true =>
      have : add S s r = s := by unfold add; rw [hs]; rfl
      rw [this]
      simpa [loop, hs] using ih s h
    | false =>
      obtain ⟨t, h1, -, e, -⟩ := add_eq S h r hs
      rw [e] at hw ⊢
      have := ih _ hw
      simpa [loop, hs, h1] using this

/-- What a batch of rewards for different units does to a unit: only its own reward matters. -/
theorem foldl_add_at (S : SortDesc (ℚ × ℚ)) (hS : Blind S) (u : Str) (rs : List Reward) (hn : (rs.map Reward.unit).Nodup) :
    ∀ s : Rewards, Wf s.table →
    (∀ r ∈ rs, r.unit = u → SameAt (add S s r) (rs.foldl (add S) s) u) ∧
    ((∀ r ∈ rs, r.unit ≠ u) → SameAt s (rs.foldl (add S) s) u) := by
  induction rs with
  | nil => intro s _; exact ⟨by simp, fun _ => ⟨rfl, rfl⟩⟩
  | cons a rs ih =>
    intro s h
    rw [List.map_cons, List.nodup_cons] at hn
    obtain ⟨i1, i2⟩ := ih hn.2 (add S s a) (add_wf S h a)
    rw [List.foldl_cons]
    refine ⟨fun r hr hu => ?_, fun hne => ?_⟩
    · rcases List.mem_cons.1 hr with rfl | hr
      · refine i2 (fun x hx e => hn.1 ?_)
        rw [hu, ← e]; exact List.mem_map_of_mem hx
      · have hau : u ≠ a.unit := by
          rintro e
          exact hn.1 (by rw [← e, ← hu]; exact List.mem_map_of_mem hr)
        have k1 := i1 r hr hu
        have k2 := add_same S hS h (add_wf S h a) r (add_other S h a hau)
        exact ⟨k1.history.trans k2.history, k1.cache.trans k2.cache⟩
    · have k1 := i2 (fun r hr => hne r (List.mem_cons_of_mem _ hr))
      have k2 := add_other S h a (Ne.symm (hne a List.mem_cons_self))
      exact ⟨k1.history.trans k2.history, k1.cache.trans k2.cache⟩

/-- The units reported, when the rewards are for different units. -/
theorem loop_reported (S : SortDesc (ℚ × ℚ)) (rs : List Reward) (hn : (rs.map Reward.unit).Nodup) : ∀ s : Rewards, Wf s.table →
    (loop S s rs none).2.1 = (rs.filter (fun r => !hasSimilar s.cache r)).map Reward.unit := by
  induction rs with
  | nil => intro s _; rfl
  | cons a rs ih =>
    intro s h
    rw [List.map_cons, List.nodup_cons] at hn
    cases hs : hasSimilar s.cache a with
    | true => simp [loop, hs, ih hn.2 s h]
    | false =>
      obtain ⟨t, h1, -, e, hw, -⟩ := add_eq S h a hs
      have := ih hn.2 ⟨truncate S t a.unit, addCache s.cache a⟩ hw
      simp only [loop, hs, h1, Option.map_none, this]
      simp only [Bool.false_eq_true, if_false, reduceCtorEq, List.filter_cons, hs, Bool.not_false, if_true, List.map_cons,
        List.cons.injEq, true_and]
      congr 1
      refine List.filter_congr (fun r hr => ?_)
      have hne : r.unit ≠ a.unit := fun e => hn.1 (by rw [← e]; exact List.mem_map_of_mem hr)
      have k := add_other S h a hne
      rw [e] at k
      rw [same_similar (s := s) (s' := ⟨truncate S t a.unit, addCache s.cache a⟩) k]

/-- **Rewards for different units, recorded in any order, leave stores that agree on every unit, and report the same
units.** -/
theorem record_any_order (S : SortDesc (ℚ × ℚ)) (hS : Blind S) {s s' : Rewards} (h : Alike s s') {rs rs' : List Reward}
    (hp : rs.Perm rs') (hn : (rs.map Reward.unit).Nodup) :
    Alike (s.record S rs none).1 (s'.record S rs' none).1 ∧
    ∃ ids ids', (s.record S rs none).2 = some ids ∧ (s'.record S rs' none).2 = some ids' ∧ ids.Perm ids' := by
  have hn' : (rs'.map Reward.unit).Nodup := (hp.map _).nodup_iff.1 hn
  obtain ⟨a1, a2, a3⟩ := loop_add S rs s h.wf
  obtain ⟨b1, b2, b3⟩ := loop_add S rs' s' h.wf'
  have e1 : s.record S rs none = ((loop S s rs none).1, some (loop S s rs none).2.1) := by simp [record, a2]
  have e2 : s'.record S rs' none = ((loop S s' rs' none).1, some (loop S s' rs' none).2.1) := by simp [record, b2]
  rw [e1, e2, a1, b1]
  refine ⟨⟨fun u => ?_, a3, b3⟩, _, _, rfl, rfl, ?_⟩
  · obtain ⟨c1, c2⟩ := foldl_add_at S hS u rs hn s h.wf
    obtain ⟨d1, d2⟩ := foldl_add_at S hS u rs' hn' s' h.wf'
    by_cases hr : ∃ r ∈ rs, r.unit = u
    · obtain ⟨r, hr, hu⟩ := hr
      have k1 := c1 r hr hu
      have k2 := d1 r (hp.mem_iff.1 hr) hu
      have k3 := add_same S hS h.wf h.wf' r (h.at_ u)
      exact ⟨by rw [k2.history, k3.history, k1.history], by rw [k2.cache, k3.cache, k1.cache]⟩
    · have hne : ∀ r ∈ rs, r.unit ≠ u := fun r hm e => hr ⟨r, hm, e⟩
      have k1 := c2 hne
      have k2 := d2 (fun r hm => hne r (hp.mem_iff.2 hm))
      have k3 := h.at_ u
      exact ⟨by rw [k2.history, k3.history, k1.history], by rw [k2.cache, k3.cache, k1.cache]⟩
  · rw [loop_reported S rs hn s h.wf, loop_reported S rs' hn' s' h.wf']
    have : rs'.filter (fun r => !hasSimilar s'.cache r) = rs'.filter (fun r => !hasSimilar s.cache r) :=
      List.filter_congr (fun r _ => by rw [same_similar (h.at_ r.unit)])
    rw [this]
    exact (hp.filter _).map _

/-- The same call on stores that agree, with or without a database error. -/
theorem loop_same (S : SortDesc (ℚ × ℚ)) (hS : Blind S) (rs : List Reward) : ∀ (s s' : Rewards) (budget : Option Nat),
    Alike s s' → Alike (loop S s rs budget).1 (loop S s' rs budget).1 ∧ (loop S s' rs budget).2 = (loop S s rs budget).2 := by
  induction rs with
  | nil => intro s s' _ h; exact ⟨h, rfl⟩
  | cons r rs ih =>
    intro s s' budget h
    have hsim := same_similar (h.at_ r.unit)
    cases hs : hasSimilar s.cache r with
    | true =>
      rw [hs] at hsim
      simpa [loop, hs, hsim] using ih s s' budget h
    | false =>
      rw [hs] at hsim
      by_cases hb : budget = some 0
      · simpa [loop, hs, hsim, hb] using h
      · obtain ⟨t, h1, -, e, hw, -⟩ := add_eq S h.wf r hs
        obtain ⟨t', h1', -, e', hw', -⟩ := add_eq S h.wf' r hsim
        have hA : Alike (add S s r) (add S s' r) :=
          ⟨fun u => add_same S hS h.wf h.wf' r (h.at_ u), add_wf S h.wf r, add_wf S h.wf' r⟩
        rw [e, e'] at hA
        obtain ⟨i1, i2⟩ := ih _ _ (budget.map (· - 1)) hA
        simp only [loop, hs, hsim, hb, h1, h1', Bool.false_eq_true, if_false]
        exact ⟨i1, by rw [i2]⟩

/-- **The same call on stores that agree on every unit**: the stores still agree, and so do the answers.  Trimming and
removing are not interrupted. -/
theorem step_same (S : SortDesc (ℚ × ℚ)) (hS : Blind S) {s s' : Rewards} (h : Alike s s') (o : Op)
    (ho : (∀ n k, o ≠ .trim n (some k)) ∧ ∀ p k, o ≠ .removePrefix p (some k)) :
    Alike (s.step S o).1 (s'.step S o).1 ∧ (s'.step S o).2 = (s.step S o).2 := by
  cases o with
  | record rs fail =>
    obtain ⟨a, b⟩ := loop_same S hS rs s s' fail h
    simp only [step, record, b]
    split
    · exact ⟨a, rfl⟩
    · exact ⟨⟨fun u => ⟨(h.at_ u).history, (a.at_ u).cache⟩, h.wf, h.wf'⟩, rfl⟩
  | trim n stop =>
    cases stop with
    | some k => exact absurd rfl (ho.1 n k)
    | none =>
      exact ⟨⟨fun u => ⟨same_trim S hS h.wf h.wf' n u (h.at_ u).history, (h.at_ u).cache⟩, wf_trimById S _ n none h.wf,
        wf_trimById S _ n none h.wf'⟩, rfl⟩
  | removePrefix p stop =>
    cases stop with
    | some k => exact absurd rfl (ho.2 p k)
    | none =>
      exact ⟨⟨fun u => ⟨same_remove h.wf h.wf' p u (h.at_ u).history, (h.at_ u).cache⟩, wf_removePrefix _ p none h.wf,
        wf_removePrefix _ p none h.wf'⟩, rfl⟩
  | reopen => exact ⟨⟨fun u => ⟨(h.at_ u).history, rfl⟩, h.wf, h.wf'⟩, rfl⟩

/-! ### The sample sort is blind to the numbers of the rows -/

theorem blind_insSort (α : Type) : Blind (Table.insSort (α := α)) := by
  intro f hf l
  induction l with
  | nil => rfl
  | cons a l ih =>
    have e : ∀ (a : Row α) (l : List (Row α)), Table.insSort.sort (a :: l) =
        (Table.insSort.sort l).takeWhile (fun b => a.ts < b.ts) ++ a :: (Table.insSort.sort l).dropWhile (fun b => a.ts < b.ts) :=
      fun _ _ => rfl
    rw [List.map_cons, e, e, ih, List.map_append, List.map_cons, List.takeWhile_map, List.dropWhile_map]
    have hp : ((fun b : Row α => decide ((f a).ts < b.ts)) ∘ f) = fun b => decide (a.ts < b.ts) := by
      funext b; simp [(hf a).2, (hf b).2]
    rw [hp]

end Rewards
end Trane.Store
