import Verif.Store.Rewards
import Verif.Store.LogProps
import Mathlib.Data.List.Induction
import Mathlib.Tactic.NormNum

/-! # C13–C17 for practice rewards -/

namespace Trane.Store.Table
variable {α : Type}

/-! ### Helper lemmas on trimming by row id -/

theorem trimUidById_same (S : SortDesc α) (n k : Nat) (rows : List (Row α))
    (hn : (rows.map Row.id).Nodup) :
    ((trimUidById S n k rows).filter (fun r => r.uid = k)).Perm
      ((S.sort (rows.filter (fun r => r.uid = k))).take n) := by
  set L := rows.filter (fun r => r.uid = k) with hL
  have hp := S.perm L
  have hnL : (L.map Row.id).Nodup := hn.sublist (List.filter_sublist.map _)
  rw [← filter_key_drop Row.id (S.sort L) ((hp.map _).nodup_iff.2 hnL) n]
  have : (trimUidById S n k rows).filter (fun r => r.uid = k) =
      L.filter (fun x => !(((S.sort L).drop n).map Row.id).contains x.id) := by
    unfold trimUidById
    rw [← hL, hL, List.filter_filter, List.filter_filter]
    apply List.filter_congr
    intro x _
    rw [Bool.and_comm]
  rw [this]
  exact (hp.filter _).symm

theorem trimUidById_other (S : SortDesc α) (n k j : Nat) (rows : List (Row α))
    (hn : (rows.map Row.id).Nodup) (h : j ≠ k) :
    (trimUidById S n k rows).filter (fun r => r.uid = j) = rows.filter (fun r => r.uid = j) := by
  unfold trimUidById
  rw [List.filter_filter]
  apply List.filter_congr
  intro x hx
  by_cases hk : x.uid = j
  · have : x.id ∉ ((S.sort (rows.filter (fun r => r.uid = k))).drop n).map Row.id := by
      intro hm
      obtain ⟨y, hy, hyx⟩ := List.mem_map.1 hm
      have hy := (S.perm _).mem_iff.1 (List.mem_of_mem_drop hy)
      simp only [List.mem_filter, decide_eq_true_eq] at hy
      have := List.inj_on_of_nodup_map hn hy.1 hx hyx
      rw [← this, hy.2] at hk
      exact h hk.symm
    have : (((S.sort (rows.filter (fun r => r.uid = k))).drop n).map Row.id).contains x.id =
        false := by
      rw [Bool.eq_false_iff, ne_eq, List.contains_iff_mem]; exact this
    simp [hk]
    simpa using this
  · simp [hk]

theorem foldl_trimById (S : SortDesc α) (n : Nat) (ks : List Nat) (hn : ks.Nodup) (j : Nat)
    (rows : List (Row α)) (hi : (rows.map Row.id).Nodup) :
    (j ∈ ks → ((ks.foldl (fun rows k => trimUidById S n k rows) rows).filter
      (fun r => r.uid = j)).Perm ((S.sort (rows.filter (fun r => r.uid = j))).take n)) ∧
    (j ∉ ks → (ks.foldl (fun rows k => trimUidById S n k rows) rows).filter (fun r => r.uid = j) =
      rows.filter (fun r => r.uid = j)) := by
  induction ks generalizing rows with
  | nil => simp
  | cons k ks ih =>
    rw [List.nodup_cons] at hn
    rw [List.foldl_cons]
    have hi' : ((trimUidById S n k rows).map Row.id).Nodup :=
      hi.sublist (List.filter_sublist.map _)
    obtain ⟨i1, i2⟩ := ih hn.2 _ hi'
    by_cases hj : j = k
    · subst hj
      refine ⟨fun _ => ?_, fun h => (h (by simp)).elim⟩
      rw [i2 hn.1]
      exact trimUidById_same S n j rows hi
    · rw [trimUidById_other S n k j rows hi hj] at i1 i2
      simp only [List.mem_cons, hj, false_or]
      exact ⟨i1, i2⟩

/-- Rows that are a rearrangement of the first `n` sorted rows are the newest `n`. -/
theorem keeps_of_perm (S : SortDesc α) (n : Nat) (L K : List (Row α))
    (h : K.Perm ((S.sort L).take n)) :
    KeepsNewest n (L.map (fun r => (r.val, r.ts))) (K.map (fun r => (r.val, r.ts))) := by
  refine ⟨by simp [h.length_eq, (S.perm L).length_eq],
    ((S.sort L).drop n).map (fun r => (r.val, r.ts)), ?_, ?_⟩
  · rw [← List.map_append]
    refine List.Perm.map _ ((h.append_right _).trans ?_)
    rw [List.take_append_drop]
    exact S.perm L
  · intro a ha b hb
    obtain ⟨x, hx, rfl⟩ := List.mem_map.1 ha
    obtain ⟨y, hy, rfl⟩ := List.mem_map.1 hb
    have hs := S.sorted L
    rw [← List.take_append_drop n (S.sort L), List.pairwise_append] at hs
    exact hs.2.2 x (h.mem_iff.1 hx) y hy

theorem KeepsNewest.refl (n : Nat) (l : List (α × Int)) (h : l.length ≤ n) : KeepsNewest n l l :=
  ⟨by omega, [], by simp, by simp⟩

/-- Keeping the newest `n`, adding an entry and keeping the newest `n` again is the same as adding the
entry first. -/
theorem KeepsNewest.snoc {n : Nat} {A B C : List (α × Int)} {x : α × Int}
    (h1 : KeepsNewest n A B) (h2 : KeepsNewest n (B ++ [x]) C) : KeepsNewest n (A ++ [x]) C := by
  obtain ⟨l1, g1, p1, o1⟩ := h1
  obtain ⟨l2, g2, p2, o2⟩ := h2
  have hlA : A.length = B.length + g1.length := by rw [← p1.length_eq]; simp
  have hlB : B.length + 1 = C.length + g2.length := by
    have := p2.length_eq; simpa using this.symm
  simp only [List.length_append, List.length_singleton] at l2
  refine ⟨by simp only [List.length_append, List.length_singleton]; omega, g2 ++ g1, ?_, ?_⟩
  · rw [← List.append_assoc]
    refine (p2.append_right g1).trans ?_
    refine List.Perm.trans ?_ (p1.append_right [x])
    rw [List.append_assoc, List.append_assoc]
    exact (List.perm_append_comm).append_left B
  · intro a ha b hb
    rcases List.mem_append.1 hb with hb | hb
    · exact o2 a ha b hb
    · -- some entry was deleted before, so `B` is full
      have hg : 0 < g1.length := List.length_pos_of_mem hb
      have hB : B.length = n := by omega
      have ha' : a ∈ B ++ [x] := p2.mem_iff.1 (List.mem_append_left _ ha)
      rcases List.mem_append.1 ha' with ha' | hax
      · exact o1 a ha' b hb
      · -- the new entry was kept: one of `B` was deleted in its place, or `n = 0`
        have hg2 : 0 < g2.length := by omega
        obtain ⟨d, hd⟩ := List.exists_mem_of_length_pos hg2
        have hdm : d ∈ B ++ [x] := p2.mem_iff.1 (List.mem_append_right _ hd)
        rcases List.mem_append.1 hdm with hdB | hdx
        · have := o1 d hdB b hb
          have := o2 a ha d hd
          omega
        · -- the deleted entry is (a copy of) `x` itself
          simp only [List.mem_singleton] at hax hdx
          subst hax
          -- `B ++ [x]` is a rearrangement of `C ++ g2` with `x` in both: `x` occurs in `B`
          have hxB : a ∈ B := by
            by_contra hn
            have hc1 : ∀ l : List (α × Int), a ∈ l → ∃ s t, l = s ++ a :: t :=
              fun l hl => List.append_of_mem hl
            obtain ⟨s, t, rfl⟩ := hc1 C ha
            rw [hdx] at hd
            have hp : (a :: (s ++ t ++ g2)).Perm (a :: B) := by
              refine List.Perm.trans ?_ (p2.trans (List.perm_append_comm (l₁ := B) (l₂ := [a])))
              rw [List.append_assoc, List.append_assoc, List.cons_append]
              exact List.perm_middle.symm
            have hp := hp.cons_inv
            exact hn (hp.mem_iff.1 (List.mem_append_right _ hd))
          exact o1 a hxB b hb

end Trane.Store.Table

namespace Trane.Store.Rewards
open Table

/-! ### Specification -/

/-- The payload of a reward as the database returns it: value, weight and time. -/
def payload (r : Reward) : (ℚ × ℚ) × Int := ((r.value, r.weight), r.ts)

/-- Two rewards are near-duplicates: same value, less than a day apart, weights differ by less than
`0.1`. -/
def NearDuplicate (r s : Reward) : Prop :=
  r.value = s.value ∧ |r.ts - s.ts| < 24 * 60 * 60 ∧ |r.weight - s.weight| < 0.1

instance (r s : Reward) : Decidable (NearDuplicate r s) := by unfold NearDuplicate; infer_instance

/-- The last `n` members of a list. -/
def lastN {β : Type} (n : Nat) (l : List β) : List β := l.drop (l.length - n)

/-- The rewards of a batch that are accepted, given the rewards accepted before in the session: a
reward is skipped when it nearly duplicates one of the last ten accepted for its unit. -/
def accepted (log : List Reward) : List Reward → List Reward
  | [] => []
  | r :: rs =>
    if ∃ s ∈ lastN 10 (log.filter (fun s => s.unit = r.unit)), NearDuplicate r s then accepted log rs
    else r :: accepted (log ++ [r]) rs

/-- The rewards accepted since the database was opened.  A batch that hits a database error after `k`
accepted rewards counts those `k`. -/
def sessionLog (ops : List Op) : List Reward :=
  ops.foldl (fun log o => match o with
    | .record rs none => log ++ accepted log rs
    | .record rs (some k) => log ++ (accepted log rs).take k
    | .reopen => []
    | _ => log) []

theorem sessionLog_snoc (ops : List Op) (o : Op) :
    sessionLog (ops ++ [o]) = (match o with
    | .record rs none => sessionLog ops ++ accepted (sessionLog ops) rs
    | .record rs (some k) => sessionLog ops ++ (accepted (sessionLog ops) rs).take k
    | .reopen => []
    | _ => sessionLog ops) := by
  simp only [sessionLog, List.foldl_append, List.foldl_cons, List.foldl_nil]

/-! ### The cache holds the last ten accepted rewards of each unit -/

theorem similar_iff (r s : Reward) : similar r s = true ↔ NearDuplicate r s := by
  unfold similar NearDuplicate
  simp only [Bool.and_eq_true, decide_eq_true_eq]
  have e1 : (s.ts - r.ts).natAbs < 86400 ↔ |r.ts - s.ts| < 24 * 60 * 60 := by
    rw [abs_lt]; omega
  have e2 : |s.weight - r.weight| < 1 / 10 ↔ |r.weight - s.weight| < 0.1 := by
    rw [abs_sub_comm]; norm_num
  rw [e1, e2]
  constructor
  · rintro ⟨⟨a, b⟩, c⟩; exact ⟨a.symm, b, c⟩
  · rintro ⟨a, b, c⟩; exact ⟨⟨a.symm, b⟩, c⟩

/-- The cache agrees with the session log. -/
def CacheOk (c : AMap Str (List Reward)) (log : List Reward) : Prop :=
  ∀ u, (AMap.find c u).getD [] = lastN 10 (log.filter (fun s => s.unit = u))

theorem lastN_snoc (l : List Reward) (r : Reward) :
    lastN 10 (l ++ [r]) = pushCache r (lastN 10 l) := by
  unfold lastN pushCache
  by_cases h : 10 ≤ l.length
  · rw [if_pos (by simp; omega), List.drop_drop, List.drop_append_of_le_length (by simp)]
    congr 2
    simp only [List.length_append, List.length_singleton]
    omega
  · rw [if_neg (by simp; omega)]
    have e1 : l.length - 10 = 0 := by omega
    have e2 : (l ++ [r]).length - 10 = 0 := by simp; omega
    rw [e1, e2, List.drop_zero, List.drop_zero]

theorem cacheOk_add {c : AMap Str (List Reward)} {log : List Reward} (h : CacheOk c log)
    (r : Reward) : CacheOk (addCache c r) (log ++ [r]) := by
  intro u
  unfold addCache
  rw [AMap.find_upd, List.filter_append]
  by_cases hu : r.unit = u
  · subst hu
    rw [if_pos rfl, Option.getD_some, h r.unit]
    simp [lastN_snoc]
  · rw [if_neg hu, h u]
    simp [hu]

theorem hasSimilar_iff {c : AMap Str (List Reward)} {log : List Reward} (h : CacheOk c log)
    (r : Reward) : hasSimilar c r = true ↔
      ∃ s ∈ lastN 10 (log.filter (fun s => s.unit = r.unit)), NearDuplicate r s := by
  rw [← h r.unit]
  unfold hasSimilar
  cases AMap.find c r.unit with
  | none => simp
  | some rs => simp [similar_iff]

/-! ### One batch -/

theorem uidOf_truncate (S : SortDesc (ℚ × ℚ)) (t : Table (ℚ × ℚ)) (u v : Str) :
    (truncate S t u).uidOf v = t.uidOf v := by
  unfold truncate; split <;> rfl

theorem truncate_spec (S : SortDesc (ℚ × ℚ)) (t : Table (ℚ × ℚ)) (u : Str) (h : Wf t) :
    Wf (truncate S t u) ∧ KeepsNewest 20 (t.history u) ((truncate S t u).history u) ∧
    ∀ v, v ≠ u → (truncate S t u).rowsOf v = t.rowsOf v := by
  cases hu : t.uidOf u with
  | none =>
    have e : truncate S t u = t := by simp [truncate, hu]
    rw [e]
    refine ⟨h, KeepsNewest.refl _ _ (by simp [history, rowsOf, hu]), fun _ _ => rfl⟩
  | some k =>
    have e : truncate S t u = { t with rows := trimUidById S 20 k t.rows } := by simp [truncate, hu]
    have eu := uidOf_truncate S t u
    refine ⟨by rw [e]; exact sublist_wf h List.filter_sublist, ?_, ?_⟩
    · have hp := trimUidById_same S 20 k t.rows h.idNodup
      have := keeps_of_perm S 20 _ _ hp
      unfold history rowsOf
      rw [eu, hu, e]
      exact this
    · intro v hv
      simp only [rowsOf, eu]
      cases hvk : t.uidOf v with
      | none => rfl
      | some j =>
        have : j ≠ k := by rintro rfl; exact hv (uid_inj h hvk hu)
        simp only [e]
        exact trimUidById_other S 20 k j t.rows h.idNodup this

/-- The part of the accepted rewards handled before the database error, if any. -/
def cut (budget : Option Nat) (acc : List Reward) : List Reward :=
  match budget with | none => acc | some k => acc.take k

/-- What the loop does, in terms of the specification. -/
theorem loop_spec (S : SortDesc (ℚ × ℚ)) (rs : List Reward) :
    ∀ (s : Rewards) (log : List Reward) (base : Str → List ((ℚ × ℚ) × Int)) (budget : Option Nat),
    Wf s.table → CacheOk s.cache log →
    (∀ u, KeepsNewest 20 (base u) (s.table.history u)) →
    let res := loop S s rs budget
    let acc := accepted log rs
    let done := cut budget acc
    (res.2.2 = true ↔ ∀ k, budget = some k → acc.length ≤ k) ∧
    res.2.1 = done.map Reward.unit ∧ Wf res.1.table ∧ CacheOk res.1.cache (log ++ done) ∧
    (∀ u, KeepsNewest 20 (base u ++ (done.filter (fun r => r.unit = u)).map payload)
      (res.1.table.history u)) ∧
    (∀ u, (∀ r ∈ done, r.unit ≠ u) → res.1.table.rowsOf u = s.table.rowsOf u) := by
  induction rs with
  | nil =>
    intro s log base budget hw hc hb
    simp only [loop, accepted]
    cases budget <;> simp [cut, hw, hc, hb]
  | cons r rs ih =>
    intro s log base budget hw hc hb
    simp only [loop, accepted]
    by_cases hs : hasSimilar s.cache r = true
    · rw [if_pos hs, if_pos ((hasSimilar_iff hc r).1 hs)]
      exact ih s log base budget hw hc hb
    · rw [if_neg hs, if_neg (fun h => hs ((hasSimilar_iff hc r).2 h))]
      by_cases hb0 : budget = some 0
      · subst hb0
        simp only [if_true]
        simp [cut, hw, hc, hb]
      · rw [if_neg hb0]
        obtain ⟨t, h1, h2, i, k, _, _, h3⟩ := recordOne_spec s.table
          ⟨r.unit, (r.value, r.weight), r.ts⟩ hw
        obtain ⟨t1, t2, t3⟩ := truncate_spec S t r.unit h2
        rw [h1]
        dsimp only
        have hh : ∀ u, t.history u = s.table.history u ++
            if r.unit = u then [payload r] else [] := by
          intro u
          rw [history, h3 u]
          dsimp only
          by_cases hu : r.unit = u <;> simp [hu, history, payload]
        have hbase : ∀ u, KeepsNewest 20 (base u ++ if r.unit = u then [payload r] else [])
            ((truncate S t r.unit).history u) := by
          intro u
          by_cases hu : r.unit = u
          · subst hu
            rw [if_pos rfl]
            refine KeepsNewest.snoc (hb r.unit) ?_
            have := hh r.unit
            rw [if_pos rfl] at this
            rw [← this]
            exact t2
          · rw [if_neg hu, List.append_nil]
            have e : (truncate S t r.unit).history u = s.table.history u := by
              rw [history, t3 u (Ne.symm hu), h3 u]
              dsimp only
              rw [if_neg hu, List.append_nil]; rfl
            rw [e]; exact hb u
        have := ih ⟨truncate S t r.unit, addCache s.cache r⟩ (log ++ [r])
          (fun u => base u ++ if r.unit = u then [payload r] else []) (budget.map (· - 1)) t1
          (cacheOk_add hc r) hbase
        obtain ⟨j1, j2, j3, j4, j5, j6⟩ := this
        have hdone : cut budget (r :: accepted (log ++ [r]) rs) =
            r :: cut (budget.map (· - 1)) (accepted (log ++ [r]) rs) := by
          cases budget with
          | none => rfl
          | some k =>
            cases k with
            | zero => exact (hb0 rfl).elim
            | succ k => simp [cut]
        rw [hdone]
        refine ⟨?_, ?_, j3, ?_, ?_, ?_⟩
        · rw [j1]
          cases budget with
          | none => simp
          | some k =>
            cases k with
            | zero => exact (hb0 rfl).elim
            | succ k => simp
        · rw [j2]; rfl
        · simpa using j4
        · intro u
          have := j5 u
          by_cases hu : r.unit = u
          · simpa [hu] using this
          · simpa [hu] using this
        · intro u hu
          rw [j6 u (fun x hx => hu x (List.mem_cons_of_mem _ hx))]
          have hru : r.unit ≠ u := hu r (by simp)
          rw [t3 u (Ne.symm hru), h3 u]
          dsimp only
          rw [if_neg hru, List.append_nil]

/-! ### Invariants of every history -/

theorem rowsOf_trimById (S : SortDesc (ℚ × ℚ)) (t : Table (ℚ × ℚ)) (n : Nat) (stop : Option Nat)
    (h : Wf t) (u : Str) :
    (stop = none → KeepsNewest n (t.history u) ((t.trimById S n stop).history u)) ∧
    ((t.trimById S n stop).history u = t.history u ∨
      KeepsNewest n (t.history u) ((t.trimById S n stop).history u)) := by
  have e : (t.trimById S n stop).uidOf u = t.uidOf u := rfl
  cases hu : t.uidOf u with
  | none => simp [history, rowsOf, e, hu, KeepsNewest]
  | some k =>
    have hk : k ∈ t.uids.map Prod.fst := List.mem_map.2 ⟨_, (uidOf_some h).1 hu, rfl⟩
    cases stop with
    | none =>
      have hp := (foldl_trimById S n _ h.uidNodup k t.rows h.idNodup).1 hk
      have := keeps_of_perm S n _ _ hp
      have : KeepsNewest n (t.history u) ((t.trimById S n none).history u) := by
        unfold history rowsOf
        rw [e, hu]
        exact this
      exact ⟨fun _ => this, Or.inr this⟩
    | some m =>
      refine ⟨by simp, ?_⟩
      have hf := foldl_trimById S n _ (h.uidNodup.sublist (List.take_sublist m _)) k t.rows
        h.idNodup
      by_cases hm : k ∈ (t.uids.map Prod.fst).take m
      · right
        have := keeps_of_perm S n _ _ (hf.1 hm)
        unfold history rowsOf
        rw [e, hu]
        exact this
      · left
        have := hf.2 hm
        unfold history rowsOf
        rw [e, hu]
        exact congrArg _ this

/-- The reachable states: well-formed, bounded, and with the cache in step with the session. -/
structure Good (s : Rewards) (log : List Reward) : Prop where
  wf : Wf s.table
  cache : CacheOk s.cache log
  bound : ∀ u, (s.table.history u).length ≤ 20

theorem good_run (S : SortDesc (ℚ × ℚ)) (ops : List Op) : Good (run S ops) (sessionLog ops) := by
  induction ops using List.reverseRecOn with
  | nil => exact ⟨wf_empty, fun u => rfl, fun u => by simp [run, history, rowsOf, uidOf]⟩
  | append_singleton ops o ih =>
    rw [run_snoc, sessionLog_snoc]
    obtain ⟨hw, hc, hb⟩ := ih
    generalize run S ops = s at *
    cases o with
    | record rs fail =>
      have := loop_spec S rs s (sessionLog ops) s.table.history fail hw hc
        (fun u => KeepsNewest.refl _ _ (hb u))
      obtain ⟨j1, j2, j3, j4, j5, j6⟩ := this
      simp only [step, record]
      cases fail with
      | none =>
        have hok : (loop S s rs none).2.2 = true := j1.2 (by simp)
        simp only [hok, Option.isNone_none, Bool.and_self, if_true]
        refine ⟨j3, j4, fun u => ?_⟩
        have := (j5 u).1
        omega
      | some k =>
        simp only [Option.isNone_some, Bool.and_false, Bool.false_eq_true, if_false]
        exact ⟨hw, j4, hb⟩
    | trim n stop =>
      refine ⟨wf_trimById S _ n stop hw, hc, fun u => ?_⟩
      show ((s.table.trimById S n stop).history u).length ≤ 20
      rcases (rowsOf_trimById S s.table n stop hw u).2 with e | e
      · rw [e]; exact hb u
      · have := e.1; have := hb u; omega
    | removePrefix p stop =>
      refine ⟨wf_removePrefix _ p stop hw, hc, fun u => ?_⟩
      show ((s.table.removePrefix p stop).history u).length ≤ 20
      rcases (rowsOf_removePrefix s.table p stop hw u).2 with e | e
      · rw [history, e]; exact hb u
      · rw [history, e.2]; simp
    | reopen => exact ⟨hw, fun u => rfl, hb⟩

/-! ### C13 and C14 for rewards -/

/-- C13 for rewards: `get_rewards(u, n)` returns the newest `n` stored rewards of `u`. -/
theorem get_rewards_newest (S : SortDesc (ℚ × ℚ)) (ops : List Op) (u : Str) (n : Nat) :
    IsNewest n ((run S ops).table.history u) ((run S ops).table.get S u n) := get_newest S _ u n

/-- C14 for rewards, with any timestamps: a successful trim cuts every unit down to its `n` newest
rewards; an interrupted one does so for some units and leaves the others alone. -/
theorem trim_rewards_keeps_newest (S : SortDesc (ℚ × ℚ)) (ops : List Op) (n : Nat)
    (stop : Option Nat) (u : Str) :
    let old := (run S ops).table.history u
    let new := (run S (ops ++ [.trim n stop])).table.history u
    (stop = none → KeepsNewest n old new) ∧ (new = old ∨ KeepsNewest n old new) := by
  rw [run_snoc]
  exact rowsOf_trimById S _ n stop (good_run S ops).wf u

/-- C15 for rewards. -/
theorem remove_rewards_prefix_partial (S : SortDesc (ℚ × ℚ)) (ops : List Op) (p u : Str) :
    (p <+: u → (run S (ops ++ [.removePrefix p none])).table.history u = []) ∧
    ('%' ∉ p ∧ '_' ∉ p → (run S (ops ++ [.removePrefix p none])).table.history u =
      if p.map Char.toLower <+: u.map Char.toLower then [] else (run S ops).table.history u) := by
  rw [run_snoc]
  have h := (rowsOf_removePrefix (run S ops).table p none (good_run S ops).wf u).1 rfl
  have h : ((run S ops).table.removePrefix p none).history u =
      if likePrefix p u then [] else (run S ops).table.history u := by
    rw [history, h]; split <;> rfl
  constructor
  · intro hp
    show ((run S ops).table.removePrefix p none).history u = []
    rw [h, if_pos (likePrefix_of_prefix p u hp)]
  · intro hp
    show ((run S ops).table.removePrefix p none).history u = _
    rw [h]
    by_cases hl : likePrefix p u = true
    · rw [if_pos hl, if_pos ((likePrefix_iff p u hp).1 hl)]
    · rw [if_neg hl, if_neg (fun h' => hl ((likePrefix_iff p u hp).2 h'))]

/-! ### C16 -/

/-- C16: at every point of every history, with failures and crashes anywhere, no unit has more than
20 stored rewards. -/
theorem rewards_bounded (S : SortDesc (ℚ × ℚ)) (ops : List Op) (u : Str) :
    ((run S ops).table.history u).length ≤ 20 := (good_run S ops).bound u

/-- C16, C17: a successful batch appends, for each unit, its accepted rewards in order and cuts the
result down to the 20 newest; no deleted reward is newer than a kept one. -/
theorem record_rewards_stores_accepted (S : SortDesc (ℚ × ℚ)) (ops : List Op) (rs : List Reward)
    (u : Str) :
    KeepsNewest 20
      ((run S ops).table.history u ++
        ((accepted (sessionLog ops) rs).filter (fun r => r.unit = u)).map payload)
      ((run S (ops ++ [.record rs none])).table.history u) := by
  obtain ⟨hw, hc, hb⟩ := good_run S ops
  rw [run_snoc]
  obtain ⟨j1, j2, j3, j4, j5, j6⟩ := loop_spec S rs (run S ops) (sessionLog ops)
    (run S ops).table.history none hw hc (fun u => KeepsNewest.refl _ _ (hb u))
  have hok : (loop S (run S ops) rs none).2.2 = true := j1.2 (by simp)
  simp only [step, record, hok, Option.isNone_none, Bool.and_self, if_true]
  exact j5 u

/-! ### C17 -/

/-- C17: a batch succeeds unless the database fails, and reports exactly the units of its accepted
rewards, in order.  A failing batch changes no stored reward. -/
theorem record_rewards_reports_accepted (S : SortDesc (ℚ × ℚ)) (ops : List Op) (rs : List Reward) :
    ((run S ops).step S (.record rs none)).2 =
      some ((accepted (sessionLog ops) rs).map Reward.unit) ∧
    ∀ k, ((run S ops).step S (.record rs (some k))).2 = none ∧
      (run S (ops ++ [.record rs (some k)])).table = (run S ops).table := by
  obtain ⟨hw, hc, hb⟩ := good_run S ops
  constructor
  · obtain ⟨j1, j2, -⟩ := loop_spec S rs (run S ops) (sessionLog ops)
      (run S ops).table.history none hw hc (fun u => KeepsNewest.refl _ _ (hb u))
    have hok : (loop S (run S ops) rs none).2.2 = true := j1.2 (by simp)
    simp only [step, record, hok, Option.isNone_none, Bool.and_self, if_true]
    rw [j2]
    rfl
  · intro k
    rw [run_snoc]
    simp [step, record]

theorem accepted_sublist (log rs : List Reward) : (accepted log rs).Sublist rs := by
  induction rs generalizing log with
  | nil => exact List.Sublist.refl _
  | cons r rs ih =>
    simp only [accepted]
    split
    · exact (ih log).cons r
    · exact (ih _).cons_cons r

/-- C17: the decision about each reward of a batch.  With `before` the rewards accepted earlier in the
session (those of this batch included), the reward is skipped only if it nearly duplicates one of
`before` for the same unit, and otherwise accepted. -/
theorem reward_decision (log pre post : List Reward) (r : Reward) :
    let before := log ++ accepted log pre
    (accepted log (pre ++ r :: post) = accepted log pre ++ accepted before post ∧
      ∃ s ∈ before, s.unit = r.unit ∧ NearDuplicate r s) ∨
    (accepted log (pre ++ r :: post) = accepted log pre ++ r :: accepted (before ++ [r]) post ∧
      ∀ s ∈ lastN 10 (before.filter (fun s => s.unit = r.unit)), ¬ NearDuplicate r s) := by
  intro before
  have key : ∀ (ys pre log : List Reward), accepted log (pre ++ ys) =
      accepted log pre ++ accepted (log ++ accepted log pre) ys := by
    intro ys pre
    induction pre with
    | nil => intro log; simp [accepted]
    | cons x pre ih =>
      intro log
      simp only [List.cons_append, accepted]
      split
      · exact ih log
      · simp only [List.cons_append, List.cons.injEq, true_and]
        have := ih (log ++ [x])
        simpa using this
  rw [key (r :: post) pre log]
  by_cases hs : ∃ s ∈ lastN 10 (before.filter (fun s => s.unit = r.unit)), NearDuplicate r s
  · left
    refine ⟨?_, ?_⟩
    · simp only [accepted]
      rw [if_pos hs]
    · obtain ⟨s, hs1, hs2⟩ := hs
      have := List.mem_of_mem_drop hs1
      simp only [List.mem_filter, decide_eq_true_eq] at this
      exact ⟨s, this.1, this.2, hs2⟩
  · right
    refine ⟨?_, fun s h1 h2 => hs ⟨s, h1, h2⟩⟩
    simp only [accepted]
    rw [if_neg hs]

/-! ### Non-vacuity and a finding -/

/-- Two near-duplicates, one different weight, and a second unit. -/
def exampleBatch : List Reward :=
  [⟨"l".toList, 1 / 2, 1, 1000⟩, ⟨"l".toList, 1 / 2, 19 / 20, 2000⟩, ⟨"l".toList, 1 / 2, 4 / 5, 3000⟩,
    ⟨"c".toList, 1 / 2, 1, 1000⟩]

/-- A batch with a skipped reward; the others are stored and reported. -/
example : accepted (sessionLog []) exampleBatch =
      [⟨"l".toList, 1 / 2, 1, 1000⟩, ⟨"l".toList, 1 / 2, 4 / 5, 3000⟩, ⟨"c".toList, 1 / 2, 1, 1000⟩] ∧
    ((run insSort []).step insSort (.record exampleBatch none)).2 =
      some ["l".toList, "l".toList, "c".toList] ∧
    (run insSort [.record exampleBatch none]).table.history "l".toList =
      [((1 / 2, 1), 1000), ((1 / 2, 4 / 5), 3000)] ∧
    (run insSort [.record exampleBatch none, .trim 1 none]).table.history "l".toList =
      [((1 / 2, 4 / 5), 3000)] := by
  decide +kernel

/-- The bound is reached: 21 rewards far apart leave the 20 newest. -/
example : let rs := (List.range 21).map (fun i => (⟨"l".toList, 1, 1, 100000 * i⟩ : Reward))
    accepted [] rs = rs ∧ (run insSort [.record rs none]).table.history "l".toList =
      (rs.drop 1).map payload := by
  decide +kernel

/-- The skip rule can lose a reward for good: after a batch whose commit fails, the same batch is
skipped although nothing was stored.  (The English C17 says "accepted"; a user would expect
"stored".) -/
theorem failed_commit_loses_reward :
    let r : Reward := ⟨"l".toList, 1 / 2, 1, 1000⟩
    let s := run insSort [.record [r] (some 1), .record [r] none]
    ((run insSort [.record [r] (some 1)]).step insSort (.record [r] none)).2 = some [] ∧
    s.table.history r.unit = [] := by
  decide +kernel

end Trane.Store.Rewards
