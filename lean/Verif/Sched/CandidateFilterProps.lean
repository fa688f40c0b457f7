import Verif.Sched.CandidateFilter
import Verif.Data.OptionsProps
import Mathlib.Algebra.Order.Floor.Semiring
import Mathlib.Data.List.Perm.Subperm
import Mathlib.Tactic.FieldSimp
import Mathlib.Tactic.Positivity

/-!
# Properties of the batch filter

C38 and C63.
-/

namespace Trane.CandidateFilter
open Trane Trane.Knocker

variable {ι : Type} [DecidableEq ι]

/-! ### Specification -/

/-- What the random choice is documented to do: return that many elements, none more often than it
occurs. -/
def IsSampler (pick : Picks ι) : Prop :=
  ∀ call n cs, n < cs.length → (pick call n cs).Subperm cs ∧ (pick call n cs).length = n

/-- The ids of a list of candidates. -/
def ids (cs : List (Candidate ι)) : List ι := cs.map Candidate.exercise

/-- No score is in two windows. -/
def Disjoint (o : SchedulerOptions) : Prop :=
  ∀ s, o.windows.countP (fun w => w.inWindow s) ≤ 1

/-! ### Lemmas -/

omit [DecidableEq ι] in
theorem subperm_ids {a b : List (Candidate ι)} (h : a.Subperm b) : (ids a).Subperm (ids b) := by
  obtain ⟨l, hp, hs⟩ := h
  exact ⟨ids l, hp.map _, hs.map _⟩

theorem select_fst {pick : Nat → List (Candidate ι) → List (Candidate ι)}
    (hp : ∀ n cs, n < cs.length → (pick n cs).Subperm cs ∧ (pick n cs).length = n)
    (cs : List (Candidate ι)) (n : Nat) :
    (select pick cs n).1.Subperm cs ∧ (select pick cs n).1.length = min n cs.length := by
  unfold select
  split
  · rename_i h; exact ⟨List.Subperm.refl _, by simp; omega⟩
  · rename_i h
    obtain ⟨h1, h2⟩ := hp n cs (by omega)
    exact ⟨h1, by dsimp only; rw [h2]; omega⟩

theorem select_count {pick : Nat → List (Candidate ι) → List (Candidate ι)}
    (hp : ∀ n cs, n < cs.length → (pick n cs).Subperm cs ∧ (pick n cs).length = n)
    (cs : List (Candidate ι)) (n : Nat) (a : ι) :
    (ids (select pick cs n).1).count a + (ids (select pick cs n).2).count a ≤ (ids cs).count a := by
  unfold select
  split
  · simp [ids]
  · rename_i h
    dsimp only
    obtain ⟨h1, _⟩ := hp n cs (by omega)
    have hsub : (ids (pick n cs)).Subperm (ids cs) := subperm_ids h1
    by_cases ha : a ∈ ids (pick n cs)
    · have : (ids (cs.filter (fun c => !decide (c.exercise ∈ (pick n cs).map Candidate.exercise)))).count a = 0 := by
        rw [List.count_eq_zero]
        intro hm
        obtain ⟨c, hc, rfl⟩ := List.mem_map.1 hm
        have := List.of_mem_filter hc
        simp only [Bool.not_eq_true', decide_eq_false_iff_not] at this
        exact this ha
      rw [this]
      exact hsub.count_le a
    · rw [List.count_eq_zero.2 ha, Nat.zero_add]
      exact (List.filter_sublist.map _).count_le a

theorem select_snd_subset {pick : Nat → List (Candidate ι) → List (Candidate ι)}
    (cs : List (Candidate ι)) (n : Nat) : (select pick cs n).2 ⊆ cs := by
  unfold select
  split
  · simp
  · exact fun _ h => List.mem_of_mem_filter h

theorem addRemainder_eq (pick : Nat → List (Candidate ι) → List (Candidate ι))
    (hp : ∀ n cs, n < cs.length → (pick n cs).Subperm cs ∧ (pick n cs).length = n) (n : Nat)
    (final rem : List (Candidate ι)) (mx : Option Nat) :
    ∃ extra, addRemainder pick n final rem mx = final ++ extra ∧ extra.Subperm rem ∧
      (final ++ extra).length ≤ max n final.length := by
  unfold addRemainder
  split
  · exact ⟨[], by simp, List.nil_subperm, by simp⟩
  · dsimp only
    refine ⟨_, rfl, (select_fst hp rem _).1, ?_⟩
    rw [List.length_append, (select_fst hp rem _).2]
    cases mx <;> dsimp only <;> omega

theorem fill_shape (pick : Picks ι) (hp : IsSampler pick) (o : SchedulerOptions) (n : Nat)
    (r : Result ι) :
    let hs := ids r.highlyEncompassed
    let m := select (pick 0) (inWindow r.candidates hs o.masteredWindow ++ r.highlyEncompassed)
      (quota n o.masteredWindow)
    let e := select (pick 1) (inWindow r.candidates hs o.easyWindow) (quota n o.easyWindow)
    let c := select (pick 2) (inWindow r.candidates hs o.currentWindow) (quota n o.currentWindow)
    let t := select (pick 3) (inWindow r.candidates hs o.targetWindow) (quota n o.targetWindow)
    let w := select (pick 4) (inWindow r.candidates hs o.newWindow) (quota n o.newWindow)
    ∃ x1 x2 x3 x4 x5, fill pick o n r =
        m.1 ++ e.1 ++ c.1 ++ t.1 ++ w.1 ++ x1 ++ x2 ++ x3 ++ x4 ++ x5 ∧
      x1.Subperm c.2 ∧ x2.Subperm w.2 ∧ x3.Subperm t.2 ∧ x4.Subperm e.2 ∧ x5.Subperm m.2 ∧
      (fill pick o n r).length ≤ max n (m.1 ++ e.1 ++ c.1 ++ t.1 ++ w.1).length := by
  intro hs m e c t w
  have a1 := addRemainder_eq (pick 5) (hp 5) n (m.1 ++ e.1 ++ c.1 ++ t.1 ++ w.1) c.2 none
  obtain ⟨x1, h1, s1, l1⟩ := a1
  obtain ⟨x2, h2, s2, l2⟩ := addRemainder_eq (pick 6) (hp 6) n
    (m.1 ++ e.1 ++ c.1 ++ t.1 ++ w.1 ++ x1) w.2 (some (5 * max (n / 10) 1))
  obtain ⟨x3, h3, s3, l3⟩ := addRemainder_eq (pick 7) (hp 7) n
    (m.1 ++ e.1 ++ c.1 ++ t.1 ++ w.1 ++ x1 ++ x2) t.2 (some (3 * max (n / 10) 1))
  obtain ⟨x4, h4, s4, l4⟩ := addRemainder_eq (pick 8) (hp 8) n
    (m.1 ++ e.1 ++ c.1 ++ t.1 ++ w.1 ++ x1 ++ x2 ++ x3) e.2 none
  obtain ⟨x5, h5, s5, l5⟩ := addRemainder_eq (pick 9) (hp 9) n
    (m.1 ++ e.1 ++ c.1 ++ t.1 ++ w.1 ++ x1 ++ x2 ++ x3 ++ x4) m.2 none
  have heq : fill pick o n r = m.1 ++ e.1 ++ c.1 ++ t.1 ++ w.1 ++ x1 ++ x2 ++ x3 ++ x4 ++ x5 := by
    rw [← h5, ← h4, ← h3, ← h2, ← h1]
    rfl
  refine ⟨x1, x2, x3, x4, x5, heq, s1, s2, s3, s4, s5, ?_⟩
  rw [heq]
  omega

theorem inWindow_subset (cs : List (Candidate ι)) (hs : List ι) (w : MasteryWindow) :
    inWindow cs hs w ⊆ cs := fun _ h => List.mem_of_mem_filter (List.mem_of_mem_filter h)

theorem inWindow_count {cs : List (Candidate ι)} {hs : List ι} {w : MasteryWindow} {a : ι} :
    (ids (inWindow cs hs w)).count a =
      if a ∈ hs then 0 else cs.countP (fun c => decide (c.exercise = a) && w.inWindow c.score) := by
  unfold ids inWindow
  by_cases ha : a ∈ hs
  · rw [if_pos ha, List.count_eq_zero]
    intro hm
    obtain ⟨c, hc, rfl⟩ := List.mem_map.1 hm
    have := List.of_mem_filter hc
    simp only [Bool.not_eq_true', decide_eq_false_iff_not] at this
    exact this ha
  · rw [if_neg ha, List.count, List.countP_map, List.countP_filter, List.countP_filter]
    apply List.countP_congr
    intro c _
    by_cases hca : c.exercise = a
    · subst hca; simp [ha]
    · simp [hca]

theorem windows_count {o : SchedulerOptions} (hd : Disjoint o) (cs : List (Candidate ι)) (a : ι) :
    (o.windows.map (fun w => cs.countP (fun c => decide (c.exercise = a) && w.inWindow c.score))).sum ≤
      (ids cs).count a := by
  induction cs with
  | nil => simp [SchedulerOptions.windows, ids]
  | cons c cs ih =>
    have h1 := hd c.score
    simp only [SchedulerOptions.windows, List.map_cons, List.map_nil, List.sum_cons, List.sum_nil,
      List.countP_cons, List.countP_nil, ids, List.count_cons, beq_iff_eq] at *
    by_cases hca : c.exercise = a
    · simp only [hca, decide_true, Bool.true_and, if_true] at *
      omega
    · simp only [hca, decide_false, Bool.false_and, if_false, Bool.false_eq_true] at *
      omega

/-! ### C38 -/

/-- C38: every exercise of the batch is one of the candidates. -/
theorem batch_from_candidates (pick : Picks ι) (hp : IsSampler pick) (o : SchedulerOptions) (rate : ℚ)
    (r : Result ι) (hr : r.highlyEncompassed ⊆ r.candidates) :
    filterCandidates pick o rate r ⊆ r.candidates := by
  unfold filterCandidates
  dsimp only
  obtain ⟨x1, x2, x3, x4, x5, heq, s1, s2, s3, s4, s5, _⟩ := fill_shape pick hp (adjusted o rate)
    (dynamicBatchSize (adjusted o rate).batchSize r.candidates.length) r
  rw [heq]
  intro x hx
  have hm : inWindow r.candidates (ids r.highlyEncompassed) (adjusted o rate).masteredWindow ++
      r.highlyEncompassed ⊆ r.candidates :=
    List.append_subset.2 ⟨inWindow_subset _ _ _, hr⟩
  simp only [List.mem_append] at hx
  rcases hx with ((((((((hx | hx) | hx) | hx) | hx) | hx) | hx) | hx) | hx) | hx
  · exact hm ((select_fst (hp 0) _ _).1.subset hx)
  · exact inWindow_subset _ _ _ ((select_fst (hp 1) _ _).1.subset hx)
  · exact inWindow_subset _ _ _ ((select_fst (hp 2) _ _).1.subset hx)
  · exact inWindow_subset _ _ _ ((select_fst (hp 3) _ _).1.subset hx)
  · exact inWindow_subset _ _ _ ((select_fst (hp 4) _ _).1.subset hx)
  · exact inWindow_subset _ _ _ (select_snd_subset _ _ (s1.subset hx))
  · exact inWindow_subset _ _ _ (select_snd_subset _ _ (s2.subset hx))
  · exact inWindow_subset _ _ _ (select_snd_subset _ _ (s3.subset hx))
  · exact inWindow_subset _ _ _ (select_snd_subset _ _ (s4.subset hx))
  · exact hm (select_snd_subset _ _ (s5.subset hx))

theorem adjusted_ranges (o : SchedulerOptions) (rate s : ℚ) :
    (adjusted o rate).windows.map (fun w => w.inWindow s) = o.windows.map (fun w => w.inWindow s) := by
  unfold adjusted
  split <;> rfl

theorem disjoint_adjusted {o : SchedulerOptions} (hd : Disjoint o) (rate : ℚ) :
    Disjoint (adjusted o rate) := by
  intro s
  have := hd s
  have e := adjusted_ranges o rate s
  have e2 : ∀ l : List MasteryWindow, l.countP (fun w => w.inWindow s) =
      (l.map (fun w => w.inWindow s)).countP id := by
    intro l; rw [List.countP_map]; rfl
  rw [e2, e, ← e2]
  exact this

/-- C38: when no score is in two windows, no exercise occurs in the batch more often than among the
candidates; in particular without duplicate candidates there are no duplicates. -/
theorem batch_no_duplicates (pick : Picks ι) (hp : IsSampler pick) (o : SchedulerOptions)
    (hd : Disjoint o) (rate : ℚ) (r : Result ι) (hr : r.highlyEncompassed.Subperm r.candidates)
    (hn : (ids r.candidates).Nodup) : (ids (filterCandidates pick o rate r)).Nodup := by
  rw [List.nodup_iff_count_le_one] at hn ⊢
  intro a
  refine Nat.le_trans ?_ (hn a)
  unfold filterCandidates
  dsimp only
  have hd' := disjoint_adjusted hd rate
  generalize adjusted o rate = o' at *
  generalize dynamicBatchSize o'.batchSize r.candidates.length = n at *
  obtain ⟨x1, x2, x3, x4, x5, heq, s1, s2, s3, s4, s5, _⟩ := fill_shape pick hp o' n r
  rw [heq]
  have c0 := select_count (hp 0) (inWindow r.candidates (ids r.highlyEncompassed) o'.masteredWindow ++
    r.highlyEncompassed) (quota n o'.masteredWindow) a
  have c1 := select_count (hp 1) (inWindow r.candidates (ids r.highlyEncompassed) o'.easyWindow)
    (quota n o'.easyWindow) a
  have c2 := select_count (hp 2) (inWindow r.candidates (ids r.highlyEncompassed) o'.currentWindow)
    (quota n o'.currentWindow) a
  have c3 := select_count (hp 3) (inWindow r.candidates (ids r.highlyEncompassed) o'.targetWindow)
    (quota n o'.targetWindow) a
  have c4 := select_count (hp 4) (inWindow r.candidates (ids r.highlyEncompassed) o'.newWindow)
    (quota n o'.newWindow) a
  have y1 := (subperm_ids s1).count_le a
  have y2 := (subperm_ids s2).count_le a
  have y3 := (subperm_ids s3).count_le a
  have y4 := (subperm_ids s4).count_le a
  have y5 := (subperm_ids s5).count_le a
  have hw := windows_count hd' r.candidates a
  have hh := (subperm_ids hr).count_le a
  have e0 : (ids (inWindow r.candidates (ids r.highlyEncompassed) o'.masteredWindow ++
    r.highlyEncompassed)).count a = (ids (inWindow r.candidates (ids r.highlyEncompassed)
      o'.masteredWindow)).count a + (ids r.highlyEncompassed).count a := by
    simp [ids]
  rw [e0] at c0
  rw [inWindow_count] at c0 c1 c2 c3 c4
  simp only [SchedulerOptions.windows, List.map_cons, List.map_nil, List.sum_cons, List.sum_nil] at hw
  simp only [ids, List.map_append, List.count_append] at *
  by_cases ha : a ∈ r.highlyEncompassed.map Candidate.exercise
  · simp only [ha, if_true] at c0 c1 c2 c3 c4
    omega
  · have hz : (r.highlyEncompassed.map Candidate.exercise).count a = 0 := List.count_eq_zero.2 ha
    simp only [ha, if_false] at c0 c1 c2 c3 c4
    omega

theorem quota_pos (n : Nat) (w : MasteryWindow) : 1 ≤ quota n w := by
  unfold quota
  rw [Nat.one_le_floor_iff]
  exact le_max_right _ _

/-- C38: every window is represented: if a candidate is in a window, the batch has an exercise of that
window (or, for the mastered window, possibly a highly encompassed one). -/
theorem batch_represents_windows (pick : Picks ι) (hp : IsSampler pick) (o : SchedulerOptions)
    (rate : ℚ) (r : Result ι) (w : MasteryWindow) (hw : w ∈ o.windows) (c : Candidate ι)
    (hc : c ∈ r.candidates) (hs : w.inWindow c.score = true)
    (hh : c.exercise ∉ ids r.highlyEncompassed) :
    ∃ c' ∈ filterCandidates pick o rate r, w.inWindow c'.score = true ∨ c' ∈ r.highlyEncompassed := by
  unfold filterCandidates
  dsimp only
  have hwin : ∀ v : MasteryWindow, v.inWindow c.score = true →
      c ∈ inWindow r.candidates (ids r.highlyEncompassed) v := by
    intro v hv
    unfold inWindow
    exact List.mem_filter.2 ⟨List.mem_filter.2 ⟨hc, hv⟩, by simp [hh]⟩
  have hne : ∀ {pk : Nat → List (Candidate ι) → List (Candidate ι)}
      (_ : ∀ n cs, n < cs.length → (pk n cs).Subperm cs ∧ (pk n cs).length = n)
      (cs : List (Candidate ι)) (n : Nat) (v : MasteryWindow), c ∈ cs →
      ∃ x, x ∈ (select pk cs (quota n v)).1 ∧ x ∈ cs := by
    intro pk hpk cs n v hcs
    obtain ⟨h1, h2⟩ := select_fst hpk cs (quota n v)
    have : 0 < (select pk cs (quota n v)).1.length := by
      rw [h2]
      have := quota_pos n v
      have := List.length_pos_of_mem hcs
      omega
    obtain ⟨x, hx⟩ := List.exists_mem_of_length_pos this
    exact ⟨x, hx, h1.subset hx⟩
  have hinw : ∀ {x : Candidate ι} {v : MasteryWindow},
      x ∈ inWindow r.candidates (ids r.highlyEncompassed) v → v.inWindow x.score = true := by
    intro x v hx
    have := List.mem_of_mem_filter hx
    exact List.of_mem_filter (p := fun c : Candidate ι => v.inWindow c.score) this
  obtain ⟨x1, x2, x3, x4, x5, heq, _⟩ := fill_shape pick hp (adjusted o rate)
    (dynamicBatchSize (adjusted o rate).batchSize r.candidates.length) r
  rw [heq]
  generalize dynamicBatchSize (adjusted o rate).batchSize r.candidates.length = n at *
  have hadj : ∀ s, (adjusted o rate).newWindow.inWindow s = o.newWindow.inWindow s ∧
      (adjusted o rate).targetWindow.inWindow s = o.targetWindow.inWindow s ∧
      (adjusted o rate).currentWindow.inWindow s = o.currentWindow.inWindow s ∧
      (adjusted o rate).easyWindow.inWindow s = o.easyWindow.inWindow s ∧
      (adjusted o rate).masteredWindow.inWindow s = o.masteredWindow.inWindow s := by
    intro s
    have := adjusted_ranges o rate s
    simpa [SchedulerOptions.windows] using this
  simp only [SchedulerOptions.windows, List.mem_cons, List.not_mem_nil, or_false] at hw
  rcases hw with rfl | rfl | rfl | rfl | rfl
  · obtain ⟨x, hx, hx'⟩ := hne (hp 4) _ n (adjusted o rate).newWindow
      (hwin _ (by rw [(hadj _).1]; exact hs))
    exact ⟨x, by simp only [List.mem_append]; tauto, Or.inl (by rw [← (hadj _).1]; exact hinw hx')⟩
  · obtain ⟨x, hx, hx'⟩ := hne (hp 3) _ n (adjusted o rate).targetWindow
      (hwin _ (by rw [(hadj _).2.1]; exact hs))
    exact ⟨x, by simp only [List.mem_append]; tauto, Or.inl (by rw [← (hadj _).2.1]; exact hinw hx')⟩
  · obtain ⟨x, hx, hx'⟩ := hne (hp 2) _ n (adjusted o rate).currentWindow
      (hwin _ (by rw [(hadj _).2.2.1]; exact hs))
    exact ⟨x, by simp only [List.mem_append]; tauto, Or.inl (by rw [← (hadj _).2.2.1]; exact hinw hx')⟩
  · obtain ⟨x, hx, hx'⟩ := hne (hp 1) _ n (adjusted o rate).easyWindow
      (hwin _ (by rw [(hadj _).2.2.2.1]; exact hs))
    exact ⟨x, by simp only [List.mem_append]; tauto,
      Or.inl (by rw [← (hadj _).2.2.2.1]; exact hinw hx')⟩
  · obtain ⟨x, hx, hx'⟩ := hne (hp 0) _ n (adjusted o rate).masteredWindow
      (List.mem_append_left r.highlyEncompassed (hwin _ (by rw [(hadj _).2.2.2.2]; exact hs)))
    refine ⟨x, by simp only [List.mem_append]; tauto, ?_⟩
    rcases List.mem_append.1 hx' with hx' | hx'
    · exact Or.inl (by rw [← (hadj _).2.2.2.2]; exact hinw hx')
    · exact Or.inr hx'

/-- The number of exercises the five windows may contribute to a batch of size `n`. -/
def quotas (n : Nat) (o : SchedulerOptions) : Nat := (o.windows.map (quota n)).sum

/-- C38: the batch is never larger than the larger of its target size and the sum of the window
quotas; the target size is at most the configured size. -/
theorem batch_size_bound (pick : Picks ι) (hp : IsSampler pick) (o : SchedulerOptions) (rate : ℚ)
    (r : Result ι) : ∃ n, n ≤ o.batchSize ∧ (10 ≤ o.batchSize → 10 ≤ n) ∧
    (o.batchSize < 10 → n = o.batchSize) ∧
    (filterCandidates pick o rate r).length ≤ max n (quotas n (adjusted o rate)) := by
  have hb : (adjusted o rate).batchSize = o.batchSize := by unfold adjusted; split <;> rfl
  refine ⟨dynamicBatchSize o.batchSize r.candidates.length, ?_, ?_, ?_, ?_⟩
  · unfold dynamicBatchSize minDynamicBatchSize; split
    · exact le_refl _
    · split <;> omega
  · intro h; unfold dynamicBatchSize minDynamicBatchSize; split
    · omega
    · split <;> omega
  · intro h; unfold dynamicBatchSize minDynamicBatchSize; rw [if_pos h]
  · unfold filterCandidates
    dsimp only
    rw [hb]
    generalize dynamicBatchSize o.batchSize r.candidates.length = n at *
    obtain ⟨x1, x2, x3, x4, x5, _, _, _, _, _, _, hl⟩ := fill_shape pick hp (adjusted o rate) n r
    refine Nat.le_trans hl (max_le_max (le_refl _) ?_)
    simp only [List.length_append, (select_fst (hp 0) _ _).2, (select_fst (hp 1) _ _).2,
      (select_fst (hp 2) _ _).2, (select_fst (hp 3) _ _).2, (select_fst (hp 4) _ _).2]
    simp only [quotas, SchedulerOptions.windows, List.map_cons, List.map_nil, List.sum_cons,
      List.sum_nil]
    omega

theorem quota_le {n : Nat} {w : MasteryWindow} (h : 1 ≤ (n : ℚ) * w.percentage) :
    (quota n w : ℚ) ≤ n * w.percentage := by
  unfold quota
  rw [max_eq_left h]
  exact Nat.floor_le (by linarith)

theorem quotas_le {n : Nat} {o : SchedulerOptions} (h1 : ∀ w ∈ o.windows, 1 ≤ (n : ℚ) * w.percentage)
    (hs : (o.windows.map MasteryWindow.percentage).sum ≤ 1) : quotas n o ≤ n := by
  simp only [SchedulerOptions.windows, List.mem_cons, List.not_mem_nil, or_false, forall_eq_or_imp,
    forall_eq, List.map_cons, List.map_nil, List.sum_cons, List.sum_nil] at h1 hs
  obtain ⟨a, b, c, d, e⟩ := h1
  have := quota_le a; have := quota_le b; have := quota_le c; have := quota_le d; have := quota_le e
  have hn : (0 : ℚ) ≤ n := Nat.cast_nonneg n
  have : (quotas n o : ℚ) ≤ n := by
    simp only [quotas, SchedulerOptions.windows, List.map_cons, List.map_nil, List.sum_cons,
      List.sum_nil, Nat.cast_add, Nat.cast_zero]
    nlinarith
  exact_mod_cast this

/-- C38 (partial: the windows' shares sum to at most 1 and each is worth at least one exercise): the
batch is not larger than the configured size. -/
theorem batch_size_partial (pick : Picks ι) (hp : IsSampler pick) (o : SchedulerOptions) (rate : ℚ)
    (r : Result ι)
    (h1 : ∀ w ∈ (adjusted o rate).windows, 1 ≤ ((min o.batchSize 10 : Nat) : ℚ) * w.percentage)
    (hs : ((adjusted o rate).windows.map MasteryWindow.percentage).sum ≤ 1) :
    (filterCandidates pick o rate r).length ≤ o.batchSize := by
  obtain ⟨n, hn, h10, hsm, hl⟩ := batch_size_bound pick hp o rate r
  have hq : quotas n (adjusted o rate) ≤ n := by
    refine quotas_le (fun w hw => ?_) hs
    have hm : min o.batchSize 10 ≤ n := by omega
    have h2 := h1 w hw
    have hm' : ((min o.batchSize 10 : Nat) : ℚ) ≤ n := by exact_mod_cast hm
    have h0 : (0 : ℚ) ≤ ((min o.batchSize 10 : Nat) : ℚ) := Nat.cast_nonneg _
    have hp0 : 0 ≤ w.percentage := by
      by_contra hneg
      have : ((min o.batchSize 10 : Nat) : ℚ) * w.percentage ≤ 0 :=
        mul_nonpos_of_nonneg_of_nonpos h0 (le_of_lt (not_le.1 hneg))
      linarith
    exact le_trans h2 (mul_le_mul_of_nonneg_right hm' hp0)
  omega

/-- The windows have the default shares. -/
def DefaultShares (o : SchedulerOptions) : Prop :=
  o.windows.map MasteryWindow.percentage = SchedulerOptions.default.windows.map MasteryWindow.percentage

/-- C38: with the default shares, the batch is never larger than the configured size, whatever the
success rate, if that size is at least 10. -/
theorem batch_size_default (pick : Picks ι) (hp : IsSampler pick) (o : SchedulerOptions)
    (hd : DefaultShares o) (h10 : 10 ≤ o.batchSize) (rate : ℚ) (r : Result ι) :
    (filterCandidates pick o rate r).length ≤ o.batchSize := by
  obtain ⟨n, hn, hn10, _, hl⟩ := batch_size_bound pick hp o rate r
  have hn10 := hn10 h10
  have hnq : (10 : ℚ) ≤ n := by exact_mod_cast hn10
  simp only [DefaultShares, SchedulerOptions.windows, SchedulerOptions.default, List.map_cons,
    List.map_nil, List.cons.injEq, and_true] at hd
  obtain ⟨p1, p2, p3, p4, p5⟩ := hd
  have hq : quotas n (adjusted o rate) ≤ n := by
    by_cases hr : 9 / 10 < rate
    · -- the mastered window may be rounded up to one exercise
      have e : adjusted o rate = { o with
          newWindow := ⟨1 / 4, o.newWindow.lo, o.newWindow.hi⟩
          targetWindow := ⟨1 / 4, o.targetWindow.lo, o.targetWindow.hi⟩
          easyWindow := ⟨3 / 20, o.easyWindow.lo, o.easyWindow.hi⟩
          masteredWindow := ⟨1 / 20, o.masteredWindow.lo, o.masteredWindow.hi⟩
          currentWindow := ⟨3 / 10, o.currentWindow.lo, o.currentWindow.hi⟩ } := by
        unfold adjusted shiftOf
        rw [if_pos hr]
        dsimp only
        rw [p1, p2, p4, p5]
        norm_num [clampQ]
      rw [e]
      have q1 : (quota n ⟨1 / 4, o.newWindow.lo, o.newWindow.hi⟩ : ℚ) ≤ n * (1 / 4) :=
        quota_le (by dsimp only; linarith)
      have q2 : (quota n ⟨1 / 4, o.targetWindow.lo, o.targetWindow.hi⟩ : ℚ) ≤ n * (1 / 4) :=
        quota_le (by dsimp only; linarith)
      have q3 : (quota n ⟨3 / 10, o.currentWindow.lo, o.currentWindow.hi⟩ : ℚ) ≤ n * (3 / 10) :=
        quota_le (by dsimp only; linarith)
      have q4 : (quota n ⟨3 / 20, o.easyWindow.lo, o.easyWindow.hi⟩ : ℚ) ≤ n * (3 / 20) :=
        quota_le (by dsimp only; linarith)
      have q5 : (quota n ⟨1 / 20, o.masteredWindow.lo, o.masteredWindow.hi⟩ : ℚ) ≤ n * (1 / 20) ∨
          quota n ⟨1 / 20, o.masteredWindow.lo, o.masteredWindow.hi⟩ = 1 := by
        by_cases h : 1 ≤ (n : ℚ) * (1 / 20)
        · exact Or.inl (quota_le h)
        · right
          unfold quota
          rw [max_eq_right (by dsimp only; linarith)]
          exact Nat.floor_one
      simp only [quotas, SchedulerOptions.windows, List.map_cons, List.map_nil, List.sum_cons,
        List.sum_nil]
      rcases q5 with q5 | q5
      · have : ((quota n ⟨1 / 4, o.newWindow.lo, o.newWindow.hi⟩ +
            (quota n ⟨1 / 4, o.targetWindow.lo, o.targetWindow.hi⟩ +
            (quota n ⟨3 / 10, o.currentWindow.lo, o.currentWindow.hi⟩ +
            (quota n ⟨3 / 20, o.easyWindow.lo, o.easyWindow.hi⟩ +
            (quota n ⟨1 / 20, o.masteredWindow.lo, o.masteredWindow.hi⟩ + 0)))) : Nat) : ℚ) ≤ n := by
          push_cast; linarith
        exact_mod_cast this
      · have : ((quota n ⟨1 / 4, o.newWindow.lo, o.newWindow.hi⟩ +
            quota n ⟨1 / 4, o.targetWindow.lo, o.targetWindow.hi⟩ +
            quota n ⟨3 / 10, o.currentWindow.lo, o.currentWindow.hi⟩ +
            quota n ⟨3 / 20, o.easyWindow.lo, o.easyWindow.hi⟩ : Nat) : ℚ) < n := by
          push_cast; linarith
        have : quota n ⟨1 / 4, o.newWindow.lo, o.newWindow.hi⟩ +
            quota n ⟨1 / 4, o.targetWindow.lo, o.targetWindow.hi⟩ +
            quota n ⟨3 / 10, o.currentWindow.lo, o.currentWindow.hi⟩ +
            quota n ⟨3 / 20, o.easyWindow.lo, o.easyWindow.hi⟩ < n := by exact_mod_cast this
        omega
    · apply quotas_le
      · intro w hw
        have : 1 / 10 ≤ w.percentage := by
          unfold adjusted shiftOf at hw
          rw [if_neg hr] at hw
          split_ifs at hw <;> (try dsimp only at hw) <;>
            simp only [SchedulerOptions.windows, List.mem_cons, List.not_mem_nil, or_false] at hw <;>
            rcases hw with rfl | rfl | rfl | rfl | rfl <;> (try dsimp only) <;>
            (try simp only [p1, p2, p3, p4, p5]) <;> norm_num [clampQ]
        nlinarith
      · unfold adjusted shiftOf
        rw [if_neg hr]
        split_ifs <;> (try dsimp only) <;>
          simp only [SchedulerOptions.windows, List.map_cons, List.map_nil, List.sum_cons,
            List.sum_nil, p1, p2, p3, p4, p5] <;> norm_num [clampQ]
  omega

/-- A choice that takes the first elements. -/
def takeFirst : Picks ι := fun _ n cs => cs.take n

omit [DecidableEq ι] in
theorem takeFirst_sampler : IsSampler (takeFirst : Picks ι) :=
  fun _ n cs h => ⟨(List.take_sublist n cs).subperm, by simp [takeFirst]; omega⟩

/-- C38, size: false for batches smaller than the number of windows, with accepted options. -/
theorem small_batch_exceeds : ∃ (o : SchedulerOptions) (r : Result Nat), o.verify = true ∧
    OrderedWindows o ∧ (ids r.candidates).Nodup ∧
    o.batchSize < (filterCandidates takeFirst o 1 r).length :=
  ⟨{ SchedulerOptions.default with batchSize := 1 },
    ⟨[⟨1, 0, 0, 0, 0, 0, 1, none, false, 0, 0⟩, ⟨2, 0, 0, 0, 1, 0, 1, none, false, 0, 0⟩,
      ⟨3, 0, 0, 0, 3, 0, 1, none, false, 0, 0⟩, ⟨4, 0, 0, 0, 4, 0, 1, none, false, 0, 0⟩,
      ⟨5, 0, 0, 0, 5, 0, 1, none, false, 0, 0⟩], []⟩,
    by decide +kernel, by constructor <;> decide +kernel, by decide +kernel, by decide +kernel⟩

/-! ### C63 -/

/-- Shares between 5% and 50%. -/
def ModerateShares (o : SchedulerOptions) : Prop :=
  ∀ w ∈ o.windows, 1 / 20 ≤ w.percentage ∧ w.percentage ≤ 1 / 2

theorem clampQ_mono {p q lo hi : ℚ} (h : p ≤ q) (hl : lo ≤ hi) : clampQ p lo hi ≤ clampQ q lo hi := by
  unfold clampQ; split_ifs <;> linarith

theorem clampQ_mem {p lo hi : ℚ} (hl : lo ≤ hi) : lo ≤ clampQ p lo hi ∧ clampQ p lo hi ≤ hi := by
  unfold clampQ; split_ifs <;> constructor <;> linarith

theorem clampQ_self {p lo hi : ℚ} (h1 : lo ≤ p) (h2 : p ≤ hi) : clampQ p lo hi = p := by
  unfold clampQ; rw [if_neg (not_lt.2 h1), if_neg (not_lt.2 h2)]

/-- The shift used by the adjustment, 0 for no adjustment. -/
def shiftVal (rate : ℚ) : ℚ := (shiftOf rate).getD 0

theorem shiftVal_mono {a b : ℚ} (h : a ≤ b) : shiftVal a ≤ shiftVal b := by
  have h1 : ∀ {r : ℚ}, 9 / 10 < r → shiftVal r = 1 / 20 := fun hr => by
    unfold shiftVal shiftOf; rw [if_pos hr]; rfl
  have h2 : ∀ {r : ℚ}, r ≤ 9 / 10 → 3 / 4 ≤ r → shiftVal r = 0 := fun hr h => by
    unfold shiftVal shiftOf; rw [if_neg (not_lt.2 hr), if_pos ⟨h, hr⟩]; rfl
  have h3 : ∀ {r : ℚ}, r < 3 / 4 → 1 / 2 ≤ r → shiftVal r = -1 / 20 := fun hr h => by
    unfold shiftVal shiftOf
    rw [if_neg (by linarith), if_neg (fun x => by linarith [x.1]), if_pos ⟨h, hr⟩]; rfl
  have h4 : ∀ {r : ℚ}, r < 1 / 2 → shiftVal r = -1 / 10 := fun hr => by
    unfold shiftVal shiftOf
    rw [if_neg (by linarith), if_neg (fun x => by linarith [x.1]), if_neg (fun x => by linarith [x.1])]
    rfl
  rcases lt_or_ge a (1 / 2) with ha | ha
  · rw [h4 ha]
    rcases lt_or_ge b (1 / 2) with hb | hb
    · rw [h4 hb]
    rcases lt_or_ge b (3 / 4) with hb' | hb'
    · rw [h3 hb' hb]; norm_num
    rcases le_or_gt b (9 / 10) with hb | hb
    · rw [h2 hb hb']; norm_num
    · rw [h1 hb]; norm_num
  rcases lt_or_ge a (3 / 4) with ha' | ha'
  · rw [h3 ha' ha]
    rcases lt_or_ge b (3 / 4) with hb' | hb'
    · rw [h3 hb' (by linarith)]
    rcases le_or_gt b (9 / 10) with hb | hb
    · rw [h2 hb hb']; norm_num
    · rw [h1 hb]; norm_num
  rcases le_or_gt a (9 / 10) with ha | ha
  · rw [h2 ha ha']
    rcases le_or_gt b (9 / 10) with hb | hb
    · rw [h2 hb (by linarith)]
    · rw [h1 hb]; norm_num
  · rw [h1 ha, h1 (by linarith)]

theorem adjusted_shares {o : SchedulerOptions} (h : ModerateShares o) (rate : ℚ) :
    (adjusted o rate).newWindow.percentage =
      clampQ (o.newWindow.percentage + shiftVal rate) (1 / 20) (1 / 2) ∧
    (adjusted o rate).targetWindow.percentage =
      clampQ (o.targetWindow.percentage + shiftVal rate) (1 / 20) (1 / 2) ∧
    (adjusted o rate).easyWindow.percentage =
      clampQ (o.easyWindow.percentage - shiftVal rate) (1 / 20) (1 / 2) ∧
    (adjusted o rate).masteredWindow.percentage =
      clampQ (o.masteredWindow.percentage - shiftVal rate) (1 / 20) (1 / 2) := by
  simp only [ModerateShares, SchedulerOptions.windows, List.mem_cons, List.not_mem_nil, or_false,
    forall_eq_or_imp, forall_eq] at h
  obtain ⟨a, b, c, d, e⟩ := h
  unfold adjusted shiftVal
  cases shiftOf rate with
  | none =>
    simp only [Option.getD_none, add_zero, sub_zero]
    exact ⟨(clampQ_self a.1 a.2).symm, (clampQ_self b.1 b.2).symm, (clampQ_self d.1 d.2).symm,
      (clampQ_self e.1 e.2).symm⟩
  | some x => exact ⟨rfl, rfl, rfl, rfl⟩

/-- C63: a better success rate never shrinks the shares of the new and target windows and never grows
those of the easy and mastered windows. -/
theorem success_makes_harder (o : SchedulerOptions) (h : ModerateShares o) (a b : ℚ) (hab : a ≤ b) :
    (adjusted o a).newWindow.percentage ≤ (adjusted o b).newWindow.percentage ∧
    (adjusted o a).targetWindow.percentage ≤ (adjusted o b).targetWindow.percentage ∧
    (adjusted o b).easyWindow.percentage ≤ (adjusted o a).easyWindow.percentage ∧
    (adjusted o b).masteredWindow.percentage ≤ (adjusted o a).masteredWindow.percentage := by
  have hs := shiftVal_mono hab
  obtain ⟨a1, a2, a3, a4⟩ := adjusted_shares h a
  obtain ⟨b1, b2, b3, b4⟩ := adjusted_shares h b
  rw [a1, a2, a3, a4, b1, b2, b3, b4]
  refine ⟨?_, ?_, ?_, ?_⟩ <;> exact clampQ_mono (by linarith) (by norm_num)

/-- C63: after an adjustment every share is at least 5%, and the shares sum to 1 whenever the four outer
windows leave at least 5% to the current one. -/
theorem adjusted_shares_valid (o : SchedulerOptions) (rate : ℚ) (hr : rate < 3 / 4 ∨ 9 / 10 < rate) :
    (∀ w ∈ (adjusted o rate).windows, 1 / 20 ≤ w.percentage) ∧
    ((adjusted o rate).newWindow.percentage + (adjusted o rate).targetWindow.percentage +
      (adjusted o rate).easyWindow.percentage + (adjusted o rate).masteredWindow.percentage ≤ 19 / 20 →
      ((adjusted o rate).windows.map MasteryWindow.percentage).sum = 1) := by
  have hsome : ∃ x, shiftOf rate = some x := by
    unfold shiftOf
    split_ifs with h1 h2 h3
    · exact ⟨_, rfl⟩
    · exfalso; rcases hr with h | h <;> linarith [h2.1, h2.2]
    · exact ⟨_, rfl⟩
    · exact ⟨_, rfl⟩
  obtain ⟨x, hx⟩ := hsome
  have hl : (1 : ℚ) / 20 ≤ 1 / 2 := by norm_num
  unfold adjusted
  rw [hx]
  dsimp only
  constructor
  · intro w hw
    simp only [SchedulerOptions.windows, List.mem_cons, List.not_mem_nil, or_false] at hw
    rcases hw with rfl | rfl | rfl | rfl | rfl <;> dsimp only
    · exact (clampQ_mem hl).1
    · exact (clampQ_mem hl).1
    · exact le_max_right _ _
    · exact (clampQ_mem hl).1
    · exact (clampQ_mem hl).1
  · intro h
    simp only [SchedulerOptions.windows, List.map_cons, List.map_nil, List.sum_cons, List.sum_nil]
    rw [max_eq_left (by linarith)]
    ring

/-! ### Examples -/

/-- Twenty candidates with scores spread over all windows, two of them highly encompassed. -/
def sampleResult : Result Nat :=
  let cs := (List.range 20).map (fun i => { exercise := i, lesson := 0, course := 0, score := (i : ℚ) / 4 })
  ⟨cs, cs.drop 18⟩

/-- No score is in two of the default windows. -/
theorem default_disjoint : Disjoint .default := by
  intro s
  by_cases h0 : 0 ≤ s
  · by_cases h5 : s ≤ 5
    · exact le_of_eq (one_window_partial _ default_ordered s h0 h5)
    · have h5 := not_le.1 h5
      have : ∀ w : MasteryWindow, w.hi ≤ 5 → w.inWindow s = decide (5 ≤ w.hi) := by
        intro w hw
        rw [Bool.eq_iff_iff, in_window_iff, decide_eq_true_eq]
        constructor
        · rintro (h | h) <;> linarith [h.1, h.2]
        · intro h; exact Or.inl ⟨h, h5.le⟩
      simp only [SchedulerOptions.windows, SchedulerOptions.default, List.countP_cons, List.countP_nil]
      rw [this _ (by norm_num), this _ (by norm_num), this _ (by norm_num), this _ (by norm_num),
        this _ (by norm_num)]
      decide +kernel
  · have h0 := not_le.1 h0
    have : ∀ w ∈ SchedulerOptions.default.windows, ¬ w.inWindow s = true := by
      intro w hw
      rw [in_window_iff]
      have hlo : 0 ≤ w.lo := by
        have : ∀ w ∈ SchedulerOptions.default.windows, 0 ≤ w.lo := by decide +kernel
        exact this w hw
      rintro (h | h) <;> linarith [h.1, h.2]
    rw [List.countP_eq_zero.2 this]
    decide

/-- The hypotheses of the theorems above hold for the default options and this batch. -/
example : IsSampler (takeFirst : Picks Nat) ∧ Disjoint .default ∧ ModerateShares .default ∧
    DefaultShares .default ∧ 10 ≤ SchedulerOptions.default.batchSize ∧
    (ids sampleResult.candidates).Nodup ∧
    sampleResult.highlyEncompassed.Sublist sampleResult.candidates ∧
    (filterCandidates takeFirst .default (1 / 2) sampleResult).length = 8 := by
  exact ⟨takeFirst_sampler, default_disjoint, by unfold ModerateShares; decide +kernel,
    by unfold DefaultShares; decide +kernel, by decide +kernel, by decide +kernel,
    List.drop_sublist _ _, by decide +kernel⟩

end Trane.CandidateFilter
