import Verif.Float.StabilityLemmas

/-! # The replay of a history without failures in `f32` arithmetic, against the exact one -/

namespace Trane.Float

open Trane.Scorer (satSub daysBetween Kind retrievability stabilityStep updateDifficulty Replay replayStep)

variable {powf : F → F → F}

/-- More errors than `errs_up` counts. -/
theorem errs_up_many (k : ℕ) (hk : k ≤ 4096) :
    (1 + 1 / 2 ^ 24 : ℝ) ^ k ≤ 1 + 101 / 100 * k / 2 ^ 24 := by
  have h1 : (1 : ℝ) + k * (-(1 / 2 ^ 24)) ≤ (1 + -(1 / 2 ^ 24)) ^ k :=
    one_add_mul_le_pow (by norm_num) k
  have h2 : (1 + 1 / 2 ^ 24 : ℝ) ^ k * (1 + -(1 / 2 ^ 24)) ^ k ≤ 1 := by
    rw [← mul_pow]
    exact pow_le_one₀ (by norm_num) (by norm_num)
  have hk0 : (0 : ℝ) ≤ k := Nat.cast_nonneg k
  have hkr : (k : ℝ) ≤ 4096 := by exact_mod_cast hk
  set p : ℝ := (1 + 1 / 2 ^ 24) ^ k
  set q : ℝ := (1 + -(1 / 2 ^ 24)) ^ k
  have hp : 0 < p := by positivity
  have h3 : p * (1 + k * (-(1 / 2 ^ 24))) ≤ 1 := le_trans (by gcongr) h2
  have h4 : 0 < (1 : ℝ) + k * (-(1 / 2 ^ 24)) := by norm_num; linarith
  have h5 : 1 ≤ (1 + 101 / 100 * k / 2 ^ 24) * ((1 : ℝ) + k * (-(1 / 2 ^ 24))) := by
    norm_num
    nlinarith
  exact le_of_mul_le_mul_right (h3.trans h5) h4

/-- A stability: the machine's, close to the exact one. -/
def StabNear (K : ℕ) (S : ℝ) (a : F) : Prop :=
  1 / 2 ≤ S ∧ S ≤ 730 ∧ ∃ q, a = .num q ∧ 1 / 2 ≤ q ∧ q ≤ 730 ∧
    S * (1 - 1 / 2 ^ 24) ^ K ≤ q ∧ q ≤ S * (1 + 1 / 2 ^ 24) ^ K

theorem gStab_range {k : Kind} {st d s days : F} {y : ℝ} (h : gStabilityStep (f32 powf) k st d s days = .num y) :
    1 / 2 ≤ y ∧ y ≤ 730 := by
  have hl12 : (f32 powf).lit (1 / 2) = .num (1 / 2) := by
    have := lit_bd powf (q := 1 / 2) (bd_div 1 1 (by norm_num) (by norm_num) (by norm_num))
    simpa using this
  unfold gStabilityStep at h
  dsimp only at h
  rw [hl12, litn 730 (by norm_num)] at h
  unfold Arith.clamp at h
  split at h
  · cases h; norm_num
  · rename_i h1
    split at h
    · cases h; norm_num
    · rename_i h2
      rw [h] at h1 h2
      have e1 : (f32 powf).lt (.num y) (.num (1 / 2)) = decide (y < 1 / 2) := rfl
      have e2 : (f32 powf).lt (.num 730) (.num y) = decide (730 < y) := rfl
      rw [e1] at h1
      rw [e2] at h2
      simp only [decide_eq_true_eq, not_lt] at h1 h2
      exact ⟨h1, h2⟩

theorem stab_range (k : Kind) (S D s d : ℝ) : 1 / 2 ≤ stabilityStep k S D s d ∧ stabilityStep k S D s d ≤ 730 := by
  unfold stabilityStep
  dsimp only
  rw [clamp_eq _ (by norm_num)]
  exact ⟨le_max_left _ _, max_le (by norm_num) (min_le_left _ _)⟩

theorem stab_step (hp : Faithful powf) (k : Kind) {K : ℕ} (hK : K ≤ 2000) {S D s : ℝ} {st dF : F}
    (h : StabNear K S st) (hD : DiffNear D dF) (hr : Rep s) (h3 : 3 ≤ s) (h5 : s ≤ 5) (a b : ℤ) :
    StabNear (K + 85) (stabilityStep k S D s (max (daysBetween a b) 0))
      (gStabilityStep (f32 powf) k st dF (.num s) ((f32 powf).max (gDays (f32 powf) a b) ((f32 powf).lit 0))) := by
  obtain ⟨S1, S2, q, rfl, q1, q2, h1, h2⟩ := h
  obtain ⟨hd, hlo, hhi⟩ := pos_days (powf := powf) a b
  obtain ⟨y, hy, hl, hu⟩ := step_near hp k hd hlo hhi q1 q2 hr h3 h5 hD
  obtain ⟨y1, y2⟩ := gStab_range hy
  obtain ⟨e1, e2⟩ := stab_range k S D s (max (daysBetween a b) 0)
  refine ⟨e1, e2, y, hy, y1, y2, ?_⟩
  have hd0 : 0 ≤ max (daysBetween a b) 0 := le_max_right _ _
  generalize max (daysBetween a b) 0 = d at *
  have hdn0 : (0 : ℝ) ≤ (1 - 1 / 2 ^ 24) ^ 85 := pow_nonneg (by norm_num) _
  have hup0 : (0 : ℝ) ≤ (1 + 1 / 2 ^ 24) ^ 85 := by positivity
  have hKr : (K : ℝ) ≤ 2000 := by exact_mod_cast hK
  have hK0 : (0 : ℝ) ≤ K := Nat.cast_nonneg K
  have hS0 : 0 < S := by linarith
  have hq0 : 0 < q := by linarith
  have big : (1 + 1 / 2 ^ 24 : ℝ) ^ K ≤ 11 / 10 := by
    have := errs_up_many K (by omega)
    norm_num at this ⊢
    linarith
  have small : 9 / 10 ≤ (1 - 1 / 2 ^ 24 : ℝ) ^ K := by
    have := errs_down K
    norm_num at this ⊢
    linarith
  have one1 : (1 : ℝ) ≤ (1 + 1 / 2 ^ 24) ^ K := one_le_pow₀ (by norm_num)
  have one2 : (1 - 1 / 2 ^ 24 : ℝ) ^ K ≤ 1 := pow_le_one₀ (by norm_num) (by norm_num)
  have e0 : 0 ≤ stabilityStep k S D s d := by linarith
  have key : stabilityStep k S D s d * (1 - 1 / 2 ^ 24) ^ K ≤ stabilityStep k q D s d ∧
      stabilityStep k q D s d ≤ stabilityStep k S D s d * (1 + 1 / 2 ^ 24) ^ K := by
    rcases le_total S q with hSq | hSq
    · have hqS : q ≤ 3 / 2 * S := by
        have := mul_le_mul_of_nonneg_left big hS0.le
        linarith
      obtain ⟨m1, m2⟩ := step_scale k (D := D) h3 (by linarith [hD.2.1]) hd0 hS0 hSq hqS
      constructor
      · exact (mul_le_of_le_one_right e0 one2).trans m1
      · refine m2.trans ?_
        rw [mul_comm]
        refine mul_le_mul_of_nonneg_left ?_ e0
        rw [div_le_iff₀ hS0, mul_comm]
        exact h2
    · have hqS : S ≤ 3 / 2 * q := by
        have := mul_le_mul_of_nonneg_left small hS0.le
        linarith
      obtain ⟨m1, m2⟩ := step_scale k (D := D) h3 (by linarith [hD.2.1]) hd0 hq0 hSq hqS
      constructor
      · have h3 : stabilityStep k S D s d * (1 - 1 / 2 ^ 24) ^ K ≤ stabilityStep k S D s d * (q / S) := by
          refine mul_le_mul_of_nonneg_left ?_ e0
          rw [le_div_iff₀ hS0, mul_comm]
          exact h1
        refine h3.trans ?_
        rw [mul_div_assoc', div_le_iff₀ hS0]
        have := mul_le_mul_of_nonneg_right m2 hq0.le
        have e : S / q * stabilityStep k q D s d * q = stabilityStep k q D s d * S := by field_simp
        rwa [e] at this
      · exact m1.trans (le_mul_of_one_le_right e0 one1)
  constructor
  · rw [pow_add, ← mul_assoc]
    exact (mul_le_mul_of_nonneg_right key.1 hdn0).trans hl
  · rw [pow_add, ← mul_assoc]
    exact hu.trans (mul_le_mul_of_nonneg_right key.2 hup0)

/-- The variables of the loop. -/
def ReplayNear (i : ℕ) (r : Replay) (g : GReplay F) : Prop :=
  g.previous = r.previous ∧ StabNear (85 * i) r.stability g.stability ∧ DiffNear r.difficulty g.difficulty

theorem StabNear.mono {K K' : ℕ} (h : K ≤ K') {S : ℝ} {a : F} (H : StabNear K S a) : StabNear K' S a := by
  obtain ⟨S1, S2, q, rfl, q1, q2, h1, h2⟩ := H
  refine ⟨S1, S2, q, rfl, q1, q2, le_trans ?_ h1, le_trans h2 ?_⟩
  · exact mul_le_mul_of_nonneg_left (pow_le_pow_of_le_one (by norm_num) (by norm_num) h) (by linarith)
  · exact mul_le_mul_of_nonneg_left (pow_le_pow_right₀ (by norm_num) h) (by linarith)

theorem replay_step (hp : Faithful powf) (k : Kind) {i : ℕ} (hi : i < 20) {r : Replay} {g : GReplay F}
    (h : ReplayNear i r g) (e : GEntry ℝ) (he : Rep e.value ∧ 3 ≤ e.value ∧ e.value ≤ 5) :
    ReplayNear (i + 1) (replayStep k r (toEntry e)) (gReplayStep (f32 powf) k g ⟨.num e.value, e.time⟩) := by
  obtain ⟨h1, h2, h3⟩ := h
  unfold replayStep gReplayStep
  rw [h1]
  cases hr : r.previous with
  | none => exact ⟨rfl, h2.mono (by omega), h3⟩
  | some prev =>
    refine ⟨rfl, ?_, diff_step h3 he.2.1 he.2.2⟩
    exact stab_step hp k (by omega) h2 h3 he.1 he.2.1 he.2.2 e.time prev

theorem replay_fold (hp : Faithful powf) (k : Kind) (l : List (GEntry ℝ))
    (hg : ∀ e ∈ l, Rep e.value ∧ 3 ≤ e.value ∧ e.value ≤ 5) {i : ℕ} (hi : i + l.length ≤ 20) {r : Replay} {g : GReplay F}
    (h : ReplayNear i r g) :
    ReplayNear (i + l.length) ((l.map toEntry).foldl (replayStep k) r) ((stored l).foldl (gReplayStep (f32 powf) k) g) := by
  induction l generalizing i r g with
  | nil => exact h
  | cons e l ih =>
    have h1 := replay_step hp k (by simp at hi; omega) h e (hg e (by simp))
    have := ih (fun e he => hg e (by simp [he])) (i := i + 1) (by simp at hi; omega) h1
    have e1 : i + (e :: l).length = i + 1 + l.length := by simp; omega
    rw [e1]
    exact this

theorem stability_near (hp : Faithful powf) (k : Kind) (l : List (GEntry ℝ))
    (hg : ∀ e ∈ l, Rep e.value ∧ 3 ≤ e.value ∧ e.value ≤ 5) (hl : l.length ≤ 20) :
    ∃ K, K = 1700 ∧ StabNear K (Scorer.computeStability k (l.map toEntry) 1) (gComputeStability (f32 powf) k (stored l) (.num 1)) := by
  have h0 : ReplayNear 0 ⟨1, 1, none⟩ (⟨.num 1, .num 1, none⟩ : GReplay F) :=
    ⟨rfl, ⟨by norm_num, by norm_num, 1, rfl, by norm_num, by norm_num, by simp, by simp⟩,
      ⟨le_rfl, by norm_num, 1, rfl, by rw [sub_self, abs_zero]; positivity⟩⟩
  have h := replay_fold hp k l.reverse (fun e he => hg e (by simpa using he)) (by simpa using hl) h0
  have := h.2.1
  unfold Scorer.computeStability Scorer.replay gComputeStability
  rw [lit1]
  have e : (stored l).reverse = stored l.reverse := by unfold stored; rw [List.map_reverse]
  rw [e, ← List.map_reverse]
  refine ⟨_, rfl, this.mono ?_⟩
  simp
  omega

theorem no_failures (l : List (GEntry ℝ)) (hne : l ≠ []) (hg : ∀ e ∈ l, 3 ≤ e.value) (hl : l.length ≤ 20) :
    Scorer.estimateDifficulty (l.map toEntry) = 1 ∧ gEstimateDifficulty (f32 powf) (stored l) = .num 1 := by
  constructor
  · unfold Scorer.estimateDifficulty
    rw [if_neg (by simpa using hne)]
    have : (l.map toEntry).filter (fun t => decide (t.value < 3)) = [] := by
      rw [List.filter_eq_nil_iff]
      intro a ha
      obtain ⟨e, he, rfl⟩ := List.mem_map.1 ha
      show ¬ decide (e.value < 3) = true
      simpa using hg e he
    rw [this]
    simp [Scorer.clamp]
  · unfold gEstimateDifficulty
    have hne' : (stored l).isEmpty = false := by unfold stored; simpa using hne
    rw [hne']
    have : (stored l).filter (fun t => (f32 powf).lt t.value ((f32 powf).lit 3)) = [] := by
      rw [List.filter_eq_nil_iff]
      intro a ha
      obtain ⟨e, he, rfl⟩ := List.mem_map.1 ha
      rw [litn 3 (by norm_num)]
      show ¬ decide (e.value < 3) = true
      simpa using hg e he
    simp only [this, Bool.false_eq_true, if_false]
    have hlen : (stored l).length = l.length := by unfold stored; simp
    have hn : (f32 powf).ofInt ((stored l).length : ℤ) = .num (l.length : ℝ) := by
      show F.round _ = _
      rw [hlen, round_bd (bd_int (l.length : ℤ) rfl (by rw [abs_of_nonneg (by omega)]; omega))]
      simp
    have hn0 : (f32 powf).ofInt ((([] : List (GEntry F)).length : ℕ) : ℤ) = .num 0 := by
      show F.round _ = _
      simp
      exact round_bd bd_zero
    have hpos : (l.length : ℝ) ≠ 0 := by
      have : l.length ≠ 0 := by simpa using hne
      exact_mod_cast this
    have f1 : (f32 powf).div (.num 0) (.num (l.length : ℝ)) = .num 0 := by
      show (if (l.length : ℝ) = 0 then _ else F.round (0 / (l.length : ℝ))) = _
      rw [if_neg hpos, zero_div]; exact round_bd bd_zero
    have f2 : (f32 powf).mul (.num 0) (.num 9) = .num 0 := by
      show F.round (0 * 9) = _
      rw [zero_mul]; exact round_bd bd_zero
    have f3 : (f32 powf).add (.num 1) (.num 0) = .num 1 := by
      show F.round (1 + 0) = _
      rw [add_zero]; exact round_bd bd_one
    rw [hn0, hn, f1, litn 9 (by norm_num), f2, lit1, f3, litn 10 (by norm_num), clamp_num_val]
    unfold Scorer.clamp
    norm_num

/-- Recall after a history without failures. -/
theorem recall_close (hp : Faithful powf) (k : Kind) (l : List (GEntry ℝ)) (hne : l ≠ [])
    (hg : ∀ e ∈ l, Rep e.value ∧ 3 ≤ e.value ∧ e.value ≤ 5) (hl : l.length ≤ 20) (a b : ℤ) :
    ∃ r, gRetrievability (f32 powf) k ((f32 powf).max (gDays (f32 powf) a b) ((f32 powf).lit 0))
        (gComputeStability (f32 powf) k (stored l) (gEstimateDifficulty (f32 powf) (stored l))) = .num r ∧
      0 ≤ r ∧ r ≤ 1 ∧ |r - retrievability k (max (daysBetween a b) 0)
        (Scorer.computeStability k (l.map toEntry) (Scorer.estimateDifficulty (l.map toEntry)))| ≤ 1850 / 2 ^ 24 := by
  obtain ⟨n1, n2⟩ := no_failures (powf := powf) l hne (fun e he => (hg e he).2.1) hl
  rw [n1, n2]
  obtain ⟨K, hK, S1, S2, q, hq, q1, q2, h1, h2⟩ := stability_near hp k l hg hl
  rw [hq]
  obtain ⟨hd, hlo, hhi⟩ := pos_days (powf := powf) a b
  obtain ⟨r, hr, r0, r1, hn⟩ := recall_near hp k hd hlo hhi q1 q2
  refine ⟨r, hr, r0, r1, ?_⟩
  have hd0 : 0 ≤ max (daysBetween a b) 0 := le_max_right _ _
  generalize max (daysBetween a b) 0 = d at *
  generalize Scorer.computeStability k (l.map toEntry) 1 = S at *
  have hS0 : 0 < S := by linarith
  have hq0 : 0 < q := by linarith
  have hu := errs_up_many K (by omega)
  have hdn := errs_down K
  have hKr : (K : ℝ) = 1700 := by exact_mod_cast hK
  rw [hKr] at hu hdn
  have up := mul_le_mul_of_nonneg_left hu hS0.le
  have dn := mul_le_mul_of_nonneg_left hdn hS0.le
  have key : |retrievability k d q - retrievability k d S| ≤ 1790 / 2 ^ 24 := by
    rcases le_total S q with h | h
    · obtain ⟨m1, m2⟩ := retr_scale k hd0 hS0 h
      have hR := Scorer.retr_mem k d S
      have h4 : q / S - 1 ≤ 1790 / 2 ^ 24 := by
        rw [sub_le_iff_le_add, div_le_iff₀ hS0]
        refine (h2.trans up).trans ?_
        rw [mul_comm]
        exact mul_le_mul_of_nonneg_right (by norm_num) hS0.le
      have h5 : 0 ≤ q / S - 1 := sub_nonneg.2 ((one_le_div hS0).2 h)
      rw [abs_of_nonneg (by linarith)]
      have h6 : (q / S - 1) * retrievability k d S ≤ (q / S - 1) * 1 := mul_le_mul_of_nonneg_left hR.2 h5
      linarith
    · obtain ⟨m1, m2⟩ := retr_scale k hd0 hq0 h
      have hR := Scorer.retr_mem k d q
      have h4 : S / q - 1 ≤ 1790 / 2 ^ 24 := by
        rw [sub_le_iff_le_add, div_le_iff₀ hq0]
        have := dn.trans h1
        norm_num at this ⊢
        linarith
      have h5 : 0 ≤ S / q - 1 := sub_nonneg.2 ((one_le_div hq0).2 h)
      rw [abs_of_nonpos (by linarith)]
      have h6 : (S / q - 1) * retrievability k d q ≤ (S / q - 1) * 1 := mul_le_mul_of_nonneg_left hR.2 h5
      linarith
  have e : r - retrievability k d S = (r - retrievability k d q) + (retrievability k d q - retrievability k d S) := by ring
  rw [e]
  exact (abs_add_le _ _).trans ((add_le_add hn key).trans (by norm_num))

end Trane.Float
