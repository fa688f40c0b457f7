import Verif.Scorer.Lemmas
import Mathlib.Tactic.Ring

/-! Helper lemmas: monotonicity of the score, the velocity regression. -/

namespace Trane.Scorer

/-! ### One stability update -/

theorem stabilityStep_mono (k : Kind) {s d v v' t : ℝ} (hs : 0 ≤ s) (hd : d ≤ 11) (ht : 0 ≤ t)
    (hv : v ≤ v') : stabilityStep k s d v t ≤ stabilityStep k s d v' t := by
  unfold stabilityStep
  apply clamp_mono (by norm_num)
  apply mul_le_mul_of_nonneg_left _ hs
  have he : 0 ≤ (11 - d) / 5 := by linarith
  have hm : 0 ≤ min t 1 := le_min ht (by norm_num)
  have hp : (v - 1) / 4 - 1 / 2 ≤ (v' - 1) / 4 - 1 / 2 := by linarith
  set p := (v - 1) / 4 - 1 / 2
  set p' := (v' - 1) / 4 - 1 / 2
  have key : p * spacingGain k t s p ≤ p' * spacingGain k t s p' := by
    by_cases h1 : p' ≤ 0
    · have h0 : p ≤ 0 := hp.trans h1
      simp only [spacingGain, if_pos h1, if_pos h0]
      linarith
    · by_cases h0 : p ≤ 0
      · have := spacingGain_ge k t s p'
        simp only [spacingGain, if_pos h0] at *
        rw [not_le] at h1
        have h2 : 0 ≤ p' * (if p' ≤ 0 then 1
            else clamp (1 + 65 / 100 * (1 - retrievability k t s)) 1 (1 + 65 / 100)) :=
          mul_nonneg h1.le (by linarith)
        linarith
      · simp only [spacingGain, if_neg h1, if_neg h0]
        apply mul_le_mul_of_nonneg_right hp
        linarith [(clamp_mem (1 + 65 / 100 * (1 - retrievability k t s))
          (lo := 1) (hi := 1 + 65 / 100) (by norm_num)).1]
  have := mul_le_mul_of_nonneg_right key (mul_nonneg he hm)
  nlinarith [this]

theorem stabilityStep_neutral (k : Kind) {s d t : ℝ} (h : 1 / 2 ≤ s ∧ s ≤ 730) :
    stabilityStep k s d 3 t = s := by
  unfold stabilityStep
  have : ((3 : ℝ) - 1) / 4 - 1 / 2 = 0 := by norm_num
  simp only [this]
  rw [show s * (1 + 5 / 2 * 0 * ((11 - d) / 5) * spacingGain k t s 0 * min t 1) = s by ring]
  exact clamp_eq_self h.1 h.2

theorem stabilityStep_instant (k : Kind) {s d v : ℝ} (h : 1 / 2 ≤ s ∧ s ≤ 730) :
    stabilityStep k s d v 0 = s := by
  unfold stabilityStep
  have : min (0 : ℝ) 1 = 0 := min_eq_left (by norm_num)
  simp only [this, mul_zero, add_zero, mul_one]
  exact clamp_eq_self h.1 h.2

theorem replay_cons (k : Kind) (t : Entry) (l : List Entry) (b : ℝ) :
    replay k (t :: l) b = replayStep k (replay k l b) t := by
  unfold replay
  rw [List.reverse_cons, List.foldl_append]
  rfl

theorem stability_latest_mono (k : Kind) (l : List Entry) (t : Entry) {v' : ℝ} {b : ℝ}
    (hb : 1 ≤ b ∧ b ≤ 10) (hv : t.value ≤ v') :
    computeStability k (t :: l) b ≤ computeStability k ({ t with value := v' } :: l) b := by
  unfold computeStability
  rw [replay_cons, replay_cons]
  have hr := inRange_replay k l hb
  unfold replayStep
  split
  · exact le_refl _
  · apply stabilityStep_mono k (by linarith [hr.1.1]) (by linarith [hr.2.2]) (le_max_right _ _) hv

/-! ### The final value -/

theorem retr_mono (k : Kind) {d d' s s' : ℝ} (hd : 0 ≤ d') (h : d' ≤ d) (hs : 0 < s)
    (hs' : s ≤ s') : retrievability k d s ≤ retrievability k d' s' := by
  have h1 : retrievability k d s ≤ retrievability k d' s := by
    rcases h.eq_or_lt with e | e
    · rw [e]
    · exact (retr_anti k hd e hs).le
  refine h1.trans ?_
  rcases hd.eq_or_lt with e | e
  · subst e
    rw [retr_eq k (le_refl _) hs, retr_eq k (le_refl _) (hs.trans_le hs')]
    simp
  · rcases hs'.eq_or_lt with e2 | e2
    · rw [e2]
    · exact (retr_mono_s k e hs e2).le

/-- Both the adjusted score and the delta scale with the effective retrievability. -/
theorem final_eq (eff w : ℝ) (deltas : List Entry) :
    eff * w + computeDelta deltas eff = eff * (w + computeDelta deltas 1) := by
  unfold computeDelta
  split <;> ring

theorem clamp_scaled_mono {e e' x x' : ℝ} (he0 : 0 ≤ e) (he : e ≤ e') (hx : x ≤ x') :
    clamp (e * x) 0 5 ≤ clamp (e' * x') 0 5 := by
  by_cases h : 0 ≤ x'
  · apply clamp_mono (by norm_num)
    calc e * x ≤ e * x' := mul_le_mul_of_nonneg_left hx he0
      _ ≤ e' * x' := mul_le_mul_of_nonneg_right he h
  · have h1 : e * x ≤ 0 := mul_nonpos_of_nonneg_of_nonpos he0 (hx.trans (not_le.1 h).le)
    have h2 : clamp (e * x) 0 5 ≤ 0 := by
      unfold clamp
      split_ifs <;> linarith
    exact h2.trans (clamp_mem _ (by norm_num)).1

theorem floor_mono {r r' w w' : ℝ} {d : ℝ} {n : ℕ} (hr : r ≤ r') (hw : w ≤ w') :
    oldGoodFloor r w d n ≤ oldGoodFloor r' w' d n := by
  unfold oldGoodFloor
  split
  · rename_i h
    rw [if_pos ⟨h.1, h.2.1.trans hw, h.2.2⟩]
    exact max_le_max hr (le_refl _)
  · split
    · exact hr.trans (le_max_left _ _)
    · exact hr

theorem floor_nonneg {r w d : ℝ} {n : ℕ} (hr : 0 ≤ r) : 0 ≤ oldGoodFloor r w d n := by
  unfold oldGoodFloor
  split
  · exact hr.trans (le_max_left _ _)
  · exact hr

theorem daysSinceLast_mono {now now' : ℤ} (last : Entry) (h : now ≤ now') :
    daysSinceLast now last ≤ daysSinceLast now' last := by
  unfold daysSinceLast daysBetween
  apply max_le_max _ (le_refl _)
  apply div_le_div_of_nonneg_right _ (by norm_num)
  exact_mod_cast satSub_mono_left h

theorem daysSinceLast_nonneg (now : ℤ) (last : Entry) : 0 ≤ daysSinceLast now last :=
  le_max_right _ _

theorem fifty_le_days_iff (now : ℤ) (last : Entry) :
    50 ≤ daysSinceLast now last ↔ last.time + 50 * 86400 ≤ now := by
  unfold daysSinceLast daysBetween
  rw [le_max_iff, le_div_iff₀ (by norm_num)]
  have h0 : ¬ (50 : ℝ) ≤ 0 := by norm_num
  rw [or_iff_left h0]
  have e : (50 : ℝ) * 86400 = ((50 * 86400 : ℤ) : ℝ) := by norm_num
  rw [e, Int.cast_le]
  unfold satSub
  omega

theorem score_sorted (k : Kind) (last : Entry) (rest deltas : List Entry) (now : ℤ)
    (h : (last :: rest).Pairwise (fun a b => b.time ≤ a.time)) :
    score k (last :: rest) deltas now = some
      { value := clamp
          (oldGoodFloor
            (retrievability k (daysSinceLast now last)
              (computeStability k (last :: rest) (estimateDifficulty (last :: rest))))
            (weightedAvg (last :: rest)) (daysSinceLast now last) (last :: rest).length *
            (weightedAvg (last :: rest) + computeDelta deltas 1)) 0 5
        urgency := 1 - retrievability k (daysSinceLast now last)
              (computeStability k (last :: rest) (estimateDifficulty (last :: rest)))
        velocity := velocity (last :: rest) } := by
  unfold score
  rw [(unsorted_iff _).2 h]
  simp only [Bool.false_eq_true, if_false]
  rw [final_eq]

theorem estimate_same_side (t : Entry) (l : List Entry) {v' : ℝ} (h : t.value < 3 ↔ v' < 3) :
    estimateDifficulty ({ t with value := v' } :: l) = estimateDifficulty (t :: l) := by
  unfold estimateDifficulty
  by_cases h3 : t.value < 3
  · simp [h3, h.1 h3]
  · have : ¬ v' < 3 := fun hh => h3 (h.2 hh)
    simp [h3, this]

/-! ### Least squares -/

/-- Expansion of a sum of squared residuals into the sums the code accumulates. -/
theorem sse_expand (f g : Entry → ℝ) (l : List Entry) (a b : ℝ) :
    (l.map (fun x => (g x - (a + b * f x)) ^ 2)).sum =
      (l.map (fun x => g x ^ 2)).sum - 2 * a * (l.map g).sum
        - 2 * b * (l.map (fun x => f x * g x)).sum + (l.length : ℝ) * a ^ 2
        + 2 * a * b * (l.map f).sum + b ^ 2 * (l.map (fun x => f x * f x)).sum := by
  induction l with
  | nil => simp
  | cons x l ih =>
    simp only [List.map_cons, List.sum_cons, ih, List.length_cons, Nat.cast_add, Nat.cast_one]
    ring

theorem quad_nonneg (f : Entry → ℝ) (l : List Entry) (u w : ℝ) :
    0 ≤ (l.length : ℝ) * u ^ 2 + 2 * u * w * (l.map f).sum
      + w ^ 2 * (l.map (fun x => f x * f x)).sum := by
  have h := sse_expand f (fun _ => 0) l u w
  have h0 : 0 ≤ (l.map (fun x => ((0 : ℝ) - (u + w * f x)) ^ 2)).sum := by
    apply List.sum_nonneg
    intro y hy
    obtain ⟨x, _, rfl⟩ := List.mem_map.1 hy
    positivity
  rw [h] at h0
  simp only [mul_zero, List.map_const', List.sum_replicate, smul_zero, ne_eq, OfNat.ofNat_ne_zero,
    not_false_eq_true, zero_pow] at h0
  linarith

theorem denominator_nonneg (f : Entry → ℝ) {l : List Entry} (hl : l ≠ []) :
    0 ≤ (l.length : ℝ) * (l.map (fun x => f x * f x)).sum - (l.map f).sum * (l.map f).sum := by
  have hn : (0 : ℝ) < l.length := by exact_mod_cast List.length_pos_iff.2 hl
  have h := quad_nonneg f l (-(l.map f).sum) (l.length : ℝ)
  by_contra hc
  rw [not_le] at hc
  nlinarith [mul_pos_of_neg_of_neg hc (neg_lt_zero.2 hn)]

theorem least_squares (f g : Entry → ℝ) {l : List Entry} (hl : l ≠ [])
    (hD : (l.length : ℝ) * (l.map (fun x => f x * f x)).sum - (l.map f).sum * (l.map f).sum ≠ 0)
    (b : ℝ)
    (hb : b = ((l.length : ℝ) * (l.map (fun x => f x * g x)).sum - (l.map f).sum * (l.map g).sum) /
      ((l.length : ℝ) * (l.map (fun x => f x * f x)).sum - (l.map f).sum * (l.map f).sum)) :
    ∃ a, ∀ a' b', (l.map (fun x => (g x - (a + b * f x)) ^ 2)).sum ≤
        (l.map (fun x => (g x - (a' + b' * f x)) ^ 2)).sum ∧
      (b' ≠ b → (l.map (fun x => (g x - (a + b * f x)) ^ 2)).sum <
        (l.map (fun x => (g x - (a' + b' * f x)) ^ 2)).sum) := by
  have hn : (0 : ℝ) < l.length := by exact_mod_cast List.length_pos_iff.2 hl
  have hD' := denominator_nonneg f hl
  refine ⟨((l.map g).sum - b * (l.map f).sum) / l.length, ?_⟩
  intro a' b'
  set a := ((l.map g).sum - b * (l.map f).sum) / l.length with ha
  rw [sse_expand, sse_expand]
  have hq := quad_nonneg f l (a' - a) (b' - b)
  have e1 : (l.length : ℝ) * a = (l.map g).sum - b * (l.map f).sum := by
    rw [ha]; field_simp
  set n : ℝ := (l.length : ℝ)
  set T := (l.map f).sum
  set S := (l.map g).sum
  set TS := (l.map (fun x => f x * g x)).sum
  set TT := (l.map (fun x => f x * f x)).sum
  set GG := (l.map (fun x => g x ^ 2)).sum
  have e2 : b * (n * TT - T * T) = n * TS - T * S := by
    rw [hb, div_mul_cancel₀ _ hD]
  -- second normal equation
  have e3 : a * T + b * TT = TS := by
    have : n * (a * T + b * TT) = n * TS := by
      have e4 : n * (a * T + b * TT) = n * a * T + b * (n * TT) := by ring
      rw [e4, e1]
      linarith
    exact mul_left_cancel₀ hn.ne' this
  have diff : (GG - 2 * a' * S - 2 * b' * TS + n * a' ^ 2 + 2 * a' * b' * T + b' ^ 2 * TT)
      - (GG - 2 * a * S - 2 * b * TS + n * a ^ 2 + 2 * a * b * T + b ^ 2 * TT)
      = n * (a' - a) ^ 2 + 2 * (a' - a) * (b' - b) * T + (b' - b) ^ 2 * TT := by
    have hS : S = n * a + b * T := by linarith
    rw [hS, ← e3]
    ring
  constructor
  · linarith
  · intro hne
    have hDpos : 0 < n * TT - T * T := lt_of_le_of_ne hD' (Ne.symm hD)
    have hsq : 0 < (b' - b) ^ 2 := by
      have : b' - b ≠ 0 := sub_ne_zero.2 hne
      positivity
    have : 0 < n * (n * (a' - a) ^ 2 + 2 * (a' - a) * (b' - b) * T + (b' - b) ^ 2 * TT) := by
      have e : n * (n * (a' - a) ^ 2 + 2 * (a' - a) * (b' - b) * T + (b' - b) ^ 2 * TT)
        = (n * (a' - a) + (b' - b) * T) ^ 2 + (b' - b) ^ 2 * (n * TT - T * T) := by ring
      rw [e]
      have := mul_pos hsq hDpos
      have := sq_nonneg (n * (a' - a) + (b' - b) * T)
      linarith
    have := (mul_pos_iff_of_pos_left hn).1 this
    linarith

end Trane.Scorer
