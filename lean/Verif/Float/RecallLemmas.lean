import Verif.Float.AverageLemmas
import Verif.Scorer.Lemmas2

/-! # Recall in `f32` arithmetic, against the exact one -/

namespace Trane.Float

open Trane.Scorer (satSub daysBetween Kind curveDecay curveFactor retrievability)

variable {powf : F → F → F}

/-- Logarithms of numbers that are close. -/
theorem log_close {B b ε : ℝ} (hB : 0 < B) (h : |b - B| ≤ ε * B) (he : ε ≤ 1 / 1000) :
    0 < b ∧ |Real.log b - Real.log B| ≤ 101 / 100 * ε := by
  have h' := abs_le.1 h
  have he0 : 0 ≤ ε := by
    have : 0 ≤ ε * B := (abs_nonneg _).trans h
    by_contra hc
    nlinarith [not_le.1 hc]
  have hεB : ε * B ≤ 1 / 1000 * B := mul_le_mul_of_nonneg_right he hB.le
  have hb : 0 < b := by linarith
  refine ⟨hb, ?_⟩
  rw [← Real.log_div hb.ne' hB.ne']
  have hq1 : 1 - ε ≤ b / B := by rw [le_div_iff₀ hB]; linarith
  have hq2 : b / B ≤ 1 + ε := by rw [div_le_iff₀ hB]; linarith
  have hq0 : 0 < b / B := by positivity
  have l1 := Real.log_le_sub_one_of_pos hq0
  have l2 := Real.one_sub_inv_le_log_of_pos hq0
  have h3 : (b / B)⁻¹ ≤ (1 - ε)⁻¹ := inv_anti₀ (by linarith) hq1
  have h4 : (1 - ε)⁻¹ ≤ 1 + 101 / 100 * ε := by
    rw [inv_le_iff_one_le_mul₀ (by linarith)]
    nlinarith
  exact abs_le.2 ⟨by linarith, by linarith⟩

/-- Powers of numbers that are close, with exponents that are close. -/
theorem rpow_close {B b x y p q L Y τ : ℝ} (hB : 0 < B) (hb : 0 < b) (h1 : |Real.log b - Real.log B| ≤ p)
    (h2 : |y| ≤ Y) (h3 : |y - x| ≤ q) (h4 : |Real.log B| ≤ L) (hτ : Y * p + q * L ≤ τ) (hτ1 : τ ≤ 1 / 1000) :
    |b ^ y - B ^ x| ≤ 101 / 100 * τ * B ^ x := by
  have e : b ^ y = B ^ x * Real.exp (y * (Real.log b - Real.log B) + (y - x) * Real.log B) := by
    rw [Real.rpow_def_of_pos hb, Real.rpow_def_of_pos hB, ← Real.exp_add]
    congr 1
    ring
  set t := y * (Real.log b - Real.log B) + (y - x) * Real.log B with ht
  have habs : |t| ≤ τ := by
    rw [ht]
    refine (abs_add_le _ _).trans (le_trans ?_ hτ)
    rw [abs_mul, abs_mul]
    exact add_le_add (mul_le_mul h2 h1 (abs_nonneg _) ((abs_nonneg _).trans h2))
      (mul_le_mul h3 h4 (abs_nonneg _) ((abs_nonneg _).trans h3))
  have hp : 0 < B ^ x := Real.rpow_pos_of_pos hB x
  have ht1 := abs_le.1 habs
  have hτ0 : 0 ≤ τ := (abs_nonneg _).trans habs
  have l1 := Real.add_one_le_exp t
  have l2 : Real.exp t ≤ 1 + 101 / 100 * τ := by
    have h1 := Real.add_one_le_exp (-t)
    rw [Real.exp_neg] at h1
    have h3 : Real.exp t ≤ (-t + 1)⁻¹ := by
      have := inv_anti₀ (by linarith : 0 < -t + 1) h1
      rwa [inv_inv] at this
    refine h3.trans ((inv_anti₀ (by linarith : 0 < 1 - τ) (by linarith)).trans ?_)
    rw [inv_le_iff_one_le_mul₀ (by linarith)]
    nlinarith
  have e2 : B ^ x * Real.exp t - B ^ x = B ^ x * (Real.exp t - 1) := by ring
  rw [e, e2, abs_mul, abs_of_pos hp, mul_comm]
  exact mul_le_mul_of_nonneg_right (abs_le.2 ⟨by linarith, by linarith⟩) hp.le

/-- A function that is faithful keeps the leading digits. -/
theorem faithful_rel (hp : Faithful powf) {x y : ℝ} (hx : 0 < x) (h1 : 1 / 2 ^ 60 ≤ x ^ y) (h2 : x ^ y ≤ 2) :
    ∃ z, powf (.num x) (.num y) = .num z ∧ Rep z ∧ |z - x ^ y| ≤ 4 / 2 ^ 24 * x ^ y := by
  obtain ⟨z, hz, hr, H⟩ := hp x y hx (lt_of_le_of_lt h2 (by norm_num))
  refine ⟨z, hz, hr, ?_⟩
  generalize x ^ y = p at *
  refine abs_le.2 ⟨?_, ?_⟩
  · have e := rnd_err (p * (1 - 2 / 2 ^ 24))
    have hq : 0 < p * (1 - 2 / 2 ^ 24) := mul_pos (lt_of_lt_of_le (by positivity) h1) (by norm_num)
    rw [abs_of_pos hq] at e
    have e2 := abs_le.1 (e.trans (max_le (le_refl (p * (1 - 2 / 2 ^ 24) / 2 ^ 24)) (by norm_num at h1 ⊢; linarith)))
    have := (H _ (rnd_rep (p * (1 - 2 / 2 ^ 24)))).1 (by norm_num at e2 h1 ⊢; linarith)
    have h3 : p * (1 - 4 / 2 ^ 24) ≤ z := by
      refine le_trans ?_ this
      norm_num at e2 h1 ⊢
      linarith
    linarith
  · have e := rnd_err (p * (1 + 2 / 2 ^ 24))
    have hq : 0 < p * (1 + 2 / 2 ^ 24) := mul_pos (lt_of_lt_of_le (by positivity) h1) (by norm_num)
    rw [abs_of_pos hq] at e
    have e2 := abs_le.1 (e.trans (max_le (le_refl (p * (1 + 2 / 2 ^ 24) / 2 ^ 24)) (by norm_num at h1 ⊢; linarith)))
    have := (H _ (rnd_rep (p * (1 + 2 / 2 ^ 24)))).2 (by norm_num at e2 h1 ⊢; linarith)
    have h3 : z ≤ p * (1 + 4 / 2 ^ 24) := by
      refine le_trans this ?_
      norm_num at e2 h1 ⊢
      linarith
    linarith

/-- A relative error as powers. -/
theorem app_of_abs {m k : ℕ} (hm : m + 1 ≤ k) (hk : k ≤ 1024) {x y : ℝ} (hx : 0 ≤ x)
    (h : |y - x| ≤ m / 2 ^ 24 * x) : App k x (.num y) := by
  have h' := abs_le.1 h
  have hkr : (k : ℝ) ≤ 1024 := by exact_mod_cast hk
  have hmr : (m : ℝ) + 1 ≤ k := by exact_mod_cast hm
  have hm0 : (0 : ℝ) ≤ m := Nat.cast_nonneg m
  have hu : (1 : ℝ) + k * (1 / 2 ^ 24) ≤ (1 + 1 / 2 ^ 24) ^ k := one_add_mul_le_pow (by norm_num) k
  have hd : (1 - 1 / 2 ^ 24 : ℝ) ^ k ≤ 1 - m / 2 ^ 24 := by
    have h2 : (1 - 1 / 2 ^ 24 : ℝ) ^ k * (1 + 1 / 2 ^ 24) ^ k ≤ 1 := by
      rw [← mul_pow]
      exact pow_le_one₀ (by norm_num) (by norm_num)
    have h0 : (0 : ℝ) ≤ (1 - 1 / 2 ^ 24) ^ k := pow_nonneg (by norm_num) k
    have h3 : (1 - 1 / 2 ^ 24 : ℝ) ^ k * (1 + k * (1 / 2 ^ 24)) ≤ 1 :=
      le_trans (mul_le_mul_of_nonneg_left hu h0) h2
    have hkm : (k : ℝ) * m ≤ 1024 * 1024 := mul_le_mul hkr (by linarith) hm0 (by norm_num)
    have h4 : 1 ≤ (1 - m / 2 ^ 24 : ℝ) * (1 + k * (1 / 2 ^ 24)) := by
      have e : (1 - m / 2 ^ 24 : ℝ) * (1 + k * (1 / 2 ^ 24)) = 1 + (k - m) / 2 ^ 24 - k * m / 2 ^ 48 := by ring
      rw [e]
      norm_num
      linarith
    exact le_of_mul_le_mul_right (h3.trans h4) (by positivity)
  refine ⟨y, rfl, ?_, ?_⟩
  · have := mul_le_mul_of_nonneg_left hd hx
    refine this.trans ?_
    linarith
  · have h1 : x * (1 + m / 2 ^ 24) ≤ x * (1 + 1 / 2 ^ 24) ^ k := by
      refine mul_le_mul_of_nonneg_left (le_trans ?_ hu) hx
      norm_num
      linarith
    linarith

/-- The exponents of the curves. -/
theorem decay_near (k : Kind) : ∃ y, gCurveDecay (f32 powf) k = .num y ∧ 1 / 5 ≤ -curveDecay k ∧
    -curveDecay k ≤ 2 / 5 ∧ |y - curveDecay k| ≤ -curveDecay k / 2 ^ 24 := by
  have key : ∀ A : ℚ, (1 / 5 : ℝ) ≤ A → (A : ℝ) ≤ 2 / 5 → ∃ y, (f32 powf).lit (-A) = .num y ∧
      |y - (-A)| ≤ (A : ℝ) / 2 ^ 24 := by
    intro A h1 h2
    have hA : |(((-A : ℚ)) : ℝ)| = A := by push_cast; rw [abs_neg, abs_of_pos (by linarith)]
    refine ⟨rnd ((-A : ℚ) : ℝ), round_num (le_refl _) rep_big (by rw [hA]; exact h2.trans (by norm_num)), ?_⟩
    have := rnd_err ((-A : ℚ) : ℝ)
    rw [hA] at this
    push_cast at this ⊢
    refine this.trans (max_le le_rfl ?_)
    have h : (1 / 5 : ℝ) / 2 ^ 24 ≤ A / 2 ^ 24 := by gcongr
    exact le_trans (by norm_num) h
  cases k
  · obtain ⟨y, h1, h2⟩ := key (4 / 10) (by norm_num) (by norm_num)
    push_cast at h2
    exact ⟨y, h1, by norm_num [curveDecay], by norm_num [curveDecay], by
      unfold curveDecay; rw [neg_neg]; exact h2⟩
  · obtain ⟨y, h1, h2⟩ := key (2 / 10) (by norm_num) (by norm_num)
    push_cast at h2
    exact ⟨y, h1, by norm_num [curveDecay], by norm_num [curveDecay], by
      unfold curveDecay; rw [neg_neg]; exact h2⟩

theorem factor_bounds (k : Kind) : 3 / 10 ≤ curveFactor k ∧ curveFactor k ≤ 7 / 10 := by
  rw [Scorer.factor_eq]
  have h5 : (9 / 10 : ℝ) ^ (-5 : ℝ) = 100000 / 59049 := by
    rw [Real.rpow_neg (by norm_num)]
    have : (9 / 10 : ℝ) ^ (5 : ℝ) = (9 / 10 : ℝ) ^ (5 : ℕ) := by rw [← Real.rpow_natCast]; norm_num
    rw [this]; norm_num
  cases k
  · have e : (curveDecay .declarative)⁻¹ = (-5 : ℝ) / 2 := by norm_num [curveDecay]
    rw [e]
    have hsq : ((9 / 10 : ℝ) ^ ((-5 : ℝ) / 2)) ^ 2 = 100000 / 59049 := by
      rw [← h5, ← Real.rpow_natCast, ← Real.rpow_mul (by norm_num)]; norm_num
    have h0 : 0 < (9 / 10 : ℝ) ^ ((-5 : ℝ) / 2) := by positivity
    constructor <;> nlinarith
  · have e : (curveDecay .procedural)⁻¹ = (-5 : ℝ) := by norm_num [curveDecay]
    rw [e, h5]
    norm_num

theorem factor_near (hp : Faithful powf) (k : Kind) : ∃ c, gCurveFactor (f32 powf) k = .num c ∧
    |c - curveFactor k| ≤ 64 / 2 ^ 24 * curveFactor k := by
  obtain ⟨y, hy, hA1, hA2, hyn⟩ := decay_near (powf := powf) k
  obtain ⟨f1, f2⟩ := factor_bounds k
  have hfe := Scorer.factor_eq k
  set A := -curveDecay k with hA
  have hcd : curveDecay k = -A := by rw [hA, neg_neg]
  rw [hcd] at hyn hfe
  have hy' := abs_le.1 hyn
  have hA24 : A / 2 ^ 24 ≤ A * (1 / 1000) := by rw [div_eq_mul_inv]; gcongr; norm_num
  have hy0 : y < 0 := by linarith
  set a := -y with ha
  have han : |a - A| ≤ A / 2 ^ 24 := by
    have e : a - A = -(y - -A) := by rw [ha]; ring
    rw [e, abs_neg]; exact hyn
  have ha1 : 19 / 100 ≤ a := by linarith
  have ha2 : a ≤ 41 / 100 := by linarith
  have e1 : (f32 powf).max ((f32 powf).abs (.num y)) ((f32 powf).lit (1 / 2 ^ 23)) = .num a := by
    have h23 : (f32 powf).lit (1 / 2 ^ 23) = .num (1 / 2 ^ 23) := by
      have := lit_bd powf (q := 1 / 2 ^ 23) (bd_div 1 23 (by norm_num) (by norm_num) (by norm_num))
      simpa using this
    rw [h23]
    have habs : (f32 powf).abs (.num y) = .num a := by
      show F.num |y| = _
      rw [abs_of_neg hy0]
    rw [habs]
    show (if decide (a < 1 / 2 ^ 23) = true then F.num (1 / 2 ^ 23) else F.num a) = _
    rw [if_neg]
    simp only [decide_eq_true_eq, not_lt]
    exact le_trans (by norm_num) ha1
  have em1 : (f32 powf).lit (-1) = .num (-1) := by
    have := lit_bd powf (q := -1) (bd_int (-1) (by norm_num))
    simpa using this
  have hinv : |-1 / a| ≤ 6 := by
    rw [abs_div, abs_neg, abs_one, abs_of_pos (by linarith), div_le_iff₀ (by linarith)]; linarith
  obtain ⟨w, hw, hwn⟩ := round_near_abs hinv (by norm_num) (by norm_num)
  have e2 : (f32 powf).div (.num (-1)) (.num a) = .num w := by
    show (if a = 0 then _ else F.round (-1 / a)) = _
    rw [if_neg (by linarith), hw]
  -- the exponent
  have hwx : |w - (-A)⁻¹| ≤ 12 / 2 ^ 24 := by
    have e : w - (-A)⁻¹ = (w - -1 / a) + (a - A) / (a * A) := by
      have h1 : a ≠ 0 := by linarith
      have h2 : A ≠ 0 := by linarith
      field_simp
      ring
    rw [e]
    have h : |(a - A) / (a * A)| ≤ 6 / 2 ^ 24 := by
      have haA : 0 < a * A := mul_pos (by linarith) (by linarith)
      rw [abs_div, abs_of_pos haA,
        div_le_iff₀ haA]
      refine han.trans ?_
      have : A * 1 ≤ A * (6 * a) := mul_le_mul_of_nonneg_left (by linarith) (by linarith)
      have e3 : 6 / 2 ^ 24 * (a * A) = A * (6 * a) / 2 ^ 24 := by ring
      rw [e3]
      gcongr
      linarith
    exact (abs_add_le _ _).trans ((add_le_add hwn h).trans (by norm_num))
  have hAi : |(-A)⁻¹| ≤ 5 := by
    rw [abs_inv, abs_neg, abs_of_pos (by linarith), inv_le_iff_one_le_mul₀ (by linarith)]; linarith
  have hw6 : |w| ≤ 501 / 100 := by
    have e : w = (w - (-A)⁻¹) + (-A)⁻¹ := by ring
    rw [e]
    exact (abs_add_le _ _).trans ((add_le_add hwx hAi).trans (by norm_num))
  obtain ⟨b, hb, hbr, hbn⟩ := lit_near (powf := powf) (q := 9 / 10) (by norm_num) (by norm_num)
  push_cast at hbn
  obtain ⟨hb0, hbl⟩ := log_close (B := 9 / 10) (b := b) (ε := 1 / 2 ^ 24) (by norm_num)
    (by refine hbn.trans (by norm_num)) (by norm_num)
  have hlog : |Real.log (9 / 10)| ≤ 112 / 1000 := by
    have := Real.one_sub_inv_le_log_of_pos (x := (9 / 10 : ℝ)) (by norm_num)
    have h2 : Real.log (9 / 10) ≤ 0 := Real.log_nonpos (by norm_num) (by norm_num)
    norm_num at this
    exact abs_le.2 ⟨by linarith, by linarith⟩
  have hpow := rpow_close (B := 9 / 10) (x := (-A)⁻¹) (y := w) (τ := 7 / 2 ^ 24) (by norm_num) hb0 hbl hw6 hwx hlog
    (by norm_num) (by norm_num)
  set P := (9 / 10 : ℝ) ^ (-A)⁻¹ with hP
  have hP1 : 13 / 10 ≤ P := by linarith
  have hP2 : P ≤ 17 / 10 := by linarith
  have hpow' := abs_le.1 hpow
  obtain ⟨z, hz, -, hzn⟩ := faithful_rel hp hb0 (y := w)
    (le_trans (by norm_num) (show (1 : ℝ) ≤ b ^ w by norm_num at hpow' ⊢; linarith))
    (by norm_num at hpow' ⊢; linarith)
  have hz' := abs_le.1 hzn
  have hzP : |z - P| ≤ 20 / 2 ^ 24 := abs_le.2 ⟨by norm_num at hpow' hz' ⊢; linarith, by norm_num at hpow' hz' ⊢; linarith⟩
  have hzP' := abs_le.1 hzP
  have hz1 : |z + -1| ≤ 8 / 10 := abs_le.2 ⟨by norm_num at hzP' ⊢; linarith, by norm_num at hzP' ⊢; linarith⟩
  obtain ⟨c, hc, hcn⟩ := round_near_abs hz1 (by norm_num) (by norm_num)
  refine ⟨c, ?_, ?_⟩
  · unfold gCurveFactor
    have e3 : (f32 powf).powf (.num b) (.num w) = .num z := hz
    rw [hy, e1, em1, e2, hb, e3, lit1]
    show F.add (.num z) (F.neg (.num 1)) = _
    exact hc
  · rw [hfe]
    have hc' := abs_le.1 hcn
    refine abs_le.2 ⟨by norm_num at hc' hzP' ⊢; linarith, by norm_num at hc' hzP' ⊢; linarith⟩

/-- Recall: the machine's, for the stability it holds, against the exact one for the same stability. -/
theorem recall_near (hp : Faithful powf) (k : Kind) {d q : ℝ} {dF : F} (hd : App 2 d dF)
    (hlo : Lo (1 / 2 ^ 17) d) (hhi : d ≤ 2 ^ 47) (hq1 : 1 / 2 ≤ q) (hq2 : q ≤ 730) :
    ∃ r, gRetrievability (f32 powf) k dF (.num q) = .num r ∧ 0 ≤ r ∧ r ≤ 1 ∧
      |r - retrievability k d q| ≤ 56 / 2 ^ 24 := by
  obtain ⟨c, hc, hcn⟩ := factor_near hp k
  obtain ⟨f1, f2⟩ := factor_bounds k
  obtain ⟨y, hy, hA1, hA2, hyn⟩ := decay_near (powf := powf) k
  have hd0 : 0 ≤ d := hlo.nonneg (by norm_num)
  rw [Scorer.retr_eq k hd0 (by linarith)]
  generalize curveFactor k = f at *
  have hcA : App 65 f (.num c) := app_of_abs (m := 64) (by norm_num) (by norm_num) (by linarith) (by exact_mod_cast hcn)
  have hfd : Fine (f * d) := by
    rcases hlo with h | h
    · exact Or.inl (by rw [h, mul_zero])
    · refine Or.inr ⟨?_, ?_⟩
      · have := mul_le_mul f1 h (by norm_num) (by linarith)
        exact le_trans (by norm_num) this
      · have := mul_le_mul f2 hhi hd0 (by norm_num)
        exact this.trans (by norm_num)
  have h1 := hcA.mul (by norm_num) hd (by linarith) hd0 hfd
  have hfq : Fine (f * d / q) := by
    rcases hlo with h | h
    · exact Or.inl (by rw [h, mul_zero, zero_div])
    · refine Or.inr ⟨?_, ?_⟩
      · have := mul_le_mul f1 h (by norm_num) (by linarith)
        rw [le_div_iff₀ (by linarith)]
        refine le_trans ?_ this
        norm_num
        linarith
      · have := mul_le_mul f2 hhi hd0 (by norm_num)
        rw [div_le_iff₀ (by linarith)]
        refine this.trans ?_
        norm_num
        linarith
  have h2 := h1.div_num (by norm_num) (c := q) (by linarith) hfq
  have hfd0 : 0 ≤ f * d / q := hfq.nonneg
  have hup : f * d / q ≤ 2 ^ 47 * (7 / 5) := by
    have := mul_le_mul f2 hhi hd0 (by norm_num)
    rw [div_le_iff₀ (by linarith)]
    norm_num at this ⊢
    linarith
  have h3 := App.add (by norm_num) ((app_num 1).mono (by norm_num) (by norm_num : 0 ≤ 65 + 2 + 1 + 1)) h2
    (Or.inr ⟨by norm_num; linarith, by norm_num at hup ⊢; linarith⟩)
  set x := 1 + f * d / q with hx
  have hx1 : 1 ≤ x := by linarith
  have hx48 : x ≤ 2 ^ 48 := by norm_num at hup ⊢; linarith
  obtain ⟨b, hb, hbn⟩ := h3.abs_le (by norm_num) (by linarith)
  obtain ⟨hb0, hbl⟩ := log_close (B := x) (b := b) (ε := 71 / 2 ^ 24) (by linarith)
    (hbn.trans (by rw [mul_comm]; exact mul_le_mul_of_nonneg_right (by norm_num) (by linarith))) (by norm_num)
  have hlog : |Real.log x| ≤ 48 := by
    rw [abs_of_nonneg (Real.log_nonneg hx1)]
    refine (Real.log_le_log (by linarith) hx48).trans ?_
    rw [Real.log_pow]
    have := Real.log_le_sub_one_of_pos (x := (2 : ℝ)) (by norm_num)
    norm_num at this ⊢
    linarith
  set a := curveDecay k with ha
  have hyn' : |y - a| ≤ 2 / 5 / 2 ^ 24 := hyn.trans (by gcongr)
  have hyabs : |y| ≤ 41 / 100 := by
    have e : y = (y - a) + a := by ring
    have h5 : |a| ≤ 2 / 5 := by rw [abs_of_neg (by linarith)]; exact hA2
    rw [e]
    exact (abs_add_le _ _).trans ((add_le_add hyn' h5).trans (by norm_num))
  have hpow := rpow_close (B := x) (x := a) (y := y) (τ := 50 / 2 ^ 24) (by linarith) hb0 hbl hyabs hyn' hlog
    (by norm_num) (by norm_num)
  have hP0 : 0 < x ^ a := Real.rpow_pos_of_pos (by linarith) a
  have hP1 : x ^ a ≤ 1 := Real.rpow_le_one_of_one_le_of_nonpos hx1 (by linarith)
  have hPlo : 1 / 2 ^ 48 ≤ x ^ a := by
    have h5 : x ^ (-1 : ℝ) ≤ x ^ a := Real.rpow_le_rpow_of_exponent_le hx1 (by linarith)
    refine le_trans ?_ h5
    rw [Real.rpow_neg_one, one_div]
    exact inv_anti₀ (by linarith) hx48
  set P := x ^ a with hP
  have hpow' := abs_le.1 hpow
  have hbP : b ^ y ≤ 2 := by norm_num at hpow' ⊢; linarith
  obtain ⟨z, hz, -, hzn⟩ := faithful_rel hp hb0 (y := y)
    (by norm_num at hpow' hPlo ⊢; linarith) hbP
  have hz' := abs_le.1 hzn
  have hzP : |z - P| ≤ 56 / 2 ^ 24 := abs_le.2 ⟨by norm_num at hpow' hz' ⊢; linarith, by norm_num at hpow' hz' ⊢; linarith⟩
  have hzP' := abs_le.1 hzP
  refine ⟨Scorer.clamp z 0 1, ?_, ?_, ?_, ?_⟩
  · unfold gRetrievability
    rw [hc, hy, lit1, lit0]
    have e1 : (f32 powf).add (.num 1) ((f32 powf).div ((f32 powf).mul (.num c) dF) (.num q)) = .num b := hb
    have e2 : (f32 powf).powf (.num b) (.num y) = .num z := hz
    rw [e1, e2, clamp_num_val]
  · unfold Scorer.clamp; split
    · exact le_rfl
    · split
      · norm_num
      · linarith
  · unfold Scorer.clamp; split
    · norm_num
    · split
      · norm_num
      · linarith
  · unfold Scorer.clamp; split
    · rw [abs_le]; constructor <;> linarith
    · split
      · rw [abs_le]; constructor <;> linarith
      · exact hzP

end Trane.Float
