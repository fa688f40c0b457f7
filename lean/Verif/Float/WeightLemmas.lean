import Verif.Float.VelocityLemmas

/-! # The weights of the averages in `f32` arithmetic, against the exact ones -/

namespace Trane.Float

open Trane.Scorer (satSub daysBetween)

variable {powf : F → F → F}

/-- A power of nearly 0.95 with nearly the exponent. -/
theorem pow_near {b x y : ℝ} (hb1 : 95 / 100 * (1 - 1 / 2 ^ 24) ≤ b) (hb2 : b ≤ 95 / 100 * (1 + 1 / 2 ^ 24))
    (hx : 0 ≤ x) (hx45 : x ≤ 45) (hy : |y - x| ≤ 4 / 2 ^ 24 * x) :
    (95 / 100 : ℝ) ^ x * (1 - 62 / 2 ^ 24) ≤ b ^ y ∧ b ^ y ≤ (95 / 100 : ℝ) ^ x * (1 + 62 / 2 ^ 24) := by
  have hb : 0 < b := lt_of_lt_of_le (by norm_num) hb1
  have e : b ^ y = (95 / 100 : ℝ) ^ x * Real.exp (y * (Real.log b - Real.log (95 / 100))
      + (y - x) * Real.log (95 / 100)) := by
    rw [Real.rpow_def_of_pos hb, Real.rpow_def_of_pos (by norm_num), ← Real.exp_add]
    congr 1
    ring
  have l1 : Real.log b - Real.log (95 / 100) ≤ 1 / 2 ^ 24 := by
    rw [← Real.log_div hb.ne' (by norm_num)]
    have := Real.log_le_sub_one_of_pos (x := b / (95 / 100)) (by positivity)
    have h2 : b / (95 / 100) ≤ 1 + 1 / 2 ^ 24 := by rw [div_le_iff₀ (by norm_num)]; linarith
    linarith
  have l2 : -(11 / 10 / 2 ^ 24) ≤ Real.log b - Real.log (95 / 100) := by
    rw [← Real.log_div hb.ne' (by norm_num)]
    have := Real.one_sub_inv_le_log_of_pos (x := b / (95 / 100)) (by positivity)
    refine le_trans ?_ this
    have h2 : 1 - 1 / 2 ^ 24 ≤ b / (95 / 100) := by rw [le_div_iff₀ (by norm_num)]; linarith
    have h3 : (b / (95 / 100))⁻¹ ≤ (1 - 1 / 2 ^ 24)⁻¹ := inv_anti₀ (by norm_num) h2
    have h4 : (1 - 1 / 2 ^ 24 : ℝ)⁻¹ ≤ 1 + 11 / 10 / 2 ^ 24 := by norm_num
    linarith
  have l3 : -(53 / 1000) ≤ Real.log (95 / 100) := by
    have := Real.one_sub_inv_le_log_of_pos (x := (95 / 100 : ℝ)) (by norm_num)
    norm_num at this ⊢
    linarith
  have l4 : Real.log (95 / 100) ≤ 0 := Real.log_nonpos (by norm_num) (by norm_num)
  have hyx : |y - x| ≤ 180 / 2 ^ 24 := hy.trans (by norm_num; linarith)
  have hy1 := abs_le.1 hyx
  have hy45 : |y| ≤ 46 := abs_le.2 ⟨by norm_num at hy1 ⊢; linarith, by norm_num at hy1 ⊢; linarith⟩
  set t := y * (Real.log b - Real.log (95 / 100)) + (y - x) * Real.log (95 / 100) with ht
  have habs : |t| ≤ 61 / 2 ^ 24 := by
    rw [ht]
    refine (abs_add_le _ _).trans ?_
    rw [abs_mul, abs_mul]
    have h1 : |Real.log b - Real.log (95 / 100)| ≤ 11 / 10 / 2 ^ 24 := abs_le.2 ⟨l2, l1.trans (by norm_num)⟩
    have h2 : |Real.log (95 / 100)| ≤ 53 / 1000 := abs_le.2 ⟨l3, l4.trans (by norm_num)⟩
    have h3 := mul_le_mul hy45 h1 (abs_nonneg _) (by norm_num)
    have h4 := mul_le_mul hyx h2 (abs_nonneg _) (by norm_num)
    norm_num at h3 h4 ⊢
    linarith
  have ht1 := abs_le.1 habs
  have hp : (0 : ℝ) < (95 / 100 : ℝ) ^ x := by positivity
  rw [e]
  constructor
  · refine mul_le_mul_of_nonneg_left ?_ hp.le
    have := Real.add_one_le_exp t
    norm_num at ht1 ⊢
    linarith
  · refine mul_le_mul_of_nonneg_left ?_ hp.le
    have h1 := Real.add_one_le_exp (-t)
    rw [Real.exp_neg] at h1
    have h2 : 0 < -t + 1 := by norm_num at ht1 ⊢; linarith
    have h3 : Real.exp t ≤ (-t + 1)⁻¹ := by
      have := inv_anti₀ h2 h1
      rwa [inv_inv] at this
    refine h3.trans ?_
    have h4 : (-t + 1)⁻¹ ≤ (1 - 61 / 2 ^ 24 : ℝ)⁻¹ := inv_anti₀ (by norm_num) (by linarith)
    exact h4.trans (by norm_num)

/-- A function that is faithful keeps the leading digits. -/
theorem faithful_near (hp : Faithful powf) {x y : ℝ} (hx : 0 < x) (h1 : 1 / 100 ≤ x ^ y) (h2 : x ^ y ≤ 2) :
    ∃ z, powf (.num x) (.num y) = .num z ∧ Rep z ∧ x ^ y * (1 - 3 / 2 ^ 24) ≤ z ∧ z ≤ x ^ y * (1 + 4 / 2 ^ 24) := by
  obtain ⟨z, hz, hr, H⟩ := hp x y hx (lt_of_le_of_lt h2 (by norm_num))
  refine ⟨z, hz, hr, ?_, ?_⟩ <;> generalize x ^ y = p at *
  · have e := rnd_err (p * (1 - 2 / 2 ^ 24))
    have hq : 0 < p * (1 - 2 / 2 ^ 24) := mul_pos (by linarith) (by norm_num)
    rw [abs_of_pos hq] at e
    have e2 := abs_le.1 (e.trans (max_le (le_refl (p * (1 - 2 / 2 ^ 24) / 2 ^ 24)) (by norm_num; linarith)))
    have := (H _ (rnd_rep (p * (1 - 2 / 2 ^ 24)))).1 (by norm_num at e2 ⊢; linarith)
    refine le_trans ?_ this
    norm_num at e2 ⊢
    linarith
  · have e := rnd_err (p * (1 + 2 / 2 ^ 24))
    have hq : 0 < p * (1 + 2 / 2 ^ 24) := mul_pos (by linarith) (by norm_num)
    rw [abs_of_pos hq] at e
    have e2 := abs_le.1 (e.trans (max_le (le_refl (p * (1 + 2 / 2 ^ 24) / 2 ^ 24)) (by norm_num; linarith)))
    have := (H _ (rnd_rep (p * (1 + 2 / 2 ^ 24)))).2 (by norm_num at e2 ⊢; linarith)
    refine le_trans this ?_
    norm_num at e2 ⊢
    linarith

/-- A weight: the machine's, close to the exact one, which is from 0.1 to 1. -/
def WeightNear (w : ℝ) (a : F) : Prop :=
  1 / 10 ≤ w ∧ w ≤ 1 ∧ ∃ z, a = .num z ∧ |z - w| ≤ 70 / 2 ^ 24 * w

theorem lit_near {q : ℚ} (h1 : (1 : ℝ) / 100 ≤ q) (h2 : (q : ℝ) ≤ 100) :
    ∃ z, (f32 powf).lit q = .num z ∧ Rep z ∧ |z - q| ≤ q / 2 ^ 24 := by
  have h127 : Rep ((2 : ℝ) ^ 127) := by
    have := rep_mul (m := 1) (k := 127) (by norm_num)
    simpa using this
  have hq : |(q : ℝ)| = q := abs_of_pos (by linarith)
  refine ⟨rnd q, round_num (le_refl _) h127 (by rw [hq]; exact h2.trans (by norm_num)), rnd_rep _, ?_⟩
  have := rnd_err (q : ℝ)
  rw [hq] at this
  refine this.trans (max_le le_rfl ?_)
  have h : (1 : ℝ) / 100 / 2 ^ 24 ≤ q / 2 ^ 24 := by gcongr
  exact le_trans (by norm_num) h

theorem weight_near (hp : Faithful powf) {x y : ℝ} (hx : 0 ≤ x) (hy0 : 0 ≤ y) (hy : |y - x| ≤ 4 / 2 ^ 24 * x) :
    WeightNear (max ((95 / 100 : ℝ) ^ x) (1 / 10))
      (F.max (powf ((f32 powf).lit (95 / 100)) (.num y)) ((f32 powf).lit (1 / 10))) := by
  have hw1 : (95 / 100 : ℝ) ^ x ≤ 1 := Real.rpow_le_one (by norm_num) (by norm_num) hx
  refine ⟨le_max_right _ _, max_le hw1 (by norm_num), ?_⟩
  obtain ⟨b, hb, hbr, hbn⟩ := lit_near (powf := powf) (q := 95 / 100) (by norm_num) (by norm_num)
  obtain ⟨c, hc, hcr, hcn⟩ := lit_near (powf := powf) (q := 1 / 10) (by norm_num) (by norm_num)
  have hb' := abs_le.1 hbn
  have hc' := abs_le.1 hcn
  push_cast at hb' hc'
  have hb1 : 95 / 100 * (1 - 1 / 2 ^ 24) ≤ b := by linarith
  have hb2 : b ≤ 95 / 100 * (1 + 1 / 2 ^ 24) := by linarith
  have hbpos : 0 < b := lt_of_lt_of_le (by norm_num) hb1
  have hble : b ≤ 1 := hb2.trans (by norm_num)
  rw [hb, hc]
  have hmax : ∀ z, F.max (.num z) (.num c) = .num (max z c) := by
    intro z
    show (if decide (z < c) = true then F.num c else F.num z) = _
    by_cases h : z < c
    · simp [h, max_eq_right h.le]
    · simp [h, max_eq_left (not_lt.1 h)]
  have hcpos : 0 < c := by norm_num at hc'; linarith
  by_cases hx45 : x ≤ 45
  · obtain ⟨p1, p2⟩ := pow_near hb1 hb2 hx hx45 hy
    have hlow : (9 : ℝ) / 100 ≤ (95 / 100 : ℝ) ^ x := by
      have h1 : (95 / 100 : ℝ) ^ (45 : ℝ) ≤ (95 / 100 : ℝ) ^ x :=
        Real.rpow_le_rpow_of_exponent_ge (by norm_num) (by norm_num) hx45
      have h2 : (95 / 100 : ℝ) ^ (45 : ℝ) = (95 / 100 : ℝ) ^ (45 : ℕ) := by
        rw [← Real.rpow_natCast]; norm_num
      rw [h2] at h1
      exact le_trans (by norm_num) h1
    generalize hw : (95 / 100 : ℝ) ^ x = w at *
    obtain ⟨z, hz, -, z1, z2⟩ := faithful_near hp hbpos (y := y)
      (le_trans (by norm_num at hlow ⊢; linarith) p1) (p2.trans (by norm_num; linarith))
    rw [hz, hmax]
    refine ⟨_, rfl, ?_⟩
    have hz1 : w * (1 - 69 / 2 ^ 24) ≤ z := by
      have := mul_le_mul_of_nonneg_right p1 (by norm_num : (0 : ℝ) ≤ 1 - 3 / 2 ^ 24)
      refine le_trans ?_ (this.trans z1)
      norm_num
      linarith
    have hz2 : z ≤ w * (1 + 69 / 2 ^ 24) := by
      have := mul_le_mul_of_nonneg_right p2 (by norm_num : (0 : ℝ) ≤ 1 + 4 / 2 ^ 24)
      refine le_trans z2 (this.trans ?_)
      norm_num
      linarith
    have h3 : |max z c - max w (1 / 10)| ≤ max |z - w| |c - 1 / 10| := abs_max_sub_max_le_max _ _ _ _
    refine h3.trans (max_le ?_ ?_)
    · have h4 : |z - w| ≤ 70 / 2 ^ 24 * w := abs_le.2 ⟨by norm_num at hz1 ⊢; linarith, by norm_num at hz2 ⊢; linarith⟩
      exact h4.trans (mul_le_mul_of_nonneg_left (le_max_left _ _) (by norm_num))
    · have h4 : |c - 1 / 10| ≤ 70 / 2 ^ 24 * (1 / 10) :=
        abs_le.2 ⟨by norm_num at hc' ⊢; linarith, by norm_num at hc' ⊢; linarith⟩
      exact h4.trans (mul_le_mul_of_nonneg_left (le_max_right _ _) (by norm_num))
  · have hx45 := not_le.1 hx45
    have h45 : (95 / 100 : ℝ) ^ (45 : ℝ) = (95 / 100 : ℝ) ^ (45 : ℕ) := by
      rw [← Real.rpow_natCast]; norm_num
    have hsmall : (95 / 100 : ℝ) ^ x ≤ 1 / 10 := by
      have h1 : (95 / 100 : ℝ) ^ x ≤ (95 / 100 : ℝ) ^ (45 : ℝ) :=
        Real.rpow_le_rpow_of_exponent_ge (by norm_num) (by norm_num) hx45.le
      rw [h45] at h1
      exact h1.trans (by norm_num)
    have hy45 : 45 * (1 - 4 / 2 ^ 24) ≤ y := by
      have := (abs_le.1 hy).1
      norm_num at this ⊢
      linarith
    have hpow : b ^ y ≤ c := by
      have h1 : b ^ y ≤ b ^ (45 * (1 - 4 / 2 ^ 24) : ℝ) :=
        Real.rpow_le_rpow_of_exponent_ge hbpos hble hy45
      have h2 := (pow_near hb1 hb2 (x := 45) (y := 45 * (1 - 4 / 2 ^ 24)) (by norm_num) le_rfl
        (by rw [abs_le]; constructor <;> norm_num)).2
      rw [h45] at h2
      refine h1.trans (h2.trans ?_)
      norm_num at hc' ⊢
      linarith
    obtain ⟨z, hz, hzr, H⟩ := hp b y hbpos (lt_of_le_of_lt (Real.rpow_le_one hbpos.le hble hy0) (by norm_num))
    have hzc : z ≤ c := (H c hcr).2 hpow
    rw [hz, hmax, max_eq_right hzc, max_eq_right hsmall]
    exact ⟨c, rfl, abs_le.2 ⟨by norm_num at hc' ⊢; linarith, by norm_num at hc' ⊢; linarith⟩⟩

end Trane.Float
