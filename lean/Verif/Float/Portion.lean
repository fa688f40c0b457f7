import Verif.Float.MeanProps
import Verif.Float.SharesProps
import Verif.Float.CostLemmas
import Verif.Sched.Search

/-!
# C126: how many exercises of a lesson are taken, in `f32`

The number of exercises taken from a lesson grows with the score of the lesson, from a part of them at the passing score
to all of them at a score of 4.  Models that computation over an arbitrary arithmetic and compares its `f32` version with
the exact one.
-/

namespace Trane.Float

variable {α : Type}

/-- The number of candidates selected among `n`, /repo/src/scheduler.rs:320-339; `cut` is `floor` followed by
`as usize`, which drop the fraction of a number that is not negative. -/
def gNumToSelect (A : Arith α) (cut : α → Nat) (minScore minFraction score : α) (n : Nat) : Nat :=
  if A.le (A.lit 4) score || A.lt score minScore then n
  else
    let least := A.clamp minFraction (A.lit 0) (A.lit 1)
    let fraction := A.add least
      (A.mul (A.div (A.sub score minScore) (A.sub (A.lit 4) minScore)) (A.sub (A.lit 1) least))
    let clamped := A.clamp fraction (A.lit 0) (A.lit 1)
    let num := cut (A.mul clamped (A.ofInt n))
    if A.lt (A.lit 0) clamped && num == 0 then 1 else num

variable {powf : F → F → F}

/-- The number of exercises computed in `f32`. -/
noncomputable def machineCount (powf : F → F → F) (minScore minFraction score : ℝ) (n : Nat) : Nat :=
  gNumToSelect (f32 powf) F.toUsize (.num minScore) (.num minFraction) (.num score) n

/-- The machine's part of the exercises: the fraction before it is multiplied with their number. -/
noncomputable def part (m f s : ℝ) : ℝ :=
  Scorer.clamp (rnd (f + rnd (rnd (rnd (s - m) / rnd (4 - m)) * rnd (1 - f)))) 0 1

theorem clamp_mono {x y : ℝ} (h : x ≤ y) : Scorer.clamp x 0 1 ≤ Scorer.clamp y 0 1 := by
  unfold Scorer.clamp
  split_ifs <;> linarith

theorem clamp_range (x : ℝ) : 0 ≤ Scorer.clamp x 0 1 ∧ Scorer.clamp x 0 1 ≤ 1 := by
  unfold Scorer.clamp
  split_ifs <;> constructor <;> linarith

theorem clamp_id {x : ℝ} (h0 : 0 ≤ x) (h1 : x ≤ 1) : Scorer.clamp x 0 1 = x := by
  unfold Scorer.clamp
  rw [if_neg (by linarith), if_neg (by linarith)]

theorem clamp_near (x y : ℝ) : |Scorer.clamp x 0 1 - Scorer.clamp y 0 1| ≤ |x - y| := by
  have h : ∀ x, Scorer.clamp x 0 1 = max 0 (min 1 x) := by
    intro x
    unfold Scorer.clamp
    by_cases h1 : x < 0
    · rw [if_pos h1, max_eq_left (le_trans (min_le_right _ _) h1.le)]
    · by_cases h2 : x > 1
      · rw [if_neg h1, if_pos h2, min_eq_left h2.le, max_eq_right (by norm_num)]
      · rw [if_neg h1, if_neg h2, min_eq_right (not_lt.1 h2), max_eq_right (not_lt.1 h1)]
  rw [h, h]
  refine (abs_max_sub_max_le_max _ _ _ _).trans (max_le (by simp) ?_)
  exact (abs_min_sub_min_le_max _ _ _ _).trans (max_le (by simp) le_rfl)

theorem rnd_nonneg {x : ℝ} (h : 0 ≤ x) : 0 ≤ rnd x := by
  have := rnd_mono h
  rwa [rnd_zero] at this

/-- `f32` numbers from 2 to 4 are multiples of 2^-22. -/
theorem rep_two_four {x : ℝ} (h : Rep x) (h1 : 2 ≤ x) (h2 : x ≤ 4) : ∃ k : ℤ, x = k / 2 ^ 22 ∧ 0 ≤ k ∧ k ≤ 2 ^ 24 := by
  have key : ∃ k : ℤ, x = k / 2 ^ 22 := by
    obtain ⟨m, e, hm, he, rfl⟩ := h
    by_cases h3 : -22 ≤ e
    · obtain ⟨j, hj⟩ := Int.eq_ofNat_of_zero_le (show 0 ≤ e + 22 by omega)
      refine ⟨m * 2 ^ j, ?_⟩
      have : (2 : ℝ) ^ e = 2 ^ j / 2 ^ 22 := by
        rw [show e = (j : ℤ) - 22 by omega, zpow_sub₀ (by norm_num), zpow_natCast]
        norm_num
      rw [this]
      push_cast
      ring
    · have h4 : (2 : ℝ) ^ e ≤ 2 ^ (-23 : ℤ) := zpow_le_zpow_right₀ (by norm_num) (by omega)
      have hmr : (m : ℝ) ≤ 2 ^ 24 := by exact_mod_cast (abs_le.1 hm).2
      have hep : (0 : ℝ) < 2 ^ e := by positivity
      have h5 : (m : ℝ) * 2 ^ e ≤ 2 := by
        calc (m : ℝ) * 2 ^ e ≤ 2 ^ 24 * 2 ^ e := by gcongr
          _ ≤ 2 ^ 24 * 2 ^ (-23 : ℤ) := by gcongr
          _ = 2 := by norm_num
      refine ⟨2 ^ 23, ?_⟩
      rw [le_antisymm h5 h1]
      norm_num
  obtain ⟨k, rfl⟩ := key
  refine ⟨k, rfl, ?_, ?_⟩
  · have : (0 : ℝ) ≤ k := by
      rw [le_div_iff₀ (by positivity)] at h1
      norm_num at h1
      linarith
    exact_mod_cast this
  · have : (k : ℝ) ≤ 2 ^ 24 := by
      rw [div_le_iff₀ (by positivity)] at h2
      norm_num at h2 ⊢
      linarith
    exact_mod_cast this

/-- Distances between `f32` numbers from 2 to 4 are exact. -/
theorem rnd_sub_exact {m s : ℝ} (hm : Rep m) (hs : Rep s) (h1 : 2 ≤ m) (h2 : m ≤ s) (h3 : s ≤ 4) : rnd (s - m) = s - m := by
  obtain ⟨a, rfl, a0, a1⟩ := rep_two_four hm h1 (h2.trans h3)
  obtain ⟨b, rfl, b0, b1⟩ := rep_two_four hs (h1.trans h2) h3
  have : ((b : ℝ) / 2 ^ 22 - a / 2 ^ 22) = ((b - a : ℤ) : ℝ) / 2 ^ 22 := by
    push_cast
    ring
  rw [this]
  exact rnd_fix (rep_div (abs_le.2 ⟨by omega, by omega⟩) (by norm_num))

theorem rep_four : Rep (4 : ℝ) := by simpa using rep_int (n := 4) (by norm_num)

theorem rnd_gap_pos {m : ℝ} (hr : Rep m) (hm : m < 4) : 0 < rnd (4 - m) := by
  by_cases h2 : 2 ≤ m
  · rw [rnd_sub_exact hr rep_four h2 hm.le le_rfl]
    linarith
  · have h3 := rnd_mono (show (1 : ℝ) ≤ 4 - m by linarith [not_le.1 h2])
    rw [rnd_fix rep_one] at h3
    linarith

/-- The quotient of the two distances from the passing score. -/
theorem ratio_range {m s : ℝ} (hr : Rep m) (hm : m < 4) (h1 : m ≤ s) (h2 : s ≤ 4) :
    0 < rnd (4 - m) ∧ 0 ≤ rnd (s - m) / rnd (4 - m) ∧ rnd (s - m) / rnd (4 - m) ≤ 1 := by
  have hp := rnd_gap_pos hr hm
  have h0 : 0 ≤ rnd (s - m) := rnd_nonneg (by linarith)
  exact ⟨hp, div_nonneg h0 hp.le, (div_le_one hp).2 (rnd_mono (by linarith))⟩

theorem round_le_four {x : ℝ} (h0 : 0 ≤ x) (h : x ≤ 4) : F.round x = .num (rnd x) := by
  have : Rep (4 : ℝ) := by simpa using rep_int (n := 4) (by norm_num)
  exact round_num (h := 4) (by norm_num) this (by rw [abs_of_nonneg h0]; exact h)

/-- The machine's count, from its part. -/
theorem machineCount_val {m f s : ℝ} {n : Nat} (hr : Rep m) (hm0 : 0 ≤ m) (hm : m < 4) (hf0 : 0 ≤ f) (hf1 : f ≤ 1) (h1 : m ≤ s)
    (h2 : s < 4) (hn : n ≤ 2 ^ 24) :
    machineCount powf m f s n =
      if 0 < part m f s ∧ ⌊rnd (part m f s * n)⌋₊ = 0 then 1 else ⌊rnd (part m f s * n)⌋₊ := by
  obtain ⟨hp, hr0, hr1⟩ := ratio_range hr hm h1 h2.le
  have l0 : (f32 powf).lit 0 = .num 0 := lit0
  have l1 : (f32 powf).lit 1 = .num 1 := lit1
  have l4 : (f32 powf).lit 4 = .num 4 := litn 4 (by norm_num)
  have e0 : (f32 powf).clamp (.num f) (.num 0) (.num 1) = .num f := by rw [clamp_num_val, clamp_id hf0 hf1]
  have e1 : (f32 powf).sub (.num s) (.num m) = .num (rnd (s - m)) := by
    show F.round (s + -m) = _
    rw [← sub_eq_add_neg, round_le_four (by linarith) (by linarith)]
  have e2 : (f32 powf).sub (.num 4) (.num m) = .num (rnd (4 - m)) := by
    show F.round (4 + -m) = _
    rw [← sub_eq_add_neg, round_le_four (by linarith) (by linarith)]
  have e3 : (f32 powf).sub (.num 1) (.num f) = .num (rnd (1 - f)) := by
    show F.round (1 + -f) = _
    rw [← sub_eq_add_neg, round_le_four (by linarith) (by linarith)]
  have e4 : (f32 powf).div (.num (rnd (s - m))) (.num (rnd (4 - m))) = .num (rnd (rnd (s - m) / rnd (4 - m))) := by
    show (if rnd (4 - m) = 0 then _ else F.round _) = _
    rw [if_neg hp.ne', round_le_four hr0 (by linarith)]
  have q0 : 0 ≤ rnd (rnd (s - m) / rnd (4 - m)) := rnd_nonneg hr0
  have q1 : rnd (rnd (s - m) / rnd (4 - m)) ≤ 1 := rnd_le rep_one hr1
  have g0 : 0 ≤ rnd (1 - f) := rnd_nonneg (by linarith)
  have g1 : rnd (1 - f) ≤ 1 := rnd_le rep_one (by linarith)
  have p0 : 0 ≤ rnd (rnd (s - m) / rnd (4 - m)) * rnd (1 - f) := mul_nonneg q0 g0
  have p1 : rnd (rnd (s - m) / rnd (4 - m)) * rnd (1 - f) ≤ 1 := mul_le_one₀ q1 g0 g1
  have e5 : (f32 powf).mul (.num (rnd (rnd (s - m) / rnd (4 - m)))) (.num (rnd (1 - f))) =
      .num (rnd (rnd (rnd (s - m) / rnd (4 - m)) * rnd (1 - f))) := by
    show F.round _ = _
    rw [round_le_four p0 (by linarith)]
  have t0 : 0 ≤ rnd (rnd (rnd (s - m) / rnd (4 - m)) * rnd (1 - f)) := rnd_nonneg p0
  have t1 : rnd (rnd (rnd (s - m) / rnd (4 - m)) * rnd (1 - f)) ≤ 1 := rnd_le rep_one p1
  have e6 : (f32 powf).add (.num f) (.num (rnd (rnd (rnd (s - m) / rnd (4 - m)) * rnd (1 - f)))) =
      .num (rnd (f + rnd (rnd (rnd (s - m) / rnd (4 - m)) * rnd (1 - f)))) := by
    show F.round _ = _
    rw [round_le_four (by linarith) (by linarith)]
  have hnr : (n : ℝ) ≤ 2 ^ 24 := by exact_mod_cast hn
  have hrep : Rep (n : ℝ) := by
    have := rep_int (n := (n : ℤ)) (by rw [abs_of_nonneg (by positivity)]; exact_mod_cast hn)
    simpa using this
  have e7 : (f32 powf).ofInt n = .num (n : ℝ) := by
    have h := round_num (x := (((n : ℤ) : ℝ))) (h := n) (by push_cast at hnr ⊢; linarith [show (2 : ℝ) ^ 24 ≤ 2 ^ 127 by norm_num]) hrep
      (by rw [Int.cast_natCast, abs_of_nonneg (by positivity)])
    rw [show rnd (((n : ℤ) : ℝ)) = (n : ℝ) by rw [Int.cast_natCast, rnd_fix hrep]] at h
    exact h
  obtain ⟨c0, c1⟩ := clamp_range (rnd (f + rnd (rnd (rnd (s - m) / rnd (4 - m)) * rnd (1 - f))))
  have hcn : part m f s * n ≤ n := by
    have : part m f s ≤ 1 := c1
    nlinarith [show (0 : ℝ) ≤ n by positivity]
  have hcn0 : 0 ≤ part m f s * n := mul_nonneg c0 (by positivity)
  have e8 : (f32 powf).mul (.num (part m f s)) (.num (n : ℝ)) = .num (rnd (part m f s * n)) := by
    show F.round _ = _
    exact round_num (h := n) (by linarith [show (2 : ℝ) ^ 24 ≤ 2 ^ 127 by norm_num]) hrep (by rw [abs_of_nonneg hcn0]; exact hcn)
  have hcut : F.toUsize (.num (rnd (part m f s * n))) = ⌊rnd (part m f s * n)⌋₊ := by
    show Nat.min _ _ = _
    refine min_eq_left ?_
    have : rnd (part m f s * n) ≤ n := rnd_le hrep hcn
    have h3 : ⌊rnd (part m f s * n)⌋₊ ≤ n := by
      have := Nat.floor_mono this
      rwa [Nat.floor_natCast] at this
    have : 2 ^ 24 ≤ 2 ^ 64 - 1 := by norm_num
    omega
  unfold machineCount gNumToSelect
  rw [l4, show (f32 powf).le (.num 4) (.num s) = decide (4 ≤ s) from rfl,
    show (f32 powf).lt (.num s) (.num m) = decide (s < m) from rfl,
    if_neg (by simp only [Bool.or_eq_true, decide_eq_true_eq, not_or, not_le, not_lt]; exact ⟨h2, h1⟩)]
  dsimp only
  rw [l0, l1, e0, e1, e2, e3, e4, e5, e6, clamp_num_val, e7, show Scorer.clamp _ 0 1 = part m f s from rfl, e8, hcut,
    show (f32 powf).lt (.num 0) (.num (part m f s)) = decide (0 < part m f s) from rfl]
  simp only [Bool.and_eq_true, decide_eq_true_eq, beq_iff_eq]

/-- From a score of 4 on, and below the passing score, all exercises are taken. -/
theorem machineCount_all {m f s : ℝ} {n : Nat} (h : 4 ≤ s ∨ s < m) : machineCount powf m f s n = n := by
  have l4 : (f32 powf).lit 4 = .num 4 := litn 4 (by norm_num)
  unfold machineCount gNumToSelect
  rw [l4, show (f32 powf).le (.num 4) (.num s) = decide (4 ≤ s) from rfl,
    show (f32 powf).lt (.num s) (.num m) = decide (s < m) from rfl, if_pos (by simpa using h)]

theorem part_mono {m f s s' : ℝ} (hr : Rep m) (hm : m < 4) (h1 : m ≤ s) (h : s ≤ s') (h2 : s' ≤ 4) (hf1 : f ≤ 1) :
    part m f s ≤ part m f s' := by
  obtain ⟨hp, -, -⟩ := ratio_range hr hm h1 (h.trans h2)
  have g0 : 0 ≤ rnd (1 - f) := rnd_nonneg (by linarith)
  refine clamp_mono (rnd_mono (add_le_add_right (rnd_mono (mul_le_mul_of_nonneg_right (rnd_mono ?_) g0)) f))
  exact div_le_div_of_nonneg_right (rnd_mono (by linarith)) hp.le

theorem part_least {m f s : ℝ} (hr : Rep m) (hm : m < 4) (h1 : m ≤ s) (h2 : s ≤ 4) (hf : Rep f) (hf0 : 0 ≤ f) (hf1 : f ≤ 1) :
    f ≤ part m f s := by
  obtain ⟨hp, hr0, hr1⟩ := ratio_range hr hm h1 h2
  have g0 : 0 ≤ rnd (1 - f) := rnd_nonneg (by linarith)
  have t0 : 0 ≤ rnd (rnd (rnd (s - m) / rnd (4 - m)) * rnd (1 - f)) := rnd_nonneg (mul_nonneg (rnd_nonneg hr0) g0)
  have h3 := rnd_mono (show f ≤ f + rnd (rnd (rnd (s - m) / rnd (4 - m)) * rnd (1 - f)) by linarith)
  rw [rnd_fix hf] at h3
  have := clamp_mono h3
  rwa [clamp_id hf0 hf1] at this

/-- The machine's part is close to the exact one. -/
theorem part_near {m f s : ℝ} (hr : Rep m) (hs : Rep s) (hm0 : 0 ≤ m) (hm : m < 4) (hf0 : 0 ≤ f) (hf1 : f ≤ 1) (h1 : m ≤ s) (h2 : s ≤ 4) :
    |part m f s - Scorer.clamp (f + (s - m) / (4 - m) * (1 - f)) 0 1| ≤ 100 / 2 ^ 24 := by
  obtain ⟨hp, hr0, hr1⟩ := ratio_range hr hm h1 h2
  refine (clamp_near _ _).trans ?_
  have a1 := abs_le.1 (rnd_err_le (x := s - m) (b := 4) (by norm_num) (by rw [abs_of_nonneg (by linarith)]; linarith))
  have a2 := abs_le.1 (rnd_err_le (x := 4 - m) (b := 4) (by norm_num) (by rw [abs_of_nonneg (by linarith)]; linarith))
  have a3 := abs_le.1 (rnd_err_le (x := rnd (s - m) / rnd (4 - m)) (b := 1) (by norm_num) (by rw [abs_of_nonneg hr0]; exact hr1))
  have a4 := abs_le.1 (rnd_err_le (x := 1 - f) (b := 1) (by norm_num) (by rw [abs_of_nonneg (by linarith)]; linarith))
  have q0 : 0 ≤ rnd (rnd (s - m) / rnd (4 - m)) := rnd_nonneg hr0
  have q1 : rnd (rnd (s - m) / rnd (4 - m)) ≤ 1 := rnd_le rep_one hr1
  have g0 : 0 ≤ rnd (1 - f) := rnd_nonneg (by linarith)
  have g1 : rnd (1 - f) ≤ 1 := rnd_le rep_one (by linarith)
  have R0 : 0 ≤ (s - m) / (4 - m) := div_nonneg (by linarith) (by linarith)
  have R1 : (s - m) / (4 - m) ≤ 1 := (div_le_one (by linarith)).2 (by linarith)
  have hD : |rnd (s - m) / rnd (4 - m) - (s - m) / (4 - m)| ≤ 82 / 2 ^ 24 := by
    by_cases hm2 : 2 ≤ m
    · rw [rnd_sub_exact hr rep_four hm2 hm.le le_rfl, rnd_sub_exact hr hs hm2 h1 h2, sub_self, abs_zero]
      norm_num
    · have hR : (s - m) / (4 - m) * (4 - m) = s - m := div_mul_cancel₀ _ (by linarith)
      generalize (s - m) / (4 - m) = R at *
      have hlow : 99 / 1000 ≤ rnd (4 - m) := by
        norm_num at a2
        linarith [not_le.1 hm2]
      have hnum : |rnd (s - m) - R * rnd (4 - m)| ≤ 8 / 2 ^ 24 := by
        have : rnd (s - m) - R * rnd (4 - m) = (rnd (s - m) - (s - m)) - R * (rnd (4 - m) - (4 - m)) := by linear_combination (-1) * hR
        rw [this]
        have b : |R * (rnd (4 - m) - (4 - m))| ≤ 1 * (4 / 2 ^ 24) := by
          rw [abs_mul, abs_of_nonneg R0]
          exact mul_le_mul R1 (abs_le.2 a2) (abs_nonneg _) (by norm_num)
        refine (abs_sub _ _).trans ((add_le_add (abs_le.2 a1) b).trans (by norm_num))
      have : rnd (s - m) / rnd (4 - m) - R = (rnd (s - m) - R * rnd (4 - m)) / rnd (4 - m) := by
        field_simp
      rw [this, abs_div, abs_of_pos hp, div_le_iff₀ hp]
      refine hnum.trans ?_
      norm_num
      linarith
  have hD' := abs_le.1 hD
  generalize (s - m) / (4 - m) = R at *
  generalize rnd (rnd (s - m) / rnd (4 - m)) = q at *
  generalize rnd (s - m) / rnd (4 - m) = r at *
  generalize rnd (1 - f) = g at *
  have a5 := abs_le.1 (rnd_err_le (x := q * g) (b := 1) (by norm_num) (by
    rw [abs_of_nonneg (mul_nonneg q0 g0)]
    exact mul_le_one₀ q1 g0 g1))
  have hqg : |q * g - R * (1 - f)| ≤ 84 / 2 ^ 24 := by
    have : q * g - R * (1 - f) = (q - R) * g + R * (g - (1 - f)) := by ring
    rw [this]
    have b1 : |(q - R) * g| ≤ 83 / 2 ^ 24 * 1 := by
      rw [abs_mul, abs_of_nonneg g0]
      refine mul_le_mul (abs_le.2 ⟨?_, ?_⟩) g1 g0 (by norm_num) <;> norm_num at hD' a3 ⊢ <;> linarith
    have b2 : |R * (g - (1 - f))| ≤ 1 * (1 / 2 ^ 24) := by
      rw [abs_mul, abs_of_nonneg R0]
      exact mul_le_mul R1 (abs_le.2 a4) (abs_nonneg _) (by norm_num)
    exact (abs_add_le _ _).trans ((add_le_add b1 b2).trans (by norm_num))
  have hqg' := abs_le.1 hqg
  have t0 : 0 ≤ rnd (q * g) := rnd_nonneg (mul_nonneg q0 g0)
  have t1 : rnd (q * g) ≤ 1 := rnd_le rep_one (mul_le_one₀ q1 g0 g1)
  have a6 := abs_le.1 (rnd_err_le (x := f + rnd (q * g)) (b := 2) (by norm_num) (by
    rw [abs_of_nonneg (by linarith)]
    linarith))
  norm_num at a5 a6 hqg' ⊢
  exact abs_le.2 ⟨by linarith, by linarith⟩

end Trane.Float
