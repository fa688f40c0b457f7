import Verif.Float.Shares
import Verif.Sched.CandidateFilterProps
import Mathlib.Algebra.Order.Floor.Semifield

/-!
# Lemmas on the shares in `f32`

Values of single roundings, the shares that follow from the default ones, and the numbers of exercises they give.
-/

namespace Trane.Float
open Trane.CandidateFilter

variable {powf : F → F → F}

/-! ### Single roundings -/

theorem roundEven_near {y : ℝ} {m : ℤ} (h : |y - m| < 1 / 2) : roundEven y = m := by
  have h1 := roundEven_err y
  rw [abs_le] at h1
  rw [abs_lt] at h
  have a : (roundEven y : ℝ) < m + 1 := by linarith
  have b : (m : ℝ) < roundEven y + 1 := by linarith
  have a' : roundEven y < m + 1 := by exact_mod_cast a
  have b' : m < roundEven y + 1 := by exact_mod_cast b
  omega

theorem roundEven_tie {y : ℝ} {m : ℤ} (hm : 2 ∣ m) (h : |y - m| ≤ 1 / 2) : roundEven y = m := by
  rcases lt_or_eq_of_le h with h | h
  · exact roundEven_near h
  · rcases abs_choice (y - m) with e | e
    · rw [e] at h
      have hf : ⌊y⌋ = m := by rw [Int.floor_eq_iff]; constructor <;> linarith
      unfold roundEven
      rw [hf, if_neg (by linarith), if_neg (by linarith), if_pos hm]
    · rw [e] at h
      have hf : ⌊y⌋ = m - 1 := by rw [Int.floor_eq_iff]; push_cast; constructor <;> linarith
      unfold roundEven
      rw [hf]
      push_cast
      rw [if_neg (by linarith), if_neg (by linarith), if_neg (by omega)]
      omega

/-- A number whose first 24 digits are `m`, the last worth 2^-k, is rounded to `m / 2^k` if it is nearer than half, or just half and `m` is even. -/
theorem rnd_val {x : ℝ} (m : ℤ) (k : ℕ) (hk : k ≤ 149) (h1 : (2 : ℝ) ^ 23 ≤ x * 2 ^ k) (h2 : x * 2 ^ k < 2 ^ 24)
    (h3 : |x * 2 ^ k - m| < 1 / 2 ∨ 2 ∣ m ∧ |x * 2 ^ k - m| ≤ 1 / 2) : rnd x = m / 2 ^ k := by
  have hkp : (0 : ℝ) < 2 ^ k := by positivity
  have hx : 0 < x := by
    by_contra hc
    have : x * 2 ^ k ≤ 0 := mul_nonpos_of_nonpos_of_nonneg (not_lt.1 hc) hkp.le
    have : (0 : ℝ) < 2 ^ 23 := by positivity
    linarith
  have hz : (2 : ℝ) ^ (-(k : ℤ)) = (2 ^ k)⁻¹ := by rw [zpow_neg, zpow_natCast]
  have hle : lastExp x ≤ -(k : ℤ) := by
    refine lastExp_le_of_lt hx (by omega) ?_
    rw [zpow_add₀ (by norm_num), hz]
    have e : (2 : ℝ) ^ (24 : ℤ) = 2 ^ 24 := by norm_cast
    rw [e, inv_mul_eq_div, lt_div_iff₀ hkp]
    exact h2
  have hge : -(k : ℤ) ≤ lastExp x := by
    have a := lt_lastExp x
    have b : (2 : ℝ) ^ (-(k : ℤ) + 23) ≤ x := by
      rw [zpow_add₀ (by norm_num), hz]
      have e : (2 : ℝ) ^ (23 : ℤ) = 2 ^ 23 := by norm_cast
      rw [e, inv_mul_eq_div, div_le_iff₀ hkp]
      exact h1
    have c : (2 : ℝ) ^ (-(k : ℤ) + 23) < 2 ^ (lastExp x + 24) := lt_of_le_of_lt b a
    have d := (zpow_lt_zpow_iff_right₀ (by norm_num : (1 : ℝ) < 2)).1 c
    omega
  have he : lastExp x = -(k : ℤ) := le_antisymm hle hge
  unfold rnd
  rw [if_neg (by linarith)]
  unfold rndPos
  rw [he, hz, div_inv_eq_mul, h3.elim roundEven_near (fun h => roundEven_tie h.1 h.2), div_eq_mul_inv]

theorem round_val {x : ℝ} (m : ℤ) (k : ℕ) (hk : k ≤ 149) (h1 : (2 : ℝ) ^ 23 ≤ x * 2 ^ k) (h2 : x * 2 ^ k < 2 ^ 24)
    (h3 : |x * 2 ^ k - m| < 1 / 2 ∨ 2 ∣ m ∧ |x * 2 ^ k - m| ≤ 1 / 2) : F.round x = .num (m / 2 ^ k) := by
  have hr := rnd_val m k hk h1 h2 h3
  have hx1 : (0 : ℝ) ≤ x := by
    by_contra hc
    have hkp : (0 : ℝ) < 2 ^ k := by positivity
    have : x * 2 ^ k ≤ 0 := mul_nonpos_of_nonpos_of_nonneg (not_le.1 hc).le hkp.le
    have : (0 : ℝ) < 2 ^ 23 := by positivity
    linarith
  have hx2 : x ≤ 2 ^ 24 := by
    have hkp : (1 : ℝ) ≤ 2 ^ k := one_le_pow₀ (by norm_num)
    nlinarith
  obtain ⟨z, hz⟩ : ∃ z, F.round x = .num z := by
    obtain ⟨z, hz, _⟩ := round_in (x := x) (l := 0) (h := 2 ^ 24) bd_zero
      (bd_int (2 ^ 24) (by norm_num) (by norm_num)) hx1 hx2
    exact ⟨z, hz⟩
  have : F.round x = .num (rnd x) := by
    unfold F.round at hz ⊢
    split
    · rename_i h; rw [if_pos h] at hz; cases hz
    · split
      · rename_i h h'; rw [if_neg h, if_pos h'] at hz; cases hz
      · rfl
  rw [this, hr]

theorem round_val_neg {x : ℝ} (m : ℤ) (k : ℕ) (hk : k ≤ 149) (h1 : (2 : ℝ) ^ 23 ≤ x * 2 ^ k)
    (h2 : x * 2 ^ k < 2 ^ 24) (h3 : |x * 2 ^ k - m| < 1 / 2 ∨ 2 ∣ m ∧ |x * 2 ^ k - m| ≤ 1 / 2) : F.round (-x) = .num (-(m / 2 ^ k)) := by
  have h := round_val m k hk h1 h2 h3
  have hr := rnd_val m k hk h1 h2 h3
  unfold F.round at h ⊢
  rw [rnd_neg]
  split at h
  · cases h
  · split at h
    · cases h
    · rename_i a b
      rw [if_neg (by intro hc; exact b (by linarith)), if_neg (by intro hc; exact a (by linarith)), hr]

/-! ### The constants -/

theorem f5 : (f32 powf).lit (1 / 20) = .num (13421773 / 2 ^ 28) := by
  have := round_val (x := ((1 / 20 : ℚ) : ℝ)) 13421773 28 (by norm_num) (by norm_num) (by norm_num)
    (by norm_num [abs_lt, abs_le])
  push_cast at this ⊢
  simpa [f32] using this

theorem f10 : (f32 powf).lit (1 / 10) = .num (13421773 / 2 ^ 27) := by
  have := round_val (x := ((1 / 10 : ℚ) : ℝ)) 13421773 27 (by norm_num) (by norm_num) (by norm_num)
    (by norm_num [abs_lt, abs_le])
  simpa [f32] using this

theorem f20 : (f32 powf).lit (1 / 5) = .num (13421773 / 2 ^ 26) := by
  have := round_val (x := ((1 / 5 : ℚ) : ℝ)) 13421773 26 (by norm_num) (by norm_num) (by norm_num)
    (by norm_num [abs_lt, abs_le])
  simpa [f32] using this

theorem f30 : (f32 powf).lit (3 / 10) = .num (10066330 / 2 ^ 25) := by
  have := round_val (x := ((3 / 10 : ℚ) : ℝ)) 10066330 25 (by norm_num) (by norm_num) (by norm_num)
    (by norm_num [abs_lt, abs_le])
  simpa [f32] using this

theorem f90 : (f32 powf).lit (9 / 10) = .num (15099494 / 2 ^ 24) := by
  have := round_val (x := ((9 / 10 : ℚ) : ℝ)) 15099494 24 (by norm_num) (by norm_num) (by norm_num)
    (by norm_num [abs_lt, abs_le])
  simpa [f32] using this

theorem f50 : (f32 powf).lit (1 / 2) = .num (1 / 2) := by
  have := lit_bd (powf := powf) (q := 1 / 2) (bd_div 1 1 (by norm_num) (by norm_num) (by norm_num))
  simpa using this

theorem f75 : (f32 powf).lit (3 / 4) = .num (3 / 4) := by
  have := lit_bd (powf := powf) (q := 3 / 4) (bd_div 3 2 (by norm_num) (by norm_num) (by norm_num))
  simpa using this

theorem f1 : (f32 powf).lit 1 = .num 1 := by
  have := lit_bd (powf := powf) (q := 1) (by simpa using bd_one)
  simpa using this

theorem f5n : (f32 powf).lit (-1 / 20) = .num (-(13421773 / 2 ^ 28)) := by
  have := round_val_neg (x := ((1 / 20 : ℚ) : ℝ)) 13421773 28 (by norm_num) (by norm_num) (by norm_num)
    (by norm_num [abs_lt, abs_le])
  have e : ((-1 / 20 : ℚ) : ℝ) = -((1 / 20 : ℚ) : ℝ) := by push_cast; ring
  show F.round ((-1 / 20 : ℚ) : ℝ) = _
  rw [e, this]; norm_num

theorem f10n : (f32 powf).lit (-1 / 10) = .num (-(13421773 / 2 ^ 27)) := by
  have := round_val_neg (x := ((1 / 10 : ℚ) : ℝ)) 13421773 27 (by norm_num) (by norm_num) (by norm_num)
    (by norm_num [abs_lt, abs_le])
  have e : ((-1 / 10 : ℚ) : ℝ) = -((1 / 10 : ℚ) : ℝ) := by push_cast; ring
  show F.round ((-1 / 10 : ℚ) : ℝ) = _
  rw [e, this]; norm_num

/-! ### The shares that follow from the default ones -/

theorem add_val {x y : ℝ} (m : ℤ) (k : ℕ) (hk : k ≤ 149) (h1 : (2 : ℝ) ^ 23 ≤ (x + y) * 2 ^ k)
    (h2 : (x + y) * 2 ^ k < 2 ^ 24) (h3 : |(x + y) * 2 ^ k - m| < 1 / 2 ∨ 2 ∣ m ∧ |(x + y) * 2 ^ k - m| ≤ 1 / 2) :
    (f32 powf).add (.num x) (.num y) = .num (m / 2 ^ k) := round_val m k hk h1 h2 h3

theorem sub_val {x y : ℝ} (m : ℤ) (k : ℕ) (hk : k ≤ 149) (h1 : (2 : ℝ) ^ 23 ≤ (x + -y) * 2 ^ k)
    (h2 : (x + -y) * 2 ^ k < 2 ^ 24) (h3 : |(x + -y) * 2 ^ k - m| < 1 / 2 ∨ 2 ∣ m ∧ |(x + -y) * 2 ^ k - m| ≤ 1 / 2) :
    (f32 powf).sub (.num x) (.num y) = .num (m / 2 ^ k) := round_val m k hk h1 h2 h3

theorem clamp_val {x : ℝ} (h1 : 13421773 / 2 ^ 28 ≤ x) (h2 : x ≤ 1 / 2) :
    (f32 powf).clamp (.num x) (.num (13421773 / 2 ^ 28)) (.num (1 / 2)) = .num x := by
  show (if decide (x < 13421773 / 2 ^ 28) = true then _ else if decide ((1 : ℝ) / 2 < x) = true then _ else _) = _
  rw [decide_eq_false (by linarith), decide_eq_false (by linarith)]
  rfl

theorem max_val {x y : ℝ} (h : y ≤ x) : (f32 powf).max (.num x) (.num y) = .num x := by
  show (if decide (x < y) = true then _ else _) = _
  rw [decide_eq_false (by linarith)]
  rfl

theorem shares_up {rate : F} (h : gShift (f32 powf) rate = some ((f32 powf).lit (1 / 20))) :
    gAdjusted (f32 powf) (gDefaultShares (f32 powf)) rate =
      ⟨.num (13421773 / 2 ^ 28), .num (10066330 / 2 ^ 26), .num (10066330 / 2 ^ 25), .num (1 / 4), .num (1 / 4)⟩ := by
  have a : (f32 powf).add (.num (13421773 / 2 ^ 26)) (.num (13421773 / 2 ^ 28)) = .num (1 / 4) := by
    rw [add_val 8388608 25 (by norm_num) (by norm_num) (by norm_num) (by norm_num [abs_lt, abs_le])]; norm_num
  have b : (f32 powf).sub (.num (13421773 / 2 ^ 26)) (.num (13421773 / 2 ^ 28)) = .num (10066330 / 2 ^ 26) := by
    rw [sub_val 10066330 26 (by norm_num) (by norm_num) (by norm_num) (by norm_num [abs_lt, abs_le])]; norm_num
  have c : (f32 powf).sub (.num (13421773 / 2 ^ 27)) (.num (13421773 / 2 ^ 28)) = .num (13421773 / 2 ^ 28) := by
    rw [sub_val 13421773 28 (by norm_num) (by norm_num) (by norm_num) (by norm_num [abs_lt, abs_le])]; norm_num
  have s1 : (f32 powf).add (.num (1 / 4)) (.num (1 / 4)) = .num (1 / 2) := by
    rw [add_val 8388608 24 (by norm_num) (by norm_num) (by norm_num) (by norm_num [abs_lt, abs_le])]; norm_num
  have s2 : (f32 powf).add (.num (1 / 2)) (.num (10066330 / 2 ^ 26)) = .num (10905190 / 2 ^ 24) := by
    rw [add_val 10905190 24 (by norm_num) (by norm_num) (by norm_num) (by norm_num [abs_lt, abs_le])]; norm_num
  have s3 : (f32 powf).add (.num (10905190 / 2 ^ 24)) (.num (13421773 / 2 ^ 28)) = .num (11744051 / 2 ^ 24) := by
    rw [add_val 11744051 24 (by norm_num) (by norm_num) (by norm_num) (by norm_num [abs_lt, abs_le])]; norm_num
  have s4 : (f32 powf).sub (.num 1) (.num (11744051 / 2 ^ 24)) = .num (10066330 / 2 ^ 25) := by
    rw [sub_val 10066330 25 (by norm_num) (by norm_num) (by norm_num) (by norm_num [abs_lt, abs_le])]; norm_num
  unfold gAdjusted gDefaultShares
  rw [h]
  dsimp only
  rw [f5, f20, f10, f50, f1, a, b, c]
  rw [clamp_val (x := (1 / 4)) (by norm_num) (by norm_num), clamp_val (x := (10066330 / 2 ^ 26)) (by norm_num) (by norm_num),
    clamp_val (x := (13421773 / 2 ^ 28)) (by norm_num) (by norm_num), s1, s2, s3, s4, max_val (by norm_num)]

theorem shares_down {rate : F} (h : gShift (f32 powf) rate = some ((f32 powf).lit (-1 / 20))) :
    gAdjusted (f32 powf) (gDefaultShares (f32 powf)) rate =
      ⟨.num (10066330 / 2 ^ 26), .num (1 / 4), .num (10066328 / 2 ^ 25), .num (10066330 / 2 ^ 26), .num (10066330 / 2 ^ 26)⟩ := by
  have a : (f32 powf).add (.num (13421773 / 2 ^ 26)) (.num (-(13421773 / 2 ^ 28))) = .num (10066330 / 2 ^ 26) := by
    rw [add_val 10066330 26 (by norm_num) (by norm_num) (by norm_num) (by norm_num [abs_lt, abs_le])]; norm_num
  have b : (f32 powf).sub (.num (13421773 / 2 ^ 26)) (.num (-(13421773 / 2 ^ 28))) = .num (1 / 4) := by
    rw [sub_val 8388608 25 (by norm_num) (by norm_num) (by norm_num) (by norm_num [abs_lt, abs_le])]; norm_num
  have c : (f32 powf).sub (.num (13421773 / 2 ^ 27)) (.num (-(13421773 / 2 ^ 28))) = .num (10066330 / 2 ^ 26) := by
    rw [sub_val 10066330 26 (by norm_num) (by norm_num) (by norm_num) (by norm_num [abs_lt, abs_le])]; norm_num
  have s1 : (f32 powf).add (.num (10066330 / 2 ^ 26)) (.num (10066330 / 2 ^ 26)) = .num (10066330 / 2 ^ 25) := by
    rw [add_val 10066330 25 (by norm_num) (by norm_num) (by norm_num) (by norm_num [abs_lt, abs_le])]; norm_num
  have s2 : (f32 powf).add (.num (10066330 / 2 ^ 25)) (.num (1 / 4)) = .num (9227469 / 2 ^ 24) := by
    rw [add_val 9227469 24 (by norm_num) (by norm_num) (by norm_num) (by norm_num [abs_lt, abs_le])]; norm_num
  have s3 : (f32 powf).add (.num (9227469 / 2 ^ 24)) (.num (10066330 / 2 ^ 26)) = .num (11744052 / 2 ^ 24) := by
    rw [add_val 11744052 24 (by norm_num) (by norm_num) (by norm_num) (by norm_num [abs_lt, abs_le])]; norm_num
  have s4 : (f32 powf).sub (.num 1) (.num (11744052 / 2 ^ 24)) = .num (10066328 / 2 ^ 25) := by
    rw [sub_val 10066328 25 (by norm_num) (by norm_num) (by norm_num) (by norm_num [abs_lt, abs_le])]; norm_num
  unfold gAdjusted gDefaultShares
  rw [h]
  dsimp only
  rw [f5n, f20, f10, f5, f50, f1, a, b, c]
  rw [clamp_val (x := (10066330 / 2 ^ 26)) (by norm_num) (by norm_num), clamp_val (x := (1 / 4)) (by norm_num) (by norm_num),
    s1, s2, s3, s4, max_val (by norm_num)]

theorem shares_far_down {rate : F} (h : gShift (f32 powf) rate = some ((f32 powf).lit (-1 / 10))) :
    gAdjusted (f32 powf) (gDefaultShares (f32 powf)) rate =
      ⟨.num (13421773 / 2 ^ 26), .num (10066330 / 2 ^ 25), .num (10066330 / 2 ^ 25), .num (13421773 / 2 ^ 27), .num (13421773 / 2 ^ 27)⟩ := by
  have a : (f32 powf).add (.num (13421773 / 2 ^ 26)) (.num (-(13421773 / 2 ^ 27))) = .num (13421773 / 2 ^ 27) := by
    rw [add_val 13421773 27 (by norm_num) (by norm_num) (by norm_num) (by norm_num [abs_lt, abs_le])]; norm_num
  have b : (f32 powf).sub (.num (13421773 / 2 ^ 26)) (.num (-(13421773 / 2 ^ 27))) = .num (10066330 / 2 ^ 25) := by
    rw [sub_val 10066330 25 (by norm_num) (by norm_num) (by norm_num) (by norm_num [abs_lt, abs_le])]; norm_num
  have c : (f32 powf).sub (.num (13421773 / 2 ^ 27)) (.num (-(13421773 / 2 ^ 27))) = .num (13421773 / 2 ^ 26) := by
    rw [sub_val 13421773 26 (by norm_num) (by norm_num) (by norm_num) (by norm_num [abs_lt, abs_le])]; norm_num
  have s1 : (f32 powf).add (.num (13421773 / 2 ^ 27)) (.num (13421773 / 2 ^ 27)) = .num (13421773 / 2 ^ 26) := by
    rw [add_val 13421773 26 (by norm_num) (by norm_num) (by norm_num) (by norm_num [abs_lt, abs_le])]; norm_num
  have s2 : (f32 powf).add (.num (13421773 / 2 ^ 26)) (.num (10066330 / 2 ^ 25)) = .num (1 / 2) := by
    rw [add_val 8388608 24 (by norm_num) (by norm_num) (by norm_num) (by norm_num [abs_lt, abs_le])]; norm_num
  have s3 : (f32 powf).add (.num (1 / 2)) (.num (13421773 / 2 ^ 26)) = .num (11744051 / 2 ^ 24) := by
    rw [add_val 11744051 24 (by norm_num) (by norm_num) (by norm_num) (by norm_num [abs_lt, abs_le])]; norm_num
  have s4 : (f32 powf).sub (.num 1) (.num (11744051 / 2 ^ 24)) = .num (10066330 / 2 ^ 25) := by
    rw [sub_val 10066330 25 (by norm_num) (by norm_num) (by norm_num) (by norm_num [abs_lt, abs_le])]; norm_num
  unfold gAdjusted gDefaultShares
  rw [h]
  dsimp only
  rw [f10n, f20, f10, f5, f50, f1, a, b, c]
  rw [clamp_val (x := (13421773 / 2 ^ 27)) (by norm_num) (by norm_num), clamp_val (x := (10066330 / 2 ^ 25)) (by norm_num) (by norm_num),
    clamp_val (x := (13421773 / 2 ^ 26)) (by norm_num) (by norm_num), s1, s2, s3, s4, max_val (by norm_num)]

/-! ### The numbers of exercises -/

theorem round_small {x : ℝ} (h0 : 0 ≤ x) (h1 : x ≤ 2 ^ 24) : F.round x = .num (rnd x) := by
  have := round_num (x := x) (h := 2 ^ 24) (by norm_num) (bd_int (2 ^ 24) (by norm_num) (by norm_num)).1
    (by rw [abs_of_nonneg h0]; exact h1)
  exact this

theorem ofNat_val {n : ℕ} (h : n ≤ 2 ^ 24) : (f32 powf).ofInt (n : ℤ) = .num n := by
  have := round_bd (x := (n : ℝ)) (bd_int n (by push_cast; rfl) (by rw [abs_of_nonneg (by omega)]; exact_mod_cast h))
  simpa [f32] using this

/-- The number of exercises of a window, read off the rounded product. -/
theorem quota_val {n N : ℕ} {v : ℝ} (hn : n ≤ 2 ^ 20) (h0 : 0 ≤ v) (h1 : v ≤ 1) (hl : (N : ℝ) ≤ rnd (n * v))
    (hu : rnd (n * v) < N + 1) : gQuota (f32 powf) F.toUsize n (.num v) = Max.max N 1 := by
  have hnr : (n : ℝ) ≤ 2 ^ 20 := by exact_mod_cast hn
  have hn0 : (0 : ℝ) ≤ n := Nat.cast_nonneg n
  have hm : (f32 powf).mul (.num n) (.num v) = .num (rnd (n * v)) :=
    round_small (mul_nonneg hn0 h0) (by nlinarith)
  unfold gQuota
  rw [ofNat_val (hn.trans (by norm_num)), hm, f1]
  have hN : N ≤ 2 ^ 24 := by
    have : rnd (n * v) ≤ 2 ^ 24 := rnd_le (bd_int (2 ^ 24) (by norm_num) (by norm_num)).1 (by nlinarith)
    have : (N : ℝ) ≤ 2 ^ 24 := hl.trans this
    exact_mod_cast this
  show F.toUsize (if decide (rnd (n * v) < 1) = true then .num 1 else .num (rnd (n * v))) = _
  by_cases hc : rnd (n * v) < 1
  · rw [decide_eq_true hc, if_pos rfl]
    have : N < 1 := by
      have : (N : ℝ) < 1 := lt_of_le_of_lt hl hc
      exact_mod_cast this
    show Nat.min ⌊(1 : ℝ)⌋₊ _ = _
    rw [Nat.floor_one]
    show min 1 _ = _
    omega
  · rw [decide_eq_false hc, if_neg (by simp)]
    have hf : ⌊rnd (n * v)⌋₊ = N := by
      rw [Nat.floor_eq_iff (by linarith)]
      exact ⟨hl, hu⟩
    have : 1 ≤ N := by
      have : (1 : ℝ) < N + 1 := lt_of_le_of_lt (not_lt.1 hc) hu
      have : 1 < N + 1 := by exact_mod_cast this
      omega
    show Nat.min ⌊rnd (n * v)⌋₊ _ = _
    rw [hf]
    show min N _ = _
    omega

/-- The rounded product with a share that is not below `a / 20` and hardly above it. -/
theorem mul_bounds {n : ℕ} (a : ℕ) {v : ℝ} (ha : a ≤ 6) (hn : n ≤ 2 ^ 20) (h1 : (a : ℝ) / 20 ≤ v)
    (h2 : v ≤ (a : ℝ) / 20 + 1 / 2 ^ 26) :
    ((n * a / 20 : ℕ) : ℝ) ≤ rnd (n * v) ∧ rnd (n * v) < ((n * a / 20 : ℕ) : ℝ) + 1 := by
  have hnr : (n : ℝ) ≤ 2 ^ 20 := by exact_mod_cast hn
  have hn0 : (0 : ℝ) ≤ n := Nat.cast_nonneg n
  have har : (a : ℝ) ≤ 6 := by exact_mod_cast ha
  have ha0 : (0 : ℝ) ≤ a := Nat.cast_nonneg a
  have hv1 : v ≤ 31 / 100 := by norm_num at h2 ⊢; linarith
  have hv0 : 0 ≤ v := by linarith [div_nonneg ha0 (by norm_num : (0 : ℝ) ≤ 20)]
  have hd : 20 * (n * a / 20) + n * a % 20 = n * a := Nat.div_add_mod _ _
  have hm : n * a % 20 ≤ 19 := by omega
  have hdr : 20 * ((n * a / 20 : ℕ) : ℝ) + ((n * a % 20 : ℕ) : ℝ) = n * a := by exact_mod_cast hd
  have hmr : ((n * a % 20 : ℕ) : ℝ) ≤ 19 := by exact_mod_cast hm
  have hm0 : (0 : ℝ) ≤ ((n * a % 20 : ℕ) : ℝ) := Nat.cast_nonneg _
  have hprod : (n : ℝ) * v ≤ n * a / 20 + n / 2 ^ 26 := by
    have := mul_le_mul_of_nonneg_left h2 hn0
    calc (n : ℝ) * v ≤ n * (a / 20 + 1 / 2 ^ 26) := this
      _ = _ := by ring
  have hprod' : (n : ℝ) * a / 20 ≤ n * v := by
    have := mul_le_mul_of_nonneg_left h1 hn0
    calc (n : ℝ) * a / 20 = n * (a / 20) := by ring
      _ ≤ _ := this
  have hNle : n * a / 20 ≤ 2 ^ 24 := by
    have : n * a ≤ 2 ^ 20 * 6 := Nat.mul_le_mul hn ha
    omega
  constructor
  · refine le_rnd ?_ (by linarith)
    exact (bd_int (n * a / 20 : ℕ) (by push_cast; rfl)
      (by rw [abs_of_nonneg (by omega)]; exact_mod_cast hNle)).1
  · have he := rnd_err (n * v)
    have hnv : (n : ℝ) * v ≤ 2 ^ 20 * (31 / 100) := mul_le_mul hnr hv1 hv0 (by norm_num)
    have h150 : (2 : ℝ) ^ (-150 : ℤ) ≤ 1 / 100 := by
      have : (2 : ℝ) ^ (-150 : ℤ) ≤ 2 ^ (-7 : ℤ) := zpow_le_zpow_right₀ (by norm_num) (by norm_num)
      refine this.trans (by norm_num)
    have h2' : max (|(n : ℝ) * v| / 2 ^ 24) ((2 : ℝ) ^ (-150 : ℤ)) ≤ 2 / 100 := by
      refine max_le ?_ (by linarith)
      rw [abs_of_nonneg (mul_nonneg hn0 hv0)]
      rw [div_le_iff₀ (by norm_num)]
      norm_num at hnv ⊢
      linarith
    have h3 := (abs_le.1 (he.trans h2')).2
    have h4 : (n : ℝ) / 2 ^ 26 ≤ 2 / 100 := by
      rw [div_le_iff₀ (by norm_num)]
      have : (n : ℝ) ≤ 1048576 := by norm_num at hn; exact_mod_cast hn
      norm_num
      linarith
    linarith

/-- A share that is not below `a / 20` and hardly above it gives the number of exercises that `a / 20` gives. -/
theorem quota_up {n : ℕ} (a : ℕ) {v : ℝ} (ha : a ≤ 6) (hn : n ≤ 2 ^ 20) (h1 : (a : ℝ) / 20 ≤ v)
    (h2 : v ≤ (a : ℝ) / 20 + 1 / 2 ^ 26) :
    gQuota (f32 powf) F.toUsize n (.num v) = Max.max (n * a / 20) 1 := by
  obtain ⟨hl, hu⟩ := mul_bounds a ha hn h1 h2
  have har : (a : ℝ) ≤ 6 := by exact_mod_cast ha
  have ha0 : (0 : ℝ) ≤ (a : ℝ) / 20 := by positivity
  refine quota_val hn (by linarith) ?_ hl hu
  norm_num at h2
  linarith

/-- The share of 10066328/2^25, a little less than 3/10, gives one exercise less where 3/10 gives a whole number. -/
theorem quota_short {n : ℕ} (hn : n ≤ 2 ^ 20) :
    gQuota (f32 powf) F.toUsize n (.num (10066328 / 2 ^ 25)) = Max.max ((3 * n - 1) / 10) 1 := by
  have hnr : (n : ℝ) ≤ 2 ^ 20 := by exact_mod_cast hn
  rcases Nat.eq_zero_or_pos n with rfl | hpos
  · refine quota_val (N := 0) hn (by norm_num) (by norm_num) ?_ ?_ <;> simp [rnd_zero]
  have hn1 : (1 : ℝ) ≤ n := by exact_mod_cast hpos
  have hv : (n : ℝ) * (10066328 / 2 ^ 25) ≤ n * (3 / 10) - n * (47 / 10 ^ 9) := by
    have : (10066328 : ℝ) / 2 ^ 25 ≤ 3 / 10 - 47 / 10 ^ 9 := by norm_num
    nlinarith
  have hv' : (n : ℝ) * (3 / 10) - n * (48 / 10 ^ 9) ≤ n * (10066328 / 2 ^ 25) := by
    have : (3 : ℝ) / 10 - 48 / 10 ^ 9 ≤ 10066328 / 2 ^ 25 := by norm_num
    nlinarith
  have he := rnd_err (n * (10066328 / 2 ^ 25))
  have h150 : (2 : ℝ) ^ (-150 : ℤ) ≤ 1 / 10 ^ 9 := by
    have : (2 : ℝ) ^ (-150 : ℤ) ≤ 2 ^ (-40 : ℤ) := zpow_le_zpow_right₀ (by norm_num) (by norm_num)
    refine this.trans (by norm_num)
  have h2' : max (|(n : ℝ) * (10066328 / 2 ^ 25)| / 2 ^ 24) ((2 : ℝ) ^ (-150 : ℤ)) ≤ n * (18 / 10 ^ 9) := by
    refine max_le ?_ ?_
    · rw [abs_of_nonneg (by positivity), div_le_iff₀ (by norm_num)]
      norm_num
      linarith
    · refine h150.trans ?_
      norm_num
      linarith
  have h3 := abs_le.1 (he.trans h2')
  have hd : 10 * ((3 * n - 1) / 10) + (3 * n - 1) % 10 = 3 * n - 1 := Nat.div_add_mod _ _
  have hd' : 10 * ((3 * n - 1) / 10) + ((3 * n - 1) % 10 + 1) = 3 * n := by omega
  have hm : (3 * n - 1) % 10 ≤ 9 := by omega
  have hdr : 10 * (((3 * n - 1) / 10 : ℕ) : ℝ) + (((3 * n - 1) % 10 : ℕ) + 1 : ℝ) = 3 * n := by exact_mod_cast hd'
  have hmr : (((3 * n - 1) % 10 : ℕ) : ℝ) ≤ 9 := by exact_mod_cast hm
  have hm0 : (0 : ℝ) ≤ (((3 * n - 1) % 10 : ℕ) : ℝ) := Nat.cast_nonneg _
  refine quota_val hn (by norm_num) (by norm_num) ?_ ?_
  · have : (n : ℝ) * (66 / 10 ^ 9) ≤ 1 / 10 := by
      have : (n : ℝ) ≤ 1048576 := by norm_num at hn; exact_mod_cast hn
      norm_num
      linarith
    norm_num at this h3 hv' ⊢
    linarith [h3.1]
  · have : (0 : ℝ) < n * (29 / 10 ^ 9) := by positivity
    norm_num at this h3 hv ⊢
    linarith [h3.2]

/-- The number of exercises without rounding, for a share of `a / 20`. -/
theorem quota_exact (n a : ℕ) (w : MasteryWindow) (h : w.percentage = a / 20) :
    quota n w = Max.max (n * a / 20) 1 := by
  unfold quota
  have e : (n : ℚ) * w.percentage = ((n * a : ℕ) : ℚ) / (20 : ℕ) := by rw [h]; push_cast; ring
  rw [e]
  have hf : ⌊((n * a : ℕ) : ℚ) / (20 : ℕ)⌋₊ = n * a / 20 := by
    rw [Nat.floor_div_natCast, Nat.floor_natCast]
  rcases le_total (((n * a : ℕ) : ℚ) / (20 : ℕ)) 1 with hc | hc
  · rw [max_eq_right hc, Nat.floor_one]
    have := Nat.floor_le_floor hc
    rw [hf, Nat.floor_one] at this
    omega
  · rw [max_eq_left hc, hf]
    have := Nat.floor_le_floor hc
    rw [hf, Nat.floor_one] at this
    omega

end Trane.Float
