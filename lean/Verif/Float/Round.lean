import Mathlib.Data.Int.Log
import Mathlib.Data.Real.Archimedean
import Mathlib.Tactic.Linarith
import Mathlib.Tactic.Positivity
import Mathlib.Tactic.NormNum
import Mathlib.Tactic.Ring
import Mathlib.Tactic.FieldSimp

/-!
# Rounding to `f32`

The numbers of Rust's `f32` (IEEE 754 binary32) and rounding to the nearest of them, ties to even, as
functions on the reals.  Here the exponent has no upper bound; `Verif.Float.F32` adds overflow.
-/

namespace Trane.Float

/-- The numbers an `f32` can hold, but for the upper bound on the exponent: at most 24 binary digits, of
which the last is worth 2^-149 or more. -/
def Rep (y : ℝ) : Prop := ∃ m e : ℤ, |m| ≤ 2 ^ 24 ∧ -149 ≤ e ∧ y = m * (2 : ℝ) ^ e

/-- The nearest integer, ties to the even one. -/
noncomputable def roundEven (x : ℝ) : ℤ :=
  if x - ⌊x⌋ < 1 / 2 then ⌊x⌋
  else if 1 / 2 < x - ⌊x⌋ then ⌊x⌋ + 1
  else if 2 ∣ ⌊x⌋ then ⌊x⌋ else ⌊x⌋ + 1

/-- The exponent of the last digit kept of a positive number. -/
noncomputable def lastExp (x : ℝ) : ℤ := max (Int.log 2 x - 23) (-149)

/-- Rounding of a number that is not negative. -/
noncomputable def rndPos (x : ℝ) : ℝ := roundEven (x / 2 ^ lastExp x) * (2 : ℝ) ^ lastExp x

/-- Rounding to nearest, ties to even. -/
noncomputable def rnd (x : ℝ) : ℝ := if x < 0 then -rndPos (-x) else rndPos x

/-! ## Rounding to integers -/

theorem roundEven_int (n : ℤ) : roundEven (n : ℝ) = n := by
  unfold roundEven
  simp

theorem roundEven_cases (x : ℝ) : roundEven x = ⌊x⌋ ∨ roundEven x = ⌊x⌋ + 1 := by
  unfold roundEven
  split
  · exact Or.inl rfl
  · split
    · exact Or.inr rfl
    · split
      · exact Or.inl rfl
      · exact Or.inr rfl

theorem roundEven_mono {x y : ℝ} (h : x ≤ y) : roundEven x ≤ roundEven y := by
  have hf : ⌊x⌋ ≤ ⌊y⌋ := Int.floor_le_floor h
  rcases lt_or_eq_of_le hf with hlt | heq
  · rcases roundEven_cases x with hx | hx <;> rcases roundEven_cases y with hy | hy <;> omega
  · unfold roundEven
    rw [← heq]
    split
    · split
      · exact le_refl _
      · split
        · omega
        · split <;> omega
    · rename_i h1
      have hy1 : ¬ y - ⌊x⌋ < 1 / 2 := by intro hc; exact h1 (by linarith)
      rw [if_neg hy1]
      split
      · rename_i h2
        rw [if_pos (by linarith)]
      · split
        · split <;> omega
        · split <;> exact le_refl _

theorem roundEven_err (x : ℝ) : |(roundEven x : ℝ) - x| ≤ 1 / 2 := by
  have h1 := Int.floor_le x
  have h2 := Int.lt_floor_add_one x
  unfold roundEven
  split
  · rw [abs_le]; constructor <;> linarith
  · split
    · push_cast
      rw [abs_le]; constructor <;> linarith
    · split
      · rw [abs_le]; constructor <;> linarith
      · push_cast
        rw [abs_le]; constructor <;> linarith

/-! ## Exponents -/

theorem two_zpow_pos (e : ℤ) : (0 : ℝ) < 2 ^ e := zpow_pos (by norm_num) e

theorem lt_lastExp (x : ℝ) : x < (2 : ℝ) ^ (lastExp x + 24) := by
  have h := Int.lt_zpow_succ_log_self (b := 2) (by norm_num) x
  refine lt_of_lt_of_le h ?_
  push_cast
  apply zpow_le_zpow_right₀ (by norm_num)
  unfold lastExp
  omega

theorem lastExp_le {x : ℝ} (hx : 0 < x) (h : -149 < lastExp x) :
    (2 : ℝ) ^ (lastExp x + 23) ≤ x := by
  have h1 := Int.zpow_log_le_self (b := 2) (by norm_num) hx
  have h2 : lastExp x + 23 = Int.log 2 x := by unfold lastExp at h ⊢; omega
  rw [h2]
  exact_mod_cast h1

theorem lastExp_ge (x : ℝ) : -149 ≤ lastExp x := by unfold lastExp; omega

theorem lastExp_mono {x y : ℝ} (hx : 0 < x) (h : x ≤ y) : lastExp x ≤ lastExp y := by
  have := Int.log_mono_right (b := 2) hx h
  unfold lastExp
  omega

theorem lastExp_le_of_lt {x : ℝ} (hx : 0 < x) {e : ℤ} (he : -149 ≤ e)
    (h : x < (2 : ℝ) ^ (e + 24)) : lastExp x ≤ e := by
  by_contra hc
  have h1 := lastExp_le hx (by omega)
  have h2 : (2 : ℝ) ^ (e + 24) ≤ 2 ^ (lastExp x + 23) :=
    zpow_le_zpow_right₀ (by norm_num) (by omega)
  linarith

/-! ## Rounding of positive numbers -/

theorem rndPos_zero : rndPos 0 = 0 := by
  unfold rndPos
  have : roundEven (0 / 2 ^ lastExp 0) = 0 := by
    rw [zero_div]; exact_mod_cast roundEven_int 0
  rw [this]; simp

theorem rndPos_nonneg {x : ℝ} (h : 0 ≤ x) : 0 ≤ rndPos x := by
  unfold rndPos
  apply mul_nonneg _ (two_zpow_pos _).le
  have : roundEven 0 ≤ roundEven (x / 2 ^ lastExp x) :=
    roundEven_mono (div_nonneg h (two_zpow_pos _).le)
  have h0 : roundEven 0 = 0 := by exact_mod_cast roundEven_int 0
  rw [h0] at this
  exact_mod_cast this

theorem rndPos_digits (x : ℝ) : roundEven (x / 2 ^ lastExp x) ≤ 2 ^ 24 := by
  have h1 : x / 2 ^ lastExp x ≤ ((2 ^ 24 : ℤ) : ℝ) := by
    rw [div_le_iff₀ (two_zpow_pos _)]
    have := lt_lastExp x
    rw [zpow_add₀ (by norm_num)] at this
    push_cast
    have e : (2 : ℝ) ^ (24 : ℤ) = 2 ^ 24 := by norm_cast
    rw [e] at this
    linarith
  have := roundEven_mono h1
  rwa [roundEven_int] at this

theorem rndPos_mono {x y : ℝ} (hx : 0 ≤ x) (h : x ≤ y) : rndPos x ≤ rndPos y := by
  rcases hx.eq_or_lt with rfl | hx
  · rw [rndPos_zero]; exact rndPos_nonneg h
  have hy : 0 < y := lt_of_lt_of_le hx h
  rcases (lastExp_mono hx h).eq_or_lt with he | he
  · unfold rndPos
    rw [he]
    apply mul_le_mul_of_nonneg_right _ (two_zpow_pos _).le
    exact_mod_cast roundEven_mono (div_le_div_of_nonneg_right h (two_zpow_pos _).le)
  · have h1 : rndPos x ≤ (2 : ℝ) ^ (lastExp x + 24) := by
      unfold rndPos
      rw [zpow_add₀ (by norm_num), mul_comm]
      apply mul_le_mul_of_nonneg_left _ (two_zpow_pos _).le
      have := rndPos_digits x
      have e : (2 : ℝ) ^ (24 : ℤ) = ((2 ^ 24 : ℤ) : ℝ) := by norm_cast
      rw [e]
      exact_mod_cast this
    have h2 : (2 : ℝ) ^ (lastExp y + 23) ≤ rndPos y := by
      unfold rndPos
      rw [zpow_add₀ (by norm_num), mul_comm]
      apply mul_le_mul_of_nonneg_right _ (two_zpow_pos _).le
      have hl := lastExp_le hy (lt_of_le_of_lt (lastExp_ge x) he)
      have h3 : ((2 ^ 23 : ℤ) : ℝ) ≤ y / 2 ^ lastExp y := by
        rw [le_div_iff₀ (two_zpow_pos _)]
        rw [zpow_add₀ (by norm_num), mul_comm] at hl
        exact_mod_cast hl
      have h4 := roundEven_mono h3
      rw [roundEven_int] at h4
      exact_mod_cast h4
    have h3 : (2 : ℝ) ^ (lastExp x + 24) ≤ 2 ^ (lastExp y + 23) :=
      zpow_le_zpow_right₀ (by norm_num) (by omega)
    linarith

theorem rndPos_fix_lt {m e : ℤ} (hm0 : 0 < m) (hm : m < 2 ^ 24) (he : -149 ≤ e) :
    rndPos (m * (2 : ℝ) ^ e) = m * (2 : ℝ) ^ e := by
  have hmr : (0 : ℝ) < m := by exact_mod_cast hm0
  have hpos : (0 : ℝ) < m * (2 : ℝ) ^ e := mul_pos hmr (two_zpow_pos _)
  have hle : lastExp (m * (2 : ℝ) ^ e) ≤ e := by
    apply lastExp_le_of_lt hpos he
    rw [zpow_add₀ (by norm_num), mul_comm]
    apply mul_lt_mul_of_pos_left _ (two_zpow_pos _)
    have e' : (2 : ℝ) ^ (24 : ℤ) = ((2 ^ 24 : ℤ) : ℝ) := by norm_cast
    rw [e']
    exact_mod_cast hm
  unfold rndPos
  set l := lastExp (m * (2 : ℝ) ^ e)
  obtain ⟨k, hk⟩ := Int.le.dest hle
  have hq : (m : ℝ) * 2 ^ e / 2 ^ l = ((m * 2 ^ k : ℤ) : ℝ) := by
    rw [← hk, zpow_add₀ (by norm_num)]
    rw [mul_div_assoc, mul_div_assoc, mul_comm ((2:ℝ) ^ l), div_mul_cancel₀ _ (two_zpow_pos l).ne']
    push_cast
    norm_cast
  rw [hq, roundEven_int]
  have : (((m * 2 ^ k : ℤ) : ℝ)) * 2 ^ l = (m : ℝ) * 2 ^ e := by
    rw [← hq, div_mul_cancel₀ _ (two_zpow_pos l).ne']
  exact this

/-! ## Rounding -/

theorem Rep.neg {y : ℝ} (h : Rep y) : Rep (-y) := by
  obtain ⟨m, e, hm, he, rfl⟩ := h
  exact ⟨-m, e, by rwa [abs_neg], he, by push_cast; ring⟩

theorem rep_int {n : ℤ} (h : |n| ≤ 2 ^ 24) : Rep n := ⟨n, 0, h, by norm_num, by simp⟩

theorem rep_zero : Rep 0 := by simpa using rep_int (n := 0) (by norm_num)

theorem rep_one : Rep 1 := by simpa using rep_int (n := 1) (by norm_num)

/-- `m / 2^k` is an `f32` number. -/
theorem rep_div {m : ℤ} {k : ℕ} (hm : |m| ≤ 2 ^ 24) (hk : k ≤ 149) : Rep (m / 2 ^ k) :=
  ⟨m, -k, hm, by omega, by rw [zpow_neg, zpow_natCast, div_eq_mul_inv]⟩

/-- `m * 2^k` is an `f32` number. -/
theorem rep_mul {m : ℤ} {k : ℕ} (hm : |m| ≤ 2 ^ 24) : Rep (m * 2 ^ k) :=
  ⟨m, k, hm, by omega, by rw [zpow_natCast]⟩

theorem rnd_zero : rnd 0 = 0 := by unfold rnd; simp [rndPos_zero]

theorem rnd_neg (x : ℝ) : rnd (-x) = -rnd x := by
  unfold rnd
  rcases lt_trichotomy x 0 with h | h | h
  · rw [if_neg (by linarith), if_pos h, neg_neg]
  · subst h; simp [rndPos_zero]
  · rw [if_pos (by linarith), if_neg (by linarith), neg_neg]

/-- Numbers that need no rounding are left alone. -/
theorem rnd_fix {y : ℝ} (h : Rep y) : rnd y = y := by
  have key : ∀ m e : ℤ, 0 < m → m ≤ 2 ^ 24 → -149 ≤ e → rnd (m * (2 : ℝ) ^ e) = m * 2 ^ e := by
    intro m e h0 hm he
    have hpos : (0 : ℝ) < m * (2 : ℝ) ^ e := mul_pos (by exact_mod_cast h0) (two_zpow_pos _)
    unfold rnd
    rw [if_neg (by linarith)]
    rcases hm.eq_or_lt with rfl | hm
    · have : (((2 : ℤ) ^ 24 : ℤ) : ℝ) * 2 ^ e = ((2 ^ 23 : ℤ) : ℝ) * 2 ^ (e + 1) := by
        rw [zpow_add₀ (by norm_num)]; push_cast; ring
      rw [this]
      exact rndPos_fix_lt (by norm_num) (by norm_num) (by omega)
    · exact rndPos_fix_lt h0 hm he
  obtain ⟨m, e, hm, he, rfl⟩ := h
  rw [abs_le] at hm
  rcases lt_trichotomy m 0 with h | h | h
  · have := key (-m) e (by omega) (by omega) he
    push_cast at this
    rw [neg_mul, rnd_neg] at this
    linarith
  · subst h; simp [rnd_zero]
  · exact key m e h hm.2 he

/-- Rounding keeps the order. -/
theorem rnd_mono : Monotone rnd := by
  intro x y h
  unfold rnd
  split
  · split
    · have := rndPos_mono (x := -y) (y := -x) (by linarith) (by linarith)
      linarith
    · have h1 := rndPos_nonneg (x := -x) (by linarith)
      have h2 := rndPos_nonneg (x := y) (by linarith)
      linarith
  · rw [if_neg (by linarith)]
    exact rndPos_mono (by linarith) h

/-- The result of rounding is an `f32` number. -/
theorem rnd_rep (x : ℝ) : Rep (rnd x) := by
  have key : ∀ x : ℝ, 0 ≤ x → Rep (rndPos x) := by
    intro x hx
    rcases hx.eq_or_lt with rfl | hx
    · rw [rndPos_zero]; exact rep_zero
    · refine ⟨_, _, ?_, lastExp_ge x, rfl⟩
      have h1 := rndPos_digits x
      have h2 : roundEven 0 ≤ roundEven (x / 2 ^ lastExp x) :=
        roundEven_mono (div_nonneg hx.le (two_zpow_pos _).le)
      have h0 : roundEven 0 = 0 := by exact_mod_cast roundEven_int 0
      rw [h0] at h2
      rwa [abs_of_nonneg h2]
  unfold rnd
  split
  · exact (key _ (by linarith)).neg
  · exact key _ (by linarith)

theorem le_rnd {a x : ℝ} (ha : Rep a) (h : a ≤ x) : a ≤ rnd x := by
  have := rnd_mono h
  rwa [rnd_fix ha] at this

theorem rnd_le {a x : ℝ} (ha : Rep a) (h : x ≤ a) : rnd x ≤ a := by
  have := rnd_mono h
  rwa [rnd_fix ha] at this

/-- The rounding error is at most half a unit of the last digit: relative 2^-24 unless the number is tiny. -/
theorem rnd_err (x : ℝ) : |rnd x - x| ≤ max (|x| / 2 ^ 24) ((2 : ℝ) ^ (-150 : ℤ)) := by
  have key : ∀ x : ℝ, 0 ≤ x → |rndPos x - x| ≤ max (x / 2 ^ 24) ((2 : ℝ) ^ (-150 : ℤ)) := by
    intro x hx
    rcases hx.eq_or_lt with rfl | hx
    · rw [rndPos_zero]; simp
    · have h1 := roundEven_err (x / 2 ^ lastExp x)
      have h2 : |rndPos x - x| ≤ 1 / 2 * 2 ^ lastExp x := by
        have : rndPos x - x = ((roundEven (x / 2 ^ lastExp x) : ℝ) - x / 2 ^ lastExp x) *
            2 ^ lastExp x := by
          unfold rndPos
          rw [sub_mul, div_mul_cancel₀ _ (two_zpow_pos _).ne']
        rw [this, abs_mul, abs_of_pos (two_zpow_pos _)]
        exact mul_le_mul_of_nonneg_right h1 (two_zpow_pos _).le
      refine h2.trans ?_
      rcases (lastExp_ge x).eq_or_lt with he | he
      · apply le_max_of_le_right
        rw [← he]
        have : (2 : ℝ) ^ (-149 : ℤ) = 2 * 2 ^ (-150 : ℤ) := by
          rw [show (-149 : ℤ) = -150 + 1 by norm_num, zpow_add₀ (by norm_num)]; ring
        rw [this]; linarith
      · apply le_max_of_le_left
        have := lastExp_le hx he
        rw [zpow_add₀ (by norm_num)] at this
        have e' : (2 : ℝ) ^ (23 : ℤ) = 2 ^ 23 := by norm_cast
        rw [e'] at this
        rw [le_div_iff₀ (by positivity)]
        linarith
  unfold rnd
  split
  · rename_i h
    have := key (-x) (by linarith)
    rw [abs_of_neg h, show -rndPos (-x) - x = -(rndPos (-x) - -x) by ring, abs_neg]
    exact this
  · rename_i h
    rw [abs_of_nonneg (by linarith : 0 ≤ x)]
    exact key x (by linarith)

end Trane.Float
