import Verif.Float.Interval

/-!
# Relative errors of `f32` computations

Sums and products of numbers that are not negative keep their leading digits: every operation adds one
relative error of at most `2^-24`.
-/

namespace Trane.Float

/-- The number computed, up to `k` relative errors of `2^-24`. -/
def App (k : ℕ) (x : ℝ) (a : F) : Prop :=
  ∃ y, a = .num y ∧ x * (1 - 1 / 2 ^ 24) ^ k ≤ y ∧ y ≤ x * (1 + 1 / 2 ^ 24) ^ k

/-- Zero, or a number that is neither very small nor very large. -/
def Fine (x : ℝ) : Prop := x = 0 ∨ 1 / 2 ^ 40 ≤ x ∧ x ≤ 2 ^ 110

theorem Fine.nonneg {x : ℝ} (h : Fine x) : 0 ≤ x := by
  rcases h with rfl | ⟨h, -⟩
  · exact le_rfl
  · exact le_trans (by positivity) h

/-- Many small errors make one of nearly the sum. -/
theorem errs_up (k : ℕ) (hk : k ≤ 1024) :
    (1 + 1 / 2 ^ 24 : ℝ) ^ k ≤ 1 + 101 / 100 * k / 2 ^ 24 := by
  have h1 : (1 : ℝ) + k * (-(1 / 2 ^ 24)) ≤ (1 + -(1 / 2 ^ 24)) ^ k :=
    one_add_mul_le_pow (by norm_num) k
  have h2 : (1 + 1 / 2 ^ 24 : ℝ) ^ k * (1 + -(1 / 2 ^ 24)) ^ k ≤ 1 := by
    rw [← mul_pow]
    exact pow_le_one₀ (by norm_num) (by norm_num)
  have hk0 : (0 : ℝ) ≤ k := Nat.cast_nonneg k
  have hkr : (k : ℝ) ≤ 1024 := by exact_mod_cast hk
  set p : ℝ := (1 + 1 / 2 ^ 24) ^ k
  set q : ℝ := (1 + -(1 / 2 ^ 24)) ^ k
  have hp : 0 < p := by positivity
  have h3 : p * (1 + k * (-(1 / 2 ^ 24))) ≤ 1 := le_trans (by gcongr) h2
  have h4 : 0 < (1 : ℝ) + k * (-(1 / 2 ^ 24)) := by norm_num; linarith
  have h5 : 1 ≤ (1 + 101 / 100 * k / 2 ^ 24) * ((1 : ℝ) + k * (-(1 / 2 ^ 24))) := by
    norm_num
    nlinarith
  exact le_of_mul_le_mul_right (h3.trans h5) h4

theorem errs_down (k : ℕ) : 1 - k / 2 ^ 24 ≤ (1 - 1 / 2 ^ 24 : ℝ) ^ k := by
  have h1 : (1 : ℝ) + k * (-(1 / 2 ^ 24)) ≤ (1 + -(1 / 2 ^ 24)) ^ k :=
    one_add_mul_le_pow (by norm_num) k
  have e : (1 - 1 / 2 ^ 24 : ℝ) = 1 + -(1 / 2 ^ 24) := by norm_num
  rw [e]
  refine le_trans (le_of_eq ?_) h1
  ring

theorem App.mono {k k' : ℕ} {x : ℝ} {a : F} (h : App k x a) (hx : 0 ≤ x) (hk : k ≤ k') : App k' x a := by
  obtain ⟨y, rfl, h1, h2⟩ := h
  refine ⟨y, rfl, le_trans ?_ h1, le_trans h2 ?_⟩
  · exact mul_le_mul_of_nonneg_left (pow_le_pow_of_le_one (by norm_num) (by norm_num) hk) hx
  · exact mul_le_mul_of_nonneg_left (pow_le_pow_right₀ (by norm_num) hk) hx

/-- Rounding adds one error. -/
theorem app_round {k : ℕ} (hk : k ≤ 1024) {x y : ℝ} (hx : Fine x)
    (h1 : x * (1 - 1 / 2 ^ 24) ^ k ≤ y) (h2 : y ≤ x * (1 + 1 / 2 ^ 24) ^ k) : App (k + 1) x (F.round y) := by
  have hx0 := hx.nonneg
  have hy0 : 0 ≤ y := le_trans (mul_nonneg hx0 (pow_nonneg (by norm_num) k)) h1
  have hu := errs_up k hk
  have hd := errs_down k
  have hk0 : (0 : ℝ) ≤ k := Nat.cast_nonneg k
  have hkr : (k : ℝ) ≤ 1024 := by exact_mod_cast hk
  have hu2 : (1 + 1 / 2 ^ 24 : ℝ) ^ k ≤ 2 := by norm_num at hu ⊢; linarith
  have hd2 : 1 / 2 ≤ (1 - 1 / 2 ^ 24 : ℝ) ^ k := by norm_num at hd ⊢; linarith
  have hy2 : y ≤ 2 * x := by nlinarith
  have hy1 : x / 2 ≤ y := by nlinarith
  have hbig : |y| ≤ 2 ^ 127 := by
    rw [abs_of_nonneg hy0]
    rcases hx with rfl | ⟨-, hx⟩
    · exact hy2.trans (by norm_num)
    · exact hy2.trans (by linarith)
  have h127 : Rep ((2 : ℝ) ^ 127) := by
    have := rep_mul (m := 1) (k := 127) (by norm_num)
    simpa using this
  rw [round_num (le_refl _) h127 hbig]
  have herr : |rnd y - y| ≤ y / 2 ^ 24 := by
    have h := rnd_err y
    rw [abs_of_nonneg hy0] at h
    rcases hx with rfl | ⟨hx, -⟩
    · have : y = 0 := le_antisymm (by linarith) hy0
      rw [this, rnd_zero]; simp
    · refine h.trans (max_le le_rfl ?_)
      have : (2 : ℝ) ^ (-150 : ℤ) ≤ 1 / 2 ^ 41 / 2 ^ 24 := by norm_num
      refine this.trans ?_
      have h41 : (1 : ℝ) / 2 ^ 41 ≤ y := le_trans (by norm_num at hx ⊢; linarith) hy1
      gcongr
  have h3 := abs_le.1 herr
  refine ⟨_, rfl, ?_, ?_⟩
  · rw [pow_succ, ← mul_assoc]
    have : x * (1 - 1 / 2 ^ 24) ^ k * (1 - 1 / 2 ^ 24) ≤ y * (1 - 1 / 2 ^ 24) :=
      mul_le_mul_of_nonneg_right h1 (by norm_num)
    linarith
  · rw [pow_succ, ← mul_assoc]
    have : y * (1 + 1 / 2 ^ 24) ≤ x * (1 + 1 / 2 ^ 24) ^ k * (1 + 1 / 2 ^ 24) :=
      mul_le_mul_of_nonneg_right h2 (by norm_num)
    linarith

theorem app_num (x : ℝ) : App 0 x (.num x) := ⟨x, rfl, by simp, by simp⟩

theorem App.add {k : ℕ} (hk : k ≤ 1024) {x x' : ℝ} {a a' : F} (h : App k x a) (h' : App k x' a')
    (hx : Fine (x + x')) : App (k + 1) (x + x') (F.add a a') := by
  obtain ⟨y, rfl, h1, h2⟩ := h
  obtain ⟨y', rfl, h1', h2'⟩ := h'
  exact app_round hk hx (by rw [add_mul]; linarith) (by rw [add_mul]; linarith)

theorem App.mul {k k' : ℕ} (hk : k + k' ≤ 1024) {x x' : ℝ} {a a' : F} (h : App k x a)
    (h' : App k' x' a') (h0 : 0 ≤ x) (h0' : 0 ≤ x') (hx : Fine (x * x')) :
    App (k + k' + 1) (x * x') (F.mul a a') := by
  obtain ⟨y, rfl, h1, h2⟩ := h
  obtain ⟨y', rfl, h1', h2'⟩ := h'
  have hy0 : 0 ≤ y := le_trans (mul_nonneg h0 (pow_nonneg (by norm_num) k)) h1
  have hy0' : 0 ≤ y' := le_trans (mul_nonneg h0' (pow_nonneg (by norm_num) k')) h1'
  refine app_round hk hx ?_ ?_
  · rw [pow_add]
    calc _ = (x * (1 - 1 / 2 ^ 24) ^ k) * (x' * (1 - 1 / 2 ^ 24) ^ k') := by ring
      _ ≤ y * y' := mul_le_mul h1 h1' (mul_nonneg h0' (pow_nonneg (by norm_num) k')) hy0
  · rw [pow_add]
    calc y * y' ≤ (x * (1 + 1 / 2 ^ 24) ^ k) * (x' * (1 + 1 / 2 ^ 24) ^ k') :=
          mul_le_mul h2 h2' hy0' (mul_nonneg h0 (pow_nonneg (by norm_num) k))
      _ = _ := by ring

/-- Division by a number that is held exactly. -/
theorem App.div_num {k : ℕ} (hk : k ≤ 1024) {x : ℝ} {a : F} (h : App k x a) {c : ℝ} (hc : 0 < c)
    (hx : Fine (x / c)) : App (k + 1) (x / c) (F.div a (.num c)) := by
  obtain ⟨y, rfl, h1, h2⟩ := h
  have hd : F.div (.num y) (.num c) = F.round (y / c) := by
    show (if c = 0 then _ else F.round (y / c)) = _
    rw [if_neg hc.ne']
  rw [hd]
  refine app_round hk hx ?_ ?_
  · rw [div_mul_eq_mul_div]; gcongr
  · rw [div_mul_eq_mul_div]; gcongr

/-- The error as a difference. -/
theorem App.abs_le {k : ℕ} (hk : k ≤ 1024) {x : ℝ} {a : F} (h : App k x a) (hx : 0 ≤ x) :
    ∃ y, a = .num y ∧ |y - x| ≤ x * (101 / 100 * k / 2 ^ 24) := by
  obtain ⟨y, rfl, h1, h2⟩ := h
  refine ⟨y, rfl, ?_⟩
  have hu := mul_le_mul_of_nonneg_left (errs_up k hk) hx
  have hd := mul_le_mul_of_nonneg_left (errs_down k) hx
  have hk0 : 0 ≤ x * (1 / 100 * k / 2 ^ 24) := by positivity
  rw [_root_.abs_le]
  constructor
  · have e : x * (101 / 100 * k / 2 ^ 24) = x * (k / 2 ^ 24) + x * (1 / 100 * k / 2 ^ 24) := by ring
    rw [e]
    linarith
  · linarith

end Trane.Float
