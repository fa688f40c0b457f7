import Mathlib.Analysis.SpecialFunctions.Pow.Real
import Mathlib.Data.Rat.Floor
import Mathlib.Tactic.Linarith
import Mathlib.Tactic.Positivity
import Mathlib.Tactic.FieldSimp
import Mathlib.Tactic.NormNum

/-!
# Intervals with rational ends

What is needed to compute with the real numbers of the scorers: each operation takes intervals that contain the arguments to an interval
that contains the result.  Used to replay the project's tests of the scorers (`Verif/Conform/Scorer.lean`).
-/

namespace Trane.Numeric

/-- An interval with rational ends. -/
structure Iv where
  lo : ℚ
  hi : ℚ
  deriving DecidableEq

/-- The real number lies in the interval. -/
def Iv.Has (I : Iv) (x : ℝ) : Prop := (I.lo : ℝ) ≤ x ∧ x ≤ (I.hi : ℝ)

def pt (q : ℚ) : Iv := ⟨q, q⟩

theorem has_pt (q : ℚ) : (pt q).Has (q : ℝ) := ⟨le_rfl, le_rfl⟩

def Iv.add (I J : Iv) : Iv := ⟨I.lo + J.lo, I.hi + J.hi⟩

theorem has_add {I J : Iv} {x y : ℝ} (hx : I.Has x) (hy : J.Has y) : (I.add J).Has (x + y) := by
  constructor
  · show ((I.lo + J.lo : ℚ) : ℝ) ≤ _
    push_cast; linarith [hx.1, hy.1]
  · show _ ≤ ((I.hi + J.hi : ℚ) : ℝ)
    push_cast; linarith [hx.2, hy.2]

def Iv.sub (I J : Iv) : Iv := ⟨I.lo - J.hi, I.hi - J.lo⟩

theorem has_sub {I J : Iv} {x y : ℝ} (hx : I.Has x) (hy : J.Has y) : (I.sub J).Has (x - y) := by
  constructor
  · show ((I.lo - J.hi : ℚ) : ℝ) ≤ _
    push_cast; linarith [hx.1, hy.2]
  · show _ ≤ ((I.hi - J.lo : ℚ) : ℝ)
    push_cast; linarith [hx.2, hy.1]

def Iv.mul (I J : Iv) : Iv :=
  ⟨min (min (I.lo * J.lo) (I.lo * J.hi)) (min (I.hi * J.lo) (I.hi * J.hi)),
   max (max (I.lo * J.lo) (I.lo * J.hi)) (max (I.hi * J.lo) (I.hi * J.hi))⟩

theorem mul_le_max {a b x y : ℝ} (h1 : a ≤ x) (h2 : x ≤ b) : x * y ≤ max (a * y) (b * y) := by
  rcases le_total 0 y with h | h
  · exact (mul_le_mul_of_nonneg_right h2 h).trans (le_max_right _ _)
  · exact (mul_le_mul_of_nonpos_right h1 h).trans (le_max_left _ _)

theorem min_le_mul {a b x y : ℝ} (h1 : a ≤ x) (h2 : x ≤ b) : min (a * y) (b * y) ≤ x * y := by
  rcases le_total 0 y with h | h
  · exact (min_le_left _ _).trans (mul_le_mul_of_nonneg_right h1 h)
  · exact (min_le_right _ _).trans (mul_le_mul_of_nonpos_right h2 h)

theorem has_mul {I J : Iv} {x y : ℝ} (hx : I.Has x) (hy : J.Has y) : (I.mul J).Has (x * y) := by
  constructor
  · show ((min (min (I.lo * J.lo) (I.lo * J.hi)) (min (I.hi * J.lo) (I.hi * J.hi)) : ℚ) : ℝ) ≤ _
    push_cast
    refine le_trans ?_ (min_le_mul hx.1 hx.2)
    have a := min_le_mul (y := (I.lo : ℝ)) hy.1 hy.2
    have b := min_le_mul (y := (I.hi : ℝ)) hy.1 hy.2
    rw [mul_comm _ (I.lo : ℝ), mul_comm _ (I.lo : ℝ), mul_comm _ (I.lo : ℝ)] at a
    rw [mul_comm _ (I.hi : ℝ), mul_comm _ (I.hi : ℝ), mul_comm _ (I.hi : ℝ)] at b
    exact min_le_min a b
  · show _ ≤ ((max (max (I.lo * J.lo) (I.lo * J.hi)) (max (I.hi * J.lo) (I.hi * J.hi)) : ℚ) : ℝ)
    push_cast
    refine le_trans (mul_le_max hx.1 hx.2) ?_
    have a := mul_le_max (y := (I.lo : ℝ)) hy.1 hy.2
    have b := mul_le_max (y := (I.hi : ℝ)) hy.1 hy.2
    rw [mul_comm _ (I.lo : ℝ), mul_comm _ (I.lo : ℝ), mul_comm _ (I.lo : ℝ)] at a
    rw [mul_comm _ (I.hi : ℝ), mul_comm _ (I.hi : ℝ), mul_comm _ (I.hi : ℝ)] at b
    exact max_le_max a b

/-- The quotient by an interval of positive numbers. -/
def Iv.div (I J : Iv) : Iv := I.mul ⟨1 / J.hi, 1 / J.lo⟩

theorem has_div {I J : Iv} {x y : ℝ} (hx : I.Has x) (hy : J.Has y) (hp : 0 < J.lo) : (I.div J).Has (x / y) := by
  have hp' : (0 : ℝ) < (J.lo : ℝ) := by exact_mod_cast hp
  have hy0 : 0 < y := lt_of_lt_of_le hp' hy.1
  rw [div_eq_mul_one_div]
  refine has_mul hx ⟨?_, ?_⟩
  · show ((1 / J.hi : ℚ) : ℝ) ≤ _
    push_cast
    exact one_div_le_one_div_of_le hy0 hy.2
  · show _ ≤ ((1 / J.lo : ℚ) : ℝ)
    push_cast
    exact one_div_le_one_div_of_le hp' hy.1

/-- A monotone function, given on rationals too. -/
def Iv.map (f : ℚ → ℚ) (I : Iv) : Iv := ⟨f I.lo, f I.hi⟩

theorem has_map {f : ℚ → ℚ} {g : ℝ → ℝ} (hfg : ∀ q : ℚ, ((f q : ℚ) : ℝ) = g q) (hm : Monotone g) {I : Iv} {x : ℝ} (hx : I.Has x) :
    (I.map f).Has (g x) := by
  constructor
  · show ((f I.lo : ℚ) : ℝ) ≤ _
    rw [hfg]; exact hm hx.1
  · show _ ≤ ((f I.hi : ℚ) : ℝ)
    rw [hfg]; exact hm hx.2

/-- Ends with a small denominator. -/
def Iv.round (I : Iv) : Iv := ⟨(⌊I.lo * 1000000000⌋ : ℚ) / 1000000000, (⌈I.hi * 1000000000⌉ : ℚ) / 1000000000⟩

theorem has_round {I : Iv} {x : ℝ} (hx : I.Has x) : I.round.Has x := by
  have h1 : (⌊I.lo * 1000000000⌋ : ℚ) / 1000000000 ≤ I.lo := by
    rw [div_le_iff₀ (by norm_num)]; exact Int.floor_le _
  have h2 : I.hi ≤ (⌈I.hi * 1000000000⌉ : ℚ) / 1000000000 := by
    rw [le_div_iff₀ (by norm_num)]; exact Int.le_ceil _
  constructor
  · exact le_trans (Rat.cast_le.2 h1) hx.1
  · exact hx.2.trans (Rat.cast_le.2 h2)

/-- The interval spanned by two. -/
def Iv.hull (I J : Iv) : Iv := ⟨min I.lo J.lo, max I.hi J.hi⟩

theorem has_hull_left {I J : Iv} {x : ℝ} (hx : I.Has x) : (I.hull J).Has x := by
  constructor
  · refine le_trans ?_ hx.1
    show ((min I.lo J.lo : ℚ) : ℝ) ≤ _
    exact_mod_cast min_le_left _ _
  · refine hx.2.trans ?_
    show _ ≤ ((max I.hi J.hi : ℚ) : ℝ)
    exact_mod_cast le_max_left _ _

theorem has_hull_right {I J : Iv} {x : ℝ} (hx : J.Has x) : (I.hull J).Has x := by
  constructor
  · refine le_trans ?_ hx.1
    show ((min I.lo J.lo : ℚ) : ℝ) ≤ _
    exact_mod_cast min_le_right _ _
  · refine hx.2.trans ?_
    show _ ≤ ((max I.hi J.hi : ℚ) : ℝ)
    exact_mod_cast le_max_right _ _

/-! ### Roots of numbers between 0 and 1 -/

/-- Halves the range from `lo` to `hi` as often as `fuel` says, keeping where `p` changes. -/
def bisect (p : ℕ → Bool) : ℕ → ℕ → ℕ → ℕ
  | 0, lo, _ => lo
  | n + 1, lo, hi => if p ((lo + hi) / 2) then bisect p n ((lo + hi) / 2) hi else bisect p n lo ((lo + hi) / 2)

/-- The largest number of billionths whose power is at most `y`, if the search is right; it is checked below. -/
def guess (y : ℚ) (q : ℕ) : ℕ :=
  let Y := ⌊y * (1000000000 : ℚ) ^ q⌋
  bisect (fun m => decide (((m ^ q : ℕ) : ℤ) ≤ Y)) 31 0 1000000001

/-- A number whose power is at most `y`. -/
def rootLo (y : ℚ) (q : ℕ) : ℚ := if ((guess y q : ℚ) / 1000000000) ^ q ≤ y then (guess y q : ℚ) / 1000000000 else 0

/-- A number whose power is at least `y`. -/
def rootHi (y : ℚ) (q : ℕ) : ℚ :=
  if y ≤ (((guess y q + 1 : ℕ) : ℚ) / 1000000000) ^ q then ((guess y q + 1 : ℕ) : ℚ) / 1000000000 else 1

theorem rootLo_nonneg (y : ℚ) (q : ℕ) : 0 ≤ rootLo y q := by
  unfold rootLo; split <;> positivity

theorem rootLo_le {y : ℚ} (hy : 0 ≤ y) {q : ℕ} (hq : q ≠ 0) : ((rootLo y q : ℚ) : ℝ) ≤ (y : ℝ) ^ ((1 : ℝ) / q) := by
  have hy' : (0 : ℝ) ≤ (y : ℝ) := by exact_mod_cast hy
  unfold rootLo
  split
  · rename_i h
    have h' : (((guess y q : ℚ) / 1000000000 : ℚ) : ℝ) ^ q ≤ (y : ℝ) := by exact_mod_cast h
    have h0 : (0 : ℝ) ≤ (((guess y q : ℚ) / 1000000000 : ℚ) : ℝ) := by
      have : (0 : ℚ) ≤ (guess y q : ℚ) / 1000000000 := by positivity
      exact_mod_cast this
    calc (((guess y q : ℚ) / 1000000000 : ℚ) : ℝ) = ((((guess y q : ℚ) / 1000000000 : ℚ) : ℝ) ^ q) ^ ((1 : ℝ) / q) := by
          rw [one_div, Real.pow_rpow_inv_natCast h0 hq]
      _ ≤ _ := Real.rpow_le_rpow (pow_nonneg h0 _) h' (by positivity)
  · simpa using Real.rpow_nonneg hy' _

theorem le_rootHi {y : ℚ} (hy : 0 ≤ y) (hy1 : y ≤ 1) {q : ℕ} (hq : q ≠ 0) : (y : ℝ) ^ ((1 : ℝ) / q) ≤ ((rootHi y q : ℚ) : ℝ) := by
  have hy' : (0 : ℝ) ≤ (y : ℝ) := by exact_mod_cast hy
  unfold rootHi
  have : ∀ r : ℚ, 0 ≤ r → y ≤ r ^ q → (y : ℝ) ^ ((1 : ℝ) / q) ≤ (r : ℝ) := by
    intro r hr h
    have h0 : (0 : ℝ) ≤ (r : ℝ) := by exact_mod_cast hr
    have h' : (y : ℝ) ≤ (r : ℝ) ^ q := by exact_mod_cast h
    calc (y : ℝ) ^ ((1 : ℝ) / q) ≤ ((r : ℝ) ^ q) ^ ((1 : ℝ) / q) := Real.rpow_le_rpow hy' h' (by positivity)
      _ = r := by rw [one_div, Real.pow_rpow_inv_natCast h0 hq]
  split
  · rename_i h
    exact this _ (by positivity) h
  · exact this 1 zero_le_one (by simpa using hy1)

theorem rpow_frac {b : ℝ} (hb : 0 ≤ b) (n q : ℕ) : b ^ ((n : ℝ) / q) = (b ^ n) ^ ((1 : ℝ) / q) := by
  rw [← Real.rpow_natCast b n, ← Real.rpow_mul hb]
  congr 1
  ring

/-- `b ^ (n / q)` for a number between 0 and 1. -/
def powI (b : ℚ) (n q : ℕ) : Iv := ⟨rootLo (b ^ n) q, rootHi (b ^ n) q⟩

theorem has_powI {b : ℚ} (hb : 0 ≤ b) (hb1 : b ≤ 1) (n : ℕ) {q : ℕ} (hq : q ≠ 0) : (powI b n q).Has ((b : ℝ) ^ ((n : ℝ) / q)) := by
  have hb' : (0 : ℝ) ≤ (b : ℝ) := by exact_mod_cast hb
  rw [rpow_frac hb', show ((b : ℝ) ^ n) = ((b ^ n : ℚ) : ℝ) by push_cast; rfl]
  exact ⟨rootLo_le (pow_nonneg hb n) hq, le_rootHi (pow_nonneg hb n) (pow_le_one₀ hb hb1) hq⟩

end Trane.Numeric
