import Mathlib.Data.Real.Archimedean
import Mathlib.Algebra.Order.BigOperators.Group.List
import Mathlib.Tactic.Linarith
import Mathlib.Tactic.Positivity
import Mathlib.Tactic.NormNum
import Mathlib.Tactic.Ring
import Mathlib.Tactic.FieldSimp

/-!
# How far errors of the sums move the slope of a line

Facts on real numbers used for the velocity in `f32`: the sums of at most twenty trials, with grades from 1
to 5 and days from 0 to `T`.
-/

namespace Trane.Float.Slope

variable {α : Type} (f g : α → ℝ) (l : List α)

/-- A sum of squares, expanded. -/
theorem sq_lin (a b c : ℝ) : (l.map (fun x => (a * g x + b * f x + c) ^ 2)).sum =
    a ^ 2 * (l.map (fun x => g x * g x)).sum + b ^ 2 * (l.map (fun x => f x * f x)).sum
      + l.length * c ^ 2 + 2 * a * b * (l.map (fun x => f x * g x)).sum
      + 2 * a * c * (l.map g).sum + 2 * b * c * (l.map f).sum := by
  induction l with
  | nil => simp
  | cons x l ih =>
    simp only [List.map_cons, List.sum_cons, List.length_cons, ih]
    push_cast
    ring

theorem sq_nonneg_sum (h : α → ℝ) : 0 ≤ (l.map (fun x => (h x) ^ 2)).sum := by
  apply List.sum_nonneg
  intro y hy
  obtain ⟨x, _, rfl⟩ := List.mem_map.1 hy
  exact sq_nonneg _

theorem sum_mono {h k : α → ℝ} (H : ∀ x ∈ l, h x ≤ k x) : (l.map h).sum ≤ (l.map k).sum := by
  induction l with
  | nil => simp
  | cons x l ih =>
    simp only [List.map_cons, List.sum_cons]
    exact add_le_add (H x (by simp)) (ih (fun y hy => H y (by simp [hy])))

theorem sum_const_mul (h : α → ℝ) (c : ℝ) : (l.map (fun x => c * h x)).sum = c * (l.map h).sum := by
  induction l with
  | nil => simp
  | cons x l ih => simp only [List.map_cons, List.sum_cons, ih]; ring

theorem sum_const (c : ℝ) : (l.map (fun _ => c)).sum = l.length * c := by
  induction l with
  | nil => simp
  | cons x l ih =>
    simp only [List.map_cons, List.sum_cons, List.length_cons, ih]
    push_cast
    ring

/-- Cauchy–Schwarz for the numerator. -/
theorem numerator_sq (hl : l ≠ []) {D N E : ℝ}
    (hD : D = l.length * (l.map (fun x => f x * f x)).sum - (l.map f).sum * (l.map f).sum)
    (hN : N = l.length * (l.map (fun x => f x * g x)).sum - (l.map f).sum * (l.map g).sum)
    (hE : E = l.length * (l.map (fun x => g x * g x)).sum - (l.map g).sum * (l.map g).sum)
    (h : 0 < D) : N ^ 2 ≤ D * E := by
  have hn : (0 : ℝ) < l.length := by exact_mod_cast List.length_pos_of_ne_nil hl
  have h1 := sq_nonneg_sum l (fun x => D * l.length * g x + -(N * l.length) * f x
    + (N * (l.map f).sum - D * (l.map g).sum))
  rw [sq_lin] at h1
  have h2 : 0 ≤ l.length * (D * (D * E - N ^ 2)) := by
    refine le_of_le_of_eq h1 ?_
    have e : l.length * (D * (D * E - N ^ 2)) = l.length * (D ^ 2 * E + N ^ 2 * D - 2 * D * N * N) := by ring
    rw [e]
    generalize hp : (l.map f).sum = P at *
    generalize hs : (l.map g).sum = S at *
    generalize hq : (l.map (fun x => f x * f x)).sum = Q at *
    generalize hx : (l.map (fun x => f x * g x)).sum = X at *
    generalize hw : (l.map (fun x => g x * g x)).sum = W at *
    have e1 : D ^ 2 * E = D ^ 2 * (l.length * W - S * S) := by rw [hE]
    have e2 : N ^ 2 * D = N ^ 2 * (l.length * Q - P * P) := by rw [← hD]
    have e3 : 2 * D * N * N = 2 * D * N * (l.length * X - P * S) := by rw [← hN]
    rw [e1, e2, e3]
    ring
  have h3 := nonneg_of_mul_nonneg_right h2 hn
  have h4 := nonneg_of_mul_nonneg_right h3 h
  linarith

/-- The spread of grades from 1 to 5. -/
theorem grades_spread (hg : ∀ x ∈ l, 1 ≤ g x ∧ g x ≤ 5) :
    l.length * (l.map (fun x => g x * g x)).sum - (l.map g).sum * (l.map g).sum ≤ 4 * (l.length : ℝ) ^ 2 := by
  have h1 : (l.map (fun x => g x * g x)).sum ≤ 6 * (l.map g).sum - 5 * l.length := by
    induction l with
    | nil => simp
    | cons x l ih =>
      simp only [List.map_cons, List.sum_cons, List.length_cons]
      have := ih (fun y hy => hg y (by simp [hy]))
      have h := hg x (by simp)
      push_cast
      nlinarith [mul_nonneg (sub_nonneg.2 h.1) (sub_nonneg.2 h.2)]
  have hn : (0 : ℝ) ≤ l.length := Nat.cast_nonneg _
  have h2 := mul_le_mul_of_nonneg_left h1 hn
  nlinarith [sq_nonneg ((l.map g).sum - 3 * l.length)]

/-- The spread of the days, from the newest and the oldest trial alone. -/
theorem days_spread (a b : α) (m : List α) (T : ℝ) (ha : f a = T) (hb : f b = 0)
    (hl : l = a :: (m ++ [b])) : l.length * T ^ 2 / 2 ≤
      l.length * (l.map (fun x => f x * f x)).sum - (l.map f).sum * (l.map f).sum := by
  have hn : (0 : ℝ) < l.length := by rw [hl]; simp; positivity
  have h1 := sq_lin f (fun _ => 0) l 0 l.length (-(l.map f).sum)
  have h2 : (T * l.length - (l.map f).sum) ^ 2 + (l.map f).sum ^ 2 ≤
      (l.map (fun x => (0 * 0 + l.length * f x + -(l.map f).sum) ^ 2)).sum := by
    generalize (l.map f).sum = P
    generalize (l.length : ℝ) = n
    have h3 := sq_nonneg_sum m (fun x => 0 * 0 + n * f x + -P)
    rw [hl]
    simp only [List.map_cons, List.map_append, List.sum_cons, List.sum_append, List.map_nil, List.sum_nil,
      ha, hb]
    nlinarith
  rw [h1] at h2
  have h4 : l.length * (l.length * T ^ 2 / 2) ≤ l.length *
      (l.length * (l.map (fun x => f x * f x)).sum - (l.map f).sum * (l.map f).sum) := by
    nlinarith [sq_nonneg (T * l.length - 2 * (l.map f).sum)]
  exact le_of_mul_le_mul_left h4 hn

/-- The error of the quotient. -/
theorem quotient_err {n T D N Nc Dc A B η : ℝ} (hn0 : 1 ≤ n) (hn : n ≤ 20) (hT : 0 < T)
    (hη0 : 0 ≤ η) (hη : η ≤ 56 / 2 ^ 24) (hD : n * T ^ 2 / 2 ≤ D) (hN2 : N ^ 2 ≤ D * (4 * n ^ 2))
    (hA : A ≤ 10 * n ^ 2 * T) (hB : B ≤ 2 * n ^ 2 * T ^ 2)
    (h1 : |Nc - N| ≤ η * A) (h2 : |Dc - D| ≤ η * B) :
    999 / 1000 * D ≤ Dc ∧ |N / D| * T ≤ 13 ∧ |Nc / Dc - N / D| * T ≤ 49 / 10000 := by
  have hDpos : 0 < D := lt_of_lt_of_le (by positivity) hD
  have hnη : n * η ≤ 20 * (56 / 2 ^ 24) := mul_le_mul hn hη hη0 (by norm_num)
  have hnη0 : 0 ≤ n * η := by positivity
  have h2' : |Dc - D| ≤ 4 * (n * η) * D := by
    have : η * B ≤ η * (2 * n ^ 2 * T ^ 2) := mul_le_mul_of_nonneg_left hB hη0
    have h3 : 4 * (n * η) * (n * T ^ 2 / 2) ≤ 4 * (n * η) * D :=
      mul_le_mul_of_nonneg_left hD (by positivity)
    nlinarith
  have h1' : |Nc - N| * T ≤ 20 * (n * η) * D := by
    have : |Nc - N| ≤ η * (10 * n ^ 2 * T) := h1.trans (mul_le_mul_of_nonneg_left hA hη0)
    have h4 := mul_le_mul_of_nonneg_right this hT.le
    have h3 : 20 * (n * η) * (n * T ^ 2 / 2) ≤ 20 * (n * η) * D :=
      mul_le_mul_of_nonneg_left hD (by positivity)
    nlinarith
  have hDc : 999 / 1000 * D ≤ Dc := by
    have h3 := (abs_le.1 h2').1
    have h5 : 4 * (n * η) * D ≤ 1 / 1000 * D :=
      mul_le_mul_of_nonneg_right (by norm_num at hnη ⊢; linarith) hDpos.le
    linarith
  have hDcpos : 0 < Dc := lt_of_lt_of_le (by positivity) hDc
  have hv : |N / D| * T ≤ 13 := by
    apply abs_le_of_sq_le_sq' _ (by norm_num) |>.2
    rw [mul_pow, sq_abs, div_pow, div_mul_eq_mul_div, div_le_iff₀ (by positivity)]
    have h6 : N ^ 2 * T ^ 2 ≤ D * (4 * n ^ 2) * T ^ 2 := mul_le_mul_of_nonneg_right hN2 (by positivity)
    have h7 : 8 * n * (n * T ^ 2 / 2) ≤ 8 * n * D := mul_le_mul_of_nonneg_left hD (by positivity)
    have h8 : D * (4 * n ^ 2 * T ^ 2) ≤ D * (160 * D) := by
      apply mul_le_mul_of_nonneg_left _ hDpos.le
      nlinarith
    nlinarith
  refine ⟨hDc, hv, ?_⟩
  have e : Nc / Dc - N / D = ((Nc - N) - N / D * (Dc - D)) / Dc := by field_simp; ring
  rw [e, abs_div, abs_of_pos hDcpos, div_mul_eq_mul_div, div_le_iff₀ hDcpos]
  have h9 : |(Nc - N) - N / D * (Dc - D)| ≤ |Nc - N| + |N / D| * |Dc - D| := by
    rw [← abs_mul]; exact abs_sub _ _
  have h10 : |N / D| * T * |Dc - D| ≤ 13 * (4 * (n * η) * D) :=
    mul_le_mul hv h2' (abs_nonneg _) (by norm_num)
  have h11 : |(Nc - N) - N / D * (Dc - D)| * T ≤ 72 * (n * η) * D := by
    have := mul_le_mul_of_nonneg_right h9 hT.le
    nlinarith
  have h12 : 72 * (n * η) * D ≤ 72 * (20 * (56 / 2 ^ 24)) * D :=
    mul_le_mul_of_nonneg_right (by linarith) hDpos.le
  refine h11.trans (h12.trans ?_)
  norm_num
  linarith

end Trane.Float.Slope
