import Verif.Float.WeightLemmas

/-! # The averages of the scorer in `f32` arithmetic, against the exact ones -/

namespace Trane.Float

open Trane.Scorer (satSub daysBetween Kind)

variable {powf : F → F → F}

theorem rep_big : Rep ((2 : ℝ) ^ 127) := by
  have := rep_mul (m := 1) (k := 127) (by norm_num)
  simpa using this

/-- Rounding of a number that is not large: the error relative to a bound of it. -/
theorem round_near_abs {y c : ℝ} (h : |y| ≤ c) (h1 : 1 / 2 ^ 40 ≤ c) (h2 : c ≤ 2 ^ 110) :
    ∃ z, F.round y = .num z ∧ |z - y| ≤ c / 2 ^ 24 := by
  refine ⟨rnd y, round_num (le_refl _) rep_big (h.trans (h2.trans (by norm_num))), ?_⟩
  refine (rnd_err y).trans (max_le ?_ ?_)
  · gcongr
  · have : (1 : ℝ) / 2 ^ 40 / 2 ^ 24 ≤ c / 2 ^ 24 := by gcongr
    exact le_trans (by norm_num) this

section avg
variable {α : Type} (w v : α → ℝ) (a : α → F)

/-- The machine's sums after some terms: `N` and `A` are the exact ones. -/
def AvgNear (i : ℕ) (N A : ℝ) (s : F × F) : Prop :=
  ∃ n d, s = (.num n, .num d) ∧ |N| ≤ 5 * A ∧ (A = 0 ∧ n = 0 ∧ d = 0 ∨ 1 / 10 ≤ A) ∧ A ≤ i ∧
    |n - N| ≤ (360 + 6 * i) / 2 ^ 24 * A ∧ |d - A| ≤ (70 + 2 * i) / 2 ^ 24 * A

theorem avgNear_step {i : ℕ} (hi : i < 20) {N A : ℝ} {s : F × F} (h : AvgNear i N A s) {w v : ℝ} {a : F}
    (hw : WeightNear w a) (hv : |v| ≤ 5) :
    AvgNear (i + 1) (N + w * v) (A + w) (F.add s.1 (F.mul a (.num v)), F.add s.2 a) := by
  obtain ⟨n, d, rfl, h1, h2, h3, h4, h5⟩ := h
  obtain ⟨w1, w2, z, rfl, hz⟩ := hw
  have hA0 : 0 ≤ A := by rcases h2 with ⟨h, -, -⟩ | h <;> linarith
  have hir : (i : ℝ) + 1 ≤ 20 := by exact_mod_cast hi
  have hi0 : (0 : ℝ) ≤ i := Nat.cast_nonneg i
  have hwpos : 0 < w := by linarith
  have hzv : |z * v - w * v| ≤ 350 / 2 ^ 24 * w := by
    rw [← sub_mul, abs_mul]
    have := mul_le_mul hz hv (abs_nonneg _) (by positivity)
    refine this.trans (le_of_eq ?_)
    ring
  have hwv : |w * v| ≤ 5 * w := by rw [abs_mul, abs_of_pos hwpos]; nlinarith
  have hzv5 : |z * v| ≤ 501 / 100 * w := by
    have e : z * v = (z * v - w * v) + w * v := by ring
    rw [e]
    refine (abs_add_le _ _).trans ?_
    have h6 : (350 : ℝ) / 2 ^ 24 * w ≤ 1 / 100 * w := mul_le_mul_of_nonneg_right (by norm_num) hwpos.le
    linarith
  obtain ⟨m, hm, hm1⟩ := round_near_abs hzv5 (by norm_num; linarith) (by norm_num; linarith)
  have hmv : |m - w * v| ≤ 356 / 2 ^ 24 * w := by
    have e : m - w * v = (m - z * v) + (z * v - w * v) := by ring
    rw [e]
    refine (abs_add_le _ _).trans ?_
    norm_num at hm1 hzv ⊢
    linarith
  have hk1 : 0 ≤ (6 * (i : ℝ)) / 2 ^ 24 * w := by positivity
  have hsum : |n + m - (N + w * v)| ≤ (360 + 6 * i) / 2 ^ 24 * (A + w) := by
    have e : n + m - (N + w * v) = (n - N) + (m - w * v) := by ring
    rw [e]
    refine (abs_add_le _ _).trans ?_
    have e2 : (360 + 6 * (i : ℝ)) / 2 ^ 24 * (A + w) =
        (360 + 6 * i) / 2 ^ 24 * A + (356 / 2 ^ 24 * w + 4 / 2 ^ 24 * w + (6 * i) / 2 ^ 24 * w) := by ring
    rw [e2]
    have : 0 ≤ (4 : ℝ) / 2 ^ 24 * w := by positivity
    linarith
  have hAw : 0 < A + w := by linarith
  have hNew : |N + w * v| ≤ 5 * (A + w) := (abs_add_le _ _).trans (by linarith)
  have hc1 : (360 + 6 * (i : ℝ)) / 2 ^ 24 * (A + w) ≤ 1 / 100 * (A + w) :=
    mul_le_mul_of_nonneg_right (by norm_num; linarith) hAw.le
  have hbig : |n + m| ≤ 501 / 100 * (A + w) := by
    have e : n + m = (n + m - (N + w * v)) + (N + w * v) := by ring
    rw [e]
    refine (abs_add_le _ _).trans ?_
    linarith
  obtain ⟨n', hn', hn1⟩ := round_near_abs hbig (by norm_num; linarith) (by norm_num; linarith)
  have hd : |d + z - (A + w)| ≤ (70 + 2 * i) / 2 ^ 24 * (A + w) := by
    have e : d + z - (A + w) = (d - A) + (z - w) := by ring
    rw [e]
    refine (abs_add_le _ _).trans ?_
    have e2 : (70 + 2 * (i : ℝ)) / 2 ^ 24 * (A + w) =
        (70 + 2 * i) / 2 ^ 24 * A + (70 / 2 ^ 24 * w + (2 * i) / 2 ^ 24 * w) := by ring
    rw [e2]
    have : 0 ≤ (2 * (i : ℝ)) / 2 ^ 24 * w := by positivity
    linarith
  have hc2 : (70 + 2 * (i : ℝ)) / 2 ^ 24 * (A + w) ≤ 1 / 100 * (A + w) :=
    mul_le_mul_of_nonneg_right (by norm_num; linarith) hAw.le
  have hbig2 : |d + z| ≤ 101 / 100 * (A + w) := by
    have e : d + z = (d + z - (A + w)) + (A + w) := by ring
    rw [e]
    refine (abs_add_le _ _).trans ?_
    rw [abs_of_pos hAw]
    linarith
  obtain ⟨d', hd', hd1⟩ := round_near_abs hbig2 (by norm_num; linarith) (by norm_num; linarith)
  refine ⟨n', d', ?_, hNew, Or.inr (by linarith), by push_cast; linarith, ?_, ?_⟩
  · have e1 : F.mul (.num z) (.num v) = .num m := hm
    have e2 : F.add (.num n) (.num m) = .num n' := hn'
    have e3 : F.add (.num d) (.num z) = .num d' := hd'
    simp only [e1, e2, e3]
  · have e : n' - (N + w * v) = (n' - (n + m)) + (n + m - (N + w * v)) := by ring
    rw [e]
    refine (abs_add_le _ _).trans ?_
    push_cast
    have e2 : (360 + 6 * ((i : ℝ) + 1)) / 2 ^ 24 * (A + w) =
        6 / 2 ^ 24 * (A + w) + (360 + 6 * i) / 2 ^ 24 * (A + w) := by ring
    rw [e2]
    have : 501 / 100 * (A + w) / 2 ^ 24 ≤ 6 / 2 ^ 24 * (A + w) := by norm_num; linarith
    linarith
  · have e : d' - (A + w) = (d' - (d + z)) + (d + z - (A + w)) := by ring
    rw [e]
    refine (abs_add_le _ _).trans ?_
    push_cast
    have e2 : (70 + 2 * ((i : ℝ) + 1)) / 2 ^ 24 * (A + w) =
        2 / 2 ^ 24 * (A + w) + (70 + 2 * i) / 2 ^ 24 * (A + w) := by ring
    rw [e2]
    have : 101 / 100 * (A + w) / 2 ^ 24 ≤ 2 / 2 ^ 24 * (A + w) := by norm_num; linarith
    linarith

theorem avgNear_fold (l : List α) (hw : ∀ x ∈ l, WeightNear (w x) (a x)) (hv : ∀ x ∈ l, |v x| ≤ 5) {i : ℕ}
    (hi : i + l.length ≤ 20) {N A : ℝ} {s : F × F} (h : AvgNear i N A s) :
    AvgNear (i + l.length)
      ((l.map (fun x => (w x, v x))).foldl (fun s p => (exact.add s.1 (exact.mul p.1 p.2), exact.add s.2 p.1)) (N, A)).1
      ((l.map (fun x => (w x, v x))).foldl (fun s p => (exact.add s.1 (exact.mul p.1 p.2), exact.add s.2 p.1)) (N, A)).2
      ((l.map (fun x => (a x, F.num (v x)))).foldl
        (fun s p => ((f32 powf).add s.1 ((f32 powf).mul p.1 p.2), (f32 powf).add s.2 p.1)) s) := by
  induction l generalizing i N A s with
  | nil => simpa using h
  | cons x l ih =>
    simp only [List.length_cons] at hi
    have h1 := avgNear_step (by omega) h (hw x (by simp)) (hv x (by simp))
    have h2 := ih (fun y hy => hw y (by simp [hy])) (fun y hy => hv y (by simp [hy])) (by omega) h1
    simp only [List.length_cons, List.map_cons, List.foldl_cons]
    rw [show i + (l.length + 1) = i + 1 + l.length by omega]
    exact h2

/-- An average of at most twenty numbers: exactly at most 5, and in `f32` close to it. -/
theorem gAvg_close (l : List α) (hl : l ≠ []) (hl20 : l.length ≤ 20) (hw : ∀ x ∈ l, WeightNear (w x) (a x))
    (hv : ∀ x ∈ l, |v x| ≤ 5) :
    |gAvg exact (l.map (fun x => (w x, v x)))| ≤ 5 ∧
    ∃ z, gAvg (f32 powf) (l.map (fun x => (a x, F.num (v x)))) = .num z ∧
      |z - gAvg exact (l.map (fun x => (w x, v x)))| ≤ 1040 / 2 ^ 24 := by
  have h := avgNear_fold (powf := powf) w v a l hw hv (i := 0) (by omega) (N := 0) (A := 0)
    (s := ((f32 powf).lit 0, (f32 powf).lit 0)) ⟨0, 0, by rw [lit0], by simp, Or.inl ⟨rfl, rfl, rfl⟩, by simp,
      by simp, by simp⟩
  have hz : (exact.lit 0 : ℝ) = 0 := by simp [exact]
  obtain ⟨n, d, hs, h1, h2, h3, h4, h5⟩ := h
  rw [Nat.zero_add] at h3 h4 h5
  unfold gAvg
  rw [hs, hz]
  have hpos : 0 < ((l.map (fun x => (w x, v x))).foldl
      (fun s p => (exact.add s.1 (exact.mul p.1 p.2), exact.add s.2 p.1)) (0, 0)).2 := by
    clear hs h1 h2 h3 h4 h5
    have key : ∀ (l : List α), (∀ x ∈ l, WeightNear (w x) (a x)) → ∀ s : ℝ × ℝ,
        s.2 ≤ ((l.map (fun x => (w x, v x))).foldl
          (fun s p => (exact.add s.1 (exact.mul p.1 p.2), exact.add s.2 p.1)) s).2 := by
      intro l
      induction l with
      | nil => intro _ s; simp
      | cons x l ih =>
        intro hw s
        simp only [List.map_cons, List.foldl_cons]
        refine le_trans ?_ (ih (fun y hy => hw y (by simp [hy])) _)
        have := (hw x (by simp)).1
        show s.2 ≤ s.2 + w x
        linarith
    cases l with
    | nil => exact absurd rfl hl
    | cons x l =>
      simp only [List.map_cons, List.foldl_cons]
      refine lt_of_lt_of_le ?_ (key l (fun y hy => hw y (by simp [hy])) _)
      have := (hw x (by simp)).1
      show (0 : ℝ) < 0 + w x
      linarith
  generalize (l.map (fun x => (w x, v x))).foldl
      (fun s p => (exact.add s.1 (exact.mul p.1 p.2), exact.add s.2 p.1)) (0, 0) = NA at *
  obtain ⟨N, A⟩ := NA
  dsimp only at *
  have hA : 1 / 10 ≤ A := by
    rcases h2 with ⟨h, -, -⟩ | h
    · exact absurd h hpos.ne'
    · exact h
  have hn20 : (l.length : ℝ) ≤ 20 := by exact_mod_cast hl20
  have hn0 : (0 : ℝ) ≤ l.length := Nat.cast_nonneg _
  have h4' : |n - N| ≤ 480 / 2 ^ 24 * A := h4.trans (mul_le_mul_of_nonneg_right (by norm_num; linarith) hpos.le)
  have h5' : |d - A| ≤ 110 / 2 ^ 24 * A := h5.trans (mul_le_mul_of_nonneg_right (by norm_num; linarith) hpos.le)
  have hq : |N / A| ≤ 5 := by rw [abs_div, abs_of_pos hpos, div_le_iff₀ hpos]; exact h1
  have hd : 999 / 1000 * A ≤ d := by
    have := (abs_le.1 h5').1
    norm_num at this ⊢
    linarith
  have hdpos : 0 < d := lt_of_lt_of_le (by positivity) hd
  have hquot : |n / d - N / A| ≤ 1033 / 2 ^ 24 := by
    have e : n / d - N / A = ((n - N) - N / A * (d - A)) / d := by field_simp; ring
    rw [e, abs_div, abs_of_pos hdpos, div_le_iff₀ hdpos]
    have h6 : |(n - N) - N / A * (d - A)| ≤ |n - N| + |N / A| * |d - A| := by
      rw [← abs_mul]; exact abs_sub _ _
    have h7 : |N / A| * |d - A| ≤ 5 * (110 / 2 ^ 24 * A) := mul_le_mul hq h5' (abs_nonneg _) (by norm_num)
    refine h6.trans ?_
    norm_num at h4' h7 ⊢
    linarith
  have hnd : |n / d| ≤ 6 := by
    have e : n / d = (n / d - N / A) + N / A := by ring
    rw [e]
    refine (abs_add_le _ _).trans ?_
    norm_num at hquot ⊢
    linarith
  obtain ⟨z, hz, hz1⟩ := round_near_abs hnd (by norm_num) (by norm_num)
  refine ⟨hq, z, ?_, ?_⟩
  · show (if d = 0 then _ else F.round (n / d)) = _
    rw [if_neg hdpos.ne', hz]
  · show |z - N / A| ≤ _
    have e : z - N / A = (z - n / d) + (n / d - N / A) := by ring
    rw [e]
    refine (abs_add_le _ _).trans ?_
    norm_num at hz1 hquot ⊢
    linarith

end avg

theorem max_zero_num {x : ℝ} (h : 0 ≤ x) : F.max (.num x) (.num 0) = .num x := by
  show (if decide (x < 0) = true then F.num 0 else F.num x) = _
  simp [not_lt.2 h]

theorem timeWeight_near (hp : Faithful powf) {a b : ℤ} (h : b ≤ a) :
    WeightNear (gTimeWeight exact a b) (gTimeWeight (f32 powf) a b) := by
  obtain ⟨h1, h2, h3⟩ := gDays_app (powf := powf) h
  have h0 : 0 ≤ daysBetween a b := h2.nonneg (by norm_num)
  have hlo : Fine (daysBetween a b / 7) := by
    rcases h2 with h2 | h2
    · exact Or.inl (by rw [h2]; simp)
    · refine Or.inr ⟨?_, ?_⟩
      · rw [le_div_iff₀ (by norm_num)]; exact le_trans (by norm_num) h2
      · rw [div_le_iff₀ (by norm_num)]; exact h3.trans (by norm_num)
  have h4 := h1.div_num (by norm_num) (c := 7) (by norm_num) hlo
  have hx0 : 0 ≤ daysBetween a b / 7 := by positivity
  have hy0 : ∀ y, F.div (gDays (f32 powf) a b) (.num 7) = .num y → 0 ≤ y := by
    intro y hy
    obtain ⟨y', hy', hl, -⟩ := h4
    rw [hy] at hy'
    cases hy'
    exact le_trans (mul_nonneg hx0 (pow_nonneg (by norm_num) _)) hl
  obtain ⟨y, hy, hyn⟩ := h4.abs_le (by norm_num) hx0
  have e1 : gTimeWeight exact a b = max ((95 / 100 : ℝ) ^ (daysBetween a b / 7)) (1 / 10) := by
    unfold gTimeWeight
    rw [gDays_exact]
    simp [exact, max_eq_left hx0]
  have h7 : (f32 powf).lit 7 = .num 7 := by
    have := lit_nat (powf := powf) 7 (by norm_num)
    simpa using this
  have e2 : gTimeWeight (f32 powf) a b =
      F.max (powf ((f32 powf).lit (95 / 100)) (.num y)) ((f32 powf).lit (1 / 10)) := by
    unfold gTimeWeight
    rw [h7, lit0]
    show F.max (powf _ (F.max (F.div _ _) _)) _ = _
    rw [hy, max_zero_num (hy0 y hy)]
  rw [e1, e2]
  refine weight_near hp hx0 (hy0 y hy) (hyn.trans ?_)
  rw [mul_comm]
  exact mul_le_mul_of_nonneg_right (by norm_num) hx0

theorem posWeight_near (hp : Faithful powf) {i : ℕ} (hi : i ≤ 20) :
    WeightNear (gPosWeight exact i) (gPosWeight (f32 powf) i) := by
  have hn : (f32 powf).ofInt (i : ℤ) = .num (i : ℝ) := by
    show F.round _ = _
    rw [round_bd (bd_int (i : ℤ) rfl (by rw [abs_of_nonneg (by omega)]; omega))]
    simp
  have e1 : gPosWeight exact i = max ((95 / 100 : ℝ) ^ (i : ℝ)) (1 / 10) := by
    unfold gPosWeight
    simp [exact]
  unfold gPosWeight at e1 ⊢
  rw [hn, e1]
  exact weight_near hp (Nat.cast_nonneg i) (Nat.cast_nonneg i) (by simp)

/-- No time has passed since the newest trial. -/
theorem days_zero {now t : ℤ} (h : now ≤ t) :
    (f32 powf).max (gDays (f32 powf) now t) ((f32 powf).lit 0) = .num 0 := by
  have h1 : satSub now t ≤ 0 := by unfold satSub; omega
  have h2 : -(2 : ℤ) ^ 63 ≤ satSub now t := by unfold satSub; omega
  obtain ⟨z, hz, -, hz1, hz0⟩ : In (-2 ^ 63) 0 ((f32 powf).ofInt (satSub now t)) :=
    ofInt_in powf (Bd.neg (bd_mul 1 63 (by norm_num) (by norm_num) (by norm_num))) bd_zero
      (by exact_mod_cast h2) (by exact_mod_cast h1)
  have h3 : (f32 powf).lit 86400 = .num 86400 := by
    have := lit_nat (powf := powf) 86400 (by norm_num)
    simpa using this
  have hd : gDays (f32 powf) now t = F.round (z / 86400) := by
    unfold gDays
    rw [hz, h3]
    show (if (86400 : ℝ) = 0 then _ else F.round (z / 86400)) = _
    rw [if_neg (by norm_num)]
  obtain ⟨y, hy, -, -, hy0⟩ : In (-2 ^ 63) 0 (F.round (z / 86400)) :=
    round_in (Bd.neg (bd_mul 1 63 (by norm_num) (by norm_num) (by norm_num))) bd_zero
      (by rw [le_div_iff₀ (by norm_num)]; linarith)
      (by rw [div_le_iff₀ (by norm_num)]; linarith)
  rw [hd, hy, lit0]
  show (if decide (y < 0) = true then F.num 0 else F.num y) = _
  by_cases hc : y < 0
  · simp [hc]
  · have : y = 0 := le_antisymm hy0 (not_lt.1 hc)
    simp [this]

/-- Then nothing is forgotten. -/
theorem retr_zero (hp : Faithful powf) (k : Kind) {st : F} (hs : In (1 / 2) 730 st) :
    gRetrievability (f32 powf) k (.num 0) st = .num 1 := by
  obtain ⟨c, hc, -⟩ := gCurveFactor_in hp k
  obtain ⟨y, hy, -⟩ := gCurveDecay_in (powf := powf) k
  obtain ⟨q, rfl, -, hq, -⟩ := hs
  have e1 : (f32 powf).mul (.num c) (.num 0) = .num 0 := by
    show F.round (c * 0) = _
    rw [mul_zero]; exact round_bd bd_zero
  have e2 : (f32 powf).div (.num 0) (.num q) = .num 0 := by
    show (if q = 0 then _ else F.round (0 / q)) = _
    rw [if_neg (by linarith), zero_div]; exact round_bd bd_zero
  have e3 : (f32 powf).add (.num 1) (.num 0) = .num 1 := by
    show F.round (1 + 0) = _
    rw [add_zero]; exact round_bd bd_one
  have e4 : (f32 powf).powf (.num 1) (.num y) = .num 1 := by
    obtain ⟨z, hz, -, H⟩ := hp 1 y (by norm_num) (by rw [Real.one_rpow]; norm_num)
    rw [Real.one_rpow] at H
    have h := H 1 rep_one
    show powf _ _ = _
    rw [hz, le_antisymm (h.2 le_rfl) (h.1 le_rfl)]
  unfold gRetrievability
  rw [hc, hy, lit1, e1, e2, e3, e4, lit0]
  simp [Arith.clamp, f32, F.lt]

theorem clamp_num_val {z lo hi : ℝ} : (f32 powf).clamp (.num z) (.num lo) (.num hi) = .num (Scorer.clamp z lo hi) := by
  unfold Scorer.clamp
  by_cases h : z < lo
  · simp [Arith.clamp, f32, F.lt, h]
  · by_cases h2 : hi < z
    · simp [Arith.clamp, f32, F.lt, h, h2]
    · simp [Arith.clamp, f32, F.lt, h, h2]

theorem clamp_close (x y : ℝ) : |Scorer.clamp x 0 5 - Scorer.clamp y 0 5| ≤ |x - y| := by
  have h : ∀ x, Scorer.clamp x 0 5 = max 0 (min 5 x) := by
    intro x
    unfold Scorer.clamp
    by_cases h1 : x < 0
    · rw [if_pos h1, max_eq_left (le_trans (min_le_right _ _) h1.le)]
    · by_cases h2 : x > 5
      · rw [if_neg h1, if_pos h2, min_eq_left h2.le, max_eq_right (by norm_num)]
      · rw [if_neg h1, if_neg h2, min_eq_right (not_lt.1 h2), max_eq_right (not_lt.1 h1)]
  rw [h, h]
  refine (abs_max_sub_max_le_max _ _ _ _).trans (max_le (by simp) ?_)
  exact (abs_min_sub_min_le_max _ _ _ _).trans (max_le (by simp) le_rfl)

end Trane.Float
