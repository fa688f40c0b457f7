import Verif.Float.RecallLemmas

/-! # Stability in `f32` arithmetic, against the exact one, for histories without failures -/

namespace Trane.Float

open Trane.Scorer (satSub daysBetween Kind curveDecay curveFactor retrievability spacingGain stabilityStep
  updateDifficulty)

variable {powf : F → F → F}

/-! ## The exact formula -/

/-- More stability in proportion does not make recall more than proportionally better. -/
theorem retr_scale (k : Kind) {d S T : ℝ} (hd : 0 ≤ d) (hS : 0 < S) (h : S ≤ T) :
    retrievability k d S ≤ retrievability k d T ∧
      retrievability k d T ≤ T / S * retrievability k d S := by
  have hT : 0 < T := hS.trans_le h
  refine ⟨Scorer.retr_mono k hd le_rfl hS h, ?_⟩
  rw [Scorer.retr_eq k hd hS, Scorer.retr_eq k hd hT]
  have hf := Scorer.factor_pos k
  have hA : 1 / 5 ≤ -curveDecay k ∧ -curveDecay k ≤ 2 / 5 := by cases k <;> norm_num [curveDecay]
  set f := curveFactor k
  set a := curveDecay k
  have hx : 0 < 1 + f * d / S := by positivity
  have h1 : S / T * (1 + f * d / S) ≤ 1 + f * d / T := by
    have e : S / T * (1 + f * d / S) = S / T + f * d / T := by field_simp
    rw [e]
    have : S / T ≤ 1 := (div_le_one hT).2 h
    linarith
  have hST : 0 < S / T := by positivity
  have h2 : (1 + f * d / T) ^ a ≤ (S / T * (1 + f * d / S)) ^ a :=
    Real.rpow_le_rpow_of_nonpos (by positivity) h1 (by linarith)
  rw [Real.mul_rpow hST.le hx.le] at h2
  refine h2.trans (mul_le_mul_of_nonneg_right ?_ (Real.rpow_pos_of_pos hx a).le)
  have h3 : (S / T) ^ a = (T / S) ^ (-a) := by
    rw [Real.rpow_neg (by positivity), ← Real.inv_rpow (by positivity), inv_div]
  rw [h3]
  have h4 : (1 : ℝ) ≤ T / S := (one_le_div hS).2 h
  calc (T / S) ^ (-a) ≤ (T / S) ^ (1 : ℝ) := Real.rpow_le_rpow_of_exponent_le h4 (by linarith)
    _ = T / S := Real.rpow_one _

/-- A stability grows in proportion or less, and a larger one stays larger. -/
theorem grow_scale {c S T x y : ℝ} (hc : 0 ≤ c) (hS : 0 < S) (h : S ≤ T) (hT : T ≤ 3 / 2 * S)
    (hx1 : x ≤ 1) (hxy : x ≤ y) (hyx : y ≤ T / S * x) :
    S * (1 + c * (1 + 65 / 100 * (1 - x))) ≤ T * (1 + c * (1 + 65 / 100 * (1 - y))) ∧
      T * (1 + c * (1 + 65 / 100 * (1 - y))) ≤ T / S * (S * (1 + c * (1 + 65 / 100 * (1 - x)))) := by
  have hT0 : 0 < T := hS.trans_le h
  constructor
  · have h1 : y - x ≤ T / S - 1 := by
      have h4 : 0 ≤ T / S - 1 := sub_nonneg.2 ((one_le_div hS).2 h)
      have : (T / S - 1) * x ≤ (T / S - 1) * 1 := mul_le_mul_of_nonneg_left hx1 h4
      linarith
    have h2 : S * (y - x) ≤ T - S := by
      have := mul_le_mul_of_nonneg_left h1 hS.le
      have e : S * (T / S - 1) = T - S := by field_simp
      rwa [e] at this
    have h3 : T * (y - x) ≤ 3 / 2 * (T - S) := by
      have := mul_le_mul_of_nonneg_right hT (sub_nonneg.2 hxy)
      linarith
    have h5 : 0 ≤ (T - S) * (1 - x) := mul_nonneg (by linarith) (by linarith)
    have h6 : 0 ≤ c * ((T - S) + 65 / 100 * ((T - S) * (1 - x)) - 65 / 100 * (T * (y - x))) :=
      mul_nonneg hc (by linarith)
    nlinarith
  · have e : T / S * (S * (1 + c * (1 + 65 / 100 * (1 - x)))) = T * (1 + c * (1 + 65 / 100 * (1 - x))) := by
      field_simp
    rw [e]
    refine mul_le_mul_of_nonneg_left ?_ hT0.le
    have : c * y ≥ c * x := mul_le_mul_of_nonneg_left hxy hc
    linarith

theorem clamp_eq (x : ℝ) {lo hi : ℝ} (h : lo ≤ hi) : Scorer.clamp x lo hi = max lo (min hi x) := by
  unfold Scorer.clamp
  by_cases h1 : x < lo
  · rw [if_pos h1, max_eq_left (le_trans (min_le_right _ _) h1.le)]
  · by_cases h2 : x > hi
    · rw [if_neg h1, if_pos h2, min_eq_left h2.le, max_eq_right h]
    · rw [if_neg h1, if_neg h2, min_eq_right (not_lt.1 h2), max_eq_right (not_lt.1 h1)]

/-- Bounds do not make relative errors larger. -/
theorem clamp_rel {x y c : ℝ} {lo hi : ℝ} (hlo : 0 < lo) (h : lo ≤ hi) (hc : 1 ≤ c) (hxy : y ≤ c * x) :
    Scorer.clamp y lo hi ≤ c * Scorer.clamp x lo hi := by
  rw [clamp_eq _ h, clamp_eq _ h]
  have hc0 : 0 ≤ c := by linarith
  rw [mul_max_of_nonneg _ _ hc0, mul_min_of_nonneg _ _ hc0]
  have h1 : lo ≤ c * lo := le_mul_of_one_le_left hlo.le hc
  have h2 : hi ≤ c * hi := le_mul_of_one_le_left (hlo.le.trans h) hc
  exact max_le_max h1 (min_le_min h2 hxy)

/-- The growth that a passing grade brings. -/
noncomputable def push (s D d : ℝ) : ℝ := 5 / 2 * ((s - 1) / 4 - 1 / 2) * ((11 - D) / 5) * min d 1

theorem step_shape (k : Kind) (S D s d : ℝ) (hs : 3 ≤ s) :
    stabilityStep k S D s d = Scorer.clamp (S * (1 + push s D d * (1 + 65 / 100 * (1 - retrievability k d S))))
      (1 / 2) 730 := by
  unfold stabilityStep push
  dsimp only
  congr 3
  by_cases h : (s - 1) / 4 - 1 / 2 ≤ 0
  · have : (s - 1) / 4 - 1 / 2 = 0 := le_antisymm h (by linarith)
    rw [this]; ring
  · have hr := Scorer.retr_mem k d S
    have hg : spacingGain k d S ((s - 1) / 4 - 1 / 2) = 1 + 65 / 100 * (1 - retrievability k d S) := by
      unfold spacingGain
      rw [if_neg h]
      unfold Scorer.clamp
      rw [if_neg (by linarith), if_neg (by linarith)]
    rw [hg]; ring

/-- Two stabilities that are close stay as close. -/
theorem step_scale (k : Kind) {S T D s d : ℝ} (hs : 3 ≤ s) (hD : D ≤ 11) (hd : 0 ≤ d) (hS : 0 < S) (h : S ≤ T)
    (hT : T ≤ 3 / 2 * S) :
    stabilityStep k S D s d ≤ stabilityStep k T D s d ∧
      stabilityStep k T D s d ≤ T / S * stabilityStep k S D s d := by
  rw [step_shape k _ _ _ _ hs, step_shape k _ _ _ _ hs]
  have hc : 0 ≤ push s D d := by
    unfold push
    have h1 : 0 ≤ (s - 1) / 4 - 1 / 2 := by linarith
    have h2 : 0 ≤ (11 - D) / 5 := by linarith
    have h3 : 0 ≤ min d 1 := le_min hd (by norm_num)
    positivity
  obtain ⟨r1, r2⟩ := retr_scale k hd hS h
  obtain ⟨g1, g2⟩ := grow_scale hc hS h hT (Scorer.retr_mem k d S).2 r1 r2
  refine ⟨?_, clamp_rel (by norm_num) (by norm_num) ((one_le_div hS).2 h) g2⟩
  have := clamp_rel (lo := 1 / 2) (hi := 730) (c := 1) (by norm_num) (by norm_num) le_rfl (g1.trans_eq (one_mul _).symm)
  rwa [one_mul] at this

/-! ## The machine -/

theorem pos_days (a b : ℤ) : App 2 (max (daysBetween a b) 0) ((f32 powf).max (gDays (f32 powf) a b) ((f32 powf).lit 0)) ∧
    Lo (1 / 2 ^ 17) (max (daysBetween a b) 0) ∧ max (daysBetween a b) 0 ≤ 2 ^ 47 := by
  by_cases h : b ≤ a
  · obtain ⟨h1, h2, h3⟩ := gDays_app (powf := powf) h
    have h0 : 0 ≤ daysBetween a b := h2.nonneg (by norm_num)
    rw [max_eq_left h0]
    refine ⟨?_, h2, h3⟩
    obtain ⟨y, hy, hl, hu⟩ := h1
    have hy0 : 0 ≤ y := le_trans (mul_nonneg h0 (pow_nonneg (by norm_num) _)) hl
    refine ⟨y, ?_, hl, hu⟩
    rw [hy, lit0]
    exact max_zero_num hy0
  · have h1 : satSub a b ≤ 0 := by unfold satSub; omega
    have h2 : (satSub a b : ℝ) ≤ 0 := by exact_mod_cast h1
    have h3 : max (daysBetween a b) 0 = 0 :=
      max_eq_right (div_nonpos_of_nonpos_of_nonneg h2 (by norm_num))
    rw [h3, days_zero (by omega)]
    exact ⟨⟨0, rfl, by simp, by simp⟩, Or.inl rfl, by norm_num⟩

/-- Grades from 3 to 5 lose nothing when they are turned into a performance. -/
theorem performance_exact {s : ℝ} (hr : Rep s) (h3 : 3 ≤ s) (h5 : s ≤ 5) :
    (f32 powf).sub ((f32 powf).div ((f32 powf).sub (.num s) ((f32 powf).lit 1)) ((f32 powf).lit 4))
      ((f32 powf).lit (1 / 2)) = .num ((s - 1) / 4 - 1 / 2) ∧ Lo (1 / 2 ^ 24) ((s - 1) / 4 - 1 / 2) := by
  obtain ⟨n, hn⟩ : ∃ n : ℤ, s = n / 2 ^ 22 := by
    obtain ⟨m, e, hm, he, rfl⟩ := hr
    by_cases h : -22 ≤ e
    · refine ⟨m * 2 ^ (e + 22).toNat, ?_⟩
      push_cast
      have : ((2 : ℝ) ^ (e + 22).toNat) = 2 ^ (e + 22) := by
        rw [← zpow_natCast, Int.toNat_of_nonneg (by omega)]
      rw [this, zpow_add₀ (by norm_num)]
      norm_num
      ring
    · exfalso
      have h1 : (2 : ℝ) ^ e ≤ 2 ^ (-23 : ℤ) := zpow_le_zpow_right₀ (by norm_num) (by omega)
      have h2 : |(m : ℝ)| ≤ 2 ^ 24 := by exact_mod_cast hm
      have h4 : (m : ℝ) * 2 ^ e ≤ 2 ^ 24 * 2 ^ (-23 : ℤ) :=
        mul_le_mul ((le_abs_self _).trans h2) h1 (two_zpow_pos e).le (by norm_num)
      norm_num at h4
      linarith
  have hn3 : (3 * 2 ^ 22 : ℤ) ≤ n := by
    have : (3 * 2 ^ 22 : ℝ) ≤ n := by rw [hn, le_div_iff₀ (by norm_num)] at h3; exact h3
    exact_mod_cast this
  have hn5 : n ≤ (5 * 2 ^ 22 : ℤ) := by
    have : (n : ℝ) ≤ 5 * 2 ^ 22 := by rw [hn, div_le_iff₀ (by norm_num)] at h5; exact h5
    exact_mod_cast this
  have b1 : Bd (s + -1) := bd_div (n - 2 ^ 22) 22 (by rw [hn]; push_cast; ring) (by rw [abs_le]; constructor <;> omega)
    (by norm_num)
  have b2 : Bd ((s + -1) / 4) := bd_div (n - 2 ^ 22) 24 (by rw [hn]; push_cast; ring)
    (by rw [abs_le]; constructor <;> omega) (by norm_num)
  have b3 : Bd ((s + -1) / 4 + -(1 / 2)) := bd_div (n - 3 * 2 ^ 22) 24 (by rw [hn]; push_cast; ring)
    (by rw [abs_le]; constructor <;> omega) (by norm_num)
  have h4 : (f32 powf).lit 4 = .num 4 := by
    have := lit_nat (powf := powf) 4 (by norm_num)
    simpa using this
  have hh : (f32 powf).lit (1 / 2) = .num (1 / 2) := by
    have := lit_bd powf (q := 1 / 2) (bd_div 1 1 (by norm_num) (by norm_num) (by norm_num))
    simpa using this
  constructor
  · have e1 : (f32 powf).sub (.num s) (.num 1) = .num (s + -1) := round_bd b1
    have e2 : (f32 powf).div (.num (s + -1)) (.num 4) = .num ((s + -1) / 4) := by
      show (if (4 : ℝ) = 0 then _ else F.round ((s + -1) / 4)) = _
      rw [if_neg (by norm_num)]; exact round_bd b2
    have e3 : (f32 powf).sub (.num ((s + -1) / 4)) (.num (1 / 2)) = .num ((s + -1) / 4 + -(1 / 2)) := round_bd b3
    rw [lit1, h4, hh, e1, e2, e3]
    congr 1
  · have e : (s - 1) / 4 - 1 / 2 = ((n - 3 * 2 ^ 22 : ℤ) : ℝ) / 2 ^ 24 := by rw [hn]; push_cast; ring
    rw [e]
    by_cases h : n = 3 * 2 ^ 22
    · exact Or.inl (by rw [h]; simp)
    · refine Or.inr ?_
      have : (1 : ℝ) ≤ ((n - 3 * 2 ^ 22 : ℤ) : ℝ) := by exact_mod_cast (by omega : (1 : ℤ) ≤ n - 3 * 2 ^ 22)
      gcongr

/-- A difficulty: the machine's, close to the exact one. -/
def DiffNear (D : ℝ) (a : F) : Prop :=
  1 ≤ D ∧ D ≤ 5 ∧ ∃ z, a = .num z ∧ |z - D| ≤ 170 / 2 ^ 24

theorem clamp_abs (x y : ℝ) {lo hi : ℝ} (h : lo ≤ hi) : |Scorer.clamp x lo hi - Scorer.clamp y lo hi| ≤ |x - y| := by
  rw [clamp_eq _ h, clamp_eq _ h]
  refine (abs_max_sub_max_le_max _ _ _ _).trans (max_le (by simp) ?_)
  exact (abs_min_sub_min_le_max _ _ _ _).trans (max_le (by simp) le_rfl)

theorem litn (n : ℕ) [n.AtLeastTwo] (h : (OfNat.ofNat n : ℤ) ≤ 2 ^ 24) :
    (f32 powf).lit (OfNat.ofNat n) = .num (OfNat.ofNat n) := by
  have := lit_nat (powf := powf) n h
  simpa using this

theorem adjust_near {D s z : ℝ} (D1 : 1 ≤ D) (D5 : D ≤ 5) (hz : |z - D| ≤ 170 / 2 ^ 24) (h3 : 3 ≤ s) (h5 : s ≤ 5) :
    ∃ c, (f32 powf).clamp ((f32 powf).add (.num z) ((f32 powf).mul ((f32 powf).div ((f32 powf).sub (.num 3) (.num s))
      (.num 4)) ((f32 powf).lit (105 / 100)))) (.num 1) (.num 10) = .num c ∧
      |c - Scorer.clamp (D + (3 - s) / 4 * (105 / 100)) 1 10| ≤ 179 / 2 ^ 24 := by
  have hz' := abs_le.1 hz
  obtain ⟨a1, ha1, hn1⟩ := round_near_abs (y := 3 + -s) (c := 2) (abs_le.2 ⟨by linarith, by linarith⟩) (by norm_num) (by norm_num)
  have hn1' := abs_le.1 hn1
  obtain ⟨a2, ha2, hn2⟩ := round_near_abs (y := a1 / 4) (c := 6 / 10)
    (abs_le.2 ⟨by norm_num at hn1' ⊢; linarith, by norm_num at hn1' ⊢; linarith⟩) (by norm_num) (by norm_num)
  have hn2' := abs_le.1 hn2
  obtain ⟨l1, hl1, -, hln1⟩ := lit_near (powf := powf) (q := 105 / 100) (by norm_num) (by norm_num)
  push_cast at hln1
  have hln1' := abs_le.1 hln1
  have hg2 : |a2 - (3 - s) / 4| ≤ 12 / 10 / 2 ^ 24 := abs_le.2 ⟨by norm_num at hn1' hn2' ⊢; linarith, by norm_num at hn1' hn2' ⊢; linarith⟩
  have ha2' : |a2| ≤ 6 / 10 := by
    have := abs_le.1 hg2
    exact abs_le.2 ⟨by norm_num at this ⊢; linarith, by norm_num at this ⊢; linarith⟩
  have hprod : |a2 * l1 - (3 - s) / 4 * (105 / 100)| ≤ 2 / 2 ^ 24 := by
    have e : a2 * l1 - (3 - s) / 4 * (105 / 100) = a2 * (l1 - 105 / 100) + (a2 - (3 - s) / 4) * (105 / 100) := by ring
    rw [e]
    refine (abs_add_le _ _).trans ?_
    rw [abs_mul, abs_mul, abs_of_pos (by norm_num : (0 : ℝ) < 105 / 100)]
    have t1 := mul_le_mul ha2' hln1 (abs_nonneg _) (by norm_num)
    have t2 := mul_le_mul_of_nonneg_right hg2 (by norm_num : (0 : ℝ) ≤ 105 / 100)
    exact (add_le_add t1 t2).trans (by norm_num)
  have hprod' := abs_le.1 hprod
  obtain ⟨a3, ha3, hn3⟩ := round_near_abs (y := a2 * l1) (c := 6 / 10)
    (abs_le.2 ⟨by norm_num at hprod' ⊢; linarith, by norm_num at hprod' ⊢; linarith⟩) (by norm_num) (by norm_num)
  have hn3' := abs_le.1 hn3
  obtain ⟨a4, ha4, hn4⟩ := round_near_abs (y := z + a3) (c := 6)
    (abs_le.2 ⟨by norm_num at hprod' hn3' hz' ⊢; linarith, by norm_num at hprod' hn3' hz' ⊢; linarith⟩) (by norm_num) (by norm_num)
  have hn4' := abs_le.1 hn4
  have hadj : |a4 - (D + (3 - s) / 4 * (105 / 100))| ≤ 179 / 2 ^ 24 :=
    abs_le.2 ⟨by norm_num at hprod' hn3' hz' hn4' ⊢; linarith, by norm_num at hprod' hn3' hz' hn4' ⊢; linarith⟩
  refine ⟨Scorer.clamp a4 1 10, ?_, (clamp_abs _ _ (by norm_num)).trans hadj⟩
  have f1 : (f32 powf).sub (.num 3) (.num s) = .num a1 := ha1
  have f2 : (f32 powf).div (.num a1) (.num 4) = .num a2 := by
    show (if (4 : ℝ) = 0 then _ else F.round (a1 / 4)) = _
    rw [if_neg (by norm_num), ha2]
  have f3 : (f32 powf).mul (.num a2) (.num l1) = .num a3 := ha3
  have f4 : (f32 powf).add (.num z) (.num a3) = .num a4 := ha4
  rw [hl1, f1, f2, f3, f4, clamp_num_val]

theorem diff_step {D s : ℝ} {a : F} (h : DiffNear D a) (h3 : 3 ≤ s) (h5 : s ≤ 5) :
    DiffNear (updateDifficulty D 5 s) (gUpdateDifficulty (f32 powf) a ((f32 powf).lit 5) (.num s)) := by
  obtain ⟨D1, D5, z, rfl, hz⟩ := h
  -- the exact one
  have ex : updateDifficulty D 5 s = 16 / 100 * 5 + (1 - 16 / 100) * Scorer.clamp (D + (3 - s) / 4 * (105 / 100)) 1 10 ∧
      1 ≤ Scorer.clamp (D + (3 - s) / 4 * (105 / 100)) 1 10 ∧ Scorer.clamp (D + (3 - s) / 4 * (105 / 100)) 1 10 ≤ 5 := by
    have c1 : 1 ≤ Scorer.clamp (D + (3 - s) / 4 * (105 / 100)) 1 10 := by
      rw [clamp_eq _ (by norm_num)]; exact le_max_left _ _
    have c2 : Scorer.clamp (D + (3 - s) / 4 * (105 / 100)) 1 10 ≤ 5 := by
      rw [clamp_eq _ (by norm_num)]
      exact max_le (by norm_num) ((min_le_right _ _).trans (by linarith))
    refine ⟨?_, c1, c2⟩
    unfold updateDifficulty
    dsimp only
    rw [show ∀ x, Scorer.clamp x 1 10 = max 1 (min 10 x) from fun x => clamp_eq x (by norm_num)] at c1 c2 ⊢
    rw [show ∀ x, Scorer.clamp x 1 10 = max 1 (min 10 x) from fun x => clamp_eq x (by norm_num)]
    rw [min_eq_right (by linarith), max_eq_right (by linarith)]
  obtain ⟨ex, c1, c2⟩ := ex
  set C := Scorer.clamp (D + (3 - s) / 4 * (105 / 100)) 1 10 with hC
  obtain ⟨c, hc, hcC⟩ := adjust_near (powf := powf) D1 D5 hz h3 h5
  rw [← hC] at hcC
  have hcC' := abs_le.1 hcC
  -- towards the middle
  obtain ⟨l2, hl2, -, hln2⟩ := lit_near (powf := powf) (q := 16 / 100) (by norm_num) (by norm_num)
  push_cast at hln2
  have hln2' := abs_le.1 hln2
  obtain ⟨a5, ha5, hn5⟩ := round_near_abs (y := 1 + -l2) (c := 1)
    (abs_le.2 ⟨by norm_num at hln2' ⊢; linarith, by norm_num at hln2' ⊢; linarith⟩) (by norm_num) (by norm_num)
  have hn5' := abs_le.1 hn5
  have hw : |a5 - (1 - 16 / 100)| ≤ 12 / 10 / 2 ^ 24 := abs_le.2 ⟨by norm_num at hln2' hn5' ⊢; linarith, by norm_num at hln2' hn5' ⊢; linarith⟩
  have hc51 : |c| ≤ 51 / 10 := abs_le.2 ⟨by norm_num at hcC' ⊢; linarith, by norm_num at hcC' ⊢; linarith⟩
  have hp2 : |a5 * c - (1 - 16 / 100) * C| ≤ 158 / 2 ^ 24 := by
    have e : a5 * c - (1 - 16 / 100) * C = (a5 - (1 - 16 / 100)) * c + (1 - 16 / 100) * (c - C) := by ring
    rw [e]
    refine (abs_add_le _ _).trans ?_
    rw [abs_mul, abs_mul, abs_of_pos (by norm_num : (0 : ℝ) < 1 - 16 / 100)]
    have t1 := mul_le_mul hw hc51 (abs_nonneg _) (by norm_num)
    have t2 := mul_le_mul_of_nonneg_left hcC (by norm_num : (0 : ℝ) ≤ 1 - 16 / 100)
    exact (add_le_add t1 t2).trans (by norm_num)
  have hp2' := abs_le.1 hp2
  obtain ⟨a6, ha6, hn6⟩ := round_near_abs (y := a5 * c) (c := 43 / 10)
    (abs_le.2 ⟨by norm_num at hp2' ⊢; linarith, by norm_num at hp2' ⊢; linarith⟩) (by norm_num) (by norm_num)
  have hn6' := abs_le.1 hn6
  obtain ⟨a7, ha7, hn7⟩ := round_near_abs (y := l2 * 5) (c := 1)
    (abs_le.2 ⟨by norm_num at hln2' ⊢; linarith, by norm_num at hln2' ⊢; linarith⟩) (by norm_num) (by norm_num)
  have hn7' := abs_le.1 hn7
  obtain ⟨a8, ha8, hn8⟩ := round_near_abs (y := a7 + a6) (c := 51 / 10)
    (abs_le.2 ⟨by norm_num at hp2' hn6' hn7' hln2' ⊢; linarith, by norm_num at hp2' hn6' hn7' hln2' ⊢; linarith⟩) (by norm_num) (by norm_num)
  have hn8' := abs_le.1 hn8
  have hfin : |a8 - (16 / 100 * 5 + (1 - 16 / 100) * C)| ≤ 170 / 2 ^ 24 :=
    abs_le.2 ⟨by norm_num at hp2' hn6' hn7' hln2' hn8' ⊢; linarith, by norm_num at hp2' hn6' hn7' hln2' hn8' ⊢; linarith⟩
  rw [ex]
  refine ⟨by norm_num; linarith, by norm_num; linarith, Scorer.clamp a8 1 10, ?_, ?_⟩
  · have f5 : (f32 powf).sub (.num 1) (.num l2) = .num a5 := ha5
    have f6 : (f32 powf).mul (.num a5) (.num c) = .num a6 := ha6
    have f7 : (f32 powf).mul (.num l2) (.num 5) = .num a7 := ha7
    have f8 : (f32 powf).add (.num a7) (.num a6) = .num a8 := ha8
    unfold gUpdateDifficulty
    dsimp only
    rw [litn 3 (by norm_num), litn 4 (by norm_num), litn 5 (by norm_num), litn 10 (by norm_num), lit1, hc, hl2, f5, f6, f7, f8, clamp_num_val]
  · have h8 : Scorer.clamp (16 / 100 * 5 + (1 - 16 / 100) * C) 1 10 = 16 / 100 * 5 + (1 - 16 / 100) * C := by
      unfold Scorer.clamp
      rw [if_neg (by norm_num; linarith), if_neg (by norm_num; linarith)]
    rw [← h8]
    exact (clamp_abs _ _ (by norm_num)).trans hfin

theorem ease_near {D : ℝ} {a : F} (h : DiffNear D a) :
    App 34 ((11 - D) / 5) ((f32 powf).div ((f32 powf).sub ((f32 powf).lit 11) a) ((f32 powf).lit 5)) := by
  obtain ⟨D1, D5, z, rfl, hz⟩ := h
  have hz' := abs_le.1 hz
  obtain ⟨a1, ha1, hn1⟩ := round_near_abs (y := 11 + -z) (c := 101 / 10)
    (abs_le.2 ⟨by norm_num at hz' ⊢; linarith, by norm_num at hz' ⊢; linarith⟩) (by norm_num) (by norm_num)
  have hn1' := abs_le.1 hn1
  obtain ⟨a2, ha2, hn2⟩ := round_near_abs (y := a1 / 5) (c := 21 / 10)
    (abs_le.2 ⟨by norm_num at hz' hn1' ⊢; linarith, by norm_num at hz' hn1' ⊢; linarith⟩) (by norm_num) (by norm_num)
  have hn2' := abs_le.1 hn2
  have f1 : (f32 powf).sub (.num 11) (.num z) = .num a1 := ha1
  have f2 : (f32 powf).div (.num a1) (.num 5) = .num a2 := by
    show (if (5 : ℝ) = 0 then _ else F.round (a1 / 5)) = _
    rw [if_neg (by norm_num), ha2]
  rw [litn 11 (by norm_num), litn 5 (by norm_num), f1, f2]
  refine app_of_abs (m := 33) (by norm_num) (by norm_num) (by linarith) ?_
  push_cast
  exact abs_le.2 ⟨by norm_num at hz' hn1' hn2' ⊢; linarith, by norm_num at hz' hn1' hn2' ⊢; linarith⟩

theorem gain_near (hp : Faithful powf) (k : Kind) {d q p : ℝ} {dF : F} (hd : App 2 d dF)
    (hlo : Lo (1 / 2 ^ 17) d) (hhi : d ≤ 2 ^ 47) (hq1 : 1 / 2 ≤ q) (hq2 : q ≤ 730) :
    App 43 (spacingGain k d q p) (gSpacingGain (f32 powf) k dF (.num q) (.num p)) ∧
      1 ≤ spacingGain k d q p ∧ spacingGain k d q p ≤ 165 / 100 := by
  unfold spacingGain gSpacingGain
  rw [lit0, lit1]
  have hle : (f32 powf).le (.num p) (.num 0) = decide (p ≤ 0) := rfl
  rw [hle]
  by_cases h : p ≤ 0
  · rw [if_pos h, if_pos (by simpa using h)]
    exact ⟨(app_num 1).mono (by norm_num) (by norm_num), le_rfl, by norm_num⟩
  · rw [if_neg h, if_neg (by simpa using h)]
    obtain ⟨r, hr, r0, r1, hrn⟩ := recall_near hp k hd hlo hhi hq1 hq2
    obtain ⟨R0, R1⟩ := Scorer.retr_mem k d q
    generalize retrievability k d q = R at *
    have hrn' := abs_le.1 hrn
    have hg : Scorer.clamp (1 + 65 / 100 * (1 - R)) 1 (1 + 65 / 100) = 1 + 65 / 100 * (1 - R) := by
      unfold Scorer.clamp
      rw [if_neg (by linarith), if_neg (by linarith)]
    rw [hg, hr]
    obtain ⟨a1, ha1, hn1⟩ := round_near_abs (y := 1 + -r) (c := 1)
      (abs_le.2 ⟨by linarith, by linarith⟩) (by norm_num) (by norm_num)
    have hn1' := abs_le.1 hn1
    obtain ⟨l1, hl1, -, hln1⟩ := lit_near (powf := powf) (q := 65 / 100) (by norm_num) (by norm_num)
    push_cast at hln1
    have hln1' := abs_le.1 hln1
    have ha11 : |a1| ≤ 11 / 10 := abs_le.2 ⟨by norm_num at hn1' ⊢; linarith, by norm_num at hn1' ⊢; linarith⟩
    have hb : |a1 - (1 - R)| ≤ 57 / 2 ^ 24 := abs_le.2 ⟨by norm_num at hn1' hrn' ⊢; linarith, by norm_num at hn1' hrn' ⊢; linarith⟩
    have hprod : |l1 * a1 - 65 / 100 * (1 - R)| ≤ 378 / 10 / 2 ^ 24 := by
      have e : l1 * a1 - 65 / 100 * (1 - R) = (l1 - 65 / 100) * a1 + 65 / 100 * (a1 - (1 - R)) := by ring
      rw [e]
      refine (abs_add_le _ _).trans ?_
      rw [abs_mul, abs_mul, abs_of_pos (by norm_num : (0 : ℝ) < 65 / 100)]
      have t1 := mul_le_mul hln1 ha11 (abs_nonneg _) (by norm_num)
      have t2 := mul_le_mul_of_nonneg_left hb (by norm_num : (0 : ℝ) ≤ 65 / 100)
      exact (add_le_add t1 t2).trans (by norm_num)
    have hprod' := abs_le.1 hprod
    obtain ⟨a2, ha2, hn2⟩ := round_near_abs (y := l1 * a1) (c := 66 / 100)
      (abs_le.2 ⟨by norm_num at hprod' ⊢; linarith, by norm_num at hprod' ⊢; linarith⟩) (by norm_num) (by norm_num)
    have hn2' := abs_le.1 hn2
    obtain ⟨a3, ha3, hn3⟩ := round_near_abs (y := 1 + a2) (c := 166 / 100)
      (abs_le.2 ⟨by norm_num at hprod' hn2' ⊢; linarith, by norm_num at hprod' hn2' ⊢; linarith⟩) (by norm_num) (by norm_num)
    have hn3' := abs_le.1 hn3
    obtain ⟨a4, ha4, hn4⟩ := round_near_abs (y := 1 + l1) (c := 166 / 100)
      (abs_le.2 ⟨by norm_num at hln1' ⊢; linarith, by norm_num at hln1' ⊢; linarith⟩) (by norm_num) (by norm_num)
    have hn4' := abs_le.1 hn4
    have f1 : (f32 powf).sub (.num 1) (.num r) = .num a1 := ha1
    have f2 : (f32 powf).mul (.num l1) (.num a1) = .num a2 := ha2
    have f3 : (f32 powf).add (.num 1) (.num a2) = .num a3 := ha3
    have f4 : (f32 powf).add (.num 1) (.num l1) = .num a4 := ha4
    rw [hl1, f1, f2, f3, f4, clamp_num_val]
    have hG : |a3 - (1 + 65 / 100 * (1 - R))| ≤ 42 / 2 ^ 24 :=
      abs_le.2 ⟨by norm_num at hprod' hn2' hn3' ⊢; linarith, by norm_num at hprod' hn2' hn3' ⊢; linarith⟩
    have hG' := abs_le.1 hG
    refine ⟨?_, by linarith, by linarith⟩
    refine app_of_abs (m := 42) (by norm_num) (by norm_num) (by linarith) ?_
    push_cast
    have hfin : |Scorer.clamp a3 1 a4 - (1 + 65 / 100 * (1 - R))| ≤ 42 / 2 ^ 24 := by
      unfold Scorer.clamp
      split
      · refine abs_le.2 ⟨by linarith, ?_⟩
        have : (0 : ℝ) ≤ 42 / 2 ^ 24 := by positivity
        linarith
      · split
        · exact abs_le.2 ⟨by norm_num at hn4' hln1' ⊢; linarith, by linarith⟩
        · exact hG
    refine hfin.trans ?_
    have : (42 : ℝ) / 2 ^ 24 * 1 ≤ 42 / 2 ^ 24 * (1 + 65 / 100 * (1 - R)) :=
      mul_le_mul_of_nonneg_left (by linarith) (by norm_num)
    linarith

theorem App.min_one {x : ℝ} {a : F} {k : ℕ} (h : App k x a) (h0 : 0 ≤ x) : App k (min x 1) ((f32 powf).min a (.num 1)) := by
  obtain ⟨y, rfl, h1, h2⟩ := h
  have e : (f32 powf).min (.num y) (.num 1) = .num (min y 1) := by
    show (if decide (1 < y) = true then F.num 1 else F.num y) = _
    by_cases h : 1 < y
    · simp [h, min_eq_right h.le]
    · simp [h, min_eq_left (not_lt.1 h)]
  have hd : (1 - 1 / 2 ^ 24 : ℝ) ^ k ≤ 1 := pow_le_one₀ (by norm_num) (by norm_num)
  have hd0 : (0 : ℝ) ≤ (1 - 1 / 2 ^ 24) ^ k := pow_nonneg (by norm_num) k
  have hu : (1 : ℝ) ≤ (1 + 1 / 2 ^ 24) ^ k := one_le_pow₀ (by norm_num)
  refine ⟨_, e, ?_, ?_⟩
  · rw [min_mul_of_nonneg _ _ hd0]
    exact min_le_min h1 (by linarith)
  · rw [min_mul_of_nonneg _ _ (by linarith)]
    exact min_le_min h2 (by linarith)

theorem App.clamp {x : ℝ} {a : F} {k : ℕ} (h : App k x a) :
    App k (Scorer.clamp x (1 / 2) 730) ((f32 powf).clamp a (.num (1 / 2)) (.num 730)) := by
  obtain ⟨y, rfl, h1, h2⟩ := h
  refine ⟨_, clamp_num_val, ?_, ?_⟩
  · have hd0 : (0 : ℝ) < (1 - 1 / 2 ^ 24) ^ k := pow_pos (by norm_num) k
    have hd : (1 - 1 / 2 ^ 24 : ℝ) ^ k ≤ 1 := pow_le_one₀ (by norm_num) (by norm_num)
    have := clamp_rel (x := y) (y := x) (c := ((1 - 1 / 2 ^ 24 : ℝ) ^ k)⁻¹) (lo := 1 / 2) (hi := 730) (by norm_num)
      (by norm_num) ((one_le_inv₀ hd0).2 hd) (by rw [inv_mul_eq_div, le_div_iff₀ hd0]; exact h1)
    rwa [inv_mul_eq_div, le_div_iff₀ hd0] at this
  · rw [mul_comm]
    exact clamp_rel (by norm_num) (by norm_num) (one_le_pow₀ (by norm_num)) (by rw [mul_comm]; exact h2)

/-- One trial: the machine's stability, against the exact one from the same stability. -/
theorem step_near (hp : Faithful powf) (k : Kind) {d q s D : ℝ} {dF a : F} (hd : App 2 d dF)
    (hlo : Lo (1 / 2 ^ 17) d) (hhi : d ≤ 2 ^ 47) (hq1 : 1 / 2 ≤ q) (hq2 : q ≤ 730)
    (hr : Rep s) (h3 : 3 ≤ s) (h5 : s ≤ 5) (hD : DiffNear D a) :
    App 85 (stabilityStep k q D s d) (gStabilityStep (f32 powf) k (.num q) a (.num s) dF) := by
  obtain ⟨hpe, hpl⟩ := performance_exact (powf := powf) hr h3 h5
  have hd0 : 0 ≤ d := hlo.nonneg (by norm_num)
  obtain ⟨hg, g1, g2⟩ := gain_near hp k (p := (s - 1) / 4 - 1 / 2) hd hlo hhi hq1 hq2
  have he := ease_near (powf := powf) hD
  have he1 : 6 / 5 ≤ (11 - D) / 5 := by linarith [hD.2.1]
  have he2 : (11 - D) / 5 ≤ 2 := by linarith [hD.1]
  have hm := hd.min_one (powf := powf) hd0
  have hml : Lo (1 / 2 ^ 17) (min d 1) := by
    rcases hlo with h | h
    · exact Or.inl (by rw [h]; simp)
    · exact Or.inr (le_min h (by norm_num))
  have hm0 : 0 ≤ min d 1 := le_min hd0 (by norm_num)
  have hm1 : min d 1 ≤ 1 := min_le_right _ _
  have hl25 : (f32 powf).lit (5 / 2) = .num (5 / 2) := by
    have := lit_bd powf (q := 5 / 2) (bd_div 5 1 (by norm_num) (by norm_num) (by norm_num))
    simpa using this
  have hl12 : (f32 powf).lit (1 / 2) = .num (1 / 2) := by
    have := lit_bd powf (q := 1 / 2) (bd_div 1 1 (by norm_num) (by norm_num) (by norm_num))
    simpa using this
  have hp5 : (s - 1) / 4 - 1 / 2 ≤ 1 / 2 := by linarith
  have hp0 : 0 ≤ (s - 1) / 4 - 1 / 2 := by linarith
  unfold stabilityStep gStabilityStep
  dsimp only
  rw [hpe, hl25, hl12, lit1, litn 730 (by norm_num)]
  generalize (s - 1) / 4 - 1 / 2 = p at *
  generalize (11 - D) / 5 = e at *
  generalize spacingGain k d q p = g at *
  generalize min d 1 = m at *
  have t1 := (app_num (5 / 2)).mul (by norm_num) (app_num p) (by norm_num) hp0 (by
    rcases hpl with h | h
    · exact Or.inl (by rw [h]; simp)
    · exact Or.inr ⟨by norm_num at h ⊢; linarith, by norm_num; linarith⟩)
  have hv1 : Lo (5 / 2 * (1 / 2 ^ 24)) (5 / 2 * p) := by
    rcases hpl with h | h
    · exact Or.inl (by rw [h]; simp)
    · exact Or.inr (mul_le_mul_of_nonneg_left h (by norm_num))
  have u1 : 5 / 2 * p ≤ 5 / 4 := by linarith
  have n1 : 0 ≤ 5 / 2 * p := by linarith
  generalize 5 / 2 * p = v1 at *
  have hv2 : Lo (5 / 2 * (1 / 2 ^ 24) * (6 / 5)) (v1 * e) := by
    rcases hv1 with h | h
    · exact Or.inl (by rw [h]; simp)
    · exact Or.inr (mul_le_mul h he1 (by norm_num) n1)
  have u2 : v1 * e ≤ 5 / 4 * 2 := mul_le_mul u1 he2 (by linarith) (by norm_num)
  have n2 : 0 ≤ v1 * e := mul_nonneg n1 (by linarith)
  have t2 := t1.mul (by norm_num) he n1 (by linarith) (by
    rcases hv2 with h | h
    · exact Or.inl h
    · exact Or.inr ⟨le_trans (by norm_num) h, u2.trans (by norm_num)⟩)
  generalize v1 * e = v2 at *
  have hv3 : Lo (5 / 2 * (1 / 2 ^ 24) * (6 / 5) * 1) (v2 * g) := by
    rcases hv2 with h | h
    · exact Or.inl (by rw [h]; simp)
    · exact Or.inr (mul_le_mul h g1 (by norm_num) n2)
  have u3 : v2 * g ≤ 5 / 4 * 2 * (165 / 100) := mul_le_mul u2 g2 (by linarith) (by norm_num)
  have n3 : 0 ≤ v2 * g := mul_nonneg n2 (by linarith)
  have t3 := t2.mul (by norm_num) hg n2 (by linarith) (by
    rcases hv3 with h | h
    · exact Or.inl h
    · exact Or.inr ⟨le_trans (by norm_num) h, u3.trans (by norm_num)⟩)
  generalize v2 * g = v3 at *
  have u4 : v3 * m ≤ 5 / 4 * 2 * (165 / 100) * 1 := mul_le_mul u3 hm1 hm0 (by norm_num)
  have n4 : 0 ≤ v3 * m := mul_nonneg n3 hm0
  have t4 := t3.mul (by norm_num) hm n3 hm0 (by
    rcases hv3 with h | h
    · exact Or.inl (by rw [h]; simp)
    · rcases hml with h' | h'
      · exact Or.inl (by rw [h']; simp)
      · refine Or.inr ⟨?_, u4.trans (by norm_num)⟩
        have := mul_le_mul h h' (by norm_num) n3
        exact le_trans (by norm_num) this)
  generalize v3 * m = v4 at *
  have t5 := App.add (by norm_num) ((app_num 1).mono (by norm_num) (by norm_num : 0 ≤ 0 + 0 + 1 + 34 + 1 + 43 + 1 + 2 + 1)) t4
    (Or.inr ⟨by norm_num; linarith, by norm_num at u4 ⊢; linarith⟩)
  have n5 : 1 ≤ 1 + v4 := by linarith
  have u5 : 1 + v4 ≤ 6 := by norm_num at u4; linarith
  generalize 1 + v4 = v5 at *
  have t6 := (app_num q).mul (by norm_num) t5 (by linarith) (by linarith) (Or.inr ⟨by
    have := mul_le_mul hq1 n5 (by norm_num) (by linarith)
    exact le_trans (by norm_num) this, by
    have := mul_le_mul hq2 u5 (by linarith) (by norm_num)
    exact this.trans (by norm_num)⟩)
  have hx0 : 0 ≤ Scorer.clamp (q * v5) (1 / 2) 730 := by
    rw [clamp_eq _ (by norm_num)]
    exact le_trans (by norm_num) (le_max_left _ _)
  exact (t6.clamp (powf := powf)).mono hx0 (by norm_num)

end Trane.Float
