import Verif.Float.SharesLemmas

/-!
# The shares of the mastery windows in `f32`

C100.
-/

namespace Trane.Float
open Trane.CandidateFilter Trane.Knocker

variable {powf : F → F → F} {ι : Type} [DecidableEq ι]

/-! ### Without rounding it is the model used elsewhere -/

/-- The percentages of options, as real numbers. -/
noncomputable def sharesOf (o : SchedulerOptions) : Shares ℝ :=
  ⟨o.masteredWindow.percentage, o.easyWindow.percentage, o.currentWindow.percentage, o.targetWindow.percentage,
    o.newWindow.percentage⟩

/-- The success rate without rounding. -/
def rateOf (passed failed : Nat) : ℚ := if passed + failed = 0 then 1 else (passed : ℚ) / ((passed + failed : Nat) : ℚ)

theorem successRate_exact (passed failed : Nat) :
    gSuccessRate exact passed failed = (rateOf passed failed : ℚ) := by
  unfold gSuccessRate rateOf
  split
  · simp [exact]
  · simp [exact]

theorem shift_exact (rate : ℚ) : gShift exact (rate : ℝ) = (shiftOf rate).map (fun q : ℚ => (q : ℝ)) := by
  unfold gShift shiftOf
  have e1 : exact.lt (exact.lit (9 / 10)) (rate : ℝ) = decide (9 / 10 < rate) := by
    show decide (((9 / 10 : ℚ) : ℝ) < rate) = _
    exact decide_eq_decide.2 Rat.cast_lt
  have e2 : exact.le (exact.lit (3 / 4)) (rate : ℝ) = decide (3 / 4 ≤ rate) := by
    show decide (((3 / 4 : ℚ) : ℝ) ≤ rate) = _
    exact decide_eq_decide.2 Rat.cast_le
  have e3 : exact.le (rate : ℝ) (exact.lit (9 / 10)) = decide (rate ≤ 9 / 10) := by
    show decide ((rate : ℝ) ≤ ((9 / 10 : ℚ) : ℝ)) = _
    exact decide_eq_decide.2 Rat.cast_le
  have e4 : exact.le (exact.lit (1 / 2)) (rate : ℝ) = decide (1 / 2 ≤ rate) := by
    show decide (((1 / 2 : ℚ) : ℝ) ≤ rate) = _
    exact decide_eq_decide.2 Rat.cast_le
  have e5 : exact.lt (rate : ℝ) (exact.lit (3 / 4)) = decide (rate < 3 / 4) := by
    show decide ((rate : ℝ) < ((3 / 4 : ℚ) : ℝ)) = _
    exact decide_eq_decide.2 Rat.cast_lt
  rw [e1, e2, e3, e4, e5]
  simp only [decide_eq_true_eq, Bool.and_eq_true]
  split_ifs <;> simp [exact]

theorem clampQ_exact (x lo hi : ℚ) : exact.clamp (x : ℝ) (lo : ℝ) (hi : ℝ) = ((clampQ x lo hi : ℚ) : ℝ) := by
  unfold Arith.clamp clampQ
  have e1 : exact.lt (x : ℝ) (lo : ℝ) = decide (x < lo) := decide_eq_decide.2 Rat.cast_lt
  have e2 : exact.lt (hi : ℝ) (x : ℝ) = decide (hi < x) := decide_eq_decide.2 Rat.cast_lt
  rw [e1, e2]
  simp only [decide_eq_true_eq]
  split_ifs <;> rfl

/-- C100: without rounding, the shares after the adjustment are those of the model over the rationals. -/
theorem adjusted_exact (o : SchedulerOptions) (rate : ℚ) :
    gAdjusted exact (sharesOf o) (rate : ℝ) = sharesOf (adjusted o rate) := by
  unfold gAdjusted adjusted
  rw [shift_exact]
  cases shiftOf rate with
  | none => rfl
  | some shift =>
    dsimp only [Option.map_some]
    have c : ∀ x : ℚ, exact.clamp (x : ℝ) (exact.lit (1 / 20)) (exact.lit (1 / 2)) =
        ((clampQ x (1 / 20) (1 / 2) : ℚ) : ℝ) := fun x => clampQ_exact x _ _
    have ad : ∀ x y : ℚ, exact.add (x : ℝ) (y : ℝ) = ((x + y : ℚ) : ℝ) := fun x y => (Rat.cast_add x y).symm
    have sb : ∀ x y : ℚ, exact.sub (x : ℝ) (y : ℝ) = ((x - y : ℚ) : ℝ) := fun x y => (Rat.cast_sub x y).symm
    have mx : ∀ x y : ℚ, exact.max (x : ℝ) (y : ℝ) = ((Max.max x y : ℚ) : ℝ) := fun x y => (Rat.cast_max x y).symm
    have l1 : exact.lit 1 = ((1 : ℚ) : ℝ) := rfl
    have l2 : exact.lit (1 / 20) = ((1 / 20 : ℚ) : ℝ) := rfl
    simp only [sharesOf]
    simp only [ad, sb, c, l1]
    rw [l2, mx]

/-- C100: without rounding, the number of exercises of a window is that of the model over the rationals. -/
theorem quota_exact_model (n : Nat) (w : MasteryWindow) :
    gQuota exact (fun x => ⌊x⌋₊) n (w.percentage : ℝ) = quota n w := by
  unfold gQuota quota
  show ⌊Max.max (((n : ℤ) : ℝ) * (w.percentage : ℝ)) ((1 : ℚ) : ℝ)⌋₊ = _
  have e : Max.max (((n : ℤ) : ℝ) * (w.percentage : ℝ)) ((1 : ℚ) : ℝ) =
      ((Max.max ((n : ℚ) * w.percentage) 1 : ℚ) : ℝ) := by
    push_cast; rfl
  rw [e, ← Int.floor_toNat, Rat.floor_cast, Int.floor_toNat]

/-- C100: without rounding, the batch is that of the model over the rationals. -/
theorem filter_exact (pick : Picks ι) (o : SchedulerOptions) (passed failed : Nat) (r : Result ι) :
    gFilterCandidates exact (fun x => ⌊x⌋₊) pick o (sharesOf o) passed failed r =
      filterCandidates pick o (rateOf passed failed) r := by
  unfold gFilterCandidates filterCandidates
  dsimp only
  rw [successRate_exact, adjusted_exact]
  have hb : (adjusted o (rateOf passed failed)).batchSize = o.batchSize := by unfold adjusted; split <;> rfl
  have h : ∀ w w' : MasteryWindow, w.lo = w'.lo → w.hi = w'.hi → ∀ cs encompassed,
      inWindow (ι := ι) cs encompassed w = inWindow cs encompassed w' := by
    intro w w' h1 h2 cs encompassed
    unfold inWindow MasteryWindow.inWindow
    rw [h1, h2]
  rw [hb]
  unfold gFill fill gQuotas
  simp only [sharesOf, quota_exact_model]
  have hr : ∀ f : SchedulerOptions → MasteryWindow, (f = SchedulerOptions.masteredWindow ∨ f = SchedulerOptions.easyWindow ∨
      f = SchedulerOptions.currentWindow ∨ f = SchedulerOptions.targetWindow ∨ f = SchedulerOptions.newWindow) →
      (f o).lo = (f (adjusted o (rateOf passed failed))).lo ∧ (f o).hi = (f (adjusted o (rateOf passed failed))).hi := by
    intro f hf
    unfold adjusted
    rcases hf with rfl | rfl | rfl | rfl | rfl <;> split <;> exact ⟨rfl, rfl⟩
  rw [h _ _ (hr SchedulerOptions.masteredWindow (by simp)).1 (hr SchedulerOptions.masteredWindow (by simp)).2,
    h _ _ (hr SchedulerOptions.easyWindow (by simp)).1 (hr SchedulerOptions.easyWindow (by simp)).2,
    h _ _ (hr SchedulerOptions.currentWindow (by simp)).1 (hr SchedulerOptions.currentWindow (by simp)).2,
    h _ _ (hr SchedulerOptions.targetWindow (by simp)).1 (hr SchedulerOptions.targetWindow (by simp)).2,
    h _ _ (hr SchedulerOptions.newWindow (by simp)).1 (hr SchedulerOptions.newWindow (by simp)).2]

/-! ### The adjustment in `f32` -/

theorem rate_val {passed failed : Nat} (h : passed + failed ≤ 2 ^ 20) :
    gSuccessRate (f32 powf) passed failed = .num (rnd (rateOf passed failed : ℚ)) := by
  unfold gSuccessRate rateOf
  split
  · rw [f1, Rat.cast_one, rnd_fix rep_one]
  · rename_i hne
    rw [ofNat_val (by omega), ofNat_val (by omega)]
    have hpos : (0 : ℝ) < ((passed + failed : Nat) : ℝ) := by exact_mod_cast Nat.pos_of_ne_zero hne
    show (if ((passed + failed : Nat) : ℝ) = 0 then _ else F.round _) = _
    rw [if_neg hpos.ne']
    have hle : ((passed : Nat) : ℝ) ≤ ((passed + failed : Nat) : ℝ) := by exact_mod_cast Nat.le_add_right _ _
    rw [round_small (by positivity) ((div_le_one hpos).2 hle |>.trans (by norm_num))]
    push_cast
    rfl

/-- C100: with up to 2^20 graded exercises in the session, the machine makes the same choice among the four adjustments
as exact arithmetic, for all counts, those on the boundaries included. -/
theorem machine_shift {passed failed : Nat} (h : passed + failed ≤ 2 ^ 20) :
    gShift (f32 powf) (gSuccessRate (f32 powf) passed failed) =
      (shiftOf (rateOf passed failed)).map (f32 powf).lit := by
  rw [rate_val h]
  set q := rateOf passed failed with hq
  -- the rate is a fraction with a small denominator
  obtain ⟨a, t, ht0, ht, hat, hqt⟩ : ∃ a t : ℕ, 0 < t ∧ t ≤ 2 ^ 20 ∧ a ≤ t ∧ q = (a : ℚ) / t := by
    by_cases hz : passed + failed = 0
    · exact ⟨1, 1, by norm_num, by norm_num, le_refl _, by rw [hq]; unfold rateOf; rw [if_pos hz]; norm_num⟩
    · exact ⟨passed, passed + failed, Nat.pos_of_ne_zero hz, h, Nat.le_add_right _ _,
        by rw [hq]; unfold rateOf; rw [if_neg hz]⟩
  have htr : (0 : ℝ) < t := by exact_mod_cast ht0
  have htle : (t : ℝ) ≤ 1048576 := by norm_num at ht; exact_mod_cast ht
  have hqr : ((q : ℚ) : ℝ) = (a : ℝ) / t := by rw [hqt]; push_cast; rfl
  have hq0 : (0 : ℝ) ≤ q := by rw [hqr]; positivity
  have hq1 : ((q : ℚ) : ℝ) ≤ 1 := by
    rw [hqr, div_le_one htr]; exact_mod_cast hat
  have herr : |rnd (q : ℝ) - q| ≤ 1 / 2 ^ 24 := by
    refine (rnd_err _).trans (max_le ?_ ?_)
    · rw [abs_of_nonneg hq0]
      exact div_le_div_of_nonneg_right hq1 (by positivity)
    · have : (2 : ℝ) ^ (-150 : ℤ) ≤ 2 ^ (-24 : ℤ) := zpow_le_zpow_right₀ (by norm_num) (by norm_num)
      refine this.trans (by norm_num)
  have herr := abs_le.1 herr
  -- a fraction that is not `b / d` keeps its distance from it
  have gap : ∀ b d : ℕ, 0 < d → d ≤ 10 → (b : ℝ) / d < q → (b : ℝ) / d + 1 / 10 / 1048576 ≤ q := by
    intro b d hd hd10 hlt
    have hdr : (0 : ℝ) < d := by exact_mod_cast hd
    have hd10r : (d : ℝ) ≤ 10 := by exact_mod_cast hd10
    rw [hqr] at hlt ⊢
    rw [div_lt_div_iff₀ hdr htr] at hlt
    have hn : b * t + 1 ≤ a * d := by
      have : b * t < a * d := by exact_mod_cast hlt
      omega
    have hnr : (b : ℝ) * t + 1 ≤ a * d := by exact_mod_cast hn
    have e : (a : ℝ) / t = (a * d) / (t * d) := by field_simp
    have e2 : (b : ℝ) / d = (b * t) / (t * d) := by field_simp
    rw [e, e2]
    have hpos : (0 : ℝ) < t * d := mul_pos htr hdr
    have h3 : (1 : ℝ) / 10 / 1048576 ≤ 1 / (t * d) := by
      rw [le_div_iff₀ hpos]
      have : (t : ℝ) * d ≤ 1048576 * 10 := mul_le_mul htle hd10r hdr.le (by norm_num)
      linarith
    have h4 : (b * t : ℝ) / (t * d) + 1 / (t * d) ≤ (a * d) / (t * d) := by
      rw [← add_div]
      exact div_le_div_of_nonneg_right hnr hpos.le
    linarith
  have gap' : ∀ b d : ℕ, 0 < d → d ≤ 10 → ((q : ℚ) : ℝ) < (b : ℝ) / d → q + 1 / 10 / 1048576 ≤ (b : ℝ) / d := by
    intro b d hd hd10 hlt
    have hdr : (0 : ℝ) < d := by exact_mod_cast hd
    have hd10r : (d : ℝ) ≤ 10 := by exact_mod_cast hd10
    rw [hqr] at hlt ⊢
    rw [div_lt_div_iff₀ htr hdr] at hlt
    have hn : a * d + 1 ≤ b * t := by
      have : a * d < b * t := by exact_mod_cast hlt
      omega
    have hnr : (a : ℝ) * d + 1 ≤ b * t := by exact_mod_cast hn
    have e : (a : ℝ) / t = (a * d) / (t * d) := by field_simp
    have e2 : (b : ℝ) / d = (b * t) / (t * d) := by field_simp
    rw [e, e2]
    have hpos : (0 : ℝ) < t * d := mul_pos htr hdr
    have h3 : (1 : ℝ) / 10 / 1048576 ≤ 1 / (t * d) := by
      rw [le_div_iff₀ hpos]
      have : (t : ℝ) * d ≤ 1048576 * 10 := mul_le_mul htle hd10r hdr.le (by norm_num)
      linarith
    have h4 : (a * d : ℝ) / (t * d) + 1 / (t * d) ≤ (b * t) / (t * d) := by
      rw [← add_div]
      exact div_le_div_of_nonneg_right hnr hpos.le
    linarith
  have r90 : rnd (9 / 10) = 15099494 / 2 ^ 24 := by
    have := rnd_val (x := 9 / 10) 15099494 24 (by norm_num) (by norm_num) (by norm_num) (by norm_num [abs_lt])
    simpa using this
  have c90 : (9 / 10 < q) ↔ 15099494 / 2 ^ 24 < rnd (q : ℝ) := by
    constructor
    · intro hc
      have hc' : ((9 : ℕ) : ℝ) / (10 : ℕ) < q := by
        have : ((9 / 10 : ℚ) : ℝ) < q := by exact_mod_cast hc
        push_cast at this ⊢; exact this
      have := gap 9 10 (by norm_num) (by norm_num) hc'
      norm_num at this herr ⊢
      linarith [herr.1]
    · intro hc
      by_contra hn
      have hn' : ((q : ℚ) : ℝ) ≤ 9 / 10 := by
        have : ((q : ℚ) : ℝ) ≤ ((9 / 10 : ℚ) : ℝ) := by exact_mod_cast not_lt.1 hn
        push_cast at this; exact this
      have := rnd_mono hn'
      rw [r90] at this
      linarith
  have c75 : (3 / 4 ≤ q) ↔ 3 / 4 ≤ rnd (q : ℝ) := by
    constructor
    · intro hc
      have hc' : (3 / 4 : ℝ) ≤ q := by
        have : ((3 / 4 : ℚ) : ℝ) ≤ q := by exact_mod_cast hc
        push_cast at this; exact this
      exact le_rnd (bd_div 3 2 (by norm_num) (by norm_num) (by norm_num)).1 hc'
    · intro hc
      by_contra hn
      have hn' : ((q : ℚ) : ℝ) < ((3 : ℕ) : ℝ) / (4 : ℕ) := by
        have : ((q : ℚ) : ℝ) < ((3 / 4 : ℚ) : ℝ) := by exact_mod_cast not_le.1 hn
        push_cast at this ⊢; exact this
      have := gap' 3 4 (by norm_num) (by norm_num) hn'
      norm_num at this herr
      linarith [herr.2]
  have c50 : (1 / 2 ≤ q) ↔ 1 / 2 ≤ rnd (q : ℝ) := by
    constructor
    · intro hc
      have hc' : (1 / 2 : ℝ) ≤ q := by
        have : ((1 / 2 : ℚ) : ℝ) ≤ q := by exact_mod_cast hc
        push_cast at this; exact this
      exact le_rnd (bd_div 1 1 (by norm_num) (by norm_num) (by norm_num)).1 hc'
    · intro hc
      by_contra hn
      have hn' : ((q : ℚ) : ℝ) < ((1 : ℕ) : ℝ) / (2 : ℕ) := by
        have : ((q : ℚ) : ℝ) < ((1 / 2 : ℚ) : ℝ) := by exact_mod_cast not_le.1 hn
        push_cast at this ⊢; exact this
      have := gap' 1 2 (by norm_num) (by norm_num) hn'
      norm_num at this herr
      linarith [herr.2]
  unfold gShift shiftOf
  rw [f90, f75, f50]
  have e1 : (f32 powf).lt (.num (15099494 / 2 ^ 24)) (.num (rnd (q : ℝ))) = decide (9 / 10 < q) :=
    decide_eq_decide.2 c90.symm
  have e2 : (f32 powf).le (.num (3 / 4)) (.num (rnd (q : ℝ))) = decide (3 / 4 ≤ q) := decide_eq_decide.2 c75.symm
  have e3 : (f32 powf).le (.num (rnd (q : ℝ))) (.num (15099494 / 2 ^ 24)) = decide (q ≤ 9 / 10) :=
    decide_eq_decide.2 (by rw [← not_lt, ← not_lt, c90])
  have e4 : (f32 powf).le (.num (1 / 2)) (.num (rnd (q : ℝ))) = decide (1 / 2 ≤ q) := decide_eq_decide.2 c50.symm
  have e5 : (f32 powf).lt (.num (rnd (q : ℝ))) (.num (3 / 4)) = decide (q < 3 / 4) :=
    decide_eq_decide.2 (by rw [← not_le, ← not_le, c75])
  rw [e1, e2, e3, e4, e5]
  simp only [decide_eq_true_eq, Bool.and_eq_true]
  split_ifs <;> rfl

/-- The four possible results of the adjustment of the default shares, in twentieths. -/
theorem machine_default_shares {passed failed : Nat} (h : passed + failed ≤ 2 ^ 20) {n : Nat} (hn : n ≤ 2 ^ 20) :
    ∃ m e c t w : Nat,
      sharesOf (adjusted .default (rateOf passed failed)) = ⟨m / 20, e / 20, c / 20, t / 20, w / 20⟩ ∧
      m + e + c + t + w = 20 ∧ 1 ≤ m ∧ 2 ≤ e + 0 ∧ 2 ≤ t ∧ 2 ≤ w ∧ c = 6 ∧ m ≤ 4 ∧ e ≤ 6 ∧ t ≤ 5 ∧ w ≤ 5 ∧ (m = 1 → 3 ≤ e) ∧
      gQuotas (f32 powf) F.toUsize n
          (gAdjusted (f32 powf) (gDefaultShares (f32 powf)) (gSuccessRate (f32 powf) passed failed)) =
        ⟨max (n * m / 20) 1, max (n * e / 20) 1,
          if 1 / 2 ≤ rateOf passed failed ∧ rateOf passed failed < 3 / 4 then max ((3 * n - 1) / 10) 1
            else max (n * c / 20) 1,
          max (n * t / 20) 1, max (n * w / 20) 1⟩ := by
  have hs := machine_shift (powf := powf) h
  generalize rateOf passed failed = q at *
  generalize gSuccessRate (f32 powf) passed failed = rate at *
  have hq : (9 / 10 < q) ∨ (3 / 4 ≤ q ∧ q ≤ 9 / 10) ∨ (1 / 2 ≤ q ∧ q < 3 / 4) ∨ q < 1 / 2 := by
    rcases lt_or_ge (9 / 10) q with a | a
    · exact Or.inl a
    · rcases lt_or_ge q (3 / 4) with b | b
      · rcases lt_or_ge q (1 / 2) with c | c
        · exact Or.inr (Or.inr (Or.inr c))
        · exact Or.inr (Or.inr (Or.inl ⟨c, b⟩))
      · exact Or.inr (Or.inl ⟨b, a⟩)
  rcases hq with hq | hq | hq | hq
  · have hsh : shiftOf q = some (1 / 20) := by unfold shiftOf; rw [if_pos hq]
    rw [hsh] at hs
    refine ⟨1, 3, 6, 5, 5, ?_, by norm_num, by norm_num, by norm_num, by norm_num, by norm_num, rfl, by norm_num,
      by norm_num, by norm_num, by norm_num, by norm_num, ?_⟩
    · unfold adjusted sharesOf
      rw [hsh]
      norm_num [SchedulerOptions.default, clampQ]
    · rw [shares_up hs, if_neg (by intro hc; linarith [hc.2])]
      unfold gQuotas
      dsimp only
      rw [quota_up 1 (by norm_num) hn (by norm_num) (by norm_num), quota_up 3 (by norm_num) hn (by norm_num) (by norm_num),
        quota_up 6 (by norm_num) hn (by norm_num) (by norm_num), quota_up 5 (by norm_num) hn (by norm_num) (by norm_num)]
  · have hsh : shiftOf q = none := by
      unfold shiftOf; rw [if_neg (by linarith [hq.2]), if_pos hq]
    rw [hsh] at hs
    refine ⟨2, 4, 6, 4, 4, ?_, by norm_num, by norm_num, by norm_num, by norm_num, by norm_num, rfl, by norm_num,
      by norm_num, by norm_num, by norm_num, by norm_num, ?_⟩
    · unfold adjusted sharesOf
      rw [hsh]
      norm_num [SchedulerOptions.default]
    · have : gAdjusted (f32 powf) (gDefaultShares (f32 powf)) rate = gDefaultShares (f32 powf) := by
        unfold gAdjusted
        rw [hs]
        rfl
      rw [this, if_neg (by intro hc; linarith [hc.2, hq.1])]
      unfold gQuotas gDefaultShares
      dsimp only
      rw [f10, f20, f30]
      rw [quota_up 2 (by norm_num) hn (by norm_num) (by norm_num), quota_up 4 (by norm_num) hn (by norm_num) (by norm_num),
        quota_up 6 (by norm_num) hn (by norm_num) (by norm_num)]
  · have hsh : shiftOf q = some (-1 / 20) := by
      unfold shiftOf
      rw [if_neg (by linarith [hq.2]), if_neg (by intro hc; linarith [hc.1, hq.2]), if_pos hq]
    rw [hsh] at hs
    refine ⟨3, 5, 6, 3, 3, ?_, by norm_num, by norm_num, by norm_num, by norm_num, by norm_num, rfl, by norm_num,
      by norm_num, by norm_num, by norm_num, by norm_num, ?_⟩
    · unfold adjusted sharesOf
      rw [hsh]
      norm_num [SchedulerOptions.default, clampQ]
    · rw [shares_down hs, if_pos hq]
      unfold gQuotas
      dsimp only
      rw [quota_short hn, quota_up 3 (by norm_num) hn (by norm_num) (by norm_num),
        quota_up 5 (by norm_num) hn (by norm_num) (by norm_num)]
  · have hsh : shiftOf q = some (-1 / 10) := by
      unfold shiftOf
      rw [if_neg (by linarith), if_neg (by intro hc; linarith [hc.1]), if_neg (by intro hc; linarith [hc.1])]
    rw [hsh] at hs
    refine ⟨4, 6, 6, 2, 2, ?_, by norm_num, by norm_num, by norm_num, by norm_num, by norm_num, rfl, by norm_num,
      by norm_num, by norm_num, by norm_num, by norm_num, ?_⟩
    · unfold adjusted sharesOf
      rw [hsh]
      norm_num [SchedulerOptions.default, clampQ]
    · rw [shares_far_down hs, if_neg (by intro hc; linarith [hc.1])]
      unfold gQuotas
      dsimp only
      rw [quota_up 4 (by norm_num) hn (by norm_num) (by norm_num), quota_up 6 (by norm_num) hn (by norm_num) (by norm_num),
        quota_up 2 (by norm_num) hn (by norm_num) (by norm_num)]

/-- C100: with the default shares, up to 2^20 graded exercises and a batch of up to 2^20, the machine gives every window
the number of exercises that exact arithmetic gives it, but for the current window when the success rate is at least 1/2
and below 3/4: that one gets the largest number of exercises strictly below three tenths of the batch. -/
theorem machine_quotas {passed failed n : Nat} (h : passed + failed ≤ 2 ^ 20) (hn : n ≤ 2 ^ 20) :
    let k := gQuotas (f32 powf) F.toUsize n
      (gAdjusted (f32 powf) (gDefaultShares (f32 powf)) (gSuccessRate (f32 powf) passed failed))
    let rate := rateOf passed failed
    let o := adjusted .default rate
    k.mastered = quota n o.masteredWindow ∧ k.easy = quota n o.easyWindow ∧
      k.target = quota n o.targetWindow ∧ k.new = quota n o.newWindow ∧
      (¬ (1 / 2 ≤ rate ∧ rate < 3 / 4) → k.current = quota n o.currentWindow) ∧
      (1 / 2 ≤ rate ∧ rate < 3 / 4 → k.current = max ((3 * n - 1) / 10) 1) := by
  obtain ⟨m, e, c, t, w, h1, _, _, _, _, _, _, _, _, _, _, _, h2⟩ := machine_default_shares (powf := powf) h hn
  dsimp only
  rw [h2]
  generalize adjusted .default (rateOf passed failed) = o at *
  unfold sharesOf at h1
  simp only [Shares.mk.injEq] at h1
  obtain ⟨p1, p2, p3, p4, p5⟩ := h1
  have cast : ∀ (q : ℚ) (a : Nat), (q : ℝ) = (a : ℝ) / 20 → q = (a : ℚ) / 20 := by
    intro q a hqa
    have : (q : ℝ) = ((a / 20 : ℚ) : ℝ) := by rw [hqa]; push_cast; rfl
    exact_mod_cast this
  refine ⟨(quota_exact n m _ (cast _ _ p1)).symm, (quota_exact n e _ (cast _ _ p2)).symm,
    (quota_exact n t _ (cast _ _ p4)).symm, (quota_exact n w _ (cast _ _ p5)).symm, ?_, ?_⟩
  · intro hc
    rw [if_neg hc]
    exact (quota_exact n c _ (cast _ _ p3)).symm
  · intro hc
    rw [if_pos hc]

/-- C100: so with the default options, a batch of 50 and a success rate of one half, the current window gets 14 exercises
and not the 15 that three tenths of 50 are. -/
theorem machine_one_fewer :
    (gQuotas (f32 powf) F.toUsize 50
      (gAdjusted (f32 powf) (gDefaultShares (f32 powf)) (gSuccessRate (f32 powf) 1 1))).current = 14 ∧
    quota 50 (adjusted .default (rateOf 1 1)).currentWindow = 15 := by
  constructor
  · have := (machine_quotas (powf := powf) (passed := 1) (failed := 1) (n := 50) (by norm_num) (by norm_num)).2.2.2.2.2
      (by norm_num [rateOf])
    rw [this]
    norm_num
  · rw [quota_exact 50 6]
    · norm_num
    · norm_num [adjusted, shiftOf, rateOf, clampQ, SchedulerOptions.default]

/-! ### The batch -/

theorem gQuota_pos (n : Nat) (p : F) : 1 ≤ gQuota (f32 powf) F.toUsize n p := by
  unfold gQuota
  rw [f1]
  generalize (f32 powf).mul _ p = x
  show 1 ≤ F.toUsize (F.max x (.num 1))
  have one : F.toUsize (.num 1) = 1 := by
    show Nat.min ⌊(1 : ℝ)⌋₊ _ = _
    rw [Nat.floor_one]; rfl
  cases x with
  | nan => rw [show F.max F.nan (.num 1) = .num 1 from rfl, one]
  | inf b => cases b with
    | true =>
      show 1 ≤ F.toUsize (if F.lt (.inf true) (.num 1) = true then .num 1 else .inf true)
      rw [if_pos (by simp [F.lt]), one]
    | false =>
      show 1 ≤ F.toUsize (if F.lt (.inf false) (.num 1) = true then .num 1 else .inf false)
      rw [if_neg (by simp [F.lt])]
      simp [F.toUsize]
  | num y =>
    show 1 ≤ F.toUsize (if decide (y < 1) = true then .num 1 else .num y)
    split
    · rw [one]
    · rename_i hy
      have hy : 1 ≤ y := by simpa using hy
      show 1 ≤ Nat.min ⌊y⌋₊ _
      exact le_min ((Nat.one_le_floor_iff y).2 hy) (by norm_num)

/-- Options whose shares give the numbers `k` of exercises for a batch of `n`. -/
def withQuotas (o : SchedulerOptions) (k : Shares Nat) (n : Nat) : SchedulerOptions :=
  { o with
    masteredWindow := { o.masteredWindow with percentage := k.mastered / n }
    easyWindow := { o.easyWindow with percentage := k.easy / n }
    currentWindow := { o.currentWindow with percentage := k.current / n }
    targetWindow := { o.targetWindow with percentage := k.target / n }
    newWindow := { o.newWindow with percentage := k.new / n } }

theorem quota_of {n k : Nat} (hn : 0 < n) (hk : 1 ≤ k) (w : MasteryWindow) (h : w.percentage = k / n) :
    quota n w = k := by
  unfold quota
  have hnq : (n : ℚ) ≠ 0 := by exact_mod_cast hn.ne'
  rw [h, mul_div_cancel₀ _ hnq, max_eq_left (by exact_mod_cast hk), Nat.floor_natCast]

/-- The machine's batch is a batch that exact arithmetic makes with other shares and the same windows. -/
theorem machine_filter (pick : Picks ι) (o : SchedulerOptions) (hb : 0 < o.batchSize) (p : Shares F)
    (passed failed : Nat) (r : Result ι) (hp : IsSampler pick) :
    ∃ k, k = gQuotas (f32 powf) F.toUsize (dynamicBatchSize o.batchSize r.candidates.length)
        (gAdjusted (f32 powf) p (gSuccessRate (f32 powf) passed failed)) ∧
      gFilterCandidates (f32 powf) F.toUsize pick o p passed failed r =
        filterCandidates pick (withQuotas o k (dynamicBatchSize o.batchSize r.candidates.length)) (3 / 4) r ∧
      (gFilterCandidates (f32 powf) F.toUsize pick o p passed failed r).length ≤
        max (dynamicBatchSize o.batchSize r.candidates.length)
          (k.mastered + k.easy + k.current + k.target + k.new) := by
  refine ⟨_, rfl, ?_⟩
  have hn : 0 < dynamicBatchSize o.batchSize r.candidates.length := by
    unfold dynamicBatchSize minDynamicBatchSize
    split
    · exact hb
    · split <;> omega
  unfold gFilterCandidates filterCandidates
  dsimp only
  have ha : ∀ o : SchedulerOptions, adjusted o (3 / 4) = o := by
    intro o
    unfold adjusted
    have : shiftOf (3 / 4) = none := by norm_num [shiftOf]
    rw [this]
  rw [ha]
  generalize gAdjusted (f32 powf) p (gSuccessRate (f32 powf) passed failed) = p'
  have hbs : ∀ k n, (withQuotas o k n).batchSize = o.batchSize := fun _ _ => rfl
  rw [hbs]
  generalize dynamicBatchSize o.batchSize r.candidates.length = n at *
  have q1 : quota n (withQuotas o (gQuotas (f32 powf) F.toUsize n p') n).masteredWindow = gQuota (f32 powf) F.toUsize n p'.mastered :=
    quota_of hn (gQuota_pos _ _) _ rfl
  have q2 : quota n (withQuotas o (gQuotas (f32 powf) F.toUsize n p') n).easyWindow = gQuota (f32 powf) F.toUsize n p'.easy :=
    quota_of hn (gQuota_pos _ _) _ rfl
  have q3 : quota n (withQuotas o (gQuotas (f32 powf) F.toUsize n p') n).currentWindow = gQuota (f32 powf) F.toUsize n p'.current :=
    quota_of hn (gQuota_pos _ _) _ rfl
  have q4 : quota n (withQuotas o (gQuotas (f32 powf) F.toUsize n p') n).targetWindow = gQuota (f32 powf) F.toUsize n p'.target :=
    quota_of hn (gQuota_pos _ _) _ rfl
  have q5 : quota n (withQuotas o (gQuotas (f32 powf) F.toUsize n p') n).newWindow = gQuota (f32 powf) F.toUsize n p'.new :=
    quota_of hn (gQuota_pos _ _) _ rfl
  have hf : gFill pick o (gQuotas (f32 powf) F.toUsize n p') n r =
      fill pick (withQuotas o (gQuotas (f32 powf) F.toUsize n p') n) n r := by
    unfold gFill fill
    rw [q1, q2, q3, q4, q5]
    rfl
  refine ⟨hf, ?_⟩
  rw [hf]
  obtain ⟨x1, x2, x3, x4, x5, _, _, _, _, _, _, hl⟩ :=
    fill_shape pick hp (withQuotas o (gQuotas (f32 powf) F.toUsize n p') n) n r
  refine Nat.le_trans hl (max_le_max (le_refl _) ?_)
  simp only [List.length_append, (select_fst (hp 0) _ _).2, (select_fst (hp 1) _ _).2,
    (select_fst (hp 2) _ _).2, (select_fst (hp 3) _ _).2, (select_fst (hp 4) _ _).2, q1, q2, q3, q4, q5]
  show _ ≤ gQuota (f32 powf) F.toUsize n p'.mastered + gQuota (f32 powf) F.toUsize n p'.easy +
    gQuota (f32 powf) F.toUsize n p'.current + gQuota (f32 powf) F.toUsize n p'.target +
    gQuota (f32 powf) F.toUsize n p'.new
  omega

/-- C100: whatever the shares and counts, the machine's batch consists of candidates. -/
theorem machine_batch_from_candidates (pick : Picks ι) (hp : IsSampler pick) (o : SchedulerOptions)
    (hb : 0 < o.batchSize) (p : Shares F) (passed failed : Nat) (r : Result ι)
    (hr : r.highlyEncompassed ⊆ r.candidates) :
    gFilterCandidates (f32 powf) F.toUsize pick o p passed failed r ⊆ r.candidates := by
  obtain ⟨k, _, h, _⟩ := machine_filter (powf := powf) pick o hb p passed failed r hp
  rw [h]
  exact batch_from_candidates pick hp _ _ r hr

/-- C100: whatever the shares and counts, the machine's batch has no duplicates if no score is in two windows. -/
theorem machine_batch_no_duplicates (pick : Picks ι) (hp : IsSampler pick) (o : SchedulerOptions)
    (hb : 0 < o.batchSize) (hd : Disjoint o) (p : Shares F) (passed failed : Nat) (r : Result ι)
    (hr : r.highlyEncompassed.Subperm r.candidates) (hn : (ids r.candidates).Nodup) :
    (ids (gFilterCandidates (f32 powf) F.toUsize pick o p passed failed r)).Nodup := by
  obtain ⟨k, _, h, _⟩ := machine_filter (powf := powf) pick o hb p passed failed r hp
  rw [h]
  refine batch_no_duplicates pick hp _ ?_ _ r hr hn
  intro s
  exact hd s

/-- C100: whatever the shares and counts, each window with a candidate in it is represented in the machine's batch. -/
theorem machine_batch_represents_windows (pick : Picks ι) (hp : IsSampler pick) (o : SchedulerOptions)
    (hb : 0 < o.batchSize) (p : Shares F) (passed failed : Nat) (r : Result ι) (w : MasteryWindow)
    (hw : w ∈ o.windows) (c : Candidate ι) (hc : c ∈ r.candidates) (hs : w.inWindow c.score = true)
    (hh : c.exercise ∉ ids r.highlyEncompassed) :
    ∃ c' ∈ gFilterCandidates (f32 powf) F.toUsize pick o p passed failed r,
      w.inWindow c'.score = true ∨ c' ∈ r.highlyEncompassed := by
  obtain ⟨k, _, h, _⟩ := machine_filter (powf := powf) pick o hb p passed failed r hp
  rw [h]
  generalize dynamicBatchSize o.batchSize r.candidates.length = n
  have hw' : ∃ w' ∈ (withQuotas o k n).windows, ∀ s, w'.inWindow s = w.inWindow s := by
    simp only [SchedulerOptions.windows, List.mem_cons, List.not_mem_nil, or_false] at hw ⊢
    rcases hw with rfl | rfl | rfl | rfl | rfl
    · exact ⟨(withQuotas o k n).newWindow, by simp, fun _ => rfl⟩
    · exact ⟨(withQuotas o k n).targetWindow, by simp, fun _ => rfl⟩
    · exact ⟨(withQuotas o k n).currentWindow, by simp, fun _ => rfl⟩
    · exact ⟨(withQuotas o k n).easyWindow, by simp, fun _ => rfl⟩
    · exact ⟨(withQuotas o k n).masteredWindow, by simp, fun _ => rfl⟩
  obtain ⟨w', hw', he⟩ := hw'
  obtain ⟨c', h1, h2⟩ := batch_represents_windows pick hp (withQuotas o k n) (3 / 4) r w' hw' c hc (by rw [he]; exact hs) hh
  rw [he] at h2
  exact ⟨c', h1, h2⟩

/-- C100: with the default shares, a batch size from 10 to 2^20 and up to 2^20 graded exercises, the machine's batch is
never larger than the configured size. -/
theorem machine_batch_size (pick : Picks ι) (hp : IsSampler pick) (o : SchedulerOptions)
    (h10 : 10 ≤ o.batchSize) (hb : o.batchSize ≤ 2 ^ 20) {passed failed : Nat} (h : passed + failed ≤ 2 ^ 20)
    (r : Result ι) :
    (gFilterCandidates (f32 powf) F.toUsize pick o (gDefaultShares (f32 powf)) passed failed r).length ≤
      o.batchSize := by
  obtain ⟨k, hk, _, hl⟩ := machine_filter (powf := powf) pick o (by omega) (gDefaultShares (f32 powf)) passed failed r hp
  refine hl.trans ?_
  set n := dynamicBatchSize o.batchSize r.candidates.length with hn
  have hn1 : n ≤ o.batchSize ∧ 10 ≤ n := by
    rw [hn]
    unfold dynamicBatchSize minDynamicBatchSize
    split
    · omega
    · split <;> omega
  obtain ⟨m, e, c, t, w, _, hsum, g1, g2, g3, g4, g5, g6, g7, g8, g9, g10, h2⟩ :=
    machine_default_shares (powf := powf) h (n := n) (by omega)
  rw [← hk] at h2
  rw [h2]
  dsimp only
  have hc : (if 1 / 2 ≤ rateOf passed failed ∧ rateOf passed failed < 3 / 4 then max ((3 * n - 1) / 10) 1
      else max (n * c / 20) 1) ≤ max (n * 6 / 20) 1 := by
    subst g5
    split
    · omega
    · exact le_refl _
  have : max (n * m / 20) 1 + max (n * e / 20) 1 + max (n * 6 / 20) 1 + max (n * t / 20) 1 + max (n * w / 20) 1 ≤ n := by
    have : m = 1 ∨ m = 2 ∨ m = 3 ∨ m = 4 := by omega
    have : e = 2 ∨ e = 3 ∨ e = 4 ∨ e = 5 ∨ e = 6 := by omega
    have : t = 2 ∨ t = 3 ∨ t = 4 ∨ t = 5 := by omega
    have : w = 2 ∨ w = 3 ∨ w = 4 ∨ w = 5 := by omega
    rcases ‹m = 1 ∨ _› with rfl | rfl | rfl | rfl <;> rcases ‹e = 2 ∨ _› with rfl | rfl | rfl | rfl | rfl <;>
      rcases ‹t = 2 ∨ _› with rfl | rfl | rfl | rfl <;> rcases ‹w = 2 ∨ _› with rfl | rfl | rfl | rfl <;> omega
  omega

/-! ### Shares for any options -/

/-- Shares between 5% and 50%, as the shares of four of the windows are clamped. -/
def Moderate (x : F) : Prop := ∃ z, x = .num z ∧ Rep z ∧ 13421773 / 2 ^ 28 ≤ z ∧ z ≤ 1 / 2

/-- The shift in force, 0 if there is none. -/
noncomputable def shiftVal (powf : F → F → F) (rate : F) : ℝ :=
  match gShift (f32 powf) rate with
  | some (.num x) => x
  | _ => 0

/-- Clamping of numbers. -/
noncomputable def clampR (x : ℝ) : ℝ := if x < 13421773 / 2 ^ 28 then 13421773 / 2 ^ 28 else if 1 / 2 < x then 1 / 2 else x

theorem clampR_mono {x y : ℝ} (h : x ≤ y) : clampR x ≤ clampR y := by
  unfold clampR
  split_ifs <;> linarith

theorem clampR_range (x : ℝ) : 13421773 / 2 ^ 28 ≤ clampR x ∧ clampR x ≤ 1 / 2 := by
  unfold clampR
  split_ifs <;> constructor <;> linarith

theorem clampR_id {x : ℝ} (h1 : 13421773 / 2 ^ 28 ≤ x) (h2 : x ≤ 1 / 2) : clampR x = x := by
  unfold clampR
  rw [if_neg (by linarith), if_neg (by linarith)]

theorem clamp_num (x : ℝ) : (f32 powf).clamp (.num x) ((f32 powf).lit (1 / 20)) ((f32 powf).lit (1 / 2)) = .num (clampR x) := by
  rw [f5, f50]
  show (if decide (x < 13421773 / 2 ^ 28) = true then F.num (13421773 / 2 ^ 28) else
    if decide ((1 : ℝ) / 2 < x) = true then .num (1 / 2) else .num x) = _
  unfold clampR
  simp only [decide_eq_true_eq]
  split_ifs <;> rfl

theorem shift_cases (rate : F) : gShift (f32 powf) rate = none ∧ shiftVal powf rate = 0 ∨
    gShift (f32 powf) rate = some (.num (shiftVal powf rate)) ∧ |shiftVal powf rate| ≤ 1 / 4 := by
  have h : gShift (f32 powf) rate = none ∨ gShift (f32 powf) rate = some ((f32 powf).lit (1 / 20)) ∨
      gShift (f32 powf) rate = some ((f32 powf).lit (-1 / 20)) ∨
      gShift (f32 powf) rate = some ((f32 powf).lit (-1 / 10)) := by
    unfold gShift
    split_ifs <;> simp
  unfold shiftVal
  rcases h with h | h | h | h
  · rw [h]; exact Or.inl ⟨rfl, rfl⟩
  · rw [h, f5]; exact Or.inr ⟨rfl, by norm_num [abs_le]⟩
  · rw [h, f5n]; exact Or.inr ⟨rfl, by norm_num [abs_le]⟩
  · rw [h, f10n]; exact Or.inr ⟨rfl, by norm_num [abs_le]⟩

/-- A better success rate never means a smaller shift. -/
theorem shift_mono {a b : ℝ} (h : a ≤ b) : shiftVal powf (.num a) ≤ shiftVal powf (.num b) := by
  have key : ∀ x : ℝ, shiftVal powf (.num x) =
      if 15099494 / 2 ^ 24 < x then 13421773 / 2 ^ 28 else if 3 / 4 ≤ x then 0
      else if 1 / 2 ≤ x then -(13421773 / 2 ^ 28) else -(13421773 / 2 ^ 27) := by
    intro x
    unfold shiftVal gShift
    rw [f90, f75, f50, f5, f5n, f10n]
    have e1 : (f32 powf).lt (.num (15099494 / 2 ^ 24)) (.num x) = decide (15099494 / 2 ^ 24 < x) := rfl
    have e2 : (f32 powf).le (.num (3 / 4)) (.num x) = decide (3 / 4 ≤ x) := rfl
    have e3 : (f32 powf).le (.num x) (.num (15099494 / 2 ^ 24)) = decide (x ≤ 15099494 / 2 ^ 24) := rfl
    have e4 : (f32 powf).le (.num (1 / 2)) (.num x) = decide (1 / 2 ≤ x) := rfl
    have e5 : (f32 powf).lt (.num x) (.num (3 / 4)) = decide (x < 3 / 4) := rfl
    rw [e1, e2, e3, e4, e5]
    simp only [decide_eq_true_eq, Bool.and_eq_true]
    by_cases c1 : 15099494 / 2 ^ 24 < x
    · rw [if_pos c1, if_pos c1]
    · rw [if_neg c1, if_neg c1]
      by_cases c2 : 3 / 4 ≤ x
      · rw [if_pos ⟨c2, not_lt.1 c1⟩, if_pos c2]
      · rw [if_neg (fun hc => c2 hc.1), if_neg c2]
        by_cases c3 : 1 / 2 ≤ x
        · rw [if_pos ⟨c3, not_le.1 c2⟩, if_pos c3]
        · rw [if_neg (fun hc => c3 hc.1), if_neg c3]
  rw [key, key]
  split_ifs <;> norm_num <;> linarith

theorem round_one {x : ℝ} (h : |x| ≤ 1) : F.round x = .num (rnd x) :=
  round_num (h := 1) (by norm_num) rep_one h

/-- The four adjusted shares of moderate ones, in one formula. -/
theorem adjusted_vals {p : Shares F} {n t e m : ℝ} (hn : p.new = .num n) (ht : p.target = .num t) (he : p.easy = .num e)
    (hm : p.mastered = .num m) (rn : Rep n) (rt : Rep t) (re : Rep e) (rm : Rep m)
    (bn : 13421773 / 2 ^ 28 ≤ n ∧ n ≤ 1 / 2) (bt : 13421773 / 2 ^ 28 ≤ t ∧ t ≤ 1 / 2)
    (be : 13421773 / 2 ^ 28 ≤ e ∧ e ≤ 1 / 2) (bm : 13421773 / 2 ^ 28 ≤ m ∧ m ≤ 1 / 2) (rate : F) :
    (gAdjusted (f32 powf) p rate).new = .num (clampR (rnd (n + shiftVal powf rate))) ∧
    (gAdjusted (f32 powf) p rate).target = .num (clampR (rnd (t + shiftVal powf rate))) ∧
    (gAdjusted (f32 powf) p rate).easy = .num (clampR (rnd (e + -shiftVal powf rate))) ∧
    (gAdjusted (f32 powf) p rate).mastered = .num (clampR (rnd (m + -shiftVal powf rate))) := by
  have fix : ∀ x : ℝ, Rep x → 13421773 / 2 ^ 28 ≤ x ∧ x ≤ 1 / 2 → clampR (rnd (x + 0)) = x := by
    intro x hx hb
    rw [add_zero, rnd_fix hx, clampR_id hb.1 hb.2]
  rcases shift_cases (powf := powf) rate with ⟨h1, h2⟩ | ⟨h1, h2⟩
  · have : gAdjusted (f32 powf) p rate = p := by unfold gAdjusted; rw [h1]
    rw [this, h2, neg_zero, fix n rn bn, fix t rt bt, fix e re be, fix m rm bm]
    exact ⟨hn, ht, he, hm⟩
  · have small : ∀ x : ℝ, 13421773 / 2 ^ 28 ≤ x ∧ x ≤ 1 / 2 → ∀ s : ℝ, |s| ≤ 1 / 4 → |x + s| ≤ 1 := by
      intro x hb s hs
      rw [abs_le] at hs ⊢
      have : (0 : ℝ) < 13421773 / 2 ^ 28 := by norm_num
      constructor <;> linarith [hs.1, hs.2, hb.1, hb.2]
    have h2' : |-shiftVal powf rate| ≤ 1 / 4 := by rw [abs_neg]; exact h2
    unfold gAdjusted
    rw [h1]
    dsimp only
    rw [hn, ht, he, hm]
    have a : ∀ x y : ℝ, |x + y| ≤ 1 → (f32 powf).add (.num x) (.num y) = .num (rnd (x + y)) := fun x y h => round_one h
    have b : ∀ x y : ℝ, |x + -y| ≤ 1 → (f32 powf).sub (.num x) (.num y) = .num (rnd (x + -y)) := fun x y h => round_one h
    rw [a _ _ (small n bn _ h2), a _ _ (small t bt _ h2), b _ _ (small e be _ h2'), b _ _ (small m bm _ h2')]
    rw [clamp_num, clamp_num, clamp_num, clamp_num]
    exact ⟨rfl, rfl, rfl, rfl⟩

/-- C100: the machine, too, makes batches harder as the success rate grows: the shares of the new and target windows
never fall and those of the easy and mastered windows never rise. -/
theorem machine_success_makes_harder (p : Shares F) (hn : Moderate p.new) (ht : Moderate p.target) (he : Moderate p.easy)
    (hm : Moderate p.mastered) {a b : ℝ} (h : a ≤ b) :
    F.le (gAdjusted (f32 powf) p (.num a)).new (gAdjusted (f32 powf) p (.num b)).new = true ∧
    F.le (gAdjusted (f32 powf) p (.num a)).target (gAdjusted (f32 powf) p (.num b)).target = true ∧
    F.le (gAdjusted (f32 powf) p (.num b)).easy (gAdjusted (f32 powf) p (.num a)).easy = true ∧
    F.le (gAdjusted (f32 powf) p (.num b)).mastered (gAdjusted (f32 powf) p (.num a)).mastered = true := by
  obtain ⟨n, en, rn, bn⟩ := hn
  obtain ⟨t, et, rt, bt⟩ := ht
  obtain ⟨e, ee, re, be⟩ := he
  obtain ⟨m, em, rm, bm⟩ := hm
  obtain ⟨a1, a2, a3, a4⟩ := adjusted_vals (powf := powf) en et ee em rn rt re rm bn bt be bm (.num a)
  obtain ⟨b1, b2, b3, b4⟩ := adjusted_vals (powf := powf) en et ee em rn rt re rm bn bt be bm (.num b)
  have hs := shift_mono (powf := powf) h
  rw [a1, a2, a3, a4, b1, b2, b3, b4]
  refine ⟨decide_eq_true (clampR_mono (rnd_mono ?_)), decide_eq_true (clampR_mono (rnd_mono ?_)),
    decide_eq_true (clampR_mono (rnd_mono ?_)), decide_eq_true (clampR_mono (rnd_mono ?_))⟩ <;> linarith

/-- What the current window is left, from the other shares. -/
theorem current_val (p : Shares F) {rate s : F} (hs : gShift (f32 powf) rate = some s) :
    (gAdjusted (f32 powf) p rate).current = (f32 powf).max ((f32 powf).sub ((f32 powf).lit 1)
      ((f32 powf).add ((f32 powf).add ((f32 powf).add (gAdjusted (f32 powf) p rate).new
        (gAdjusted (f32 powf) p rate).target) (gAdjusted (f32 powf) p rate).easy)
        (gAdjusted (f32 powf) p rate).mastered)) ((f32 powf).lit (1 / 20)) := by
  unfold gAdjusted
  rw [hs]

theorem rnd_err_le {x b : ℝ} (hb : 1 ≤ b) (h : |x| ≤ b) : |rnd x - x| ≤ b / 2 ^ 24 := by
  refine (rnd_err x).trans (max_le (div_le_div_of_nonneg_right h (by positivity)) ?_)
  have h1 : (2 : ℝ) ^ (-150 : ℤ) ≤ 2 ^ (-24 : ℤ) := zpow_le_zpow_right₀ (by norm_num) (by norm_num)
  have h2 : (2 : ℝ) ^ (-24 : ℤ) = 1 / 2 ^ 24 := by norm_num
  rw [h2] at h1
  exact h1.trans (div_le_div_of_nonneg_right hb (by positivity))

/-- C100: after an adjustment of shares between 5% and 50%, whatever the rate, each share lies between 5% and 50% but for
the current window's, which is at least 5%; and if the four others leave the current window its 5%, all five sum to 1
but for at most 2^-21. -/
theorem machine_shares_sum (p : Shares F) (hn : Moderate p.new) (ht : Moderate p.target) (he : Moderate p.easy)
    (hm : Moderate p.mastered) (rate : F) (hr : gShift (f32 powf) rate ≠ none) :
    ∃ n t e m c : ℝ, gAdjusted (f32 powf) p rate = ⟨.num m, .num e, .num c, .num t, .num n⟩ ∧
      (1 / 20 ≤ n ∧ n ≤ 1 / 2) ∧ (1 / 20 ≤ t ∧ t ≤ 1 / 2) ∧ (1 / 20 ≤ e ∧ e ≤ 1 / 2) ∧ (1 / 20 ≤ m ∧ m ≤ 1 / 2) ∧
      1 / 20 ≤ c ∧ (n + t + e + m ≤ 19 / 20 - 1 / 2 ^ 20 → |n + t + e + m + c - 1| ≤ 1 / 2 ^ 21) := by
  obtain ⟨n, en, rn, bn⟩ := hn
  obtain ⟨t, et, rt, bt⟩ := ht
  obtain ⟨e, ee, re, be⟩ := he
  obtain ⟨m, em, rm, bm⟩ := hm
  obtain ⟨a1, a2, a3, a4⟩ := adjusted_vals (powf := powf) en et ee em rn rt re rm bn bt be bm rate
  have rng := fun x => clampR_range x
  set N := clampR (rnd (n + shiftVal powf rate)) with hN
  set T := clampR (rnd (t + shiftVal powf rate)) with hT
  set E := clampR (rnd (e + -shiftVal powf rate)) with hE
  set M := clampR (rnd (m + -shiftVal powf rate)) with hM
  have bN : 13421773 / 2 ^ 28 ≤ N ∧ N ≤ 1 / 2 := rng _
  have bT : 13421773 / 2 ^ 28 ≤ T ∧ T ≤ 1 / 2 := rng _
  have bE : 13421773 / 2 ^ 28 ≤ E ∧ E ≤ 1 / 2 := rng _
  have bM : 13421773 / 2 ^ 28 ≤ M ∧ M ≤ 1 / 2 := rng _
  have hc0 : (1 : ℝ) / 20 ≤ 13421773 / 2 ^ 28 := by norm_num
  have h0 : (0 : ℝ) < 13421773 / 2 ^ 28 := by norm_num
  obtain ⟨s, hs⟩ := Option.ne_none_iff_exists'.1 hr
  have hcur := current_val (powf := powf) p hs
  rw [a1, a2, a3, a4, f1, f5] at hcur
  have o1 : (f32 powf).add (.num N) (.num T) = .num (rnd (N + T)) :=
    round_num (h := 1) (by norm_num) rep_one (by rw [abs_of_nonneg (by linarith)]; linarith)
  have l1 : rnd (N + T) ≤ 1 := rnd_le rep_one (by linarith)
  have g1 : 0 ≤ rnd (N + T) := le_rnd rep_zero (by linarith)
  have r32 : Rep (3 / 2) := (bd_div 3 1 (by norm_num) (by norm_num) (by norm_num)).1
  have r2 : Rep 2 := (bd_int 2 (by norm_num)).1
  have o2 : (f32 powf).add (.num (rnd (N + T))) (.num E) = .num (rnd (rnd (N + T) + E)) :=
    round_num (h := 3 / 2) (by norm_num) r32 (by rw [abs_of_nonneg (by linarith)]; linarith)
  have l2 : rnd (rnd (N + T) + E) ≤ 3 / 2 := rnd_le r32 (by linarith)
  have g2 : 0 ≤ rnd (rnd (N + T) + E) := le_rnd rep_zero (by linarith)
  have o3 : (f32 powf).add (.num (rnd (rnd (N + T) + E))) (.num M) = .num (rnd (rnd (rnd (N + T) + E) + M)) :=
    round_num (h := 2) (by norm_num) r2 (by rw [abs_of_nonneg (by linarith)]; linarith)
  have l3 : rnd (rnd (rnd (N + T) + E) + M) ≤ 2 := rnd_le r2 (by linarith)
  have g3 : 0 ≤ rnd (rnd (rnd (N + T) + E) + M) := le_rnd rep_zero (by linarith)
  have o4 : (f32 powf).sub (.num 1) (.num (rnd (rnd (rnd (N + T) + E) + M))) =
      .num (rnd (1 + -rnd (rnd (rnd (N + T) + E) + M))) :=
    round_num (h := 1) (by norm_num) rep_one (by rw [abs_le]; constructor <;> linarith)
  rw [o1, o2, o3, o4] at hcur
  have e1 := rnd_err_le (x := N + T) (b := 1) le_rfl (by rw [abs_of_nonneg (by linarith)]; linarith)
  have e2 := rnd_err_le (x := rnd (N + T) + E) (b := 3 / 2) (by norm_num)
    (by rw [abs_of_nonneg (by linarith)]; linarith)
  have e3 := rnd_err_le (x := rnd (rnd (N + T) + E) + M) (b := 2) (by norm_num)
    (by rw [abs_of_nonneg (by linarith)]; linarith)
  have e4 := rnd_err_le (x := 1 + -rnd (rnd (rnd (N + T) + E) + M)) (b := 1) le_rfl
    (by rw [abs_le]; constructor <;> linarith)
  rw [abs_le] at e1 e2 e3 e4
  generalize rnd (1 + -rnd (rnd (rnd (N + T) + E) + M)) = C at *
  generalize rnd (rnd (rnd (N + T) + E) + M) = S3 at *
  generalize rnd (rnd (N + T) + E) = S2 at *
  generalize rnd (N + T) = S1 at *
  have hmax : (f32 powf).max (.num C) (.num (13421773 / 2 ^ 28)) = .num (if C < 13421773 / 2 ^ 28 then 13421773 / 2 ^ 28 else C) := by
    show (if decide (C < 13421773 / 2 ^ 28) = true then F.num (13421773 / 2 ^ 28) else F.num C) = _
    simp only [decide_eq_true_eq]
    split_ifs <;> rfl
  rw [hmax] at hcur
  refine ⟨N, T, E, M, if C < 13421773 / 2 ^ 28 then 13421773 / 2 ^ 28 else C, ?_, ⟨by linarith, bN.2⟩, ⟨by linarith, bT.2⟩, ⟨by linarith, bE.2⟩, ⟨by linarith, bM.2⟩, ?_, ?_⟩
  · rw [← a1, ← a2, ← a3, ← a4, ← hcur]
  · split_ifs <;> linarith
  · intro hsum
    rw [if_neg (by norm_num at e1 e2 e3 e4 hsum ⊢; linarith [e1.1, e1.2, e2.1, e2.2, e3.1, e3.2, e4.1, e4.2])]
    rw [abs_le]
    norm_num at e1 e2 e3 e4 hsum ⊢
    constructor <;> linarith [e1.1, e1.2, e2.1, e2.2, e3.1, e3.2, e4.1, e4.2]

/-! ### What `verify` and the relearn pile compute -/

/-- C100: the machine's sum of the default shares is exactly 1, so the default options pass the check of the sum. -/
theorem machine_default_verifies : gSumIsOne (f32 powf) (gDefaultShares (f32 powf)) = true := by
  unfold gSumIsOne gDefaultShares
  dsimp only
  have s1 : (f32 powf).add (.num (13421773 / 2 ^ 27)) (.num (13421773 / 2 ^ 26)) = .num (10066330 / 2 ^ 25) := by
    rw [add_val 10066330 25 (by norm_num) (by norm_num) (by norm_num) (by norm_num [abs_lt, abs_le])]; norm_num
  have s2 : (f32 powf).add (.num (10066330 / 2 ^ 25)) (.num (10066330 / 2 ^ 25)) = .num (10066330 / 2 ^ 24) := by
    rw [add_val 10066330 24 (by norm_num) (by norm_num) (by norm_num) (by norm_num [abs_lt, abs_le])]; norm_num
  have s3 : (f32 powf).add (.num (10066330 / 2 ^ 24)) (.num (13421773 / 2 ^ 26)) = .num (13421773 / 2 ^ 24) := by
    rw [add_val 13421773 24 (by norm_num) (by norm_num) (by norm_num) (by norm_num [abs_lt, abs_le])]; norm_num
  have s4 : (f32 powf).add (.num (13421773 / 2 ^ 24)) (.num (13421773 / 2 ^ 26)) = .num 1 := by
    rw [add_val 8388608 23 (by norm_num) (by norm_num) (by norm_num) (by norm_num [abs_lt, abs_le])]; norm_num
  have s5 : (f32 powf).sub (.num 1) (.num 1) = .num 0 := by
    show F.round (1 + -1) = _
    rw [show (1 : ℝ) + -1 = 0 by norm_num, round_bd bd_zero]
  rw [f10, f20, f30, f1, s1, s2, s3, s4, s5]
  have hl : (f32 powf).lit (1 / 2 ^ 23) = .num (1 / 2 ^ 23) := by
    have := lit_bd (powf := powf) (q := 1 / 2 ^ 23) (bd_div 1 23 (by norm_num) (by norm_num) (by norm_num))
    rw [this]; norm_num
  rw [hl]
  show decide (|(0 : ℝ)| < 1 / 2 ^ 23) = true
  norm_num

/-- C100: the number of exercises asked from the relearn pile is never larger than the batch, for any fraction that passes
the check of the options. -/
theorem machine_relearn_le {n : Nat} (hn : n ≤ 2 ^ 24) {v : ℝ} (h0 : 0 ≤ v) (h1 : v ≤ 1) :
    gRelearnCount (f32 powf) F.toUsize n (.num v) ≤ n := by
  have hn0 : (0 : ℝ) ≤ n := Nat.cast_nonneg n
  have hnr : (n : ℝ) ≤ 2 ^ 24 := by exact_mod_cast hn
  unfold gRelearnCount
  rw [ofNat_val hn]
  have hm : (f32 powf).mul (.num n) (.num v) = .num (rnd (n * v)) := round_small (mul_nonneg hn0 h0) (by nlinarith)
  rw [hm]
  have : rnd (n * v) ≤ n :=
    rnd_le (bd_int n (by push_cast; rfl) (by rw [abs_of_nonneg (by omega)]; exact_mod_cast hn)).1 (by nlinarith)
  show Nat.min ⌊rnd (n * v)⌋₊ _ ≤ n
  refine le_trans (Nat.min_le_left _ _) ?_
  exact Nat.floor_le_of_le this

/-- C100: with the default fraction, the machine asks the relearn pile for a tenth of the batch, as exact arithmetic does. -/
theorem machine_relearn_default {n : Nat} (hn : n ≤ 2 ^ 20) :
    gRelearnCount (f32 powf) F.toUsize n ((f32 powf).lit (1 / 10)) = ⌊(n : ℚ) * (1 / 10)⌋₊ := by
  have he : ⌊(n : ℚ) * (1 / 10)⌋₊ = n / 10 := by
    rw [mul_one_div]
    exact_mod_cast Rat.natFloor_natCast_div_natCast n 10
  rw [he]
  obtain ⟨hl, hu⟩ := mul_bounds (n := n) 2 (v := 13421773 / 2 ^ 27) (by norm_num) hn (by norm_num) (by norm_num)
  rw [show n * 2 / 20 = n / 10 by omega] at hl hu
  have hnr : (n : ℝ) ≤ 2 ^ 20 := by exact_mod_cast hn
  have hn0 : (0 : ℝ) ≤ n := Nat.cast_nonneg n
  have hm : (f32 powf).mul (.num n) (.num (13421773 / 2 ^ 27)) = .num (rnd (n * (13421773 / 2 ^ 27))) :=
    round_small (by positivity) (by nlinarith)
  unfold gRelearnCount
  rw [f10, ofNat_val (hn.trans (by norm_num)), hm]
  show Nat.min ⌊rnd (n * (13421773 / 2 ^ 27))⌋₊ _ = _
  have hf : ⌊rnd (n * (13421773 / 2 ^ 27))⌋₊ = n / 10 := by
    rw [Nat.floor_eq_iff (le_trans (Nat.cast_nonneg _) hl)]
    exact ⟨hl, hu⟩
  rw [hf]
  show min (n / 10) _ = _
  omega

/-! ### A case that meets the hypotheses -/

theorem default_moderate : Moderate (gDefaultShares (f32 powf)).new ∧ Moderate (gDefaultShares (f32 powf)).target ∧
    Moderate (gDefaultShares (f32 powf)).easy ∧ Moderate (gDefaultShares (f32 powf)).mastered := by
  have h20 : Moderate ((f32 powf).lit (1 / 5)) := by
    rw [f20]
    exact ⟨_, rfl, (bd_div 13421773 26 (by norm_num) (by norm_num) (by norm_num)).1, by norm_num, by norm_num⟩
  have h10 : Moderate ((f32 powf).lit (1 / 10)) := by
    rw [f10]
    exact ⟨_, rfl, (bd_div 13421773 27 (by norm_num) (by norm_num) (by norm_num)).1, by norm_num, by norm_num⟩
  exact ⟨h20, h20, h20, h10⟩

/-- The default options, ten graded exercises of which four passed and the sample of C38: the batch has an exercise of
each window that a candidate is in, and at most 50. -/
example : gShift (f32 powf) (gSuccessRate (f32 powf) 4 6) = some ((f32 powf).lit (-1 / 10)) ∧
    10 ≤ SchedulerOptions.default.batchSize ∧ SchedulerOptions.default.batchSize ≤ 2 ^ 20 ∧
    (gFilterCandidates (f32 powf) F.toUsize takeFirst .default (gDefaultShares (f32 powf)) 4 6 sampleResult).length ≤ 50 ∧
    (ids (gFilterCandidates (f32 powf) F.toUsize takeFirst .default (gDefaultShares (f32 powf)) 4 6 sampleResult)).Nodup := by
  refine ⟨?_, by decide +kernel, by decide +kernel, ?_, ?_⟩
  · rw [machine_shift (by norm_num)]
    norm_num [shiftOf, rateOf]
  · exact machine_batch_size takeFirst takeFirst_sampler .default (by decide +kernel) (by decide +kernel) (by norm_num)
      sampleResult
  · exact machine_batch_no_duplicates takeFirst takeFirst_sampler .default (by decide +kernel) default_disjoint _ 4 6
      sampleResult (List.Sublist.subperm (List.drop_sublist _ _)) (by decide +kernel)

end Trane.Float
