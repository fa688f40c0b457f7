import Verif.Float.Rewards

/-! # Bounds of rewards, averages and weights in `f32` arithmetic -/

namespace Trane.Float

variable {powf : F → F → F}

/-- A scaled bound is an `f32` number. -/
theorem bd_scale (m : ℤ) (k : ℕ) (hm : |m| ≤ 5) (hk : k ≤ 100) : Bd ((m : ℝ) * 2 ^ k) :=
  bd_mul m k rfl (hm.trans (by norm_num)) (by omega)

theorem bd_times (m : ℤ) (n : ℕ) (hm : |m| ≤ 5) (hn : n ≤ 2 ^ 21) : Bd ((m : ℝ) * n) := by
  refine bd_int (m * n) (by push_cast; rfl) ?_
  rw [abs_mul, Nat.abs_cast]
  have : (n : ℤ) ≤ 2 ^ 21 := by exact_mod_cast hn
  nlinarith [abs_nonneg m]

theorem lit05 : In (1 / 32) (1 / 16) ((f32 powf).lit (5 / 100)) :=
  lit_in powf (bd_div 1 5 (by norm_num) (by norm_num) (by norm_num))
    (bd_div 1 4 (by norm_num) (by norm_num) (by norm_num)) (by norm_num) (by norm_num)

/-- The instants `chrono` accepts, and the clock, are not astronomically far away. -/
structure Clock (inRange : ℤ → Bool) (now : ℤ) : Prop where
  now_le : |now| ≤ 2 ^ 62
  stored_le : ∀ t, inRange t = true → |t| ≤ 2 ^ 62

theorem gDaysSince_le {inRange : ℤ → Bool} {now : ℤ} (h : Clock inRange now) (t : ℤ) :
    0 ≤ gDaysSince inRange t now ∧ gDaysSince inRange t now ≤ 2 ^ 63 := by
  have h1 := abs_le.1 h.now_le
  have h2 : |RewardScorer.instant inRange t| ≤ 2 ^ 62 := by
    unfold RewardScorer.instant
    split
    · exact h.stored_le t ‹_›
    · norm_num
  have h3 := abs_le.1 h2
  unfold gDaysSince
  refine ⟨le_max_right _ _, max_le ?_ (by norm_num)⟩
  generalize RewardScorer.instant inRange t = s at *
  by_cases hc : 0 ≤ now - s
  · rw [Int.tdiv_eq_ediv_of_nonneg hc]
    omega
  · have : (now - s).tdiv 86400 ≤ 0 := by
      have h5 : (now - s).tdiv 86400 = -((-(now - s)).tdiv 86400) := by rw [Int.neg_tdiv]; ring
      have h6 : 0 ≤ (-(now - s)).tdiv 86400 := Int.tdiv_nonneg (by omega) (by norm_num)
      omega
    omega

theorem gDecay_in (hp : Faithful powf) {inRange : ℤ → Bool} {now : ℤ} (h : Clock inRange now) (t : ℤ) :
    In 0 1 (gDecay (f32 powf) inRange t now) := by
  obtain ⟨h1, h2⟩ := gDaysSince_le h t
  have hd : In 0 (2 ^ 63) ((f32 powf).ofInt (gDaysSince inRange t now)) :=
    ofInt_in powf bd_zero (bdp 63) (by exact_mod_cast h1) (by exact_mod_cast h2)
  have h14 : In 14 14 ((f32 powf).lit 14) := by
    rw [lit_nat 14 (by norm_num)]; exact num_in (bdi 14)
  have hq := In.div_nonneg hd h14 (b := 2 ^ 63) (bdp 63) le_rfl (by norm_num) (by norm_num)
  have hh : In (1 / 2) (1 / 2) ((f32 powf).lit (1 / 2)) := by
    have hb : Bd (1 / 2) := bd_div 1 1 (by norm_num) (by norm_num) (by norm_num)
    exact lit_in powf hb hb (by norm_num) (by norm_num)
  exact powf_in hp hh hq bd_zero bd_one (by norm_num) (by norm_num)
    (fun z w h1 h2 h3 _ => rpow_unit (by linarith) (by linarith) h3)

/-- Stored rewards: values between the bounds, weights from 0 to 1. -/
def RewardsIn (lo hi : ℝ) (rs : List (GReward F)) : Prop :=
  ∀ r ∈ rs, In lo hi r.value ∧ In 0 1 r.weight

theorem mul_unit_in {lo hi : ℤ} (h0 : lo ≤ 0) (h1 : 0 ≤ hi) (hl : |lo| ≤ 5) (hh : |hi| ≤ 5) {x y : F}
    (hx : In lo hi x) (hy : In 0 1 y) : In lo hi (F.mul x y) := by
  have hl' : Bd (lo : ℝ) := bd_int lo rfl (hl.trans (by norm_num))
  have hh' : Bd (hi : ℝ) := bd_int hi rfl (hh.trans (by norm_num))
  have h0' : (lo : ℝ) ≤ 0 := by exact_mod_cast h0
  have h1' : (0 : ℝ) ≤ hi := by exact_mod_cast h1
  refine In.mul hx hy hl' hh' (fun z w a b c d => ⟨?_, ?_⟩)
  · rcases le_total 0 z with hz | hz
    · nlinarith [mul_nonneg hz c]
    · nlinarith [mul_nonneg (neg_nonneg.2 hz) (sub_nonneg.2 d)]
  · rcases le_total 0 z with hz | hz
    · nlinarith [mul_nonneg hz (sub_nonneg.2 d)]
    · nlinarith [mul_nonneg (neg_nonneg.2 hz) c]

/-- The accumulators after `n` rewards at most: untouched, or with a denominator away from 0. -/
def AccIn (lo hi : ℤ) (n : ℕ) (s : F × F) : Prop :=
  s = (.num 0, .num 0) ∨ (In (lo * n) (hi * n) s.1 ∧ In (1 / 32) n s.2)

theorem gRewardStep_in (hp : Faithful powf) {inRange : ℤ → Bool} {now : ℤ} (h : Clock inRange now)
    {lo hi : ℤ} (h0 : lo ≤ 0) (h1 : 0 ≤ hi) (hl : |lo| ≤ 5) (hh : |hi| ≤ 5) {n : ℕ} (hn : n + 1 ≤ 2 ^ 21)
    {s : F × F} (hs : AccIn lo hi n s) {r : GReward F} (hr : In lo hi r.value ∧ In 0 1 r.weight) :
    AccIn lo hi (n + 1) (gRewardStep (f32 powf) inRange now s r) := by
  have h0' : (lo : ℝ) ≤ 0 := by exact_mod_cast h0
  have h1' : (0 : ℝ) ≤ hi := by exact_mod_cast h1
  have hn0 : (0 : ℝ) ≤ n := n.cast_nonneg
  have hb1 : Bd ((lo : ℝ) * (n + 1 : ℕ)) := bd_times lo (n + 1) hl hn
  have hb2 : Bd ((hi : ℝ) * (n + 1 : ℕ)) := bd_times hi (n + 1) hh hn
  have hb3 : Bd ((n + 1 : ℕ) : ℝ) := by simpa using bd_times 1 (n + 1) (by norm_num) hn
  have hb4 : Bd (1 / 32 : ℝ) := bd_div 1 5 (by norm_num) (by norm_num) (by norm_num)
  have hd := gDecay_in hp h r.time
  have hv := mul_unit_in h0 h1 hl hh hr.1 hd
  have hw : In 0 1 (F.mul r.weight (gDecay (f32 powf) inRange r.time now)) :=
    In.mul_nonneg hr.2 hd bd_one le_rfl le_rfl (by norm_num)
  unfold gRewardStep
  generalize gDecay (f32 powf) inRange r.time now = d at hd hv hw ⊢
  change AccIn lo hi (n + 1) (if F.lt (F.mul r.weight d) (F.round ((5 / 100 : ℚ) : ℝ)) then s
    else (F.add s.1 (F.mul (F.mul r.value d) (F.mul r.weight d)), F.add s.2 (F.mul r.weight d)))
  generalize F.mul r.weight d = w at hw ⊢
  generalize F.mul r.value d = v at hv ⊢
  have hvw := mul_unit_in h0 h1 hl hh hv hw
  split
  · rcases hs with hs | ⟨a, b⟩
    · exact Or.inl hs
    · refine Or.inr ⟨a.mono ?_ ?_, b.mono le_rfl ?_⟩ <;> push_cast <;> nlinarith
  · rename_i hlt
    obtain ⟨q, hq, -, hq1, -⟩ := lit05 (powf := powf)
    obtain ⟨z, rfl, hz, hz0, hz1⟩ := hw
    have hq' : F.round ((5 / 100 : ℚ) : ℝ) = .num q := hq
    rw [hq'] at hlt
    have hwz : In (1 / 32) 1 (.num z) := by
      refine ⟨z, rfl, hz, ?_, hz1⟩
      have : ¬ z < q := by simpa [F.lt] using hlt
      linarith
    rcases hs with rfl | ⟨a, b⟩
    · refine Or.inr ⟨In.add (num_in bd_zero) hvw hb1 hb2 ?_ ?_, In.add (num_in bd_zero) hwz hb4 hb3 ?_ ?_⟩
        <;> push_cast <;> nlinarith
    · refine Or.inr ⟨In.add a hvw hb1 hb2 ?_ ?_, In.add b hwz hb4 hb3 ?_ ?_⟩ <;> push_cast <;> nlinarith

theorem fold_in (hp : Faithful powf) {inRange : ℤ → Bool} {now : ℤ} (h : Clock inRange now)
    {lo hi : ℤ} (h0 : lo ≤ 0) (h1 : 0 ≤ hi) (hl : |lo| ≤ 5) (hh : |hi| ≤ 5) (rs : List (GReward F)) :
    ∀ (n : ℕ) (s : F × F), n + rs.length ≤ 2 ^ 21 → AccIn lo hi n s → RewardsIn lo hi rs →
      AccIn lo hi (n + rs.length) (rs.foldl (gRewardStep (f32 powf) inRange now) s) := by
  induction rs with
  | nil => intro n s _ hs _; simpa using hs
  | cons r rs ih =>
    intro n s hn hs hr
    simp only [List.length_cons] at hn
    have := ih (n + 1) _ (by omega) (gRewardStep_in hp h h0 h1 hl hh (by omega) hs (hr r (by simp)))
      (fun x hx => hr x (by simp [hx]))
    simpa [Nat.add_assoc, Nat.add_comm 1] using this

theorem gRewardAverage_in (hp : Faithful powf) {inRange : ℤ → Bool} {now : ℤ} (h : Clock inRange now)
    {lo hi : ℤ} (h0 : lo ≤ 0) (h1 : 0 ≤ hi) (hl : |lo| ≤ 5) (hh : |hi| ≤ 5) (rs : List (GReward F))
    (hn : rs.length ≤ 2 ^ 21) (hr : RewardsIn lo hi rs) :
    In (lo * 2 ^ 27) (hi * 2 ^ 27) (gRewardAverage (f32 powf) inRange now rs) := by
  have h0' : (lo : ℝ) ≤ 0 := by exact_mod_cast h0
  have h1' : (0 : ℝ) ≤ hi := by exact_mod_cast h1
  have hzero : In ((lo : ℝ) * 2 ^ 27) (hi * 2 ^ 27) (.num 0) :=
    in_num bd_zero.1 (by nlinarith) (by nlinarith)
  have hacc := fold_in hp h h0 h1 hl hh rs 0 (.num 0, .num 0) (by omega) (Or.inl rfl) hr
  unfold gRewardAverage
  rw [lit0]
  simp only []
  generalize rs.foldl _ _ = s at hacc ⊢
  split
  · exact hzero
  · rename_i hz
    rcases hacc with rfl | ⟨a, b⟩
    · exact absurd (by simp [Arith.isZero, f32, F.le, lit0]; rw [show F.round 0 = .num 0 from round_bd bd_zero]; simp) hz
    · have hlen : ((0 + rs.length : ℕ) : ℝ) ≤ 2 ^ 21 := by
        rw [Nat.zero_add]; exact_mod_cast hn
      refine In.div a b (bd_scale lo 27 hl (by norm_num)) (bd_scale hi 27 hh (by norm_num)) (by norm_num)
        (fun z w c d e f => ⟨?_, ?_⟩)
      · have : (lo : ℝ) * 2 ^ 27 * w ≤ lo * 2 ^ 22 := by nlinarith
        nlinarith
      · have : (hi : ℝ) * 2 ^ 22 ≤ hi * 2 ^ 27 * w := by nlinarith
        nlinarith

theorem gScoreRewards_in (hp : Faithful powf) {inRange : ℤ → Bool} {now : ℤ} (h : Clock inRange now)
    {lo hi : ℤ} (h0 : lo ≤ 0) (h1 : 0 ≤ hi) (hl : |lo| ≤ 5) (hh : |hi| ≤ 5)
    (course lesson : List (GReward F)) (hn : course.length ≤ 2 ^ 21) (hn' : lesson.length ≤ 2 ^ 21)
    (hr : RewardsIn lo hi course) (hr' : RewardsIn lo hi lesson) :
    In (lo * 2 ^ 30) (hi * 2 ^ 30) (gScoreRewards (f32 powf) inRange now course lesson) := by
  have h0' : (lo : ℝ) ≤ 0 := by exact_mod_cast h0
  have h1' : (0 : ℝ) ≤ hi := by exact_mod_cast h1
  have hc := gRewardAverage_in hp h h0 h1 hl hh course hn hr
  have hls := gRewardAverage_in hp h h0 h1 hl hh lesson hn' hr'
  have half : Bd (1 / 2 : ℝ) := bd_div 1 1 (by norm_num) (by norm_num) (by norm_num)
  have quarter : Bd (1 / 4 : ℝ) := bd_div 1 2 (by norm_num) (by norm_num) (by norm_num)
  have l3 : In (1 / 4) (1 / 2) ((f32 powf).lit (3 / 10)) := lit_in powf quarter half (by norm_num) (by norm_num)
  have l7 : In (1 / 2) 1 ((f32 powf).lit (7 / 10)) := lit_in powf half bd_one (by norm_num) (by norm_num)
  have prod : ∀ {x y : F}, In ((lo : ℝ) * 2 ^ 27) (hi * 2 ^ 27) x → In 0 1 y →
      In ((lo : ℝ) * 2 ^ 27) (hi * 2 ^ 27) (F.mul x y) := by
    intro x y hx hy
    have p1 : (lo : ℝ) * 2 ^ 27 ≤ 0 := by nlinarith
    have p2 : (0 : ℝ) ≤ hi * 2 ^ 27 := by nlinarith
    refine In.mul hx hy (bd_scale lo 27 hl (by norm_num)) (bd_scale hi 27 hh (by norm_num))
      (fun z w a b c d => ⟨?_, ?_⟩)
    · rcases le_total 0 z with hz | hz
      · nlinarith [mul_nonneg hz c]
      · nlinarith [mul_nonneg (neg_nonneg.2 hz) (sub_nonneg.2 d)]
    · rcases le_total 0 z with hz | hz
      · nlinarith [mul_nonneg hz (sub_nonneg.2 d)]
      · nlinarith [mul_nonneg (neg_nonneg.2 hz) c]
  have hnum := In.add (prod hc (l3.mono (by norm_num) (by norm_num))) (prod hls (l7.mono (by norm_num) le_rfl))
    (bd_scale lo 28 hl (by norm_num)) (bd_scale hi 28 hh (by norm_num)) (by nlinarith) (by nlinarith)
  have hden := In.add l3 l7 half (b := 2) (bdi 2) (by norm_num) (by norm_num)
  unfold gScoreRewards
  simp only []
  split
  · rw [lit0]; exact in_num bd_zero.1 (by nlinarith) (by nlinarith)
  · split
    · exact hls.mono (by nlinarith) (by nlinarith)
    · split
      · exact hc.mono (by nlinarith) (by nlinarith)
      · refine In.div hnum hden (bd_scale lo 30 hl (by norm_num)) (bd_scale hi 30 hh (by norm_num)) (by norm_num)
          (fun z w a b c d => ⟨?_, ?_⟩) <;> nlinarith

theorem sum_in (xs : List F) : ∀ (n : ℕ) (s : F), n + xs.length ≤ 2 ^ 21 → In 0 (5 * n) s →
    (∀ x ∈ xs, In 0 5 x) → In 0 (5 * (n + xs.length : ℕ)) (xs.foldl F.add s) := by
  induction xs with
  | nil => intro n s _ hs _; simpa using hs
  | cons x xs ih =>
    intro n s hn hs hx
    simp only [List.length_cons] at hn
    have hb : Bd ((5 : ℝ) * (n + 1 : ℕ)) := by
      have := bd_times 5 (n + 1) (by norm_num) (by omega)
      exact_mod_cast this
    have := ih (n + 1) _ (by omega)
      (In.add hs (hx x (by simp)) bd_zero hb (by norm_num) (by push_cast; linarith))
      (fun y hy => hx y (by simp [hy]))
    rw [List.foldl_cons, List.length_cons]
    rw [show n + (xs.length + 1) = n + 1 + xs.length by omega]
    exact this

end Trane.Float
