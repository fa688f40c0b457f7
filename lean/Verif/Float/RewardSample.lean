import Verif.Float.Propagation

/-! # Cases that meet the hypotheses, and one that shows that they are needed (C81) -/

namespace Trane.Float

/-- Timestamps within about 31,000 years of the epoch. -/
def sampleRange (t : ℤ) : Bool := decide (|t| ≤ 10 ^ 12)

theorem sampleClock : Clock sampleRange 1700000000 :=
  ⟨by norm_num, fun t h => (of_decide_eq_true h).trans (by norm_num)⟩

/-- A good and a bad reward. -/
noncomputable def sampleRewards : List (GReward F) :=
  [⟨.num (1 / 2), .num 1, 1690000000⟩, ⟨.num (-1), .num (1 / 4), 1600000000⟩]

theorem sampleRewards_in : RewardsIn (-5) 5 sampleRewards := by
  have half : Bd (1 / 2 : ℝ) := bd_div 1 1 (by norm_num) (by norm_num) (by norm_num)
  have quarter : Bd (1 / 4 : ℝ) := bd_div 1 2 (by norm_num) (by norm_num) (by norm_num)
  intro r hr
  simp only [sampleRewards, List.mem_cons, List.not_mem_nil, or_false] at hr
  rcases hr with rfl | rfl
  · exact ⟨in_num half.1 (by norm_num) (by norm_num), in_num bd_one.1 (by norm_num) le_rfl⟩
  · exact ⟨in_num (bd_int (x := -1) (-1) (by norm_num)).1 (by norm_num) (by norm_num),
      in_num quarter.1 (by norm_num) (by norm_num)⟩

example : ∃ z, gScoreRewards (f32 nearestPow) sampleRange 1700000000 sampleRewards sampleRewards = .num z := by
  obtain ⟨z, h, -⟩ := machine_reward nearestPow_faithful sampleClock sampleRewards sampleRewards
    (by simp [sampleRewards]) (by simp [sampleRewards]) sampleRewards_in sampleRewards_in
  exact ⟨z, h⟩

example : ∃ z, gExerciseScore (f32 nearestPow) sampleRange .declarative machineSample [] sampleRewards []
    1700000000 1700000000 = some (.num z) ∧ 0 ≤ z ∧ z ≤ 5 := by
  obtain ⟨s, v, z, -, -, h, h0, h5, -⟩ := machine_exercise_score nearestPow_faithful sampleClock .declarative
    machineSample [] 1700000000 sampleRewards [] (by simp [Sorted, machineSample]) machineSample_grades
    (by simp [Deltas]) (by simp [machineSample]) (by simp) (by simp [sampleRewards]) (by simp)
    sampleRewards_in (by simp [RewardsIn])
  exact ⟨z, h, h0, h5⟩

example : Between 0 5 (gMean (f32 nearestPow) [.num 4, .num 0, .num 5]) :=
  machine_mean _ (by simp) (by simp) (by
    intro x hx
    simp only [List.mem_cons, List.not_mem_nil, or_false] at hx
    rcases hx with rfl | rfl | rfl
    · exact in_num (bd_int (x := 4) 4 (by norm_num)).1 (by norm_num) (by norm_num)
    · exact in_num bd_zero.1 (by norm_num) (by norm_num)
    · exact in_num (bd_int (x := 5) 5 (by norm_num)).1 (by norm_num) (by norm_num))

/-- The square root, rounded. -/
noncomputable def roundedSqrt : F → F
  | .num x => F.round (Real.sqrt x)
  | a => a

/-- A candidate whose velocity is below -1, so that its logarithm is NaN. -/
noncomputable def nanCandidate : GCandidate F :=
  ⟨.num 3, .num 0, .num 0, 2, true, some (.num (-2)), .num 4, .num (1 / 2)⟩

example : Between (1 / 32) 8 (gWeight (f32 nearestPow) (fun _ => .nan) (fun _ => .nan) roundedSqrt nanCandidate) :=
  (machine_weight _ _ _ ⟨fun _ _ => rfl, rfl⟩ _ ⟨1 / 2, rfl, by norm_num, by norm_num⟩).1

/-- Two rewards whose weights are `f32` numbers far above 1.  Their values differ, so that the second is not
left out as a repetition of the first (C17). -/
noncomputable def oversized : List (GReward F) :=
  [⟨.num (2 ^ 127), .num (2 ^ 127), 0⟩, ⟨.num (2 ^ 126), .num (2 ^ 127), 0⟩]

theorem pow_zero_faithful {powf : F → F → F} (hp : Faithful powf) : powf (.num (1 / 2)) (.num 0) = .num 1 := by
  obtain ⟨z, h1, -, h2⟩ := hp (1 / 2) 0 (by norm_num) (by norm_num)
  have := h2 1 bd_one.1
  rw [Real.rpow_zero] at this
  rw [h1, le_antisymm (this.2 le_rfl) (this.1 le_rfl)]

/-- **C81.** The bounds on weights matter: the code does not check the weights in manifests, and for weights far
above 1 the reward is NaN. -/
theorem oversized_weights_not_a_number {powf : F → F → F} (hp : Faithful powf) (inRange : ℤ → Bool) :
    gScoreRewards (f32 powf) inRange 0 oversized [] = .nan := by
  have hb : Bd ((2 : ℝ) ^ 127) := bd_mul (2 ^ 24) 103 (by norm_num) (by norm_num) (by norm_num)
  have hhalf : Bd (((1 / 2 : ℚ)) : ℝ) := bd_div 1 1 (by norm_num) (by norm_num) (by norm_num)
  have hbig : ∀ x : ℝ, 2 ^ 128 ≤ x → F.round x = .inf false := by
    intro x hx
    have h128 : Rep ((2 : ℝ) ^ 128) := by
      have := rep_mul (m := 2 ^ 24) (k := 104) (by norm_num)
      norm_num at this ⊢
      exact this
    unfold F.round
    rw [if_pos (le_rnd h128 hx)]
  have hdays : gDaysSince inRange 0 0 = 0 := by simp [gDaysSince, RewardScorer.instant]
  have hdecay : gDecay (f32 powf) inRange 0 0 = .num 1 := by
    unfold gDecay
    rw [hdays, lit_bd powf hhalf, lit_nat 14 (by norm_num)]
    have h0 : (f32 powf).div ((f32 powf).ofInt 0) (.num 14) = .num 0 := by
      have e : (f32 powf).ofInt 0 = .num 0 := by
        have := round_bd bd_zero
        simpa [f32] using this
      rw [e]
      show (if (14 : ℝ) = 0 then _ else F.round (0 / 14)) = _
      rw [if_neg (by norm_num), zero_div, round_bd bd_zero]
    rw [h0]
    have := pow_zero_faithful hp
    norm_num at this ⊢
    exact this
  have hone : F.mul (.num (2 ^ 127)) (.num 1) = .num (2 ^ 127) := by
    show F.round (2 ^ 127 * 1) = _
    rw [mul_one, round_bd hb]
  have hval : ∀ k : ℕ, k ≤ 103 → F.mul (.num (2 ^ 24 * 2 ^ k)) (.num 1) = .num (2 ^ 24 * 2 ^ k) := by
    intro k hk
    show F.round (2 ^ 24 * 2 ^ k * 1) = _
    rw [mul_one, round_bd (bd_mul (2 ^ 24) k (by norm_num) (by norm_num) hk)]
  have hprod : ∀ k : ℕ, F.mul (.num (2 ^ 24 * 2 ^ k)) (.num (2 ^ 127)) = .inf false := by
    intro k
    refine hbig _ ?_
    have h1 : (1 : ℝ) ≤ 2 ^ k := one_le_pow₀ (by norm_num)
    nlinarith [show (2 : ℝ) ^ 24 * 2 ^ 127 ≥ 2 ^ 128 by norm_num]
  obtain ⟨q, hq, -, -, hq2⟩ := lit05 (powf := powf)
  have hstep : ∀ (s : F × F) (k : ℕ), k ≤ 103 →
      gRewardStep (f32 powf) inRange 0 s ⟨.num (2 ^ 24 * 2 ^ k), .num (2 ^ 127), 0⟩ =
      (F.add s.1 (.inf false), F.add s.2 (.num (2 ^ 127))) := by
    intro s k hk
    have hlt : F.lt (.num (2 ^ 127)) (.num q) = false := by
      have : ¬ (2 : ℝ) ^ 127 < q := by norm_num; linarith
      simp only [F.lt, this, decide_false]
    unfold gRewardStep
    rw [hdecay, hq]
    show (if F.lt (F.mul (.num (2 ^ 127)) (.num 1)) (.num q) = true then s else
      (F.add s.1 (F.mul (F.mul (.num (2 ^ 24 * 2 ^ k)) (.num 1)) (F.mul (.num (2 ^ 127)) (.num 1))),
        F.add s.2 (F.mul (.num (2 ^ 127)) (.num 1)))) = _
    rw [hone, hlt, hval k hk, hprod]
    rfl
  have hden : F.add (F.add (.num 0) (.num (2 ^ 127))) (.num (2 ^ 127)) = .inf false := by
    have e : F.add (.num 0) (.num (2 ^ 127)) = .num (2 ^ 127) := by
      show F.round (0 + 2 ^ 127) = _
      rw [zero_add, round_bd hb]
    rw [e]
    exact hbig _ (by norm_num)
  have havg : gRewardAverage (f32 powf) inRange 0 oversized = .nan := by
    unfold gRewardAverage oversized
    rw [List.foldl_cons, List.foldl_cons, List.foldl_nil,
      show (2 : ℝ) ^ 126 = 2 ^ 24 * 2 ^ 102 by norm_num, hstep _ 102 (by norm_num),
      show (⟨.num (2 ^ 127), .num (2 ^ 127), 0⟩ : GReward F) = ⟨.num (2 ^ 24 * 2 ^ 103), .num (2 ^ 127), 0⟩ by
        norm_num, hstep _ 103 le_rfl, lit0]
    simp only []
    rw [hden]
    simp [Arith.isZero, lit0, f32, F.le, F.add, F.div]
    rw [show F.round 0 = .num 0 from round_bd bd_zero]
    simp
  unfold gScoreRewards
  rw [havg]
  simp [oversized]

/-- **C81.** Then the score of every exercise of the course that has three trials is NaN. -/
theorem oversized_weights_spoil_scores {powf : F → F → F} (hp : Faithful powf) (inRange : ℤ → Bool)
    (k : Scorer.Kind) (trials : List (GEntry F)) (now : ℤ) (hs : Sorted trials) (h3 : 3 ≤ trials.length) :
    gExerciseScore (f32 powf) inRange k trials [] oversized [] now 0 = some .nan := by
  have hsome : ∃ s, gScore (f32 powf) k trials [] now = some s := by
    cases h : gScore (f32 powf) k trials [] now with
    | none => exact absurd hs ((machine_rejects_iff k trials [] now).1 h)
    | some s => exact ⟨s, rfl⟩
  obtain ⟨s, h⟩ := hsome
  have happ : gApplyReward (f32 powf) 0 .nan trials = true := by
    unfold gApplyReward
    rw [if_neg (by omega)]
    cases trials with
    | nil => simp at h3
    | cons t ts =>
      have e1 : (f32 powf).lt ((f32 powf).lit 0) .nan = false := by rw [lit0]; rfl
      have e2 : (f32 powf).lt .nan ((f32 powf).lit 0) = false := by rw [lit0]; rfl
      simp [e1, e2]
  have hadd : (f32 powf).add s.value .nan = .nan := by
    show F.add s.value .nan = .nan
    cases s.value <;> rfl
  unfold gExerciseScore
  rw [h]
  simp only [Option.map_some, oversized_weights_not_a_number hp, happ, if_true, hadd, lit0,
    lit_nat 5 (by norm_num)]
  rfl

example : gExerciseScore (f32 nearestPow) sampleRange .procedural
    [⟨.num 4, 3⟩, ⟨.num 4, 2⟩, ⟨.num 4, 1⟩] [] oversized [] 5 0 = some .nan :=
  oversized_weights_spoil_scores nearestPow_faithful _ _ _ _ (by simp [Sorted]) (by simp)

end Trane.Float
