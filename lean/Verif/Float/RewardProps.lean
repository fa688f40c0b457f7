import Verif.Float.RewardLemmas
import Verif.Sched.CandidateWeight

/-!
# Rewards, unit scores and selection weights in machine arithmetic (C81)
-/

namespace Trane.Float

open Trane.Scorer (Kind)

/-! ## The exact instances are the other models -/

/-- A reward of the other model. -/
def toReward (r : GReward ℝ) : RewardScorer.Reward := ⟨r.value, r.weight, r.time⟩

theorem gDecay_exact (inRange : ℤ → Bool) (now : ℤ) (r : GReward ℝ) :
    gDecay exact inRange r.time now =
      RewardScorer.decayFactor (RewardScorer.daysSince inRange (toReward r) now : ℝ) := by
  simp [gDecay, exact, RewardScorer.decayFactor, gDaysSince, RewardScorer.daysSince, toReward]

theorem accumulate_exact (inRange : ℤ → Bool) (now : ℤ) (rs : List (GReward ℝ)) : ∀ s : ℝ × ℝ,
    rs.foldl (gRewardStep exact inRange now) s =
      RewardScorer.accumulate inRange now s (rs.map toReward) := by
  induction rs with
  | nil => intro s; rfl
  | cons r rs ih =>
    intro s
    rw [List.foldl_cons, List.map_cons, RewardScorer.accumulate]
    have hstep : gRewardStep exact inRange now s r =
        (let e := RewardScorer.decayed inRange now (toReward r)
         if e.2 < 5 / 100 then s else (s.1 + e.1 * e.2, s.2 + e.2)) := by
      unfold gRewardStep RewardScorer.decayed
      rw [gDecay_exact]
      simp [exact, toReward]
      congr!
    rw [hstep, ih]
    simp only []
    split <;> rfl

theorem average_exact (inRange : ℤ → Bool) (now : ℤ) (rs : List (GReward ℝ)) :
    gRewardAverage exact inRange now rs = RewardScorer.average inRange now (rs.map toReward) := by
  unfold gRewardAverage RewardScorer.average
  have h0 : exact.lit 0 = 0 := by simp [exact]
  rw [h0, accumulate_exact]
  generalize RewardScorer.accumulate inRange now (0, 0) _ = s
  have hz : exact.isZero s.2 = true ↔ s.2 = 0 := by
    simp only [Arith.isZero, exact, Rat.cast_zero, Bool.and_eq_true, decide_eq_true_eq]
    exact ⟨fun h => le_antisymm h.1 h.2, fun h => ⟨h.le, h.ge⟩⟩
  by_cases h : s.2 = 0
  · simp only []; rw [if_pos (hz.2 h), if_pos h]
  · simp only []; rw [if_neg (fun hc => h (hz.1 hc)), if_neg h]; rfl

/-- Without rounding, the reward is that of the model used for C23. -/
theorem reward_exact (inRange : ℤ → Bool) (now : ℤ) (course lesson : List (GReward ℝ)) :
    gScoreRewards exact inRange now course lesson =
      RewardScorer.scoreRewards inRange now (course.map toReward) (lesson.map toReward) := by
  unfold gScoreRewards RewardScorer.scoreRewards
  rw [average_exact, average_exact]
  cases course <;> cases lesson <;> simp [exact]

/-- Without rounding, rewards are applied as in the model used for C24. -/
theorem apply_exact (now : ℤ) (reward : ℝ) (trials : List (GEntry ℝ)) :
    gApplyReward exact now reward trials =
      RewardScorer.applyReward now reward (trials.map toEntry) := by
  have hfold : ∀ (l : List (GEntry ℝ)) (a : ℝ),
      l.foldl (fun s t => exact.add s t.value) a = a + ((l.map toEntry).map (fun t => t.value)).sum := by
    intro l
    induction l with
    | nil => simp
    | cons x l ih => intro a; rw [List.foldl_cons, ih]; simp [exact, toEntry, add_assoc]
  unfold gApplyReward RewardScorer.applyReward
  cases trials with
  | nil => simp
  | cons t ts =>
    rw [hfold, List.map_take, List.length_map]
    simp [exact, toEntry, and_assoc]

/-- A candidate of the other model. -/
noncomputable def ofCandidate {ι : Type} (c : Candidate ι) : GCandidate ℝ :=
  ⟨c.depth, c.encompasses, c.encompassed, c.frequency, c.deadEnd, c.velocity.map (fun v : ℚ => (v : ℝ)),
    c.score, c.urgency⟩

/-- Without rounding, weights are those of the model used for C62, for velocities above -1. -/
theorem weight_exact {ι : Type} (c : Candidate ι) (hv : ∀ v, c.velocity = some v → -1 < v) :
    gWeight exact (fun x => Real.log (1 + x)) Real.exp Real.sqrt (ofCandidate c) =
      CandidateFilter.candidateWeight c := by
  have key : ∀ x y : ℝ, x = y → exact.max (exact.div (c.urgency : ℝ) (Real.sqrt
      (exact.clamp (Real.exp x) (exact.lit (5 / 100)) (exact.lit 100)))) (exact.lit (5 / 100)) =
      max ((c.urgency : ℝ) / Real.sqrt (CandidateFilter.clampCost (Real.exp y))) CandidateFilter.minWeight := by
    rintro x _ rfl
    have e : (exact.lit (5 / 100)) = 1 / 20 := by simp [exact]; norm_num
    have e' : (exact.lit 100) = 100 := by simp [exact]
    rw [e, e', clamp_exact]
    rfl
  unfold CandidateFilter.candidateWeight
  cases h : c.velocity with
  | none =>
    have hR : CandidateFilter.candidateCost c =
        some (CandidateFilter.clampCost (Real.exp (CandidateFilter.baseLogCost c))) := by
      simp [CandidateFilter.candidateCost, h]
    rw [hR]
    unfold gWeight gCost ofCandidate
    rw [h]
    refine key _ _ ?_
    unfold CandidateFilter.baseLogCost CandidateFilter.lnOnePlus
    cases c.deadEnd <;> simp [exact]
  | some v =>
    have h1 := hv v h
    have hR : CandidateFilter.candidateCost c = some (CandidateFilter.clampCost (Real.exp
        (CandidateFilter.baseLogCost c + CandidateFilter.velocityLogCost c.score v))) := by
      simp [CandidateFilter.candidateCost, h, not_lt.2 h1.le, h1.ne']
    rw [hR]
    unfold gWeight gCost ofCandidate
    rw [h]
    refine key _ _ ?_
    unfold CandidateFilter.baseLogCost CandidateFilter.velocityLogCost CandidateFilter.lnOnePlus
    have hs : (4 : ℝ) ≤ c.score ↔ (4 : ℚ) ≤ c.score := by exact_mod_cast Iff.rfl
    have ha : |(v : ℝ)| < 2 / 10 ↔ |v| < 5⁻¹ := by
      rw [show (2 / 10 : ℝ) = ((5⁻¹ : ℚ) : ℝ) by norm_num, ← Rat.cast_abs, Rat.cast_lt]
    by_cases p : |v| < 5⁻¹ <;> by_cases q : (4 : ℚ) ≤ c.score <;> cases c.deadEnd <;>
      simp [exact, p, q, ha, hs, -abs_lt] <;> first | (ring_nf; done) | (ring_nf; simp)

/-! ## The properties -/

variable {powf : F → F → F}

/-- A number: not NaN and not infinite. -/
def Finite (a : F) : Prop := ∃ z, a = .num z

/-- Rewards are numbers, and rewards of one sign give a reward of that sign. -/
theorem machine_reward (hp : Faithful powf) {inRange : ℤ → Bool} {now : ℤ} (h : Clock inRange now)
    (course lesson : List (GReward F)) (hn : course.length ≤ 2 ^ 21) (hn' : lesson.length ≤ 2 ^ 21)
    (hr : RewardsIn (-5) 5 course) (hr' : RewardsIn (-5) 5 lesson) :
    ∃ z, gScoreRewards (f32 powf) inRange now course lesson = .num z ∧
      (RewardsIn 0 5 course → RewardsIn 0 5 lesson → 0 ≤ z) ∧
      (RewardsIn (-5) 0 course → RewardsIn (-5) 0 lesson → z ≤ 0) := by
  have cast0 : ((0 : ℤ) : ℝ) = 0 := by norm_num
  have cast5 : ((5 : ℤ) : ℝ) = 5 := by norm_num
  have castm : ((-5 : ℤ) : ℝ) = -5 := by norm_num
  obtain ⟨z, hz, -, -, -⟩ := gScoreRewards_in hp h (lo := -5) (hi := 5) (by norm_num) (by norm_num)
    (by norm_num) (by norm_num) course lesson hn hn' (by rw [castm, cast5]; exact hr)
    (by rw [castm, cast5]; exact hr')
  refine ⟨z, hz, fun a b => ?_, fun a b => ?_⟩
  · obtain ⟨y, hy, -, h1, -⟩ := gScoreRewards_in hp h (lo := 0) (hi := 5) (by norm_num) (by norm_num)
      (by norm_num) (by norm_num) course lesson hn hn' (by rw [cast0, cast5]; exact a)
      (by rw [cast0, cast5]; exact b)
    rw [hz] at hy; cases hy
    simpa using h1
  · obtain ⟨y, hy, -, -, h1⟩ := gScoreRewards_in hp h (lo := -5) (hi := 0) (by norm_num) (by norm_num)
      (by norm_num) (by norm_num) course lesson hn hn' (by rw [castm, cast0]; exact a)
      (by rw [castm, cast0]; exact b)
    rw [hz] at hy; cases hy
    simpa using h1

/-- The final score of an exercise is a number from 0 to 5.  Rewards that are not negative never lower it
below the score from the trials, rewards that are not positive never raise it. -/
theorem machine_exercise_score (hp : Faithful powf) {inRange : ℤ → Bool} {rewardNow : ℤ}
    (h : Clock inRange rewardNow) (k : Kind) (trials deltas : List (GEntry F)) (now : ℤ)
    (course lesson : List (GReward F))
    (hs : Sorted trials) (hg : Grades trials) (hd : Deltas deltas) (hl : trials.length ≤ 4096)
    (hl' : deltas.length ≤ 4096) (hn : course.length ≤ 2 ^ 21) (hn' : lesson.length ≤ 2 ^ 21)
    (hr : RewardsIn (-5) 5 course) (hr' : RewardsIn (-5) 5 lesson) :
    ∃ s v z, gScore (f32 powf) k trials deltas now = some s ∧ s.value = .num v ∧
      gExerciseScore (f32 powf) inRange k trials deltas course lesson now rewardNow = some (.num z) ∧
      0 ≤ z ∧ z ≤ 5 ∧
      (RewardsIn 0 5 course → RewardsIn 0 5 lesson → v ≤ z) ∧
      (RewardsIn (-5) 0 course → RewardsIn (-5) 0 lesson → z ≤ v) := by
  obtain ⟨s, h1, ⟨v, hv, hvr, hv0, hv5⟩, -⟩ := gScore_in hp k trials deltas now hs hg hd hl hl'
  obtain ⟨r, hrr, hpos, hneg⟩ := machine_reward hp h course lesson hn hn' hr hr'
  obtain ⟨r', hr1, hrep, hlo, hhi⟩ := gScoreRewards_in hp h (lo := -5) (hi := 5) (by norm_num)
    (by norm_num) (by norm_num) (by norm_num) course lesson hn hn'
    (by push_cast; exact hr) (by push_cast; exact hr')
  rw [hrr] at hr1; cases hr1
  have hbv : Bd v := ⟨hvr, abs_le.2 ⟨by linarith [show (0:ℝ) ≤ 2 ^ 127 by positivity],
    hv5.trans (by norm_num)⟩⟩
  have h5 : Rep 5 := (bd_int (x := 5) 5 (by norm_num)).1
  have hlo' : -(2 : ℝ) ^ 33 ≤ r := by push_cast at hlo; norm_num at hlo ⊢; linarith
  have hhi' : r ≤ (2 : ℝ) ^ 33 := by push_cast at hhi; norm_num at hhi ⊢; linarith
  by_cases happ : gApplyReward (f32 powf) rewardNow (.num r) trials = true
  · have hany : In (-2 ^ 34) (2 ^ 34) (F.add (.num v) (.num r)) :=
      In.add (in_num hvr le_rfl le_rfl) (in_num hrep le_rfl le_rfl) (Bd.neg (bdp 34)) (bdp 34)
        (by norm_num at hlo' ⊢; linarith) (by norm_num at hhi' ⊢; linarith)
    obtain ⟨z, hz, -, hz0, hz5⟩ := In.clamp powf hany rep_zero h5 (by norm_num)
    refine ⟨s, v, z, h1, hv, ?_, hz0, hz5, fun a b => ?_, fun a b => ?_⟩
    · unfold gExerciseScore
      rw [h1]
      simp only [Option.map_some, hrr, happ, if_true, hv, lit0, lit_nat 5 (by norm_num)]
      exact congrArg some hz
    · have hup : In v (2 ^ 34) (F.add (.num v) (.num r)) :=
        In.add (in_num hvr le_rfl le_rfl) (in_num hrep (hpos a b) le_rfl) hbv (bdp 34) (by linarith)
          (by norm_num at hhi' ⊢; linarith)
      obtain ⟨y, hy, -, hy0, -⟩ := In.clamp_low powf hup rep_zero h5 hv0 hv5
      rw [hz] at hy; cases hy
      exact hy0
    · obtain ⟨y, hy, -, -, hyv⟩ : In (-2 ^ 34) v (F.add (.num v) (.num r)) :=
        In.add (in_num hvr le_rfl le_rfl) (in_num hrep le_rfl (hneg a b)) (Bd.neg (bdp 34)) hbv
          (by norm_num at hlo' ⊢; linarith) (by linarith)
      rw [hy] at hz
      have hy5 : ¬ 5 < y := by linarith
      by_cases hc : y < 0
      · have : z = 0 := by simpa [Arith.clamp, f32, F.lt, hc, eq_comm] using hz
        linarith
      · have : z = y := by simpa [Arith.clamp, f32, F.lt, hc, hy5, eq_comm] using hz
        linarith
  · refine ⟨s, v, v, h1, hv, ?_, hv0, hv5, fun _ _ => le_rfl, fun _ _ => le_rfl⟩
    unfold gExerciseScore
    rw [h1]
    simp [hrr, happ, hv]

/-- The average of one to two million scores from 0 to 5 is a number from 0 to 5. -/
theorem machine_mean (xs : List F) (hne : xs ≠ []) (hn : xs.length ≤ 2 ^ 21) (hx : ∀ x ∈ xs, In 0 5 x) :
    Between 0 5 (gMean (f32 powf) xs) := by
  have hb5 : Bd (5 : ℝ) := bdi 5
  have hpos : 0 < xs.length := List.length_pos_iff.2 hne
  have hs := sum_in xs 0 (.num 0) (by omega) (by simpa using num_in bd_zero) hx
  rw [Nat.zero_add] at hs
  have hbn : Bd ((xs.length : ℕ) : ℝ) := by simpa using bd_times 1 xs.length (by norm_num) hn
  have hlen : In xs.length xs.length ((f32 powf).ofInt xs.length) :=
    ofInt_in powf hbn hbn (by push_cast; exact le_rfl) (by push_cast; exact le_rfl)
  have hq := In.div_nonneg hs hlen hb5 le_rfl (by exact_mod_cast hpos) le_rfl
  unfold gMean
  rw [lit0]
  obtain ⟨z, hz, -, h1, h2⟩ := hq
  exact ⟨z, hz, h1, h2⟩

/-- What is assumed of `sqrt`: it is rounded correctly, as IEEE 754 requires, and keeps NaN. -/
def SqrtRounds (sqrt : F → F) : Prop :=
  (∀ x : ℝ, 0 ≤ x → sqrt (.num x) = F.round (Real.sqrt x)) ∧ sqrt .nan = .nan

/-- Selection weights are positive numbers, never below the minimum weight and never above 8, whatever
`ln_1p` and `exp` return and whatever the other fields of the candidate hold. -/
theorem machine_weight (ln1p exp sqrt : F → F) (hq : SqrtRounds sqrt) (c : GCandidate F)
    (hu : Between 0 1 c.urgency) :
    Between (1 / 32) 8 (gWeight (f32 powf) ln1p exp sqrt c) ∧
      F.le ((f32 powf).lit (5 / 100)) (gWeight (f32 powf) ln1p exp sqrt c) = true := by
  obtain ⟨u, hu', hu0, hu1⟩ := hu
  obtain ⟨q, hq', hqr, hq1, hq2⟩ := lit05 (powf := powf)
  have hcl : gCost (f32 powf) ln1p exp c = .nan ∨
      ∃ z, gCost (f32 powf) ln1p exp c = .num z ∧ 1 / 32 ≤ z ∧ z ≤ 100 := by
    unfold gCost
    simp only []
    rw [hq', lit_nat 100 (by norm_num)]
    generalize exp _ = e
    cases e with
    | nan => left; simp [Arith.clamp, f32, F.lt]
    | inf b =>
      right
      cases b
      · exact ⟨100, by simp [Arith.clamp, f32, F.lt], by norm_num, le_rfl⟩
      · exact ⟨q, by simp [Arith.clamp, f32, F.lt], hq1, by linarith⟩
    | num x =>
      right
      by_cases h1 : x < q
      · exact ⟨q, by simp [Arith.clamp, f32, F.lt, h1], hq1, by linarith⟩
      · by_cases h2 : 100 < x
        · exact ⟨100, by simp [Arith.clamp, f32, F.lt, h1, h2], by norm_num, le_rfl⟩
        · exact ⟨x, by simp [Arith.clamp, f32, F.lt, h1, h2], by linarith, by linarith⟩
  unfold gWeight
  rw [hq', hu']
  rcases hcl with hc | ⟨z, hc, hz1, hz2⟩
  · rw [hc, hq.2]
    exact ⟨⟨q, by simp [f32, F.div, F.max], hq1, by linarith⟩, by simp [f32, F.div, F.max, F.le]⟩
  · rw [hc, hq.1 z (by linarith)]
    have h1 : (1 / 8 : ℝ) ≤ Real.sqrt z := Real.le_sqrt_of_sq_le (by norm_num; linarith)
    have h2 : Real.sqrt z ≤ 10 := Real.sqrt_le_iff.2 ⟨by norm_num, by norm_num; linarith⟩
    have hsq : In (1 / 8) 10 (F.round (Real.sqrt z)) :=
      round_in (bd_div 1 3 (by norm_num) (by norm_num) (by norm_num)) (bdi 10) h1 h2
    obtain ⟨w, hw, -, hw1, -⟩ := hsq
    have hd : In 0 8 (F.div (.num u) (.num w)) := by
      have hw0 : w ≠ 0 := by intro h; rw [h] at hw1; norm_num at hw1
      show In 0 8 (if w = 0 then _ else F.round (u / w))
      rw [if_neg hw0]
      have hwp : 0 < w := by linarith
      exact round_in bd_zero (bdi 8) (div_nonneg hu0 hwp.le) (by rw [div_le_iff₀ hwp]; linarith)
    rw [hw]
    obtain ⟨y, hy, -, hy0, hy8⟩ := hd
    have hy' : (f32 powf).div (.num u) (.num w) = .num y := hy
    rw [hy']
    by_cases hlt : y < q
    · exact ⟨⟨q, by simp [f32, F.max, F.lt, hlt], hq1, by linarith⟩, by simp [f32, F.max, F.lt, hlt, F.le]⟩
    · exact ⟨⟨y, by simp [f32, F.max, F.lt, hlt], by linarith, hy8⟩,
        by simp [f32, F.max, F.lt, hlt, F.le]; linarith⟩

end Trane.Float
