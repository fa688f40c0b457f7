import Verif.Scorer.RewardModel
import Verif.Scorer.Lemmas
import Mathlib.Tactic.Ring

/-! # Properties of the reward scorer (C23, C24) -/

namespace Trane.RewardScorer

open Trane.Scorer (Entry)

variable (ok : ℤ → Bool) (now : ℤ)

theorem decayFactor_mem {d : ℝ} (h : 0 ≤ d) : 0 < decayFactor d ∧ decayFactor d ≤ 1 := by
  unfold decayFactor
  refine ⟨Real.rpow_pos_of_pos (by norm_num) _, ?_⟩
  exact Real.rpow_le_one (by norm_num) (by norm_num) (by positivity)

theorem factor_mem (r : Reward) :
    0 < decayFactor (daysSince ok r now : ℝ) ∧ decayFactor (daysSince ok r now : ℝ) ≤ 1 := by
  apply decayFactor_mem
  exact_mod_cast le_max_right _ _

/-- Loop invariant: the accumulated numerator stays between `lo` and `hi` times the denominator. -/
theorem accumulate_bounds {lo hi : ℝ} (rs : List Reward)
    (h : ∀ r ∈ rs, 5 / 100 ≤ (decayed ok now r).2 →
      lo ≤ (decayed ok now r).1 ∧ (decayed ok now r).1 ≤ hi)
    (acc : ℝ × ℝ) (h0 : 0 ≤ acc.2) (h1 : lo * acc.2 ≤ acc.1) (h2 : acc.1 ≤ hi * acc.2) :
    acc.2 ≤ (accumulate ok now acc rs).2 ∧
      lo * (accumulate ok now acc rs).2 ≤ (accumulate ok now acc rs).1 ∧
      (accumulate ok now acc rs).1 ≤ hi * (accumulate ok now acc rs).2 := by
  induction rs generalizing acc with
  | nil => exact ⟨le_refl _, h1, h2⟩
  | cons r rs ih =>
    have ih := ih (fun q hq => h q (List.mem_cons_of_mem _ hq))
    unfold accumulate
    dsimp only
    split
    · exact ih acc h0 h1 h2
    · rename_i hw
      rw [not_lt] at hw
      have hb := h r List.mem_cons_self hw
      set e := decayed ok now r
      have hw0 : 0 ≤ e.2 := le_trans (by norm_num) hw
      have m1 := mul_le_mul_of_nonneg_right hb.1 hw0
      have m2 := mul_le_mul_of_nonneg_right hb.2 hw0
      have := ih (acc.1 + e.1 * e.2, acc.2 + e.2) (by dsimp only; linarith)
        (by dsimp only; nlinarith) (by dsimp only; nlinarith)
      refine ⟨?_, this.2⟩
      have h3 := this.1
      dsimp only at h3
      linarith

theorem accumulate_none (rs : List Reward) (h : ∀ r ∈ rs, (decayed ok now r).2 < 5 / 100)
    (acc : ℝ × ℝ) : accumulate ok now acc rs = acc := by
  induction rs generalizing acc with
  | nil => rfl
  | cons r rs ih =>
    unfold accumulate
    dsimp only
    rw [if_pos (h r List.mem_cons_self)]
    exact ih (fun q hq => h q (List.mem_cons_of_mem _ hq)) acc

theorem accumulate_pos (rs : List Reward) (h : ∃ r ∈ rs, 5 / 100 ≤ (decayed ok now r).2)
    (acc : ℝ × ℝ) (h0 : 0 ≤ acc.2) : 0 < (accumulate ok now acc rs).2 := by
  have mono : ∀ (rs : List Reward) (acc : ℝ × ℝ), acc.2 ≤ (accumulate ok now acc rs).2 := by
    intro rs
    induction rs with
    | nil => intro acc; exact le_refl _
    | cons r rs ih =>
      intro acc
      unfold accumulate
      dsimp only
      split
      · exact ih acc
      · rename_i hw
        have := ih (acc.1 + (decayed ok now r).1 * (decayed ok now r).2,
          acc.2 + (decayed ok now r).2)
        dsimp only at this
        linarith
  induction rs generalizing acc with
  | nil => obtain ⟨r, hr, _⟩ := h; simp at hr
  | cons r rs ih =>
    unfold accumulate
    dsimp only
    split
    · rename_i hw
      apply ih _ acc h0
      obtain ⟨q, hq, hq2⟩ := h
      rcases List.mem_cons.1 hq with rfl | hq
      · linarith
      · exact ⟨q, hq, hq2⟩
    · rename_i hw
      have := mono rs (acc.1 + (decayed ok now r).1 * (decayed ok now r).2,
        acc.2 + (decayed ok now r).2)
      dsimp only at this
      linarith

/-! ## C23 -/

/-- A reward counts when its decayed weight is at least 0.05. -/
def Counts (r : Reward) : Prop := 5 / 100 ≤ (decayed ok now r).2

/-- C23: a decayed reward never exceeds the original in magnitude and keeps its sign; nor does its
weight. -/
theorem decay_shrinks_keeps_sign (r : Reward) :
    |(decayed ok now r).1| ≤ |r.value| ∧ |(decayed ok now r).2| ≤ |r.weight| ∧
      ((decayed ok now r).1 > 0 ↔ r.value > 0) ∧ ((decayed ok now r).1 < 0 ↔ r.value < 0) := by
  obtain ⟨h0, h1⟩ := factor_mem ok now r
  unfold decayed
  dsimp only
  refine ⟨?_, ?_, ?_, ?_⟩
  · rw [abs_mul, abs_of_pos h0]; exact mul_le_of_le_one_right (abs_nonneg _) h1
  · rw [abs_mul, abs_of_pos h0]; exact mul_le_of_le_one_right (abs_nonneg _) h1
  · exact mul_pos_iff_of_pos_right h0
  · constructor
    · intro h; exact neg_of_mul_neg_left h h0.le
    · intro h; exact mul_neg_of_neg_of_pos h h0

/-- C23: a reward from the future, or less than a day old, is not decayed; one that is 14 days old
is halved. -/
theorem decay_fixed_points (r : Reward) (hr : ok r.time = true) :
    (now - r.time < 86400 → decayed ok now r = (r.value, r.weight)) ∧
      (now - r.time = 14 * 86400 → decayed ok now r = (r.value / 2, r.weight / 2)) := by
  constructor
  · intro h
    have : daysSince ok r now = 0 := by
      unfold daysSince instant
      rw [if_pos hr]
      apply max_eq_right
      by_cases h2 : 0 ≤ now - r.time
      · rw [Int.tdiv_eq_zero_of_lt h2 h]
      · have h3 := Int.neg_tdiv (a := now - r.time) (b := 86400)
        have h4 : 0 ≤ (-(now - r.time)).tdiv 86400 := Int.tdiv_nonneg (by omega) (by norm_num)
        rw [Int.neg_tdiv] at h4
        omega
    unfold decayed
    simp [this, decayFactor]
  · intro h
    have : daysSince ok r now = 14 := by
      unfold daysSince instant
      rw [if_pos hr, h]
      decide
    unfold decayed
    simp only [this, decayFactor]
    norm_num
    constructor <;> ring

example : (fun _ => true : ℤ → Bool) (5 : ℤ) = true ∧ (10 : ℤ) - 5 < 86400 := ⟨rfl, by norm_num⟩

/-- C23: the average of one list of rewards lies between the smallest and the largest decayed value
among the rewards that count, and is 0 when none counts. -/
theorem average_between (rs : List Reward) :
    ((∀ r ∈ rs, ¬ Counts ok now r) → average ok now rs = 0) ∧
      ((∃ r ∈ rs, Counts ok now r) → ∀ lo hi : ℝ,
        (∀ r ∈ rs, Counts ok now r → lo ≤ (decayed ok now r).1 ∧ (decayed ok now r).1 ≤ hi) →
        lo ≤ average ok now rs ∧ average ok now rs ≤ hi) := by
  constructor
  · intro h
    unfold average
    rw [accumulate_none ok now rs (fun r hr => not_le.1 (h r hr))]
    simp
  · intro he lo hi h
    have hpos := accumulate_pos ok now rs he (0, 0) (le_refl _)
    have hb := accumulate_bounds ok now rs h (0, 0) (le_refl _) (by simp) (by simp)
    unfold average
    dsimp only
    rw [if_neg hpos.ne']
    exact ⟨(le_div_iff₀ hpos).2 hb.2.1, (div_le_iff₀ hpos).2 hb.2.2⟩

/-- C23: the combined reward lies in every interval around 0 that contains the decayed values of all
the rewards that count. -/
theorem reward_between (course lesson : List Reward) {lo hi : ℝ} (hlo : lo ≤ 0) (hhi : 0 ≤ hi)
    (h : ∀ r ∈ course ++ lesson, Counts ok now r →
      lo ≤ (decayed ok now r).1 ∧ (decayed ok now r).1 ≤ hi) :
    lo ≤ scoreRewards ok now course lesson ∧ scoreRewards ok now course lesson ≤ hi := by
  have hav : ∀ rs : List Reward, (∀ r ∈ rs, r ∈ course ++ lesson) →
      lo ≤ average ok now rs ∧ average ok now rs ≤ hi := by
    intro rs hrs
    by_cases hc : ∃ r ∈ rs, Counts ok now r
    · exact (average_between ok now rs).2 hc lo hi (fun r hr => h r (hrs r hr))
    · rw [(average_between ok now rs).1 (fun r hr hh => hc ⟨r, hr, hh⟩)]
      exact ⟨hlo, hhi⟩
  have h1 := hav course (fun r hr => List.mem_append_left _ hr)
  have h2 := hav lesson (fun r hr => List.mem_append_right _ hr)
  unfold scoreRewards
  dsimp only
  split
  · exact ⟨hlo, hhi⟩
  · split
    · exact h2
    · split
      · exact h1
      · constructor
        · rw [le_div_iff₀ (by norm_num)]; linarith [h1.1, h2.1]
        · rw [div_le_iff₀ (by norm_num)]; linarith [h1.2, h2.2]

/-- C23: the combined reward never exceeds the largest stored magnitude. -/
theorem reward_magnitude (course lesson : List Reward) {m : ℝ} (hm : 0 ≤ m)
    (h : ∀ r ∈ course ++ lesson, |r.value| ≤ m) : |scoreRewards ok now course lesson| ≤ m := by
  rw [abs_le]
  apply reward_between ok now course lesson (by linarith) hm
  intro r hr _
  have := (decay_shrinks_keeps_sign ok now r).1.trans (h r hr)
  exact abs_le.1 this

/-- C23: rewards that are all non-negative (non-positive) combine to a non-negative (non-positive)
reward. -/
theorem reward_sign (course lesson : List Reward) :
    ((∀ r ∈ course ++ lesson, 0 ≤ r.value) → 0 ≤ scoreRewards ok now course lesson) ∧
      ((∀ r ∈ course ++ lesson, r.value ≤ 0) → scoreRewards ok now course lesson ≤ 0) := by
  obtain ⟨M, hM0, hM⟩ : ∃ M : ℝ, 0 ≤ M ∧ ∀ r ∈ course ++ lesson, |r.value| ≤ M := by
    generalize course ++ lesson = l
    induction l with
    | nil => exact ⟨0, le_refl _, by simp⟩
    | cons a l ih =>
      obtain ⟨M, h0, h⟩ := ih
      refine ⟨max M |a.value|, h0.trans (le_max_left _ _), ?_⟩
      intro r hr
      rcases List.mem_cons.1 hr with rfl | hr
      · exact le_max_right _ _
      · exact (h r hr).trans (le_max_left _ _)
  have hd : ∀ r ∈ course ++ lesson, -M ≤ (decayed ok now r).1 ∧ (decayed ok now r).1 ≤ M :=
    fun r hr => abs_le.1 ((decay_shrinks_keeps_sign ok now r).1.trans (hM r hr))
  constructor
  · intro h
    refine (reward_between ok now course lesson (le_refl 0) hM0 ?_).1
    intro r hr _
    refine ⟨?_, (hd r hr).2⟩
    by_contra hc
    have := ((decay_shrinks_keeps_sign ok now r).2.2.2).1 (not_le.1 hc)
    linarith [h r hr]
  · intro h
    refine (reward_between ok now course lesson (by linarith : -M ≤ 0) (le_refl 0) ?_).2
    intro r hr _
    refine ⟨(hd r hr).1, ?_⟩
    by_contra hc
    have := ((decay_shrinks_keeps_sign ok now r).2.2.1).1 (not_le.1 hc)
    linarith [h r hr]

/-- C23: with only lesson rewards, or only course rewards, the result is the average of those; with
both it is 30% the course average and 70% the lesson average. -/
theorem reward_combination (course lesson : List Reward) :
    (course = [] → lesson = [] → scoreRewards ok now course lesson = 0) ∧
      (course = [] → lesson ≠ [] → scoreRewards ok now course lesson = average ok now lesson) ∧
      (course ≠ [] → lesson = [] → scoreRewards ok now course lesson = average ok now course) ∧
      (course ≠ [] → lesson ≠ [] → scoreRewards ok now course lesson =
        3 / 10 * average ok now course + 7 / 10 * average ok now lesson) := by
  refine ⟨?_, ?_, ?_, ?_⟩
  · rintro rfl rfl; simp [scoreRewards]
  · rintro rfl h; simp [scoreRewards, h]
  · rintro h rfl; simp [scoreRewards, h]
  · intro h1 h2
    simp only [scoreRewards, h1, h2, and_self, if_false]
    rw [div_eq_iff (by norm_num)]
    ring

/-- Two rewards of one day ago: the combined reward lies between them. -/
example : let a : Reward := ⟨1 / 2, 1, 0⟩; let b : Reward := ⟨-1 / 4, 1, 0⟩
    |scoreRewards (fun _ => true) 86400 [a] [b]| ≤ 1 / 2 := by
  intro a b
  apply reward_magnitude _ _ _ _ (by norm_num)
  intro r hr
  simp at hr
  rcases hr with rfl | rfl
  · norm_num [a, abs_of_pos]
  · norm_num [b, abs_le]

/-! ## C24 -/

/-- The average of the three most recent grades. -/
noncomputable def recentAverage (trials : List Entry) : ℝ :=
  ((trials.take 3).map (fun t => t.value)).sum / 3

/-- The last trial happened less than a week ago. -/
def PractisedThisWeek (now : ℤ) (trials : List Entry) : Prop :=
  ∃ last rest, trials = last :: rest ∧ now - last.time < 7 * 86400

/-- C24: rewards are applied exactly when there are at least three trials, and an exercise practised
this week is neither rewarded despite poor recent grades nor penalised despite good ones. -/
theorem apply_reward_iff (reward : ℝ) (trials : List Entry) :
    applyReward now reward trials = true ↔ 3 ≤ trials.length ∧
      ¬ (PractisedThisWeek now trials ∧
        ((0 < reward ∧ recentAverage trials < 3) ∨ (reward < 0 ∧ 7 / 2 < recentAverage trials))) := by
  unfold applyReward
  by_cases hl : trials.length ≤ 2
  · rw [if_pos hl]
    constructor
    · intro h; cases h
    · intro h; omega
  · rw [if_neg hl]
    cases trials with
    | nil => simp at hl
    | cons last rest =>
      have hw : PractisedThisWeek now (last :: rest) ↔ ((now - last.time : ℤ) : ℝ) / 86400 < 7 := by
        rw [div_lt_iff₀ (by norm_num)]
        have e : (7 : ℝ) * 86400 = ((7 * 86400 : ℤ) : ℝ) := by norm_num
        rw [e, Int.cast_lt]
        constructor
        · rintro ⟨a, b, hab, h⟩
          simp only [List.cons.injEq] at hab
          rw [hab.1]; exact h
        · intro h; exact ⟨last, rest, rfl, h⟩
      rw [hw]
      dsimp only
      have hr : recentAverage (last :: rest) =
        (((last :: rest).take 3).map (fun t => t.value)).sum / 3 := rfl
      rw [hr]
      split
      · rename_i h
        constructor
        · intro h; cases h
        · rintro ⟨_, h2⟩; exact absurd ⟨h.2.2, Or.inl ⟨h.1, h.2.1⟩⟩ h2
      · rename_i h
        split
        · rename_i h'
          constructor
          · intro h; cases h
          · rintro ⟨_, h2⟩; exact absurd ⟨h'.2.2, Or.inr ⟨h'.1, h'.2.1⟩⟩ h2
        · rename_i h'
          refine ⟨fun _ => ⟨by omega, ?_⟩, fun _ => rfl⟩
          rintro ⟨h3, h4 | h4⟩
          · exact h ⟨h4.1, h4.2, h3⟩
          · exact h' ⟨h4.1, h4.2, h3⟩

/-- Poor grades this week block a positive reward, but not a negative one. -/
example : let trials : List Entry := [⟨2, 86400⟩, ⟨2, 0⟩, ⟨2, 0⟩]
    applyReward 172800 (1 / 2) trials = false ∧ applyReward 172800 (-1 / 2) trials = true := by
  intro trials
  constructor
  · rw [← Bool.not_eq_true, apply_reward_iff]
    rintro ⟨_, h⟩
    exact h ⟨⟨_, _, rfl, by norm_num⟩, Or.inl ⟨by norm_num, by norm_num [recentAverage, trials]⟩⟩
  · rw [apply_reward_iff]
    refine ⟨by simp [trials], ?_⟩
    rintro ⟨_, ⟨h, _⟩ | ⟨_, h⟩⟩
    · norm_num at h
    · norm_num [recentAverage, trials] at h

end Trane.RewardScorer
