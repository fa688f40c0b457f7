import Verif.Scorer.FormulaSpec
import Verif.Scorer.Props
import Verif.Scorer.RewardProps
import Verif.Sched.CandidateWeightProps

/-! # Scores, rewards and weights are given by the formulas (C96) -/

namespace Trane.Formula

open Trane.Scorer (Entry Kind NewestFirst SafeTimes)

/-! ### Lemmas -/

theorem clamp_within {lo hi : ℝ} (h : lo ≤ hi) (x : ℝ) : Scorer.clamp x lo hi = within lo hi x := by
  unfold Scorer.clamp within
  split_ifs with h1 h2
  · rw [max_eq_left]; exact (min_le_right _ _).trans h1.le
  · rw [min_eq_left h2.le, max_eq_right h]
  · rw [min_eq_right (not_lt.1 h2), max_eq_right (not_lt.1 h1)]

/-- An instant that does not overflow. -/
def Safe (t : ℤ) : Prop := -(2 ^ 62) ≤ t ∧ t < 2 ^ 62

theorem days_eq {a b : ℤ} (ha : Safe a) (hb : Safe b) :
    max (Scorer.daysBetween a b) 0 = daysAfter a b := by
  have h : Scorer.satSub a b = a - b := by
    obtain ⟨h1, h2⟩ := ha
    obtain ⟨h3, h4⟩ := hb
    unfold Scorer.satSub
    omega
  unfold Scorer.daysBetween daysAfter
  rw [h]
  push_cast
  rfl

theorem recall_eq (k : Kind) {d s : ℝ} (hd : 0 ≤ d) (hs : 0 < s) :
    Scorer.retrievability k d s = recall k d s := by
  rw [Scorer.retr_eq k hd hs, Scorer.factor_eq]
  have h910 : (9 / 10 : ℝ) = (10 / 9 : ℝ)⁻¹ := by norm_num
  cases k with
  | declarative =>
    simp only [Scorer.curveDecay, recall]
    rw [h910, Real.inv_rpow (by norm_num), ← Real.rpow_neg (by norm_num)]
    norm_num [mul_div_assoc]
  | procedural =>
    simp only [Scorer.curveDecay, recall]
    rw [h910, Real.inv_rpow (by norm_num), ← Real.rpow_neg (by norm_num)]
    norm_num [mul_div_assoc]

theorem daysAfter_nonneg (a b : ℤ) : 0 ≤ daysAfter a b := le_max_right _ _

theorem memory_eq (k : Kind) {hard : ℝ} (hh : 1 ≤ hard ∧ hard ≤ 10) (l : List Entry)
    (hs : ∀ e ∈ l, Safe e.time) :
    ((Scorer.replay k l hard).stability, (Scorer.replay k l hard).difficulty) = memory k hard l ∧
    (Scorer.replay k l hard).previous = l.head?.map Entry.time := by
  induction l with
  | nil => exact ⟨rfl, rfl⟩
  | cons t l ih =>
    cases l with
    | nil => exact ⟨rfl, rfl⟩
    | cons t' older =>
      obtain ⟨ih1, ih2⟩ := ih (fun e he => hs e (List.mem_cons_of_mem _ he))
      have hpos := Scorer.stability_pos k (t' :: older) hard hh
      unfold Scorer.computeStability at hpos
      rw [Scorer.replay_cons]
      generalize Scorer.replay k (t' :: older) hard = r at *
      obtain ⟨s, d, p⟩ := r
      simp only at ih1 ih2 hpos
      subst ih2
      simp only [Scorer.replayStep, List.head?_cons, Option.map_some]
      rw [memory, ← ih1]
      refine ⟨?_, trivial⟩
      rw [days_eq (hs t (by simp)) (hs t' (by simp))]
      have hg := daysAfter_nonneg t.time t'.time
      generalize daysAfter t.time t'.time = g at *
      have hgain : Scorer.spacingGain k g s ((t.value - 1) / 4 - 1 / 2) =
          if t.value ≤ 3 then 1 else 1 + 65 / 100 * (1 - recall k g s) := by
        have hr := Scorer.retr_mem k g s
        unfold Scorer.spacingGain
        by_cases hv : t.value ≤ 3
        · rw [if_pos (by linarith), if_pos hv]
        · rw [if_neg (by intro h; apply hv; linarith), if_neg hv, ← recall_eq k hg hpos]
          exact Scorer.clamp_eq_self (by linarith [hr.2]) (by linarith [hr.1])
      unfold Scorer.stabilityStep Scorer.updateDifficulty
      simp only [hgain,
        clamp_within (show (1 : ℝ) ≤ 10 by norm_num),
        clamp_within (show (1 / 2 : ℝ) ≤ 730 by norm_num)]
      generalize (if t.value ≤ 3 then (1 : ℝ) else 1 + 65 / 100 * (1 - recall k g s)) = q
      refine Prod.ext ?_ ?_
      · simp only
        congr 1
        ring
      · simp only
        congr 1
        rw [show d + (3 - t.value) / 4 * (105 / 100) = d + 105 / 100 * ((3 - t.value) / 4) by ring]
        norm_num

theorem timeWeight_eq {a b : ℤ} (ha : Safe a) (hb : Safe b) :
    Scorer.timeWeight a b = ageWeight a b := by
  unfold Scorer.timeWeight ageWeight
  rw [← days_eq ha hb]
  congr 2
  rcases le_total (Scorer.daysBetween a b) 0 with h | h
  · rw [max_eq_right h, max_eq_right (by linarith)]; norm_num
  · rw [max_eq_left h, max_eq_left (by positivity)]

theorem posWeight_eq (i : ℕ) : Scorer.posWeight i = placeWeight i := by
  unfold Scorer.posWeight placeWeight
  rw [Real.rpow_natCast]

theorem sum_map_eq (l : List Entry) (f : Entry → ℝ) :
    (l.map f).sum = ∑ i : Fin l.length, f l[i] := by
  rw [← List.sum_ofFn]
  congr 1
  apply List.ext_getElem <;> simp

theorem sum_zipIdx_eq (l : List Entry) (f : ℕ → Entry → ℝ) :
    (l.zipIdx.map (fun x => f x.2 x.1)).sum = ∑ i : Fin l.length, f i l[i] := by
  rw [← List.sum_ofFn]
  congr 1
  apply List.ext_getElem <;> simp

theorem average_eq (l : List Entry) (hs : ∀ e ∈ l, Safe e.time) :
    Scorer.weightedAvg l = average l := by
  cases l with
  | nil => rfl
  | cons e l =>
    unfold Scorer.weightedAvg average Scorer.wavg
    have h1 : ∀ x ∈ e :: l, Scorer.timeWeight e.time x.time = ageWeight e.time x.time :=
      fun x hx => timeWeight_eq (hs e (by simp)) (hs x hx)
    have h2 : (e :: l).map (fun x => Scorer.timeWeight e.time x.time * x.value) =
        (e :: l).map (fun x => ageWeight e.time x.time * x.value) :=
      List.map_congr_left (fun x hx => by rw [h1 x hx])
    have h3 : (e :: l).map (fun x => Scorer.timeWeight e.time x.time) =
        (e :: l).map (fun x => ageWeight e.time x.time) :=
      List.map_congr_left (fun x hx => by rw [h1 x hx])
    simp only [List.map_map, Function.comp_def, posWeight_eq]
    rw [h2, h3, sum_map_eq, sum_map_eq,
      sum_zipIdx_eq (e :: l) (fun i x => placeWeight i * x.value),
      sum_zipIdx_eq (e :: l) (fun i _ => placeWeight i)]
    norm_num

/-! ### Scores -/

/-- **C96** The score of an exercise is the chance of recalling it times the average of its trials
and deltas; its urgency is the chance of having forgotten it. -/
theorem score_formula (k : Kind) (last : Entry) (older deltas : List Entry) (now : ℤ)
    (hs : NewestFirst (last :: older)) (ht : ∀ e ∈ last :: older, Safe e.time)
    (hd : ∀ e ∈ deltas, Safe e.time) (hn : Safe now) :
    ∃ s, Scorer.score k (last :: older) deltas now = some s ∧
      s.value = value k (last :: older) deltas now last.time ∧
      s.urgency = urgency k (last :: older) now last.time := by
  have hh : Scorer.estimateDifficulty (last :: older) = hardness (last :: older) :=
    (Scorer.difficulty_estimate _).2.2 (by simp)
  have hm := Scorer.estimate_mem (last :: older)
  refine ⟨_, Scorer.score_sorted k last older deltas now hs, ?_, ?_⟩
  all_goals
    simp only
    have hpos := Scorer.stability_pos k (last :: older) _ hm
    have hmem := (memory_eq k hm (last :: older) ht).1
    have hst : Scorer.computeStability k (last :: older) (Scorer.estimateDifficulty (last :: older))
        = (memory k (hardness (last :: older)) (last :: older)).1 := by
      rw [← hh, ← hmem]; rfl
    have hdays : Scorer.daysSinceLast now last = daysAfter now last.time :=
      days_eq hn (ht last (by simp))
    rw [recall_eq k (Scorer.daysSinceLast_nonneg now last) hpos, hst, hdays]
  · rw [clamp_within (by norm_num), average_eq _ ht, value, usedRecall, Scorer.oldGoodFloor,
      Scorer.computeDelta, average_eq _ hd, mul_one]
  · rfl

/-- Two trials a day apart, and two deltas: everything the theorem asks for. -/
example : NewestFirst [⟨4, 86400⟩, ⟨2, 0⟩] ∧ (∀ e ∈ [(⟨4, 86400⟩ : Entry), ⟨2, 0⟩], Safe e.time) ∧
    (∀ e ∈ [(⟨1, 86400⟩ : Entry), ⟨-1, 0⟩], Safe e.time) ∧ Safe 172800 := by
  simp [NewestFirst, Safe]

/-- Read off the formula: one trial graded 4, a day later, is worth nine tenths of it. -/
theorem one_trial_a_day_later (k : Kind) :
    ∃ s, Scorer.score k [⟨4, 0⟩] [] 86400 = some s ∧ s.value = 36 / 10 ∧ s.urgency = 1 / 10 := by
  obtain ⟨s, h1, h2, h3⟩ := score_formula k ⟨4, 0⟩ [] [] 86400 (by simp [NewestFirst])
    (by simp [Safe]) (by simp) (by simp [Safe])
  have hd : daysAfter 86400 0 = 1 := by norm_num [daysAfter]
  have hr : recall k 1 1 = 9 / 10 := by
    rw [← recall_eq k (by norm_num) (by norm_num)]
    exact (Scorer.recall_range k (days := 0) le_rfl one_pos).2.2
  have ha : average [(⟨4, 0⟩ : Entry)] = 4 := by
    rw [← average_eq _ (by simp [Safe])]
    exact Scorer.average_constant _ (by simp) (by simp)
  refine ⟨s, h1, ?_, ?_⟩
  · rw [h2]
    simp only [value, usedRecall, memory, ha, hd, hr]
    norm_num [within]
  · rw [h3]
    simp only [urgency, memory, hd, hr]
    norm_num

/-! ### Where the comments of the code say something else -/

/-- The average as the comments describe it: "blended 60/40 time/position"
(/repo/src/exercise_scorer.rs:218), with `PERFORMANCE_WEIGHT_DECAY` "the per-day decay factor"
(lines 51-53) if `days` is 1, per week if it is 7. -/
noncomputable def commentedAverage (days : ℝ) (l : List Entry) : ℝ :=
  match l with
  | [] => 0
  | newest :: _ =>
    let w : Fin l.length → ℝ := fun i =>
      max ((95 / 100 : ℝ) ^ (daysAfter newest.time l[i].time / days)) (1 / 10)
    6 / 10 * ((∑ i, w i * l[i].value) / ∑ i, w i) +
    4 / 10 * ((∑ i : Fin l.length, placeWeight i * l[i].value) / ∑ i : Fin l.length, placeWeight i)

/-- **C96** The comments are not what happens: two trials of the same second already tell the
difference. -/
theorem comments_disagree_on_average (days : ℝ) :
    Scorer.weightedAvg [⟨5, 0⟩, ⟨1, 0⟩] ≠ commentedAverage days [⟨5, 0⟩, ⟨1, 0⟩] := by
  rw [average_eq _ (by simp [Safe])]
  have hd : daysAfter 0 0 = 0 := by norm_num [daysAfter]
  simp only [average, commentedAverage, ageWeight, placeWeight, Fin.sum_univ_succ,
    Fin.sum_univ_zero, List.length_cons, List.length_nil]
  norm_num [hd]

/-- **C96** Difficulty goes back towards 5, not "toward the base estimate"
(/repo/src/exercise_scorer.rs:342-343): after failing twice, two days apart, it is
not the base estimate of 10 although the grade pushes it up. -/
theorem difficulty_reverts_to_five (k : Kind) :
    hardness [⟨1, 172800⟩, ⟨1, 0⟩] = 10 ∧
    (memory k 10 [⟨1, 172800⟩, ⟨1, 0⟩]).2 = 92 / 10 := by
  constructor
  · norm_num [hardness]
  · norm_num [memory, within]

/-! ### Rewards -/

open Trane.RewardScorer (Reward)

theorem decay_eq (now : ℤ) (inRange : ℤ → Bool) (r : Reward) (h : inRange r.time = true) :
    RewardScorer.decayed inRange now r = (r.value * left now r, r.weight * left now r) := by
  have hd : RewardScorer.daysSince inRange r now = (age now r : ℤ) := by
    unfold RewardScorer.daysSince RewardScorer.instant age
    rw [if_pos h]
    rcases le_total 0 (now - r.time) with h0 | h0
    · rw [Int.tdiv_eq_ediv_of_nonneg h0, Int.toNat_eq_max]
    · have h1 : (now - r.time).tdiv 86400 ≤ 0 := by
        have := Int.tdiv_nonneg (a := -(now - r.time)) (b := 86400) (by omega) (by omega)
        rw [Int.neg_tdiv] at this
        omega
      have h2 : (now - r.time) / 86400 ≤ 0 := by omega
      omega
  have hl : RewardScorer.decayFactor (RewardScorer.daysSince inRange r now : ℝ) = left now r := by
    unfold RewardScorer.decayFactor left
    rw [hd, one_div, Real.inv_rpow (by norm_num), ← Real.rpow_neg (by norm_num), Int.cast_natCast]
  simp only [RewardScorer.decayed, hl]

open Classical in
theorem accumulate_eq (now : ℤ) (inRange : ℤ → Bool) (rs : List Reward)
    (h : ∀ r ∈ rs, inRange r.time = true) (acc : ℝ × ℝ) :
    RewardScorer.accumulate inRange now acc rs =
      (acc.1 + ((rs.filter (fun r => decide (1 / 20 ≤ r.weight * left now r))).map
          (fun r => r.value * left now r * (r.weight * left now r))).sum,
        acc.2 + ((rs.filter (fun r => decide (1 / 20 ≤ r.weight * left now r))).map
          (fun r => r.weight * left now r)).sum) := by
  induction rs generalizing acc with
  | nil => simp [RewardScorer.accumulate]
  | cons r rs ih =>
    have ih := ih (fun x hx => h x (List.mem_cons_of_mem _ hx))
    rw [RewardScorer.accumulate, decay_eq now inRange r (h r (by simp))]
    by_cases hw : r.weight * left now r < 5 / 100
    · have : ¬ 1 / 20 ≤ r.weight * left now r := by
        intro h'; linarith
      simp only [hw, if_true, ih]
      rw [List.filter_cons_of_neg (by simpa using this)]
    · have : 1 / 20 ≤ r.weight * left now r := by
        have := not_lt.1 hw; linarith
      simp only [hw, if_false, ih]
      rw [List.filter_cons_of_pos (by simpa using this)]
      simp only [List.map_cons, List.sum_cons]
      refine Prod.ext ?_ ?_ <;> simp only <;> ring

/-- **C96** The average of rewards, each halved in value and weight every fourteen days. -/
theorem reward_formula (inRange : ℤ → Bool) (now : ℤ) (rs : List Reward)
    (h : ∀ r ∈ rs, inRange r.time = true) :
    RewardScorer.average inRange now rs = rewardAverage now rs := by
  classical
  unfold RewardScorer.average rewardAverage
  rw [accumulate_eq now inRange rs h]
  simp only [zero_add]
  by_cases hk : rs.filter (fun r => decide (1 / 20 ≤ r.weight * left now r)) = []
  · simp only [hk, List.map_nil, List.sum_nil, if_true]
  · rw [if_neg hk, if_neg]
    apply ne_of_gt
    apply List.sum_pos
    · intro x hx
      obtain ⟨r, hr, rfl⟩ := List.mem_map.1 hx
      have := (List.mem_filter.1 hr).2
      simp only [decide_eq_true_eq] at this
      linarith
    · simpa using hk

/-- A reward of a fortnight ago and one too light to count. -/
example : rewardAverage 1209600 [⟨1, 1 / 2, 0⟩, ⟨5, 1 / 100, 1209600⟩] = 1 / 2 := by
  have h1 : left 1209600 ⟨1, 1 / 2, 0⟩ = 1 / 2 := by
    have : age 1209600 ⟨1, 1 / 2, 0⟩ = 14 := rfl
    rw [left, this]
    norm_num [Real.rpow_neg]
  have h2 : left 1209600 ⟨5, 1 / 100, 1209600⟩ = 1 := by
    have : age 1209600 ⟨5, 1 / 100, 1209600⟩ = 0 := rfl
    rw [left, this]
    norm_num
  unfold rewardAverage
  have hf : [(⟨1, 1 / 2, 0⟩ : Reward), ⟨5, 1 / 100, 1209600⟩].filter
      (fun r => decide (1 / 20 ≤ r.weight * left 1209600 r)) = [⟨1, 1 / 2, 0⟩] := by
    simp only [List.filter_cons, h1, h2]
    norm_num
  simp only [hf, List.map_cons, List.map_nil, List.sum_cons, List.sum_nil, h1]
  norm_num

/-! ### Selection weights -/

variable {ι : Type}

/-- **C96** The selection weight of a candidate with no negative measure, for every velocity above
-1. -/
theorem weight_formula (c : Candidate ι) (hc : CandidateFilter.Sane c)
    (hv : ∀ v, c.velocity = some v → -1 < v) :
    CandidateFilter.candidateWeight c = weight c := by
  obtain ⟨h1, h2, h3, h4⟩ := hc
  have p1 : (0 : ℝ) < 1 + (c.depth : ℝ) := by
    have : (0 : ℝ) ≤ (c.depth : ℝ) := by exact_mod_cast h1
    linarith
  have p2 : (0 : ℝ) < 1 + (c.encompasses : ℝ) := by
    have : (0 : ℝ) ≤ (c.encompasses : ℝ) := by exact_mod_cast h2
    linarith
  have p3 : (0 : ℝ) < 1 + (c.encompassed : ℝ) := by
    have : (0 : ℝ) ≤ (c.encompassed : ℝ) := by exact_mod_cast h3
    linarith
  have p4 : (0 : ℝ) < 1 + (c.frequency : ℝ) := by positivity
  have hb : Real.exp (CandidateFilter.baseLogCost c) = baseCost c := by
    unfold CandidateFilter.baseLogCost CandidateFilter.lnOnePlus baseCost
    rw [Real.rpow_def_of_pos p3, Real.rpow_def_of_pos p1, Real.rpow_def_of_pos p2,
      ← Real.rpow_natCast, Real.rpow_def_of_pos p4]
    have hde : (if c.deadEnd = true then Real.exp 1 else 1) =
        Real.exp (if c.deadEnd then 1 else 0) := by
      split_ifs <;> simp
    rw [hde, ← Real.exp_add, ← Real.exp_add, ← Real.exp_add, ← Real.exp_sub]
    congr 1
    push_cast
    ring
  have hvel : ∀ v, c.velocity = some v →
      Real.exp (CandidateFilter.velocityLogCost c.score v) = velocityCost c.score v := by
    intro v hv'
    have pv : (0 : ℝ) < 1 + (v : ℝ) := by
      have : (-1 : ℝ) < (v : ℝ) := by exact_mod_cast hv v hv'
      linarith
    unfold CandidateFilter.velocityLogCost CandidateFilter.lnOnePlus velocityCost
    rw [Real.sqrt_eq_rpow, Real.rpow_def_of_pos pv]
    have hst : (if |v| < 1 / 5 then if 4 ≤ c.score then Real.exp 1 else Real.exp (-(7 / 10))
        else 1) = Real.exp (if |v| < 1 / 5 then if 4 ≤ c.score then 1 else -(7 / 10) else 0) := by
      split_ifs <;> simp
    rw [hst, ← Real.exp_sub]
    congr 1
    ring
  have hcl : ∀ x, CandidateFilter.clampCost x = within (1 / 20) 100 x := by
    intro x
    rw [← clamp_within (by norm_num)]
    rfl
  unfold CandidateFilter.candidateWeight CandidateFilter.candidateCost weight
  cases hvc : c.velocity with
  | none => simp only [hb, hcl, mul_one, max_comm, CandidateFilter.minWeight]
  | some v =>
    have hlt := hv v hvc
    simp only [not_lt.2 hlt.le, hlt.ne', if_false, Real.exp_add, hb, hvel v hvc, hcl, max_comm,
      CandidateFilter.minWeight]

/-- A candidate seen three times at depth 0, with urgency 1: a quarter. -/
example : weight ({ exercise := 0, lesson := 0, course := 0, frequency := 3, urgency := 1 } :
    Candidate Nat) = 1 / 4 := by
  unfold weight baseCost within
  have : Real.sqrt 16 = 4 := by
    rw [show (16 : ℝ) = 4 ^ 2 by norm_num]; exact Real.sqrt_sq (by norm_num)
  norm_num [this]

end Trane.Formula
