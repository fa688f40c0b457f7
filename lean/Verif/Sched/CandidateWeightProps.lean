import Verif.Sched.CandidateWeight
import Mathlib.Tactic.Linarith
import Mathlib.Tactic.NormNum
import Mathlib.Tactic.Positivity
import Mathlib.Tactic.Tauto

/-! # Properties of the selection weights (C62) -/

namespace Trane.CandidateFilter

variable {ι : Type}

/-! ### Specification -/

/-- What holds of every candidate: its measures are not negative. -/
def Sane (c : Candidate ι) : Prop := 0 ≤ c.depth ∧ 0 ≤ c.encompasses ∧ 0 ≤ c.encompassed ∧ 0 ≤ c.urgency

/-- A velocity close to zero. -/
def Stagnant (v : ℚ) : Prop := |v| < 1 / 5

/-- Mastered exercises, as far as stagnation is concerned. -/
def Mastered (c : Candidate ι) : Prop := 4 ≤ c.score

/-- The velocity of `c'` is at least as good: both unknown, or known, in the same class and not smaller. -/
def VelocityNotWorse (c c' : Candidate ι) : Prop :=
  (c.velocity = none ∧ c'.velocity = none) ∨
  ∃ v v', c.velocity = some v ∧ c'.velocity = some v' ∧ v ≤ v' ∧ (Stagnant v ↔ Stagnant v')

/-- `c'` is at least as good as `c` in every documented respect. -/
def NotWorse (c c' : Candidate ι) : Prop :=
  c.depth ≤ c'.depth ∧ c.encompasses ≤ c'.encompasses ∧ c'.encompassed ≤ c.encompassed ∧
  c'.frequency ≤ c.frequency ∧ (c.deadEnd = true → c'.deadEnd = true) ∧ c.urgency ≤ c'.urgency ∧
  (Mastered c ↔ Mastered c') ∧ VelocityNotWorse c c'

/-- And strictly better in at least one respect. -/
def Better (c c' : Candidate ι) : Prop :=
  NotWorse c c' ∧ (c.depth < c'.depth ∨ c.encompasses < c'.encompasses ∨ c'.encompassed < c.encompassed ∨
    c'.frequency < c.frequency ∨ (c.deadEnd = false ∧ c'.deadEnd = true) ∨ c.urgency < c'.urgency ∨
    ∃ v v', c.velocity = some v ∧ c'.velocity = some v' ∧ v < v')

/-- The weight of the candidate was not cut off by one of the limits: it exceeds the least weight and the
cost, the square of urgency over weight, is strictly between its limits. -/
def NotCutOff (c : Candidate ι) : Prop :=
  1 / 20 < candidateWeight c ∧ 1 / 20 < ((c.urgency : ℝ) / candidateWeight c) ^ 2 ∧
    ((c.urgency : ℝ) / candidateWeight c) ^ 2 < 100

/-! ### Lemmas -/

theorem clampCost_mono {a b : ℝ} (h : a ≤ b) : clampCost a ≤ clampCost b := by
  unfold clampCost minCost maxCost; split_ifs <;> linarith

theorem clampCost_mem (a : ℝ) : 1 / 20 ≤ clampCost a ∧ clampCost a ≤ 100 := by
  unfold clampCost minCost maxCost; split_ifs <;> constructor <;> linarith

theorem clampCost_interior {a : ℝ} (h1 : 1 / 20 < clampCost a) (h2 : clampCost a < 100) :
    clampCost a = a := by
  unfold clampCost minCost maxCost at *; split_ifs at * <;> linarith

theorem clampCost_lt {a b : ℝ} (h : a < b) (h1 : 1 / 20 < clampCost b) (h2 : clampCost b < 100) :
    clampCost a < clampCost b := by
  rw [clampCost_interior h1 h2]
  have := h1
  rw [clampCost_interior h1 h2] at this
  unfold clampCost minCost maxCost; split_ifs <;> linarith

theorem lnOnePlus_mono {a b : ℝ} (ha : -1 < a) (h : a ≤ b) : lnOnePlus a ≤ lnOnePlus b :=
  Real.log_le_log (by linarith) (by linarith)

theorem lnOnePlus_lt {a b : ℝ} (ha : -1 < a) (h : a < b) : lnOnePlus a < lnOnePlus b :=
  Real.log_lt_log (by linarith) (by linarith)

theorem cost_pos {c : Candidate ι} {x : ℝ} (h : candidateCost c = some x) : 1 / 20 ≤ x ∧ x ≤ 100 := by
  unfold candidateCost at h
  split at h
  · cases h; exact clampCost_mem _
  · split_ifs at h
    · cases h; unfold maxCost; norm_num
    · cases h; exact clampCost_mem _

theorem baseLogCost_mono {c c' : Candidate ι} (hs : Sane c) (hs' : Sane c') (h : NotWorse c c') :
    baseLogCost c' ≤ baseLogCost c := by
  obtain ⟨d, e, e', f, de, u, -, -⟩ := h
  obtain ⟨s1, s2, s3, s4⟩ := hs
  obtain ⟨t1, t2, t3, t4⟩ := hs'
  have p : ∀ {q : ℚ}, 0 ≤ q → (-1 : ℝ) < q := fun hq => by
    have : (0 : ℝ) ≤ _ := Rat.cast_nonneg.2 hq
    linarith
  have h1 := lnOnePlus_mono (p s1) (Rat.cast_le (K := ℝ).2 d)
  have h2 := lnOnePlus_mono (p s2) (Rat.cast_le (K := ℝ).2 e)
  have h3 := lnOnePlus_mono (p t3) (Rat.cast_le (K := ℝ).2 e')
  have h4 := lnOnePlus_mono (a := (c'.frequency : ℝ)) (b := c.frequency)
    (by have : (0 : ℝ) ≤ c'.frequency := Nat.cast_nonneg _
        linarith) (Nat.cast_le.2 f)
  have h5 : (if c.deadEnd then (1 : ℝ) else 0) ≤ if c'.deadEnd then 1 else 0 := by
    split_ifs with a b
    · exact le_refl _
    · exact absurd (de a) b
    · norm_num
    · norm_num
  unfold baseLogCost
  linarith

theorem baseLogCost_lt {c c' : Candidate ι} (hs : Sane c) (hs' : Sane c') (h : NotWorse c c')
    (hb : c.depth < c'.depth ∨ c.encompasses < c'.encompasses ∨ c'.encompassed < c.encompassed ∨
      c'.frequency < c.frequency ∨ (c.deadEnd = false ∧ c'.deadEnd = true)) :
    baseLogCost c' < baseLogCost c := by
  obtain ⟨d, e, e', f, de, u, -, -⟩ := h
  obtain ⟨s1, s2, s3, s4⟩ := hs
  obtain ⟨t1, t2, t3, t4⟩ := hs'
  have p : ∀ {q : ℚ}, 0 ≤ q → (-1 : ℝ) < q := fun hq => by
    have : (0 : ℝ) ≤ _ := Rat.cast_nonneg.2 hq
    linarith
  have pn : ∀ n : Nat, (-1 : ℝ) < n := fun n => by
    have : (0 : ℝ) ≤ n := Nat.cast_nonneg _
    linarith
  have h1 := lnOnePlus_mono (p s1) (Rat.cast_le (K := ℝ).2 d)
  have h2 := lnOnePlus_mono (p s2) (Rat.cast_le (K := ℝ).2 e)
  have h3 := lnOnePlus_mono (p t3) (Rat.cast_le (K := ℝ).2 e')
  have h4 := lnOnePlus_mono (a := (c'.frequency : ℝ)) (b := c.frequency) (pn _) (Nat.cast_le.2 f)
  have h5 : (if c.deadEnd then (1 : ℝ) else 0) ≤ if c'.deadEnd then 1 else 0 := by
    split_ifs with a b
    · exact le_refl _
    · exact absurd (de a) b
    · norm_num
    · norm_num
  unfold baseLogCost
  rcases hb with b | b | b | b | b
  · have := lnOnePlus_lt (p s1) (Rat.cast_lt (K := ℝ).2 b); linarith
  · have := lnOnePlus_lt (p s2) (Rat.cast_lt (K := ℝ).2 b); linarith
  · have := lnOnePlus_lt (p t3) (Rat.cast_lt (K := ℝ).2 b); linarith
  · have := lnOnePlus_lt (a := (c'.frequency : ℝ)) (b := c.frequency) (pn _) (Nat.cast_lt.2 b); linarith
  · rw [b.1, b.2]; simp only [Bool.false_eq_true, if_false, if_true]; linarith

theorem velocityLogCost_mono {s s' v v' : ℚ} (hm : 4 ≤ s ↔ 4 ≤ s') (h0 : -1 < v) (h : v ≤ v')
    (hst : Stagnant v ↔ Stagnant v') : velocityLogCost s' v' ≤ velocityLogCost s v := by
  have h0' : (-1 : ℝ) < v := by exact_mod_cast h0
  have hl := lnOnePlus_mono h0' (Rat.cast_le (K := ℝ).2 h)
  unfold velocityLogCost
  unfold Stagnant at hst
  by_cases a : |v| < 1 / 5
  · rw [if_pos a, if_pos (hst.1 a)]
    by_cases b : 4 ≤ s
    · rw [if_pos b, if_pos (hm.1 b)]; linarith
    · rw [if_neg b, if_neg (fun x => b (hm.2 x))]; linarith
  · rw [if_neg a, if_neg (fun x => a (hst.2 x))]; linarith

theorem velocityLogCost_lt {s s' v v' : ℚ} (hm : 4 ≤ s ↔ 4 ≤ s') (h0 : -1 < v) (h : v < v')
    (hst : Stagnant v ↔ Stagnant v') : velocityLogCost s' v' < velocityLogCost s v := by
  have h0' : (-1 : ℝ) < v := by exact_mod_cast h0
  have hl := lnOnePlus_lt h0' (Rat.cast_lt (K := ℝ).2 h)
  unfold velocityLogCost
  unfold Stagnant at hst
  by_cases a : |v| < 1 / 5
  · rw [if_pos a, if_pos (hst.1 a)]
    by_cases b : 4 ≤ s
    · rw [if_pos b, if_pos (hm.1 b)]; linarith
    · rw [if_neg b, if_neg (fun x => b (hm.2 x))]; linarith
  · rw [if_neg a, if_neg (fun x => a (hst.2 x))]; linarith

/-- Lower cost and no lower urgency give no lower weight. -/
theorem weight_of_cost {c c' : Candidate ι} (h4 : 0 ≤ c.urgency) (u : c.urgency ≤ c'.urgency)
    (h : ∀ x, candidateCost c = some x → ∃ y, candidateCost c' = some y ∧ y ≤ x) :
    candidateWeight c ≤ candidateWeight c' := by
  have hu : (0 : ℝ) ≤ c.urgency := Rat.cast_nonneg.2 h4
  have huu : (c.urgency : ℝ) ≤ c'.urgency := Rat.cast_le.2 u
  have hmin : minWeight ≤ candidateWeight c' := by
    unfold candidateWeight
    split
    · exact le_refl _
    · exact le_max_right _ _
  cases hc : candidateCost c with
  | none =>
    have : candidateWeight c = minWeight := by unfold candidateWeight; rw [hc]
    rw [this]; exact hmin
  | some x =>
    obtain ⟨y, hy, hyx⟩ := h x hc
    have e1 : candidateWeight c = max ((c.urgency : ℝ) / Real.sqrt x) minWeight := by
      unfold candidateWeight; rw [hc]
    have e2 : candidateWeight c' = max ((c'.urgency : ℝ) / Real.sqrt y) minWeight := by
      unfold candidateWeight; rw [hy]
    rw [e1, e2]
    apply max_le_max _ (le_refl _)
    have py := (cost_pos hy).1
    exact div_le_div₀ (by linarith) huu (Real.sqrt_pos.2 (by linarith)) (Real.sqrt_le_sqrt hyx)

theorem cost_mono {c c' : Candidate ι} (hs : Sane c) (hs' : Sane c') (h : NotWorse c c') (x : ℝ)
    (hx : candidateCost c = some x) : ∃ y, candidateCost c' = some y ∧ y ≤ x := by
  have hb := baseLogCost_mono hs hs' h
  obtain ⟨-, -, -, -, -, -, hm, hv⟩ := h
  have hx' := hx
  unfold candidateCost at hx
  rcases hv with ⟨n, n'⟩ | ⟨v, v', n, n', hle, hst⟩
  · rw [n] at hx
    cases hx
    refine ⟨clampCost (Real.exp (baseLogCost c')), ?_, clampCost_mono (Real.exp_le_exp.2 hb)⟩
    unfold candidateCost; rw [n']
  · rw [n] at hx
    dsimp only at hx
    by_cases h1 : v < -1
    · rw [if_pos h1] at hx; cases hx
    · rw [if_neg h1] at hx
      by_cases h2 : v = -1
      · rw [if_pos h2] at hx
        cases hx
        unfold candidateCost
        rw [n']
        dsimp only
        rw [if_neg (by linarith)]
        split_ifs
        · exact ⟨_, rfl, le_refl _⟩
        · exact ⟨_, rfl, (clampCost_mem _).2⟩
      · rw [if_neg h2] at hx
        cases hx
        have h3 : -1 < v := lt_of_le_of_ne (not_lt.1 h1) (Ne.symm h2)
        refine ⟨clampCost (Real.exp (baseLogCost c' + velocityLogCost c'.score v')), ?_, ?_⟩
        · unfold candidateCost; rw [n']; dsimp only
          rw [if_neg (by linarith), if_neg (by linarith)]
        · apply clampCost_mono
          apply Real.exp_le_exp.2
          have := velocityLogCost_mono hm h3 hle hst
          linarith

/-! ### C62 -/

/-- C62: the weight is at least 0.05 and bounded, so weighted sampling accepts it. -/
theorem weight_valid (c : Candidate ι) (hu : 0 ≤ c.urgency) :
    1 / 20 ≤ candidateWeight c ∧ candidateWeight c ≤ max (1 / 20) (5 * (c.urgency : ℝ)) := by
  have hu' : (0 : ℝ) ≤ c.urgency := Rat.cast_nonneg.2 hu
  unfold candidateWeight minWeight
  split
  · exact ⟨le_refl _, le_max_left _ _⟩
  · next x hx =>
    refine ⟨le_max_right _ _, ?_⟩
    rw [max_comm]
    apply max_le_max (le_refl _)
    have px := (cost_pos hx).1
    have : (1 : ℝ) / 5 ≤ Real.sqrt x := by
      apply Real.le_sqrt_of_sq_le; norm_num; linarith
    rw [div_le_iff₀ (by linarith)]
    nlinarith

/-- C62: a candidate that is at least as good in every documented respect has at least the weight. -/
theorem weight_monotone (c c' : Candidate ι) (hs : Sane c) (hs' : Sane c') (h : NotWorse c c') :
    candidateWeight c ≤ candidateWeight c' :=
  weight_of_cost hs.2.2.2 h.2.2.2.2.2.1 (cost_mono hs hs' h)

theorem notCutOff_cost {c : Candidate ι} (hn : NotCutOff c) :
    ∃ x, candidateCost c = some x ∧ candidateWeight c = (c.urgency : ℝ) / Real.sqrt x ∧
      1 / 20 < x ∧ x < 100 := by
  obtain ⟨h1, h2, h3⟩ := hn
  cases hc : candidateCost c with
  | none =>
    have : candidateWeight c = minWeight := by unfold candidateWeight; rw [hc]
    rw [this] at h1; unfold minWeight at h1; linarith
  | some x =>
    have e1 : candidateWeight c = max ((c.urgency : ℝ) / Real.sqrt x) minWeight := by
      unfold candidateWeight; rw [hc]
    have e2 : candidateWeight c = (c.urgency : ℝ) / Real.sqrt x := by
      rw [e1]; apply max_eq_left
      by_contra hlt
      rw [e1, max_eq_right (not_le.1 hlt).le] at h1
      unfold minWeight at h1; linarith
    have px := (cost_pos hc).1
    have hsq : 0 < Real.sqrt x := Real.sqrt_pos.2 (by linarith)
    have hu : (c.urgency : ℝ) ≠ 0 := by
      intro h0; rw [e2, h0, zero_div] at h1; linarith
    have e3 : ((c.urgency : ℝ) / candidateWeight c) ^ 2 = x := by
      rw [e2, div_div_cancel₀ hu, Real.sq_sqrt (by linarith)]
    rw [e3] at h2 h3
    exact ⟨x, rfl, e2, h2, h3⟩

/-- C62: the preference is strict as long as the weight of the worse candidate was not cut off. -/
theorem weight_strict (c c' : Candidate ι) (hs : Sane c) (hs' : Sane c') (h : Better c c')
    (hn : NotCutOff c) : candidateWeight c < candidateWeight c' := by
  obtain ⟨x, hx, hw, x1, x2⟩ := notCutOff_cost hn
  obtain ⟨hnw, hb⟩ := h
  obtain ⟨y, hy, hyx⟩ := cost_mono hs hs' hnw x hx
  have hu0 : (0 : ℝ) ≤ c.urgency := Rat.cast_nonneg.2 hs.2.2.2
  have py := (cost_pos hy).1
  have hsx : 0 < Real.sqrt x := Real.sqrt_pos.2 (by linarith)
  have hsy : 0 < Real.sqrt y := Real.sqrt_pos.2 (by linarith)
  have hupos : (0 : ℝ) < c.urgency := by
    rcases hu0.lt_or_eq with h | h
    · exact h
    · have := hn.1; rw [hw, ← h, zero_div] at this; linarith
  have e2 : candidateWeight c' = max ((c'.urgency : ℝ) / Real.sqrt y) minWeight := by
    unfold candidateWeight; rw [hy]
  have huu : (c.urgency : ℝ) ≤ c'.urgency := Rat.cast_le.2 hnw.2.2.2.2.2.1
  rw [hw, e2]
  apply lt_of_lt_of_le _ (le_max_left _ _)
  have strictCost : y < x → (c.urgency : ℝ) / Real.sqrt x < (c'.urgency : ℝ) / Real.sqrt y := by
    intro hlt
    calc (c.urgency : ℝ) / Real.sqrt x < (c.urgency : ℝ) / Real.sqrt y :=
          div_lt_div_of_pos_left hupos hsy (Real.sqrt_lt_sqrt (by linarith) hlt)
      _ ≤ _ := div_le_div_of_nonneg_right huu hsy.le
  have hbase : (baseLogCost c' < baseLogCost c) → y < x := by
    intro hlt
    obtain ⟨-, -, -, -, -, -, hm, hv⟩ := hnw
    unfold candidateCost at hx hy
    rcases hv with ⟨n, n'⟩ | ⟨v, v', n, n', hle, hst⟩
    · rw [n] at hx; rw [n'] at hy
      cases hx; cases hy
      exact clampCost_lt (Real.exp_lt_exp.2 hlt) x1 x2
    · rw [n] at hx; rw [n'] at hy
      dsimp only at hx hy
      split_ifs at hx with a1 a2
      · cases hx; unfold maxCost at x2; linarith
      have h3 : -1 < v := lt_of_le_of_ne (not_lt.1 a1) (Ne.symm a2)
      rw [if_neg (by linarith), if_neg (by linarith)] at hy
      cases hx; cases hy
      refine clampCost_lt (Real.exp_lt_exp.2 ?_) x1 x2
      have := velocityLogCost_mono hm h3 hle hst
      linarith
  rcases hb with b | b | b | b | b | b | ⟨v, v', n, n', hlt⟩
  · exact strictCost (hbase (baseLogCost_lt hs hs' hnw (Or.inl b)))
  · exact strictCost (hbase (baseLogCost_lt hs hs' hnw (Or.inr (Or.inl b))))
  · exact strictCost (hbase (baseLogCost_lt hs hs' hnw (Or.inr (Or.inr (Or.inl b)))))
  · exact strictCost (hbase (baseLogCost_lt hs hs' hnw (Or.inr (Or.inr (Or.inr (Or.inl b))))))
  · exact strictCost (hbase (baseLogCost_lt hs hs' hnw (Or.inr (Or.inr (Or.inr (Or.inr b))))))
  · have hult : (c.urgency : ℝ) < c'.urgency := Rat.cast_lt.2 b
    calc (c.urgency : ℝ) / Real.sqrt x ≤ (c.urgency : ℝ) / Real.sqrt y :=
          div_le_div_of_nonneg_left hu0 hsy (Real.sqrt_le_sqrt hyx)
      _ < _ := div_lt_div_of_pos_right hult hsy
  · have hbl := baseLogCost_mono hs hs' hnw
    apply strictCost
    obtain ⟨-, -, -, -, -, -, hm, hv⟩ := hnw
    unfold candidateCost at hx hy
    rcases hv with ⟨m, m'⟩ | ⟨w, w', m, m', hle, hst⟩
    · rw [m] at n; cases n
    obtain rfl : w = v := by rw [m] at n; exact Option.some.inj n
    obtain rfl : w' = v' := by rw [m'] at n'; exact Option.some.inj n'
    rw [m] at hx; rw [m'] at hy
    dsimp only at hx hy
    split_ifs at hx with a1 a2
    · cases hx; unfold maxCost at x2; linarith
    have h3 : -1 < w := lt_of_le_of_ne (not_lt.1 a1) (Ne.symm a2)
    rw [if_neg (by linarith), if_neg (by linarith)] at hy
    cases hx; cases hy
    refine clampCost_lt (Real.exp_lt_exp.2 ?_) x1 x2
    have := velocityLogCost_lt hm h3 hlt hst
    linarith

theorem cost_some {c : Candidate ι} {v : ℚ} (h : c.velocity = some v) (h1 : -1 < v) :
    candidateCost c = some (clampCost (Real.exp (baseLogCost c + velocityLogCost c.score v))) := by
  unfold candidateCost; rw [h]; dsimp only; rw [if_neg (by linarith), if_neg (by linarith)]

theorem cost_none {c : Candidate ι} (h : c.velocity = none) :
    candidateCost c = some (clampCost (Real.exp (baseLogCost c))) := by
  unfold candidateCost; rw [h]

/-- C62: compared with an exercise of unknown velocity, progress and, for unmastered exercises, stagnation
never lower the weight. -/
theorem weight_raised (c : Candidate ι) (hu : 0 ≤ c.urgency) (v : ℚ)
    (h : 1 / 5 ≤ v ∨ (Stagnant v ∧ ¬ Mastered c)) :
    candidateWeight { c with velocity := none } ≤ candidateWeight { c with velocity := some v } := by
  apply weight_of_cost (c := { c with velocity := none }) (c' := { c with velocity := some v }) hu
    (le_refl _)
  have hv : -1 < v := by
    rcases h with h | h
    · linarith
    · have := (abs_lt.1 h.1).1; linarith
  intro x hx
  rw [cost_none rfl] at hx
  cases hx
  refine ⟨_, cost_some rfl hv, clampCost_mono (Real.exp_le_exp.2 ?_)⟩
  show baseLogCost c + velocityLogCost c.score v ≤ baseLogCost c
  unfold velocityLogCost
  rcases h with h | ⟨h, hm⟩
  · rw [if_neg (not_lt.2 (le_trans h (le_abs_self v)))]
    have : (0 : ℝ) ≤ v := Rat.cast_nonneg.2 (by linarith)
    have : 0 ≤ lnOnePlus v := Real.log_nonneg (by linarith)
    linarith
  · unfold Stagnant at h
    rw [if_pos h, if_neg (show ¬ 4 ≤ c.score from hm)]
    have hv' : (-(1 / 5) : ℝ) < v := by
      have := (abs_lt.1 h).1
      have : ((-(1 / 5) : ℚ) : ℝ) < v := Rat.cast_lt.2 this
      push_cast at this; linarith
    have hl : (-(1 / 4) : ℝ) ≤ lnOnePlus v := by
      have h1 := Real.one_sub_inv_le_log_of_pos (x := 1 + (v : ℝ)) (by linarith)
      have h2 : (1 + (v : ℝ))⁻¹ ≤ (4 / 5)⁻¹ := inv_anti₀ (by norm_num) (by linarith)
      unfold lnOnePlus
      norm_num at h2
      linarith
    linarith

/-- C62: compared with an exercise of unknown velocity, regress and, for mastered exercises, stagnation
never raise the weight. -/
theorem weight_lowered (c : Candidate ι) (hu : 0 ≤ c.urgency) (v : ℚ)
    (h : v ≤ -(1 / 5) ∨ (Stagnant v ∧ Mastered c)) :
    candidateWeight { c with velocity := some v } ≤ candidateWeight { c with velocity := none } := by
  apply weight_of_cost (c := { c with velocity := some v }) (c' := { c with velocity := none }) hu
    (le_refl _)
  intro x hx
  refine ⟨_, cost_none rfl, ?_⟩
  by_cases hv : -1 < v
  · rw [cost_some rfl hv] at hx
    cases hx
    refine clampCost_mono (Real.exp_le_exp.2 ?_)
    show baseLogCost c ≤ baseLogCost c + velocityLogCost c.score v
    unfold velocityLogCost
    rcases h with h | ⟨h, hm⟩
    · rw [if_neg (not_lt.2 (by have := neg_abs_le v; linarith))]
      have h1 : (v : ℝ) ≤ 0 := by
        have : (v : ℝ) ≤ ((0 : ℚ) : ℝ) := Rat.cast_le.2 (by linarith)
        push_cast at this; exact this
      have h2 : (-1 : ℝ) < v := by exact_mod_cast hv
      have : lnOnePlus v ≤ 0 := Real.log_nonpos (by linarith) (by linarith)
      linarith
    · unfold Stagnant at h
      rw [if_pos h, if_pos (show 4 ≤ c.score from hm)]
      have hv' : (v : ℝ) < 1 / 5 := by
        have := (abs_lt.1 h).2
        have : (v : ℝ) < ((1 / 5 : ℚ) : ℝ) := Rat.cast_lt.2 this
        push_cast at this; linarith
      have h2 : (-1 : ℝ) < v := by exact_mod_cast hv
      have hl : lnOnePlus v ≤ v := by
        have := Real.log_le_sub_one_of_pos (x := 1 + (v : ℝ)) (by linarith)
        unfold lnOnePlus; linarith
      linarith
  · unfold candidateCost at hx
    dsimp only at hx
    split_ifs at hx with a b
    · cases hx; exact (clampCost_mem _).2
    · exact absurd (lt_of_le_of_ne (not_lt.1 a) (Ne.symm b)) hv

/-- C62: among equally stagnant exercises the unmastered one is not drawn less. -/
theorem stagnation_by_mastery (c : Candidate ι) (hu : 0 ≤ c.urgency) (v s s' : ℚ) (hv : Stagnant v)
    (hs : 4 ≤ s) (hs' : s' < 4) :
    candidateWeight { c with velocity := some v, score := s } ≤
      candidateWeight { c with velocity := some v, score := s' } :=
  (weight_lowered { c with score := s } hu v (Or.inr ⟨hv, hs⟩)).trans
    (weight_raised { c with score := s' } hu v (Or.inr ⟨hv, not_le.2 hs'⟩))

/-- A fresh candidate. -/
def fresh : Candidate Nat := ⟨1, 0, 0, 0, 3, 0, 1, none, false, 0, 0⟩

theorem fresh_weight : candidateWeight fresh = 1 := by
  have h0 : baseLogCost fresh = 0 := by simp [baseLogCost, fresh, lnOnePlus]
  have : candidateCost fresh = some 1 := by
    rw [cost_none rfl, h0, Real.exp_zero]
    unfold clampCost minCost maxCost; norm_num
  unfold candidateWeight; rw [this]
  simp [fresh, minWeight]; norm_num

/-- The hypotheses of `weight_strict` hold of a fresh candidate and a deeper one. -/
example : Sane fresh ∧ Sane { fresh with depth := 2 } ∧ Better fresh { fresh with depth := 2 } ∧
    NotCutOff fresh := by
  refine ⟨by unfold Sane fresh; norm_num, by unfold Sane fresh; norm_num, ⟨?_, Or.inl ?_⟩, ?_⟩
  · refine ⟨?_, le_refl _, le_refl _, le_refl _, id, le_refl _, Iff.rfl, Or.inl ⟨rfl, rfl⟩⟩
    show (0 : ℚ) ≤ 2; norm_num
  · show (0 : ℚ) < 2; norm_num
  · unfold NotCutOff; rw [fresh_weight]; simp [fresh]; norm_num

end Trane.CandidateFilter
