import Verif.Float.CostLemmas
import Verif.Scorer.Formula

/-!
# C125: selection weights in `f32` match the documented formula

`Formula.weight` is the documented weight of a candidate, over the reals.  Here the weight that the program computes
in `f32`, roundings included, is compared with it.  `ln_1p` and `exp` are only assumed to return one of the two
`f32` numbers next to the exact value, and `sqrt` the nearest one.
-/

namespace Trane.Float

open Trane.Scorer

variable {powf : F → F → F} {ι : Type}

/-- The candidate as the program holds it: every measure is an `f32`. -/
noncomputable def storedCandidate (c : Candidate ι) : GCandidate F :=
  ⟨.num c.depth, .num c.encompasses, .num c.encompassed, c.frequency, c.deadEnd,
    c.velocity.map (fun v : ℚ => F.num v), .num c.score, .num c.urgency⟩

/-- Candidates as they occur: no negative measure and none above 65536, the urgency between 0 and 1, and a
velocity that is an `f32` number of at least -1/2. -/
structure ModerateCandidate (c : Candidate ι) : Prop where
  depth : 0 ≤ c.depth ∧ c.depth ≤ 65536
  encompasses : 0 ≤ c.encompasses ∧ c.encompasses ≤ 65536
  encompassed : 0 ≤ c.encompassed ∧ c.encompassed ≤ 65536
  frequency : c.frequency ≤ 65536
  urgency : 0 ≤ c.urgency ∧ c.urgency ≤ 1
  velocity : ∀ v, c.velocity = some v → Rep (v : ℝ) ∧ -(1 / 2) ≤ v ∧ v ≤ 65536

/-- The library functions: `ln_1p` and `exp` return a neighbour of the exact value, `sqrt` the nearest number. -/
structure Library (ln1p exp sqrt : F → F) : Prop where
  ln1p : NextTo ln1p (fun x => Real.log (1 + x)) (fun x => -1 < x ∧ |Real.log (1 + x)| < 2 ^ 127)
  exp : NextTo exp Real.exp (fun x => Real.exp x < 2 ^ 127)
  sqrt : SqrtRounds sqrt

theorem candidate_near {ln1p exp sqrt : F → F} (hl : Library ln1p exp sqrt) (c : Candidate ι) (hc : ModerateCandidate c) :
    ∃ w, gWeight (f32 powf) ln1p exp sqrt (storedCandidate c) = .num w ∧
      |w - CandidateFilter.candidateWeight c| ≤ 1 / 15000 * CandidateFilter.candidateWeight c := by
  have cast : ∀ q : ℚ, 0 ≤ q ∧ q ≤ 65536 → (0 : ℝ) ≤ q ∧ (q : ℝ) ≤ 65536 :=
    fun q h => ⟨by exact_mod_cast h.1, by exact_mod_cast h.2⟩
  have hn : (0 : ℝ) ≤ (c.frequency : ℝ) ∧ (c.frequency : ℝ) ≤ 65536 := ⟨by positivity, by exact_mod_cast hc.frequency⟩
  have hu : (0 : ℝ) ≤ (c.urgency : ℝ) ∧ (c.urgency : ℝ) ≤ 1 := ⟨by exact_mod_cast hc.urgency.1, by exact_mod_cast hc.urgency.2⟩
  have hd := cast _ hc.depth
  have he := cast _ hc.encompasses
  have hg := cast _ hc.encompassed
  have hfreq : (f32 powf).ofInt c.frequency = .num (c.frequency : ℝ) := by
    have : Bd (((c.frequency : ℤ) : ℝ)) := bd_int (c.frequency : ℤ) rfl (by
      rw [abs_of_nonneg (by positivity)]
      have := hc.frequency
      norm_num
      omega)
    have h := round_bd this
    simpa [f32] using h
  have hb := base_within (powf := powf) hl.ln1p hd he hg hn c.deadEnd
  have hB : 0 - 7 / 10 * Real.log (1 + c.depth) - 9 / 10 * Real.log (1 + c.encompasses) + 6 / 10 * Real.log (1 + c.encompassed)
      + 2 * Real.log (1 + (c.frequency : ℝ)) - (if c.deadEnd then 1 else 0) = CandidateFilter.baseLogCost c := rfl
  have hrange : -29 ≤ CandidateFilter.baseLogCost c ∧ CandidateFilter.baseLogCost c ≤ 45 := by
    obtain ⟨d0, d1⟩ := log_17 hd.1 hd.2
    obtain ⟨e0, e1⟩ := log_17 he.1 he.2
    obtain ⟨g0, g1⟩ := log_17 hg.1 hg.2
    obtain ⟨n0, n1⟩ := log_17 hn.1 hn.2
    rw [← hB]
    cases c.deadEnd <;> simp only [Bool.false_eq_true, if_true, if_false] <;> constructor <;> linarith
  rw [hB] at hb
  have fin : ∀ (x : F) (X : ℝ), Within (1800 / 2 ^ 24) x X → X ≤ 47 →
      CandidateFilter.candidateCost c = some (CandidateFilter.clampCost (Real.exp X)) →
      ∃ w, (f32 powf).max ((f32 powf).div (.num c.urgency) (sqrt ((f32 powf).clamp (exp x) ((f32 powf).lit (5 / 100))
        ((f32 powf).lit 100)))) ((f32 powf).lit (5 / 100)) = .num w ∧
        |w - CandidateFilter.candidateWeight c| ≤ 1 / 15000 * CandidateFilter.candidateWeight c := by
    intro x X hx hX hcost
    obtain ⟨k, hk, hkn⟩ := cost_within (powf := powf) hl.exp hx hX
    have hK : 1 / 20 ≤ CandidateFilter.clampCost (Real.exp X) ∧ CandidateFilter.clampCost (Real.exp X) ≤ 100 := by
      unfold CandidateFilter.clampCost CandidateFilter.minCost CandidateFilter.maxCost
      split
      · norm_num
      · split
        · norm_num
        · constructor <;> linarith
    rw [hk]
    have hw : CandidateFilter.candidateWeight c =
        max ((c.urgency : ℝ) / Real.sqrt (CandidateFilter.clampCost (Real.exp X))) (1 / 20) := by
      unfold CandidateFilter.candidateWeight
      rw [hcost]
      rfl
    rw [hw]
    exact weight_within hl.sqrt hu hK hkn
  cases h : c.velocity with
  | none =>
    have hR : CandidateFilter.candidateCost c =
        some (CandidateFilter.clampCost (Real.exp (CandidateFilter.baseLogCost c))) := by
      simp [CandidateFilter.candidateCost, h]
    have wk : ∀ x, Within (1247 / 2 ^ 24) x (CandidateFilter.baseLogCost c) →
        Within (1800 / 2 ^ 24) x (CandidateFilter.baseLogCost c) := by
      rintro x ⟨z, hz, hzn⟩
      exact ⟨z, hz, hzn.trans (by norm_num)⟩
    have := fin _ _ (wk _ hb) (by linarith [hrange.2]) hR
    unfold gWeight gCost storedCandidate
    simp only [h, Option.map_none, hfreq]
    exact this
  | some v =>
    obtain ⟨hvr, hv1, hv2⟩ := hc.velocity v h
    have hv1' : -(1 / 2 : ℝ) ≤ v := by
      have : ((-(1 / 2) : ℚ) : ℝ) ≤ v := by exact_mod_cast hv1
      norm_num at this ⊢
      exact this
    have hv2' : (v : ℝ) ≤ 65536 := by exact_mod_cast hv2
    have hlt : (-1 : ℚ) < v := lt_of_lt_of_le (by norm_num) hv1
    have hR : CandidateFilter.candidateCost c = some (CandidateFilter.clampCost (Real.exp
        (CandidateFilter.baseLogCost c + CandidateFilter.velocityLogCost c.score v))) := by
      simp [CandidateFilter.candidateCost, h, not_lt.2 hlt.le, hlt.ne']
    obtain ⟨w1, -, w3⟩ := velocity_within (powf := powf) hl.ln1p (s := c.score) hrange hb hvr hv1' hv2'
    have hs : (4 : ℝ) ≤ c.score ↔ (4 : ℚ) ≤ c.score := by exact_mod_cast Iff.rfl
    have ha : |(v : ℝ)| < 1 / 5 ↔ |v| < 1 / 5 := by
      rw [show (1 / 5 : ℝ) = ((1 / 5 : ℚ) : ℝ) by norm_num, ← Rat.cast_abs, Rat.cast_lt]
    have hV : (1 / 2 * -Real.log (1 + (v : ℝ)) + (if |(v : ℝ)| < 1 / 5 then (if (4 : ℝ) ≤ c.score then 1 else -(7 / 10)) else 0)) =
        CandidateFilter.velocityLogCost c.score v := by
      unfold CandidateFilter.velocityLogCost CandidateFilter.lnOnePlus
      simp only [ha, hs]
    rw [hV] at w1 w3
    have := fin _ _ w1 w3 hR
    unfold gWeight gCost storedCandidate
    simp only [h, Option.map_some, hfreq]
    exact this

/-- **C125** The selection weight computed in `f32` is a number within one part in 15000 of the documented one. -/
theorem machine_weight_matches {ln1p exp sqrt : F → F} (hl : Library ln1p exp sqrt) (c : Candidate ι) (hc : ModerateCandidate c) :
    ∃ w, gWeight (f32 powf) ln1p exp sqrt (storedCandidate c) = .num w ∧
      |w - Formula.weight c| ≤ 1 / 15000 * Formula.weight c := by
  have h := candidate_near (powf := powf) hl c hc
  rwa [Formula.weight_formula c ⟨hc.depth.1, hc.encompasses.1, hc.encompassed.1, hc.urgency.1⟩
    (fun v hv => lt_of_lt_of_le (by norm_num) (hc.velocity v hv).2.1)] at h

theorem weight_pos (c : Candidate ι) : 0 < CandidateFilter.candidateWeight c := by
  unfold CandidateFilter.candidateWeight CandidateFilter.minWeight
  split
  · norm_num
  · exact lt_of_lt_of_le (by norm_num) (le_max_right _ _)

/-- **C125** A candidate whose documented weight is larger by at least one part in 7000 gets the larger weight in
`f32` too. -/
theorem machine_weight_order {ln1p exp sqrt : F → F} (hl : Library ln1p exp sqrt) (c c' : Candidate ι) (hc : ModerateCandidate c)
    (hc' : ModerateCandidate c') (h : Formula.weight c * (1 + 1 / 7000) ≤ Formula.weight c') :
    F.lt (gWeight (f32 powf) ln1p exp sqrt (storedCandidate c)) (gWeight (f32 powf) ln1p exp sqrt (storedCandidate c')) = true := by
  obtain ⟨w, hw, hn⟩ := machine_weight_matches (powf := powf) hl c hc
  obtain ⟨w', hw', hn'⟩ := machine_weight_matches (powf := powf) hl c' hc'
  rw [hw, hw']
  have hp := weight_pos c
  rw [Formula.weight_formula c ⟨hc.depth.1, hc.encompasses.1, hc.encompassed.1, hc.urgency.1⟩
    (fun v hv => lt_of_lt_of_le (by norm_num) (hc.velocity v hv).2.1)] at hp
  generalize Formula.weight c = W at *
  generalize Formula.weight c' = W' at *
  have a := abs_le.1 hn
  have b := abs_le.1 hn'
  exact decide_eq_true (by linarith)

theorem sum_ratio {α : Type} (w W : α → ℝ) (l : List α) (h : ∀ a ∈ l, |w a - W a| ≤ 1 / 15000 * W a) :
    |(l.map w).sum - (l.map W).sum| ≤ 1 / 15000 * (l.map W).sum := by
  induction l with
  | nil => simp
  | cons a l ih =>
    have h1 := h a (by simp)
    have h2 := ih (fun b hb => h b (by simp [hb]))
    simp only [List.map_cons, List.sum_cons]
    have a1 := abs_le.1 h1
    have a2 := abs_le.1 h2
    exact abs_le.2 ⟨by linarith, by linarith⟩

/-- **C125** The chance of a candidate in a weighted draw, its weight over the sum of the weights, is within one part
in 7000 of the chance with the documented weights. -/
theorem machine_chance_matches {ln1p exp sqrt : F → F} (hl : Library ln1p exp sqrt) (cs : List (Candidate ι))
    (hcs : ∀ c ∈ cs, ModerateCandidate c) :
    ∃ w : Candidate ι → ℝ, (∀ c ∈ cs, gWeight (f32 powf) ln1p exp sqrt (storedCandidate c) = .num (w c)) ∧
      ∀ c ∈ cs, |w c / (cs.map w).sum - Formula.weight c / (cs.map Formula.weight).sum| ≤
        1 / 7000 * (Formula.weight c / (cs.map Formula.weight).sum) := by
  classical
  have hpos : ∀ c ∈ cs, 0 < Formula.weight c := by
    intro c h
    have hc := hcs c h
    rw [← Formula.weight_formula c ⟨hc.depth.1, hc.encompasses.1, hc.encompassed.1, hc.urgency.1⟩
      (fun v hv => lt_of_lt_of_le (by norm_num) (hc.velocity v hv).2.1)]
    exact weight_pos c
  choose! w hw using fun c (h : c ∈ cs) => machine_weight_matches (powf := powf) hl c (hcs c h)
  refine ⟨w, fun c h => (hw c h).1, fun c h => ?_⟩
  have hS := sum_ratio w Formula.weight cs (fun a ha => (hw a ha).2)
  have hSp : 0 < (cs.map Formula.weight).sum := by
    refine lt_of_lt_of_le (hpos c h) (List.single_le_sum ?_ _ (List.mem_map_of_mem h))
    intro x hx
    obtain ⟨a, ha, rfl⟩ := List.mem_map.1 hx
    exact (hpos a ha).le
  have h1 := abs_le.1 (hw c h).2
  have hp := hpos c h
  generalize (cs.map w).sum = s at *
  generalize (cs.map Formula.weight).sum = S at *
  generalize Formula.weight c = W at *
  generalize w c = v at *
  have h2 := abs_le.1 hS
  have hs : 0 < s := by linarith
  have e : W / S * S = W := div_mul_cancel₀ _ hSp.ne'
  have hR : 0 < W / S := div_pos hp hSp
  generalize W / S = R at *
  have hRs : R * s ≤ R * ((1 + 1 / 15000) * S) := mul_le_mul_of_nonneg_left (by linarith) hR.le
  have hRs' : R * ((1 - 1 / 15000) * S) ≤ R * s := mul_le_mul_of_nonneg_left (by linarith) hR.le
  have k1 : v / s ≤ R * (1 + 1 / 7000) := by
    rw [div_le_iff₀ hs]
    nlinarith
  have k2 : R * (1 - 1 / 7000) ≤ v / s := by
    rw [le_div_iff₀ hs]
    nlinarith
  exact abs_le.2 ⟨by linarith, by linarith⟩

/-! ### A concrete case -/

/-- The exact value, rounded. -/
noncomputable def nearest (g : ℝ → ℝ) : F → F
  | .num x => F.round (g x)
  | a => a

theorem nearest_nextTo (g : ℝ → ℝ) (D : ℝ → Prop) (h : ∀ x, D x → |g x| ≤ 2 ^ 127) : NextTo (nearest g) g D := by
  intro x hx
  refine ⟨rnd (g x), round_num (le_refl _) rep_big (h x hx), rnd_rep _, fun a ha => ⟨fun h => ?_, fun h => rnd_le ha h⟩⟩
  have := rnd_mono h
  rwa [rnd_fix ha] at this

/-- A candidate deep in the graph, seen before, whose scores have stagnated. -/
def sampleCandidate : Candidate ℕ :=
  { exercise := 0, lesson := 1, course := 2, depth := 12, score := 7 / 2, frequency := 3, urgency := 3 / 4,
    velocity := some (-(1 / 8)), deadEnd := true, encompasses := 5 / 2, encompassed := 1 }

theorem sample_moderate : ModerateCandidate sampleCandidate where
  depth := by norm_num [sampleCandidate]
  encompasses := by norm_num [sampleCandidate]
  encompassed := by norm_num [sampleCandidate]
  frequency := by norm_num [sampleCandidate]
  urgency := by norm_num [sampleCandidate]
  velocity := by
    intro v hv
    have : v = -(1 / 8) := by simpa [sampleCandidate] using hv.symm
    subst this
    refine ⟨?_, by norm_num, by norm_num⟩
    have := rep_div (m := -1) (k := 3) (by norm_num) (by norm_num)
    norm_num at this ⊢
    exact this

example : ∃ w, gWeight (f32 nearestPow) (nearest fun x => Real.log (1 + x)) (nearest Real.exp) roundedSqrt
      (storedCandidate sampleCandidate) = .num w ∧
    |w - Formula.weight sampleCandidate| ≤ 1 / 15000 * Formula.weight sampleCandidate :=
  machine_weight_matches ⟨nearest_nextTo _ _ fun _ hx => hx.2.le,
    nearest_nextTo _ _ fun x hx => by rw [abs_of_pos (Real.exp_pos x)]; exact hx.le,
    fun _ _ => rfl, rfl⟩ _ sample_moderate

end Trane.Float
