import Verif.Float.AverageLemmas
import Verif.Float.VelocityProps

/-!
# C121: the weighted performance in `f32`, and scores right after practising
-/

namespace Trane.Float

open Trane.Scorer (satSub daysBetween Kind)

variable {powf : F → F → F}

/-- **C121, the average.**  The weighted performance of at most twenty grades or changes of score, newest
first: in `f32` it differs from the exact one by less than a ten-thousandth. -/
theorem machine_average_close (hp : Faithful powf) (l : List (GEntry ℝ)) (hs : Sorted l) (hl : l.length ≤ 20)
    (hv : ∀ e ∈ l, |e.value| ≤ 5) :
    |Scorer.weightedAvg (l.map toEntry)| ≤ 5 ∧ ∃ z, gWeightedAvg (f32 powf) (stored l) = .num z ∧
      |z - Scorer.weightedAvg (l.map toEntry)| ≤ 1100 / 2 ^ 24 := by
  rw [← weightedAvg_exact]
  cases l with
  | nil =>
    refine ⟨by simp [gWeightedAvg, exact], 0, ?_, ?_⟩
    · show (f32 powf).lit 0 = _
      rw [lit0]
    · simp [gWeightedAvg, exact]
      positivity
  | cons e l =>
    have htime : ∀ x ∈ e :: l, x.time ≤ e.time := by
      intro x hx
      rcases List.mem_cons.1 hx with rfl | hx
      · exact le_rfl
      · exact (List.pairwise_cons.1 hs).1 x hx
    obtain ⟨t5, t, ht, htn⟩ := gAvg_close (powf := powf) (fun x : GEntry ℝ => gTimeWeight exact e.time x.time)
      (fun x => x.value) (fun x => gTimeWeight (f32 powf) e.time x.time) (e :: l) (by simp) hl
      (fun x hx => timeWeight_near hp (htime x hx)) hv
    obtain ⟨p5, p, hpp, hpn⟩ := gAvg_close (powf := powf) (fun x : GEntry ℝ × ℕ => gPosWeight exact x.2)
      (fun x => x.1.value) (fun x => gPosWeight (f32 powf) x.2) (e :: l).zipIdx (by simp)
      (by rw [List.length_zipIdx]; exact hl)
      (fun x hx => posWeight_near hp (by
        have := List.mem_zipIdx hx
        omega)) (fun x hx => hv _ (by
          have := List.fst_mem_of_mem_zipIdx hx
          exact this))
    have e1 : gWeightedAvg exact (e :: l) =
        8 / 10 * gAvg exact ((e :: l).map (fun x => (gTimeWeight exact e.time x.time, x.value)))
        + 2 / 10 * gAvg exact ((e :: l).zipIdx.map (fun x => (gPosWeight exact x.2, x.1.value))) := by
      unfold gWeightedAvg
      simp [exact]
    have e2 : gWeightedAvg (f32 powf) (stored (e :: l)) =
        F.add (F.mul ((f32 powf).lit (8 / 10)) (.num t)) (F.mul ((f32 powf).lit (2 / 10)) (.num p)) := by
      rw [← ht, ← hpp]
      unfold stored
      show F.add (F.mul _ (gAvg (f32 powf) (((e :: l).map _).map _)))
        (F.mul _ (gAvg (f32 powf) (((e :: l).map _).zipIdx.map _))) = _
      rw [List.zipIdx_map, List.map_map, List.map_map]
      rfl
    rw [e1, e2]
    clear e1 e2 ht hpp
    generalize gAvg exact ((e :: l).map (fun x => (gTimeWeight exact e.time x.time, x.value))) = T at *
    generalize gAvg exact ((e :: l).zipIdx.map (fun x => (gPosWeight exact x.2, x.1.value))) = P at *
    obtain ⟨c, hc, -, hcn⟩ := lit_near (powf := powf) (q := 8 / 10) (by norm_num) (by norm_num)
    obtain ⟨d, hd, -, hdn⟩ := lit_near (powf := powf) (q := 2 / 10) (by norm_num) (by norm_num)
    push_cast at hcn hdn
    rw [hc, hd]
    have ht6 : |t| ≤ 501 / 100 := by
      have e : t = (t - T) + T := by ring
      rw [e]
      exact (abs_add_le _ _).trans (by norm_num at htn ⊢; linarith)
    have hp6 : |p| ≤ 501 / 100 := by
      have e : p = (p - P) + P := by ring
      rw [e]
      exact (abs_add_le _ _).trans (by norm_num at hpn ⊢; linarith)
    have hct : |c * t - 8 / 10 * T| ≤ 838 / 2 ^ 24 := by
      have e : c * t - 8 / 10 * T = (c - 8 / 10) * t + 8 / 10 * (t - T) := by ring
      rw [e]
      refine (abs_add_le _ _).trans ?_
      rw [abs_mul, abs_mul]
      have h1 := mul_le_mul hcn ht6 (abs_nonneg _) (by norm_num)
      have h2 : |(8 / 10 : ℝ)| = 8 / 10 := abs_of_pos (by norm_num)
      rw [h2]
      norm_num at h1 htn ⊢
      linarith
    have hdp : |d * p - 2 / 10 * P| ≤ 212 / 2 ^ 24 := by
      have e : d * p - 2 / 10 * P = (d - 2 / 10) * p + 2 / 10 * (p - P) := by ring
      rw [e]
      refine (abs_add_le _ _).trans ?_
      rw [abs_mul, abs_mul]
      have h1 := mul_le_mul hdn hp6 (abs_nonneg _) (by norm_num)
      have h2 : |(2 / 10 : ℝ)| = 2 / 10 := abs_of_pos (by norm_num)
      rw [h2]
      norm_num at h1 hpn ⊢
      linarith
    have hT : |8 / 10 * T| ≤ 4 := by rw [abs_mul, abs_of_pos (by norm_num)]; linarith
    have hP : |2 / 10 * P| ≤ 1 := by rw [abs_mul, abs_of_pos (by norm_num)]; linarith
    have hct5 : |c * t| ≤ 5 := by
      have e : c * t = (c * t - 8 / 10 * T) + 8 / 10 * T := by ring
      rw [e]
      refine (abs_add_le _ _).trans ((add_le_add hct hT).trans (by norm_num))
    have hdp5 : |d * p| ≤ 2 := by
      have e : d * p = (d * p - 2 / 10 * P) + 2 / 10 * P := by ring
      rw [e]
      refine (abs_add_le _ _).trans ((add_le_add hdp hP).trans (by norm_num))
    obtain ⟨m, hm, hm1⟩ := round_near_abs hct5 (by norm_num) (by norm_num)
    obtain ⟨m', hm', hm1'⟩ := round_near_abs hdp5 (by norm_num) (by norm_num)
    have hsum : |m + m' - (8 / 10 * T + 2 / 10 * P)| ≤ 1058 / 2 ^ 24 := by
      have e : m + m' - (8 / 10 * T + 2 / 10 * P) = ((m - c * t) + (m' - d * p))
        + ((c * t - 8 / 10 * T) + (d * p - 2 / 10 * P)) := by ring
      rw [e]
      refine (abs_add_le _ _).trans ((add_le_add ((abs_add_le _ _).trans (add_le_add hm1 hm1'))
        ((abs_add_le _ _).trans (add_le_add hct hdp))).trans (by norm_num))
    have hTP : |8 / 10 * T + 2 / 10 * P| ≤ 5 := (abs_add_le _ _).trans ((add_le_add hT hP).trans (by norm_num))
    have hmm : |m + m'| ≤ 6 := by
      have e : m + m' = (m + m' - (8 / 10 * T + 2 / 10 * P)) + (8 / 10 * T + 2 / 10 * P) := by ring
      rw [e]
      exact (abs_add_le _ _).trans ((add_le_add hsum hTP).trans (by norm_num))
    obtain ⟨z, hz, hz1⟩ := round_near_abs hmm (by norm_num) (by norm_num)
    refine ⟨hTP, z, ?_, ?_⟩
    · have f1 : F.mul (.num c) (.num t) = .num m := hm
      have f2 : F.mul (.num d) (.num p) = .num m' := hm'
      rw [f1, f2]
      exact hz
    · have e : z - (8 / 10 * T + 2 / 10 * P) = (z - (m + m')) + (m + m' - (8 / 10 * T + 2 / 10 * P)) := by ring
      rw [e]
      exact (abs_add_le _ _).trans ((add_le_add hz1 hsum).trans (by norm_num))

/-- The score with the recall that was used. -/
theorem machine_score_used (hp : Faithful powf) (k : Kind) (trials deltas : List (GEntry ℝ)) (now : ℤ)
    (newest : GEntry ℝ) (hnew : trials.head? = some newest) (hs : Sorted trials) (hsd : Sorted deltas)
    (hg : ∀ e ∈ trials, Rep e.value ∧ 1 ≤ e.value ∧ e.value ≤ 5) (hd : ∀ e ∈ deltas, |e.value| ≤ 5)
    (hl : trials.length ≤ 20) (hl' : deltas.length ≤ 20) :
    ∃ s z r, gScore (f32 powf) k (stored trials) (stored deltas) now = some s ∧ s.value = .num z ∧
      0 ≤ r ∧ r ≤ 1 ∧ (now ≤ newest.time → r = 1) ∧
      s.urgency = (f32 powf).sub (.num 1) (gRetrievability (f32 powf) k
        ((f32 powf).max (gDays (f32 powf) now newest.time) ((f32 powf).lit 0))
        (gComputeStability (f32 powf) k (stored trials) (gEstimateDifficulty (f32 powf) (stored trials)))) ∧
      gOldGoodFloor (f32 powf) (gRetrievability (f32 powf) k
        ((f32 powf).max (gDays (f32 powf) now newest.time) ((f32 powf).lit 0))
        (gComputeStability (f32 powf) k (stored trials) (gEstimateDifficulty (f32 powf) (stored trials))))
        (gWeightedAvg (f32 powf) (stored trials))
        ((f32 powf).max (gDays (f32 powf) now newest.time) ((f32 powf).lit 0)) (stored trials).length = .num r ∧
      |z - Scorer.clamp (r * Scorer.weightedAvg (trials.map toEntry) +
        Scorer.computeDelta (deltas.map toEntry) r) 0 5| ≤ 1 / 5000 := by
  cases trials with
  | nil => simp at hnew
  | cons last rest =>
    simp only [List.head?_cons, Option.some.injEq] at hnew
    subst hnew
    have hg' : ∀ t ∈ stored (last :: rest), In 1 5 t.value := by
      intro t ht
      obtain ⟨e, he, rfl⟩ := List.mem_map.1 ht
      exact ⟨e.value, rfl, hg e he⟩
    have hun : gUnsorted (stored (last :: rest)) = false := by
      rw [gUnsorted_iff]
      unfold Sorted stored
      rw [List.pairwise_map]
      exact hs
    have hlen : (stored (last :: rest)).length = (last :: rest).length := by unfold stored; simp
    have hst := gComputeStability_in hp k _ hg' (gEstimateDifficulty_in (powf := powf)
      (trials := stored (last :: rest)) (by omega))
    have hr := gRetrievability_in hp k (posDays_in (powf := powf) now last.time) hst
    have he := gOldGoodFloor_in (powf := powf) (w := gWeightedAvg (f32 powf) (stored (last :: rest)))
        (d := (f32 powf).max (gDays (f32 powf) now last.time) ((f32 powf).lit 0))
        (n := (stored (last :: rest)).length) hr
    have hone : now ≤ last.time → gOldGoodFloor (f32 powf) (gRetrievability (f32 powf) k
        ((f32 powf).max (gDays (f32 powf) now last.time) ((f32 powf).lit 0))
        (gComputeStability (f32 powf) k (stored (last :: rest))
          (gEstimateDifficulty (f32 powf) (stored (last :: rest)))))
        (gWeightedAvg (f32 powf) (stored (last :: rest)))
        ((f32 powf).max (gDays (f32 powf) now last.time) ((f32 powf).lit 0))
        (stored (last :: rest)).length = .num 1 := by
      intro hnow
      rw [days_zero hnow, retr_zero hp k hst]
      unfold gOldGoodFloor
      have h50 : (f32 powf).le ((f32 powf).lit 50) (.num 0) = false := by
        have : (f32 powf).lit 50 = .num 50 := by
          have := lit_nat (powf := powf) 50 (by norm_num)
          simpa using this
        rw [this]
        show decide ((50 : ℝ) ≤ 0) = false
        simp
      rw [h50]
      simp
    obtain ⟨w5, w, hw, hwn⟩ := machine_average_close hp (last :: rest) hs hl (fun e he => by
      have := (hg e he).2
      rw [abs_of_pos (by linarith)]; exact this.2)
    obtain ⟨d5, d, hdd, hdn⟩ := machine_average_close hp deltas hsd hl' hd
    obtain ⟨r, hrr, -, hr0, hr1⟩ := he
    have hr0 : 0 ≤ r := le_trans (by norm_num) hr0
    have hscore : ∃ s, gScore (f32 powf) k (stored (last :: rest)) (stored deltas) now = some s ∧
        s.value = (f32 powf).clamp ((f32 powf).add ((f32 powf).mul (.num r) (.num w))
          (gComputeDelta (f32 powf) (stored deltas) (.num r))) (.num 0) (.num 5) ∧
        s.urgency = (f32 powf).sub (.num 1) (gRetrievability (f32 powf) k
          ((f32 powf).max (gDays (f32 powf) now last.time) ((f32 powf).lit 0))
          (gComputeStability (f32 powf) k (stored (last :: rest)) (gEstimateDifficulty (f32 powf) (stored (last :: rest))))) := by
      unfold gScore
      refine ⟨_, if_neg (by
        show ¬ gUnsorted (stored (last :: rest)) = true
        rw [hun]; simp), ?_, by rw [← lit1 (powf := powf)]⟩
      dsimp only
      have h5 : (f32 powf).lit 5 = .num 5 := by
        have := lit_nat (powf := powf) 5 (by norm_num)
        simpa using this
      rw [← hw, ← hrr, h5, ← lit0 (powf := powf)]
    obtain ⟨s, hs1, hs2, hs3⟩ := hscore
    have hw501 : |w| ≤ 501 / 100 := by
      have e : w = (w - Scorer.weightedAvg ((last :: rest).map toEntry))
        + Scorer.weightedAvg ((last :: rest).map toEntry) := by ring
      rw [e]
      exact (abs_add_le _ _).trans ((add_le_add hwn w5).trans (by norm_num))
    have hd501 : |d| ≤ 501 / 100 := by
      have e : d = (d - Scorer.weightedAvg (deltas.map toEntry))
        + Scorer.weightedAvg (deltas.map toEntry) := by ring
      rw [e]
      exact (abs_add_le _ _).trans ((add_le_add hdn d5).trans (by norm_num))
    generalize Scorer.weightedAvg ((last :: rest).map toEntry) = W at *
    have hrw : |r * w| ≤ 501 / 100 := by
      rw [abs_mul, abs_of_nonneg hr0]
      exact (mul_le_mul hr1 hw501 (abs_nonneg _) (by norm_num)).trans (by norm_num)
    obtain ⟨m, hm, hm1⟩ := round_near_abs hrw (by norm_num) (by norm_num)
    have hm2 : |m - r * W| ≤ 1106 / 2 ^ 24 := by
      have e : m - r * W = (m - r * w) + r * (w - W) := by ring
      rw [e]
      have h : |r * (w - W)| ≤ 1100 / 2 ^ 24 := by
        rw [abs_mul, abs_of_nonneg hr0]
        exact (mul_le_mul hr1 hwn (abs_nonneg _) (by norm_num)).trans (by norm_num)
      exact (abs_add_le _ _).trans ((add_le_add hm1 h).trans (by norm_num))
    -- the correction
    obtain ⟨c, hc, hcn, hc2⟩ : ∃ c, gComputeDelta (f32 powf) (stored deltas) (.num r) = .num c ∧
        |c - Scorer.computeDelta (deltas.map toEntry) r| ≤ 300 / 2 ^ 24 ∧
        |Scorer.computeDelta (deltas.map toEntry) r| ≤ 5 / 4 := by
      unfold gComputeDelta Scorer.computeDelta
      have hlen' : (stored deltas).length = deltas.length := by unfold stored; simp
      rw [hlen', List.length_map]
      split
      · exact ⟨0, by rw [lit0], by simp; positivity, by simp; norm_num⟩
      · rw [hdd]
        generalize Scorer.weightedAvg (deltas.map toEntry) = D at *
        have hdr : |d * r| ≤ 501 / 100 := by
          rw [abs_mul, abs_of_nonneg hr0]
          exact (mul_le_mul hd501 hr1 hr0 (by norm_num)).trans (by norm_num)
        obtain ⟨p, hp1, hp2⟩ := round_near_abs hdr (by norm_num) (by norm_num)
        have hpD : |p - D * r| ≤ 1106 / 2 ^ 24 := by
          have e : p - D * r = (p - d * r) + (d - D) * r := by ring
          rw [e]
          have h : |(d - D) * r| ≤ 1100 / 2 ^ 24 := by
            rw [abs_mul, abs_of_nonneg hr0]
            exact (mul_le_mul hdn hr1 hr0 (by norm_num)).trans (by norm_num)
          exact (abs_add_le _ _).trans ((add_le_add hp2 h).trans (by norm_num))
        have hDr : |D * r| ≤ 5 := by
          rw [abs_mul, abs_of_nonneg hr0]
          exact (mul_le_mul d5 hr1 hr0 (by norm_num)).trans (by norm_num)
        have hp6 : |p| ≤ 6 := by
          have e : p = (p - D * r) + D * r := by ring
          rw [e]
          exact (abs_add_le _ _).trans ((add_le_add hpD hDr).trans (by norm_num))
        have hp4 : |p / 4| ≤ 2 := by
          rw [abs_div, abs_of_pos (by norm_num : (0 : ℝ) < 4)]; linarith
        obtain ⟨c, hc, hc1⟩ := round_near_abs hp4 (by norm_num) (by norm_num)
        have h4 : (f32 powf).lit 4 = .num 4 := by
          have := lit_nat (powf := powf) 4 (by norm_num)
          simpa using this
        refine ⟨c, ?_, ?_, ?_⟩
        · have f1 : (f32 powf).mul (.num d) (.num r) = .num p := hp1
          rw [f1, h4]
          show (if (4 : ℝ) = 0 then _ else F.round (p / 4)) = _
          rw [if_neg (by norm_num), hc]
        · have e : c - D * r / 4 = (c - p / 4) + (p - D * r) / 4 := by ring
          rw [e]
          have h : |(p - D * r) / 4| ≤ 1106 / 2 ^ 24 / 4 := by
            rw [abs_div, abs_of_pos (by norm_num : (0 : ℝ) < 4)]; gcongr
          exact (abs_add_le _ _).trans ((add_le_add hc1 h).trans (by norm_num))
        · rw [abs_div, abs_of_pos (by norm_num : (0 : ℝ) < 4)]; linarith
    set C := Scorer.computeDelta (deltas.map toEntry) r with hC
    have hW : |r * W| ≤ 5 := by
      rw [abs_mul, abs_of_nonneg hr0]
      exact (mul_le_mul hr1 w5 (abs_nonneg _) (by norm_num)).trans (by norm_num)
    have hsum : |m + c - (r * W + C)| ≤ 1406 / 2 ^ 24 := by
      have e : m + c - (r * W + C) = (m - r * W) + (c - C) := by ring
      rw [e]
      exact (abs_add_le _ _).trans ((add_le_add hm2 hcn).trans (by norm_num))
    have hmc : |m + c| ≤ 7 := by
      have e : m + c = (m + c - (r * W + C)) + (r * W + C) := by ring
      rw [e]
      exact (abs_add_le _ _).trans ((add_le_add hsum ((abs_add_le _ _).trans (add_le_add hW hc2))).trans
        (by norm_num))
    obtain ⟨y, hy, hy1⟩ := round_near_abs hmc (by norm_num) (by norm_num)
    refine ⟨s, Scorer.clamp y 0 5, r, hs1, ?_, hr0, hr1, ?_, hs3, hrr, ?_⟩
    · have f1 : (f32 powf).mul (.num r) (.num w) = .num m := hm
      have f2 : (f32 powf).add (.num m) (.num c) = .num y := hy
      rw [hs2, hc, f1, f2, clamp_num_val]
    · intro hnow
      have := hone hnow
      rw [hrr] at this
      cases this
      rfl
    · show |Scorer.clamp y 0 5 - Scorer.clamp (r * W + C) 0 5| ≤ 1 / 5000
      refine (clamp_close _ _).trans ?_
      have e : y - (r * W + C) = (y - (m + c)) + (m + c - (r * W + C)) := by ring
      rw [e]
      exact (abs_add_le _ _).trans ((add_le_add hy1 hsum).trans (by norm_num))

/-- **C121.**  At most twenty grades from 1 to 5 and at most twenty changes of score, newest first.  Whenever
the score is asked for, the machine's score is, up to 1/5000, a recall between 0 and 1 times the exact
weighted performance, plus a quarter of it times the exact weighted change, kept within 0 and 5.  If no time has
passed since the newest trial the recall is 1. -/
theorem machine_score_close (hp : Faithful powf) (k : Kind) (trials deltas : List (GEntry ℝ)) (now : ℤ)
    (newest : GEntry ℝ) (hnew : trials.head? = some newest) (hs : Sorted trials) (hsd : Sorted deltas)
    (hg : ∀ e ∈ trials, Rep e.value ∧ 1 ≤ e.value ∧ e.value ≤ 5) (hd : ∀ e ∈ deltas, |e.value| ≤ 5)
    (hl : trials.length ≤ 20) (hl' : deltas.length ≤ 20) :
    ∃ s z r, gScore (f32 powf) k (stored trials) (stored deltas) now = some s ∧ s.value = .num z ∧
      0 ≤ r ∧ r ≤ 1 ∧ (now ≤ newest.time → r = 1) ∧
      |z - Scorer.clamp (r * Scorer.weightedAvg (trials.map toEntry) +
        Scorer.computeDelta (deltas.map toEntry) r) 0 5| ≤ 1 / 5000 := by
  obtain ⟨s, z, r, h1, h2, h3, h4, h5, -, -, h6⟩ :=
    machine_score_used hp k trials deltas now newest hnew hs hsd hg hd hl hl'
  exact ⟨s, z, r, h1, h2, h3, h4, h5, h6⟩

/-- **C121, right after practising.**  If no time has passed since the newest trial, the machine's score differs from
the exact one by at most 1/5000. -/
theorem machine_score_fresh (hp : Faithful powf) (k : Kind) (trials deltas : List (GEntry ℝ)) (now : ℤ)
    (newest : GEntry ℝ) (hnew : trials.head? = some newest) (hs : Sorted trials) (hsd : Sorted deltas)
    (hg : ∀ e ∈ trials, Rep e.value ∧ 1 ≤ e.value ∧ e.value ≤ 5) (hd : ∀ e ∈ deltas, |e.value| ≤ 5)
    (hl : trials.length ≤ 20) (hl' : deltas.length ≤ 20) (hnow : now ≤ newest.time) :
    ∃ s z s', gScore (f32 powf) k (stored trials) (stored deltas) now = some s ∧ s.value = .num z ∧
      Scorer.score k (trials.map toEntry) (deltas.map toEntry) now = some s' ∧
      |z - s'.value| ≤ 1 / 5000 := by
  obtain ⟨s, z, r, h1, h2, -, -, h3, h4⟩ := machine_score_close hp k trials deltas now newest hnew hs hsd hg hd hl hl'
  cases h3 hnow
  cases trials with
  | nil => simp at hnew
  | cons last rest =>
    simp only [List.head?_cons, Option.some.injEq] at hnew
    subst hnew
    have hun : Scorer.unsorted ((last :: rest).map toEntry) = false := by
      rw [← unsorted_map, gUnsorted_iff]; exact hs
    have hdays : Scorer.daysSinceLast now (toEntry last) = 0 := by
      have h : satSub now last.time ≤ 0 := by unfold satSub; omega
      have h' : (satSub now last.time : ℝ) ≤ 0 := by exact_mod_cast h
      unfold Scorer.daysSinceLast daysBetween
      exact max_eq_right (div_nonpos_of_nonpos_of_nonneg h' (by norm_num))
    have hret : ∀ st, Scorer.retrievability k 0 st = 1 := by
      intro st
      unfold Scorer.retrievability Scorer.clamp
      simp
    have hfloor : ∀ w n, Scorer.oldGoodFloor 1 w 0 n = 1 := by
      intro w n
      unfold Scorer.oldGoodFloor
      norm_num
    obtain ⟨s', e1, e2⟩ : ∃ s', Scorer.score k ((last :: rest).map toEntry) (deltas.map toEntry) now = some s' ∧
        s'.value = Scorer.clamp (1 * Scorer.weightedAvg ((last :: rest).map toEntry)
          + Scorer.computeDelta (deltas.map toEntry) 1) 0 5 := by
      unfold Scorer.score
      refine ⟨_, if_neg (by
        show ¬ Scorer.unsorted ((last :: rest).map toEntry) = true
        rw [hun]; simp), ?_⟩
      dsimp only
      rw [hdays, hret, hfloor]
    exact ⟨s, z, s', h1, h2, e1, by rw [e2]; exact h4⟩

/-! ## A history -/

/-- The climbing grades of C120, and the changes of score that came with them. -/
noncomputable def changes : List (GEntry ℝ) := [⟨3 / 2, 1700000000 + 2592000⟩, ⟨-1 / 2, 1700000000 + 1728000⟩, ⟨2, 1700000000 + 864000⟩]

/-- It meets the conditions. -/
example (hp : Faithful powf) (k : Kind) : ∃ s z s',
    gScore (f32 powf) k (stored climbing) (stored changes) (1700000000 + 2592000) = some s ∧ s.value = .num z ∧
      Scorer.score k (climbing.map toEntry) (changes.map toEntry) (1700000000 + 2592000) = some s' ∧
      |z - s'.value| ≤ 1 / 5000 := by
  refine machine_score_fresh hp k climbing changes _ ⟨5, 1700000000 + 2592000⟩ rfl ?_ ?_ ?_ ?_ ?_ ?_ le_rfl
  · unfold Sorted climbing; simp
  · unfold Sorted changes; simp
  · have hr : ∀ n : ℤ, |n| ≤ 2 ^ 24 → Rep (n : ℝ) := fun n h => rep_int h
    intro e he
    simp only [climbing, List.mem_cons, List.not_mem_nil, or_false] at he
    rcases he with rfl | rfl | rfl | rfl
    · exact ⟨by exact_mod_cast hr 5 (by norm_num), by norm_num, by norm_num⟩
    · exact ⟨by exact_mod_cast hr 2 (by norm_num), by norm_num, by norm_num⟩
    · exact ⟨by exact_mod_cast hr 3 (by norm_num), by norm_num, by norm_num⟩
    · exact ⟨by exact_mod_cast hr 1 (by norm_num), by norm_num, by norm_num⟩
  · intro e he
    simp only [changes, List.mem_cons, List.not_mem_nil, or_false] at he
    rcases he with rfl | rfl | rfl <;> rw [abs_le] <;> constructor <;> norm_num
  · unfold climbing; simp
  · unfold changes; simp

end Trane.Float
