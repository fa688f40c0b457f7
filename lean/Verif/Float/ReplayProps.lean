import Verif.Float.AverageProps
import Verif.Float.ReplayLemmas

/-!
# Scores and urgencies in `f32` arithmetic, at any time

For exercises without failing grades the machine's recall is compared with the exact one through the whole
replay of the history.
-/

namespace Trane.Float

open Trane.Scorer (satSub daysBetween Kind)

variable {powf : F → F → F}

/-- Fifty days: the machine takes them for passed exactly when they have. -/
theorem fifty_days (now t : ℤ) : (f32 powf).le (.num 50)
    ((f32 powf).max (gDays (f32 powf) now t) ((f32 powf).lit 0)) = decide (50 ≤ max (daysBetween now t) 0) := by
  have hle : ∀ y : ℝ, (f32 powf).le (.num 50) (.num y) = decide (50 ≤ y) := fun _ => rfl
  have h86 : (f32 powf).lit 86400 = .num 86400 := litn (powf := powf) 86400 (by norm_num)
  have hs2 : satSub now t ≤ 2 ^ 63 := by unfold satSub; omega
  have hdiv : ∀ z : ℝ, (f32 powf).div (.num z) (.num 86400) = F.round (z / 86400) := by
    intro z
    show (if (86400 : ℝ) = 0 then _ else F.round (z / 86400)) = _
    rw [if_neg (by norm_num)]
  rcases le_or_gt (satSub now t) 0 with h | h
  · have hnt : now ≤ t := by unfold satSub at h; omega
    have h2 : (satSub now t : ℝ) ≤ 0 := by exact_mod_cast h
    have h3 : max (daysBetween now t) 0 = 0 := max_eq_right (div_nonpos_of_nonpos_of_nonneg h2 (by norm_num))
    rw [days_zero hnt, hle, h3]
  · have h0 : (0 : ℝ) < satSub now t := by exact_mod_cast h
    have hd0 : 0 ≤ daysBetween now t := by unfold daysBetween; positivity
    rw [max_eq_left hd0]
    rcases le_or_gt 4320000 (satSub now t) with h1 | h1
    · obtain ⟨z, hz, -, hz1, hz2⟩ : In 4320000 (2 ^ 63) ((f32 powf).ofInt (satSub now t)) :=
        ofInt_in powf (bd_int 4320000 (by norm_num)) (bd_mul 1 63 (by norm_num) (by norm_num) (by norm_num))
          (by exact_mod_cast h1) (by exact_mod_cast hs2)
      obtain ⟨y, hy, -, hy1, -⟩ : In 50 (2 ^ 63) (F.round (z / 86400)) :=
        round_in (bd_int 50 (by norm_num)) (bd_mul 1 63 (by norm_num) (by norm_num) (by norm_num))
          (by rw [le_div_iff₀ (by norm_num)]; linarith) (by rw [div_le_iff₀ (by norm_num)]; linarith)
      have e : gDays (f32 powf) now t = .num y := by
        unfold gDays
        rw [hz, h86, hdiv, hy]
      rw [e, lit0]
      show (f32 powf).le (.num 50) (F.max (.num y) (.num 0)) = _
      rw [max_zero_num (by linarith), hle]
      have : 50 ≤ daysBetween now t := by
        unfold daysBetween
        rw [le_div_iff₀ (by norm_num)]
        have : (4320000 : ℝ) ≤ satSub now t := by exact_mod_cast h1
        linarith
      simp [hy1, this]
    · have hz : (f32 powf).ofInt (satSub now t) = .num (satSub now t : ℝ) := by
        show F.round _ = _
        exact round_bd (bd_int (satSub now t) rfl (by rw [abs_of_pos h]; omega))
      have h3 : (satSub now t : ℝ) ≤ 4319999 := by exact_mod_cast (by omega : satSub now t ≤ 4319999)
      obtain ⟨y, hy, -, hy0, hy1⟩ : In 0 (13107199 / 2 ^ 18) (F.round ((satSub now t : ℝ) / 86400)) :=
        round_in bd_zero (bd_div 13107199 18 (by norm_num) (by norm_num) (by norm_num)) (by positivity)
          (by rw [div_le_iff₀ (by norm_num)]; norm_num; linarith)
      have e : gDays (f32 powf) now t = .num y := by
        unfold gDays
        rw [hz, h86, hdiv, hy]
      rw [e, lit0]
      show (f32 powf).le (.num 50) (F.max (.num y) (.num 0)) = _
      rw [max_zero_num hy0, hle]
      have h4 : ¬ 50 ≤ daysBetween now t := by
        unfold daysBetween
        rw [not_le, div_lt_iff₀ (by norm_num)]
        linarith
      have h5 : ¬ 50 ≤ y := by
        rw [not_le]
        exact lt_of_le_of_lt hy1 (by norm_num)
      simp [h4, h5]

/-- The floor for good exercises that are old, when the average is not next to 4. -/
theorem floor_near {r R w W d : ℝ} {dF : F} {n : ℕ} {c : ℝ} (hr : |r - R| ≤ c) (hw : |w - W| ≤ 1100 / 2 ^ 24)
    (hd : (f32 powf).le (.num 50) dF = decide (50 ≤ d)) (hfar : n < 2 ∨ d < 50 ∨ 1 / 10000 ≤ |W - 4|)
    {r' : ℝ} (h : gOldGoodFloor (f32 powf) (.num r) (.num w) dF n = .num r') :
    |r' - Scorer.oldGoodFloor R W d n| ≤ c := by
  have h34 : (f32 powf).lit (3 / 4) = .num (3 / 4) := by
    have := lit_bd powf (q := 3 / 4) (bd_div 3 2 (by norm_num) (by norm_num) (by norm_num))
    simpa using this
  have hmax : (f32 powf).max (.num r) (.num (3 / 4)) = .num (max r (3 / 4)) := by
    show (if decide (r < 3 / 4) = true then F.num (3 / 4) else F.num r) = _
    by_cases h : r < 3 / 4
    · simp [h, max_eq_right h.le]
    · simp [h, max_eq_left (not_lt.1 h)]
  have h4 : (f32 powf).le (.num 4) (.num w) = decide (4 ≤ w) := rfl
  unfold gOldGoodFloor at h
  rw [litn 4 (by norm_num), litn 50 (by norm_num), hd, h4, h34, hmax] at h
  have hw' := abs_le.1 hw
  by_cases hc : 2 ≤ n ∧ 50 ≤ d
  · have hf : 1 / 10000 ≤ |W - 4| := by
      rcases hfar with h | h | h
      · omega
      · linarith [hc.2]
      · exact h
    by_cases hW : 4 ≤ W
    · rw [abs_of_nonneg (by linarith)] at hf
      have h4w : 4 ≤ w := by norm_num at hw'; linarith
      rw [if_pos (by simp [hc.1, hc.2, h4w])] at h
      cases h
      unfold Scorer.oldGoodFloor
      rw [if_pos ⟨hc.1, hW, hc.2⟩]
      exact (abs_max_sub_max_le_max _ _ _ _).trans (max_le hr (by simpa using (abs_nonneg _).trans hr))
    · rw [abs_of_neg (by linarith)] at hf
      have h4w : ¬ 4 ≤ w := by norm_num at hw' ⊢; linarith
      rw [if_neg (by simp [h4w])] at h
      cases h
      unfold Scorer.oldGoodFloor
      rw [if_neg (fun h => hW h.2.1)]
      exact hr
  · have h1 : ¬ ((decide (2 ≤ n) && decide (4 ≤ w) && decide (50 ≤ d)) = true) := by
      simp only [Bool.and_eq_true, decide_eq_true_eq]
      exact fun h => hc ⟨h.1.1, h.2⟩
    rw [if_neg h1] at h
    cases h
    unfold Scorer.oldGoodFloor
    rw [if_neg (fun h => hc ⟨h.1, h.2.2⟩)]
    exact hr

/-- **C122.**  At most twenty grades from 3 to 5 and at most twenty changes of score, newest first.  Whenever
the score is asked for, the machine's score differs from the exact one by at most 1/1000 and its urgency by at most
1/8000, unless there are two or more trials, fifty days have passed and the exact average of the grades is within
1/10000 of 4. -/
theorem machine_score_matches (hp : Faithful powf) (k : Kind) (trials deltas : List (GEntry ℝ)) (now : ℤ)
    (newest : GEntry ℝ) (hnew : trials.head? = some newest) (hs : Sorted trials) (hsd : Sorted deltas)
    (hg : ∀ e ∈ trials, Rep e.value ∧ 3 ≤ e.value ∧ e.value ≤ 5) (hd : ∀ e ∈ deltas, |e.value| ≤ 5)
    (hl : trials.length ≤ 20) (hl' : deltas.length ≤ 20)
    (hfar : trials.length < 2 ∨ Scorer.daysSinceLast now (toEntry newest) < 50 ∨
      1 / 10000 ≤ |Scorer.weightedAvg (trials.map toEntry) - 4|) :
    ∃ s z v s', gScore (f32 powf) k (stored trials) (stored deltas) now = some s ∧ s.value = .num z ∧
      s.urgency = .num v ∧ Scorer.score k (trials.map toEntry) (deltas.map toEntry) now = some s' ∧
      |z - s'.value| ≤ 1 / 1000 ∧ |v - s'.urgency| ≤ 1 / 8000 := by
  have hg1 : ∀ e ∈ trials, Rep e.value ∧ 1 ≤ e.value ∧ e.value ≤ 5 := fun e he =>
    ⟨(hg e he).1, by linarith [(hg e he).2.1], (hg e he).2.2⟩
  obtain ⟨s, z, r', h1, h2, hr0, hr1, -, h3, h4, h5⟩ :=
    machine_score_used hp k trials deltas now newest hnew hs hsd hg1 hd hl hl'
  have hne : trials ≠ [] := by rintro rfl; simp at hnew
  obtain ⟨r, hr, r0, r1, hrn⟩ := recall_close hp k trials hne hg hl now newest.time
  obtain ⟨w5, w, hw, hwn⟩ := machine_average_close hp trials hs hl (fun e he => by
    have := (hg e he).2
    rw [abs_of_pos (by linarith)]; exact this.2)
  obtain ⟨d5, -⟩ := machine_average_close hp deltas hsd hl' hd
  rw [hr] at h3 h4
  rw [hw] at h4
  have hlen : (stored trials).length = trials.length := by unfold stored; simp
  rw [hlen] at h4
  have hrec := floor_near hrn hwn (fifty_days (powf := powf) now newest.time) hfar h4
  -- the urgency
  obtain ⟨v, hv, hvn⟩ := round_near_abs (y := 1 + -r) (c := 1) (abs_le.2 ⟨by linarith, by linarith⟩)
    (by norm_num) (by norm_num)
  have h3' : s.urgency = .num v := h3.trans hv
  -- the exact score
  have hun : Scorer.unsorted (trials.map toEntry) = false := by
    rw [← unsorted_map, gUnsorted_iff]; exact hs
  obtain ⟨s', e1, e2, e3⟩ : ∃ s', Scorer.score k (trials.map toEntry) (deltas.map toEntry) now = some s' ∧
      s'.value = Scorer.clamp (Scorer.oldGoodFloor (Scorer.retrievability k (max (daysBetween now newest.time) 0)
          (Scorer.computeStability k (trials.map toEntry) (Scorer.estimateDifficulty (trials.map toEntry))))
          (Scorer.weightedAvg (trials.map toEntry)) (max (daysBetween now newest.time) 0) trials.length
            * Scorer.weightedAvg (trials.map toEntry)
        + Scorer.computeDelta (deltas.map toEntry) (Scorer.oldGoodFloor (Scorer.retrievability k
            (max (daysBetween now newest.time) 0)
            (Scorer.computeStability k (trials.map toEntry) (Scorer.estimateDifficulty (trials.map toEntry))))
          (Scorer.weightedAvg (trials.map toEntry)) (max (daysBetween now newest.time) 0) trials.length)) 0 5 ∧
      s'.urgency = 1 - Scorer.retrievability k (max (daysBetween now newest.time) 0)
          (Scorer.computeStability k (trials.map toEntry) (Scorer.estimateDifficulty (trials.map toEntry))) := by
    cases trials with
    | nil => exact absurd rfl hne
    | cons last rest =>
      simp only [List.head?_cons, Option.some.injEq] at hnew
      subst hnew
      unfold Scorer.score
      refine ⟨_, if_neg (by
        show ¬ Scorer.unsorted ((last :: rest).map toEntry) = true
        rw [hun]; simp), ?_, rfl⟩
      dsimp only
      rw [List.length_map]
      rfl
  refine ⟨s, z, v, s', h1, h2, h3', e1, ?_, ?_⟩
  · rw [e2]
    generalize Scorer.oldGoodFloor _ _ _ _ = R at *
    generalize Scorer.weightedAvg (trials.map toEntry) = W at *
    have hdelta : |Scorer.computeDelta (deltas.map toEntry) r' - Scorer.computeDelta (deltas.map toEntry) R| ≤
        5 / 4 * |r' - R| := by
      unfold Scorer.computeDelta
      split
      · simp
      · have e : Scorer.weightedAvg (deltas.map toEntry) * r' / 4 - Scorer.weightedAvg (deltas.map toEntry) * R / 4
          = Scorer.weightedAvg (deltas.map toEntry) / 4 * (r' - R) := by ring
        rw [e, abs_mul, abs_div, abs_of_pos (by norm_num : (0 : ℝ) < 4)]
        exact mul_le_mul_of_nonneg_right (by linarith) (abs_nonneg _)
    have hprod : |r' * W - R * W| ≤ 5 * |r' - R| := by
      have e : r' * W - R * W = W * (r' - R) := by ring
      rw [e, abs_mul]
      exact mul_le_mul_of_nonneg_right w5 (abs_nonneg _)
    generalize Scorer.computeDelta (deltas.map toEntry) r' = C' at *
    generalize Scorer.computeDelta (deltas.map toEntry) R = C at *
    have h6 : |Scorer.clamp (r' * W + C') 0 5 - Scorer.clamp (R * W + C) 0 5| ≤ 25 / 4 * (1850 / 2 ^ 24) := by
      refine (clamp_close _ _).trans ?_
      have e : r' * W + C' - (R * W + C) = (r' * W - R * W) + (C' - C) := by ring
      rw [e]
      refine (abs_add_le _ _).trans ?_
      linarith
    have e : z - Scorer.clamp (R * W + C) 0 5 = (z - Scorer.clamp (r' * W + C') 0 5)
      + (Scorer.clamp (r' * W + C') 0 5 - Scorer.clamp (R * W + C) 0 5) := by ring
    rw [e]
    exact (abs_add_le _ _).trans ((add_le_add h5 h6).trans (by norm_num))
  · rw [e3]
    generalize Scorer.retrievability _ _ _ = R at *
    have e : v - (1 - R) = (v - (1 + -r)) + -(r - R) := by ring
    rw [e]
    refine (abs_add_le _ _).trans ?_
    rw [abs_neg]
    exact (add_le_add hvn hrn).trans (by norm_num)

/-! ## A history -/

/-- Three passing grades, ten days apart. -/
noncomputable def steady : List (GEntry ℝ) :=
  [⟨5, 1700000000 + 1728000⟩, ⟨3, 1700000000 + 864000⟩, ⟨4, 1700000000⟩]

/-- A month after the newest one, with the changes of score of C121. -/
example (hp : Faithful powf) (k : Kind) : ∃ s z v s',
    gScore (f32 powf) k (stored steady) (stored changes) (1700000000 + 1728000 + 2592000) = some s ∧
      s.value = .num z ∧ s.urgency = .num v ∧
      Scorer.score k (steady.map toEntry) (changes.map toEntry) (1700000000 + 1728000 + 2592000) = some s' ∧
      |z - s'.value| ≤ 1 / 1000 ∧ |v - s'.urgency| ≤ 1 / 8000 := by
  refine machine_score_matches hp k steady changes _ ⟨5, 1700000000 + 1728000⟩ rfl ?_ ?_ ?_ ?_ ?_ ?_ (Or.inr (Or.inl ?_))
  · unfold Sorted steady; simp
  · unfold Sorted changes; simp
  · have hr : ∀ n : ℤ, |n| ≤ 2 ^ 24 → Rep (n : ℝ) := fun n h => rep_int h
    intro e he
    simp only [steady, List.mem_cons, List.not_mem_nil, or_false] at he
    rcases he with rfl | rfl | rfl
    · exact ⟨by exact_mod_cast hr 5 (by norm_num), by norm_num, by norm_num⟩
    · exact ⟨by exact_mod_cast hr 3 (by norm_num), by norm_num, by norm_num⟩
    · exact ⟨by exact_mod_cast hr 4 (by norm_num), by norm_num, by norm_num⟩
  · intro e he
    simp only [changes, List.mem_cons, List.not_mem_nil, or_false] at he
    rcases he with rfl | rfl | rfl <;> rw [abs_le] <;> constructor <;> norm_num
  · unfold steady; simp
  · unfold changes; simp
  · have h : satSub (1700000000 + 1728000 + 2592000) (1700000000 + 1728000) = 2592000 := by unfold satSub; omega
    unfold Scorer.daysSinceLast daysBetween toEntry
    dsimp only
    rw [h]
    norm_num

end Trane.Float
