import Verif.Float.Propagation
import Verif.Float.RewardSample

/-!
# Propagation and averages without rounding (C81)

These theorems tie the arithmetic of `Verif.Float.Propagation` to the model of the propagation used for C28 and C29.
-/

namespace Trane.Float

open Trane.Propagator (initialReward stop rewardFactor weightFactor UnitReward initialItems nextItems)

/-- Without rounding, the reward for a grade is that of the model used for C28. -/
theorem initial_exact (grade : MasteryScore) : gInitialReward exact grade = ((initialReward grade : ℚ) : ℝ) := by
  cases grade <;> norm_num [gInitialReward, exact, initialReward]

/-- Without rounding, the propagation stops where the model used for C28 stops. -/
theorem stop_exact (value weight : ℚ) : gStop exact ((value : ℝ), (weight : ℝ)) = stop value weight := by
  have h1 : (|(value : ℝ)| < ((2 / 10 : ℚ) : ℝ)) ↔ |value| < 1 / 5 := by
    rw [← Rat.cast_abs, Rat.cast_lt]; norm_num
  have h2 : ((weight : ℝ) < ((2 / 10 : ℚ) : ℝ)) ↔ weight < 1 / 5 := by
    rw [Rat.cast_lt]; norm_num
  simp only [gStop, exact, stop, Propagator.minAbsReward, Propagator.minWeight]
  congr 1 <;> exact decide_eq_decide.2 (by assumption)

/-- Without rounding, the first step along an edge is that of the model. -/
theorem first_exact (initial edge : ℚ) :
    gFirst exact (initial : ℝ) (edge : ℝ) = (((edge * initial : ℚ) : ℝ), (edge : ℝ)) := by
  simp [gFirst, exact]

/-- Without rounding, every further step is that of the model. -/
theorem next_exact (edge value weight : ℚ) :
    gNext exact (edge : ℝ) ((value : ℝ), (weight : ℝ)) =
      (((edge * rewardFactor * value : ℚ) : ℝ), ((edge * weightFactor * weight : ℚ) : ℝ)) := by
  simp only [gNext, exact, rewardFactor, weightFactor]
  push_cast
  norm_num

variable {ι : Type} [DecidableEq ι]

/-- **C81, C28.** The rewards that a grade puts on the stack in the model of C28 are those of the arithmetic above
without rounding, for the units the graph names and unless the propagation stops. -/
theorem initial_items_exact (g : Graph ι) (l c : ι) (grade : MasteryScore) (t : Int) (r : UnitReward ι) :
    r ∈ initialItems g l c (initialReward grade) t ↔
      ∃ edge : ℚ, (r.unit, edge) ∈ Propagator.nextUnits g l (initialReward grade) ++
          Propagator.nextUnits g c (initialReward grade) ∧ r.time = t ∧
        ((r.value : ℝ), (r.weight : ℝ)) = gFirst exact (gInitialReward exact grade) (edge : ℝ) ∧
        gStop exact (gFirst exact (gInitialReward exact grade) (edge : ℝ)) = false := by
  rw [initial_exact]
  unfold initialItems
  simp only [first_exact, stop_exact, List.mem_map, List.mem_filter, Bool.not_eq_true', Prod.mk.injEq, Rat.cast_inj]
  constructor
  · rintro ⟨⟨u, e⟩, ⟨hm, hs⟩, rfl⟩
    exact ⟨e, hm, rfl, ⟨rfl, rfl⟩, hs⟩
  · rintro ⟨e, hm, rfl, ⟨hv, hw⟩, hs⟩
    refine ⟨(r.unit, e), ⟨hm, hs⟩, ?_⟩
    cases r
    simp_all

/-- **C81, C28.** The same for the rewards that a visited unit passes on. -/
theorem next_items_exact (g : Graph ι) (item : UnitReward ι) (t : Int) (r : UnitReward ι) :
    r ∈ nextItems g item t ↔
      ∃ edge : ℚ, (r.unit, edge) ∈ Propagator.nextUnits g item.unit item.value ∧ r.time = t ∧
        ((r.value : ℝ), (r.weight : ℝ)) = gNext exact (edge : ℝ) ((item.value : ℝ), (item.weight : ℝ)) ∧
        gStop exact (gNext exact (edge : ℝ) ((item.value : ℝ), (item.weight : ℝ))) = false := by
  unfold nextItems
  simp only [next_exact, stop_exact, List.mem_map, List.mem_filter, Bool.not_eq_true', Prod.mk.injEq, Rat.cast_inj]
  constructor
  · rintro ⟨⟨u, e⟩, ⟨hm, hs⟩, rfl⟩
    exact ⟨e, hm, rfl, ⟨rfl, rfl⟩, hs⟩
  · rintro ⟨e, hm, rfl, ⟨hv, hw⟩, hs⟩
    refine ⟨(r.unit, e), ⟨hm, hs⟩, ?_⟩
    cases r
    simp_all

/-- A lesson `l` encompasses a lesson `m` with weight 1: a five gives `m` the reward 4/5. -/
example : ∃ r ∈ initialItems (Graph.run [.addCourse 0, .addDependencies 0 .course [], .addLesson 1 0,
    .addDependencies 1 .lesson [], .addLesson 2 0, .addDependencies 2 .lesson [], .addEncompassed 1 [] [(2, 1)],
    .updateStartingLessons] : Graph ℕ) 1 0 (initialReward .five) 7, r.unit = 2 ∧ r.value = 4 / 5 := by
  decide +kernel

/-! ### `utils::weighted_average` -/

theorem foldl_add_exact (l : List ℝ) (a : ℝ) : l.foldl exact.add a = a + l.sum := by
  induction l generalizing a with
  | nil => simp
  | cons x l ih => rw [List.foldl_cons, ih, List.sum_cons]; simp only [exact]; ring

/-- **C81.** Without rounding, `weighted_average` is the sum of the weighted values over the sum of the weights, or 0 if
that sum is 0. -/
theorem utils_average_exact (values weights : List ℝ) :
    gUtilsAverage exact values weights =
      if weights.sum = 0 then 0 else (List.zipWith (· * ·) values weights).sum / weights.sum := by
  have hz : ∀ x : ℝ, (Arith.isZero exact x = true) ↔ x = 0 := by
    intro x
    simp only [Arith.isZero, exact, Rat.cast_zero, Bool.and_eq_true, decide_eq_true_eq]
    exact ⟨fun h => le_antisymm h.1 h.2, fun h => by rw [h]; exact ⟨le_rfl, le_rfl⟩⟩
  unfold gUtilsAverage
  rw [foldl_add_exact, foldl_add_exact]
  have h0 : exact.lit 0 = 0 := by simp [exact]
  have hm : ((values.zip weights).map (fun p => exact.mul p.1 p.2)) = List.zipWith (· * ·) values weights := by
    rw [List.zip, List.map_zipWith]; rfl
  rw [hm, h0, zero_add, zero_add]
  dsimp only
  by_cases h : weights.sum = 0
  · rw [if_pos h, if_pos ((hz _).2 h)]
  · rw [if_neg h, if_neg (fun hc => h ((hz _).1 hc))]
    rfl

/-- **C81.** With as many weights as values, none of them negative and one positive, the weighted average lies between
the least and the greatest value. -/
theorem utils_average_between (ps : List (ℝ × ℝ)) {lo hi : ℝ} (hv : ∀ p ∈ ps, lo ≤ p.1 ∧ p.1 ≤ hi)
    (hw : ∀ p ∈ ps, 0 ≤ p.2) (hp : ∃ p ∈ ps, 0 < p.2) :
    lo ≤ gUtilsAverage exact (ps.map Prod.fst) (ps.map Prod.snd) ∧
      gUtilsAverage exact (ps.map Prod.fst) (ps.map Prod.snd) ≤ hi := by
  have hb : ∀ l : List (ℝ × ℝ), (∀ p ∈ l, lo ≤ p.1 ∧ p.1 ≤ hi) → (∀ p ∈ l, 0 ≤ p.2) →
      lo * (l.map Prod.snd).sum ≤ (List.zipWith (· * ·) (l.map Prod.fst) (l.map Prod.snd)).sum ∧
      (List.zipWith (· * ·) (l.map Prod.fst) (l.map Prod.snd)).sum ≤ hi * (l.map Prod.snd).sum := by
    intro l
    induction l with
    | nil => simp
    | cons p l ih =>
      intro h1 h2
      obtain ⟨a, b⟩ := ih (fun q hq => h1 q (List.mem_cons_of_mem _ hq)) (fun q hq => h2 q (List.mem_cons_of_mem _ hq))
      have hp1 := h1 p List.mem_cons_self
      have hp2 := h2 p List.mem_cons_self
      simp only [List.map_cons, List.zipWith_cons_cons, List.sum_cons]
      constructor
      · nlinarith [mul_le_mul_of_nonneg_right hp1.1 hp2]
      · nlinarith [mul_le_mul_of_nonneg_right hp1.2 hp2]
  have hs : 0 < (ps.map Prod.snd).sum := by
    obtain ⟨p, hm, h0⟩ := hp
    exact lt_of_lt_of_le h0 (List.single_le_sum (by simpa using fun b a h => hw (a, b) h) _ (List.mem_map_of_mem hm))
  rw [utils_average_exact, if_neg hs.ne', le_div_iff₀ hs, div_le_iff₀ hs]
  exact hb ps hv hw

/-- With more weights than values the result can lie outside of the values. -/
theorem utils_average_lengths : gUtilsAverage exact [4, 4] [1, 1, 2] = 2 := by
  rw [utils_average_exact]
  norm_num

end Trane.Float
