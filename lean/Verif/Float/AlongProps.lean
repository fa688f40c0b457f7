import Verif.Float.PropagationProps
import Verif.Float.AverageLemmas
import Verif.Float.MeanProps
import Verif.Float.SharesProps

/-!
# The rewards that propagation computes, in `f32`, against the documented products

C130.
-/

namespace Trane.Float
open Trane.Propagator (initialReward)

variable {α : Type} {powf : F → F → F}

/-! ### Specification -/

/-- The reward of a grade after the edges `e` and then `es`: the reward of the grade times the weights of the edges and
nine tenths for each edge after the first. -/
noncomputable def documentedValue (grade : MasteryScore) (e : ℝ) (es : List ℝ) : ℝ :=
  (initialReward grade : ℚ) * e * (es.map fun r => 9 / 10 * r).prod

/-- The weight after the edges `e` and then `es`: the weights of the edges times eight tenths for each edge after the
first. -/
noncomputable def documentedWeight (e : ℝ) (es : List ℝ) : ℝ := e * (es.map fun r => 8 / 10 * r).prod

/-- The weight of an edge: an `f32` from 0 to 1. -/
def EdgeWeight (r : ℝ) : Prop := Rep r ∧ 0 ≤ r ∧ r ≤ 1

/-! ### Model -/

/-- Value and weight after the edges `e` and then `es`, /repo/src/scheduler/reward_propagator.rs:117-118 and 146-147. -/
def gAlong (A : Arith α) (grade : MasteryScore) (e : α) (es : List α) : α × α :=
  es.foldl (fun p r => gNext A r p) (gFirst A (gInitialReward A grade) e)

/-! ### Proofs -/

/-- A machine number of size at most 1 that is near an exact one of size at most 1. -/
def NearUnit (x : F) (X : ℝ) : Prop := ∃ z, x = .num z ∧ |z| ≤ 1 ∧ |X| ≤ 1 ∧ |z - X| ≤ 30 / 2 ^ 24

theorem round_unit {y : ℝ} (h : |y| ≤ 1) : ∃ z, F.round y = .num z ∧ |z| ≤ 1 ∧ |z - y| ≤ 1 / 2 ^ 24 := by
  refine ⟨rnd y, round_num (by norm_num) rep_one h, ?_, ?_⟩
  · rw [abs_le] at h ⊢
    exact ⟨le_rnd rep_one.neg h.1, rnd_le rep_one h.2⟩
  · exact rnd_err_le le_rfl h

theorem factor_step {q : ℚ} (hq0 : (0 : ℝ) ≤ q) (hq : (q : ℝ) ≤ 9 / 10) {r X : ℝ} (hr : EdgeWeight r) {x : F} (hx : NearUnit x X) :
    NearUnit ((f32 powf).mul ((f32 powf).mul (.num r) ((f32 powf).lit q)) x) (r * q * X) := by
  obtain ⟨-, r0, r1⟩ := hr
  obtain ⟨v, rfl, hv, hX, hn⟩ := hx
  obtain ⟨f, hf, hf1, hfn⟩ := round_unit (y := (q : ℝ)) (by rw [abs_le]; constructor <;> linarith)
  have hl : (f32 powf).lit q = .num f := hf
  have hrf : |r * f| ≤ 1 := by
    rw [abs_mul, abs_of_nonneg r0]
    exact mul_le_one₀ r1 (abs_nonneg _) hf1
  obtain ⟨g, hg, hg1, hgn⟩ := round_unit hrf
  have hm : (f32 powf).mul (.num r) (.num f) = .num g := hg
  have hgv : |g * v| ≤ 1 := by
    rw [abs_mul]
    exact mul_le_one₀ hg1 (abs_nonneg _) hv
  obtain ⟨z, hz, hz1, hzn⟩ := round_unit hgv
  rw [hl, hm]
  have hrq : |r * q| ≤ 9 / 10 := by
    rw [abs_of_nonneg (mul_nonneg r0 hq0)]
    nlinarith
  have h1 : |r * f - r * q| ≤ 1 / 2 ^ 24 := by
    rw [← mul_sub, abs_mul, abs_of_nonneg r0]
    exact (mul_le_mul r1 hfn (abs_nonneg _) zero_le_one).trans (by rw [one_mul])
  have h2 : |g - r * q| ≤ 2 / 2 ^ 24 := by
    rw [abs_le] at h1 hgn ⊢
    constructor <;> linarith
  have h3 : |g * v - r * q * X| ≤ 2 / 2 ^ 24 + 9 / 10 * (30 / 2 ^ 24) := by
    rw [show g * v - r * q * X = (g - r * q) * v + r * q * (v - X) by ring]
    refine (abs_add_le _ _).trans (add_le_add ?_ ?_)
    · rw [abs_mul]
      exact (mul_le_mul h2 hv (abs_nonneg _) (by norm_num)).trans (by rw [mul_one])
    · rw [abs_mul]
      exact mul_le_mul hrq hn (abs_nonneg _) (by norm_num)
  refine ⟨z, hz, hz1, ?_, ?_⟩
  · rw [abs_mul]
    exact mul_le_one₀ (hrq.trans (by norm_num)) (abs_nonneg _) hX
  · rw [abs_le] at h3 hzn ⊢
    constructor <;> linarith

theorem along_near (es : List ℝ) (hes : ∀ r ∈ es, EdgeWeight r) : ∀ (p : F × F) (V W : ℝ), NearUnit p.1 V → NearUnit p.2 W →
    NearUnit ((es.map F.num).foldl (fun p r => gNext (f32 powf) r p) p).1 (V * (es.map fun r => 9 / 10 * r).prod) ∧
      NearUnit ((es.map F.num).foldl (fun p r => gNext (f32 powf) r p) p).2 (W * (es.map fun r => 8 / 10 * r).prod) := by
  induction es with
  | nil => intro p V W h1 h2; simpa using ⟨h1, h2⟩
  | cons r es ih =>
    intro p V W h1 h2
    have hr := hes r (by simp)
    have a := factor_step (powf := powf) (q := 9 / 10) (by norm_num) (by norm_num) hr h1
    have b := factor_step (powf := powf) (q := 8 / 10) (by norm_num) (by norm_num) hr h2
    obtain ⟨c, d⟩ := ih (fun x hx => hes x (List.mem_cons_of_mem _ hx)) (gNext (f32 powf) (.num r) p) _ _ a b
    rw [List.map_cons, List.foldl_cons, List.map_cons, List.prod_cons, List.map_cons, List.prod_cons]
    constructor
    · convert c using 1
      push_cast
      ring
    · convert d using 1
      push_cast
      ring

theorem initial_near (grade : MasteryScore) : ∃ z, gInitialReward (f32 powf) grade = .num z ∧ |z| ≤ 1 ∧
    |((initialReward grade : ℚ) : ℝ)| ≤ 1 ∧ |z - ((initialReward grade : ℚ) : ℝ)| ≤ 1 / 2 ^ 24 := by
  have key : ∀ q : ℚ, |(q : ℝ)| ≤ 1 → ∃ z, (f32 powf).lit q = .num z ∧ |z| ≤ 1 ∧ |(q : ℝ)| ≤ 1 ∧ |z - (q : ℝ)| ≤ 1 / 2 ^ 24 := by
    intro q hq
    obtain ⟨z, hz, h1, h2⟩ := round_unit hq
    exact ⟨z, hz, h1, hq, h2⟩
  have e : ∃ q : ℚ, gInitialReward (f32 powf) grade = (f32 powf).lit q ∧ initialReward grade = q ∧ |(q : ℝ)| ≤ 1 := by
    cases grade
    · exact ⟨-1, rfl, by norm_num [initialReward], by norm_num⟩
    · exact ⟨-(5 / 10), rfl, by norm_num [initialReward], by norm_num [abs_le]⟩
    · exact ⟨-(3 / 10), rfl, by norm_num [initialReward], by norm_num [abs_le]⟩
    · exact ⟨4 / 10, rfl, by norm_num [initialReward], by norm_num [abs_le]⟩
    · exact ⟨8 / 10, rfl, by norm_num [initialReward], by norm_num [abs_le]⟩
  obtain ⟨q, h1, h2, h3⟩ := e
  rw [h1, h2]
  exact key q h3

theorem along_both (grade : MasteryScore) {e : ℝ} {es : List ℝ} (he : EdgeWeight e) (hes : ∀ r ∈ es, EdgeWeight r) :
    NearUnit (gAlong (f32 powf) grade (.num e) (es.map F.num)).1 (documentedValue grade e es) ∧
      NearUnit (gAlong (f32 powf) grade (.num e) (es.map F.num)).2 (documentedWeight e es) := by
  obtain ⟨-, e0, e1⟩ := he
  have ea : |e| ≤ 1 := by rw [abs_of_nonneg e0]; exact e1
  obtain ⟨i, hi, hi1, hI, hin⟩ := initial_near (powf := powf) grade
  have hei : |e * i| ≤ 1 := by rw [abs_mul]; exact mul_le_one₀ ea (abs_nonneg _) hi1
  obtain ⟨z, hz, hz1, hzn⟩ := round_unit hei
  unfold gAlong documentedValue documentedWeight
  refine along_near es hes _ _ _ ⟨z, ?_, hz1, ?_, ?_⟩ ⟨e, rfl, ea, ea, by norm_num⟩
  · show (f32 powf).mul (.num e) (gInitialReward (f32 powf) grade) = _
    rw [hi]
    exact hz
  · rw [abs_mul]
    exact mul_le_one₀ hI (abs_nonneg _) ea
  · have : |e * i - (initialReward grade : ℚ) * e| ≤ 1 / 2 ^ 24 := by
      rw [show e * i - (initialReward grade : ℚ) * e = e * (i - (initialReward grade : ℚ)) by ring, abs_mul]
      exact (mul_le_mul ea hin (abs_nonneg _) zero_le_one).trans (by rw [one_mul])
    rw [abs_le] at this hzn ⊢
    constructor <;> linarith

/-- **C130, values** Along any path of edges, however long, value and weight of the propagated reward are within 2^-19
of the documented products. -/
theorem machine_along_near (grade : MasteryScore) {e : ℝ} {es : List ℝ} (he : EdgeWeight e) (hes : ∀ r ∈ es, EdgeWeight r) :
    Within (1 / 2 ^ 19) (gAlong (f32 powf) grade (.num e) (es.map F.num)).1 (documentedValue grade e es) ∧
      Within (1 / 2 ^ 19) (gAlong (f32 powf) grade (.num e) (es.map F.num)).2 (documentedWeight e es) := by
  obtain ⟨⟨v, hv, -, -, hvn⟩, w, hw, -, -, hwn⟩ := along_both (powf := powf) grade he hes
  exact ⟨⟨v, hv, hvn.trans (by norm_num)⟩, w, hw, hwn.trans (by norm_num)⟩

/-- **C130, end** The propagation goes on where the documented value and weight are at least 0.2 and ends where one of
them is below, unless one is within 2^-18 of 0.2. -/
theorem machine_along_stop (grade : MasteryScore) {e : ℝ} {es : List ℝ} (he : EdgeWeight e) (hes : ∀ r ∈ es, EdgeWeight r)
    (hv : 1 / 2 ^ 18 ≤ |(|documentedValue grade e es| - 2 / 10)|) (hw : 1 / 2 ^ 18 ≤ |documentedWeight e es - 2 / 10|) :
    gStop (f32 powf) (gAlong (f32 powf) grade (.num e) (es.map F.num)) = true ↔
      |documentedValue grade e es| < 2 / 10 ∨ documentedWeight e es < 2 / 10 := by
  obtain ⟨⟨v, h1, hvn⟩, w, h2, hwn⟩ := machine_along_near (powf := powf) grade he hes
  obtain ⟨q, hq, -, hqn⟩ := round_unit (y := ((2 / 10 : ℚ) : ℝ)) (by norm_num [abs_le])
  have hl : (f32 powf).lit (2 / 10) = .num q := hq
  unfold gStop
  rw [h1, h2, hl]
  show (decide (|v| < q) || decide (w < q)) = true ↔ _
  rw [Bool.or_eq_true, decide_eq_true_eq, decide_eq_true_eq]
  push_cast at hqn
  have hvn' := (abs_abs_sub_abs_le_abs_sub v (documentedValue grade e es)).trans hvn
  generalize |v| = v' at hvn' ⊢
  generalize |documentedValue grade e es| = V at hvn' hv ⊢
  generalize documentedWeight e es = W at hwn hw ⊢
  rw [abs_le] at hqn hvn' hwn
  refine or_congr ?_ ?_
  · rcases le_abs.1 hv with h | h <;> constructor <;> intro <;> linarith
  · rcases le_abs.1 hw with h | h <;> constructor <;> intro <;> linarith

/-- What a grade gives to a unit, as C81 has it, is what the path there gives. -/
theorem reaches_along {grade : MasteryScore} {n : ℕ} {p : F × F} (h : Reaches powf grade n p) :
    ∃ (e : ℝ) (es : List ℝ), EdgeWeight e ∧ (∀ r ∈ es, EdgeWeight r) ∧ es.length = n ∧
      p = gAlong (f32 powf) grade (.num e) (es.map F.num) := by
  induction h with
  | @first e he _ =>
    obtain ⟨z, rfl, r, h0, h1⟩ := he
    exact ⟨z, [], ⟨r, h0, h1⟩, by simp, rfl, rfl⟩
  | @next n p e _ he _ ih =>
    obtain ⟨z, rfl, r, h0, h1⟩ := he
    obtain ⟨e', es, a, b, c, rfl⟩ := ih
    refine ⟨e', es ++ [z], a, ?_, by simp [c], ?_⟩
    · intro x hx
      rcases List.mem_append.1 hx with hx | hx
      · exact b x hx
      · rw [List.mem_singleton.1 hx]
        exact ⟨r, h0, h1⟩
    · unfold gAlong
      rw [List.map_append, List.foldl_append]
      rfl

/-- The hypotheses are met: grade 5 along edges of weight 1 and 1/2 goes on, another edge of weight 1/2 ends it. -/
example : ¬ gStop (f32 powf) (gAlong (f32 powf) .five (.num 1) ([1 / 2].map F.num)) = true := by
  have h2 : EdgeWeight (1 / 2) := ⟨by simpa using rep_div (m := 1) (k := 1) (by norm_num) (by norm_num), by norm_num, by norm_num⟩
  rw [machine_along_stop .five ⟨rep_one, by norm_num, le_rfl⟩ (by intro r hr; rw [List.mem_singleton.1 hr]; exact h2)
    (by norm_num [documentedValue, initialReward, abs_of_pos, le_abs]) (by norm_num [documentedWeight, le_abs])]
  norm_num [documentedValue, documentedWeight, initialReward, abs_of_pos]

example : gStop (f32 powf) (gAlong (f32 powf) .five (.num 1) ([1 / 2, 1 / 2].map F.num)) = true := by
  have h2 : EdgeWeight (1 / 2) := ⟨by simpa using rep_div (m := 1) (k := 1) (by norm_num) (by norm_num), by norm_num, by norm_num⟩
  rw [machine_along_stop .five ⟨rep_one, by norm_num, le_rfl⟩
    (by intro r hr; simp only [List.mem_cons, List.not_mem_nil, or_false, or_self] at hr; rw [hr]; exact h2)
    (by norm_num [documentedValue, initialReward, abs_of_pos, le_abs]) (by norm_num [documentedWeight, le_abs])]
  norm_num [documentedValue, documentedWeight, initialReward, abs_of_pos]

end Trane.Float
