import Verif.Scorer.Model
import Mathlib.Tactic.Linarith
import Mathlib.Tactic.NormNum
import Mathlib.Tactic.Positivity
import Mathlib.Tactic.FieldSimp
import Mathlib.Algebra.Order.BigOperators.Group.List

/-! Helper lemmas about the exercise scorer. -/

namespace Trane.Scorer

theorem clamp_mem (x : ℝ) {lo hi : ℝ} (h : lo ≤ hi) : lo ≤ clamp x lo hi ∧ clamp x lo hi ≤ hi := by
  unfold clamp
  split
  · exact ⟨le_refl _, h⟩
  · split
    · exact ⟨h, le_refl _⟩
    · constructor <;> linarith

theorem clamp_eq_self {x lo hi : ℝ} (h1 : lo ≤ x) (h2 : x ≤ hi) : clamp x lo hi = x := by
  unfold clamp
  rw [if_neg (not_lt.2 h1), if_neg (not_lt.2 h2)]

theorem clamp_mono {x y lo hi : ℝ} (h : lo ≤ hi) (hxy : x ≤ y) : clamp x lo hi ≤ clamp y lo hi := by
  unfold clamp
  split_ifs <;> linarith

/-! ### Forgetting curve -/

theorem decay_neg (k : Kind) : curveDecay k < 0 := by cases k <;> norm_num [curveDecay]

theorem factor_eq (k : Kind) : curveFactor k = (9 / 10 : ℝ) ^ ((curveDecay k)⁻¹) - 1 := by
  unfold curveFactor
  have h := decay_neg k
  have h2 : max |curveDecay k| (1 / 2 ^ 23) = -curveDecay k := by
    rw [abs_of_neg h]
    apply max_eq_left
    cases k <;> norm_num [curveDecay]
  rw [h2]
  congr 2
  rw [neg_div_neg_eq, one_div]

theorem factor_pos (k : Kind) : 0 < curveFactor k := by
  rw [factor_eq]
  have := Real.one_lt_rpow_of_pos_of_lt_one_of_neg (x := 9 / 10) (by norm_num) (by norm_num)
    (inv_lt_zero.2 (decay_neg k))
  linarith

theorem base_ge_one (k : Kind) {d s : ℝ} (hd : 0 ≤ d) (hs : 0 < s) :
    1 ≤ 1 + curveFactor k * d / s := by
  have := factor_pos k
  have : 0 ≤ curveFactor k * d / s := by positivity
  linarith

theorem retr_eq (k : Kind) {d s : ℝ} (hd : 0 ≤ d) (hs : 0 < s) :
    retrievability k d s = (1 + curveFactor k * d / s) ^ curveDecay k := by
  have h1 := base_ge_one k hd hs
  apply clamp_eq_self
  · exact Real.rpow_nonneg (by linarith) _
  · exact Real.rpow_le_one_of_one_le_of_nonpos h1 (decay_neg k).le

theorem retr_pos (k : Kind) {d s : ℝ} (hd : 0 ≤ d) (hs : 0 < s) : 0 < retrievability k d s := by
  rw [retr_eq k hd hs]
  exact Real.rpow_pos_of_pos (by linarith [base_ge_one k hd hs]) _

theorem retr_mem (k : Kind) (d s : ℝ) : 0 ≤ retrievability k d s ∧ retrievability k d s ≤ 1 :=
  clamp_mem _ (by norm_num)

theorem retr_anti (k : Kind) {d d' s : ℝ} (hd : 0 ≤ d) (h : d < d') (hs : 0 < s) :
    retrievability k d' s < retrievability k d s := by
  rw [retr_eq k hd hs, retr_eq k (hd.trans h.le) hs]
  apply Real.rpow_lt_rpow_of_neg (by linarith [base_ge_one k hd hs]) _ (decay_neg k)
  have := factor_pos k
  have : curveFactor k * d / s < curveFactor k * d' / s := by
    apply div_lt_div_of_pos_right _ hs
    exact mul_lt_mul_of_pos_left h this
  linarith

theorem retr_mono_s (k : Kind) {d s s' : ℝ} (hd : 0 < d) (hs : 0 < s) (h : s < s') :
    retrievability k d s < retrievability k d s' := by
  rw [retr_eq k hd.le hs, retr_eq k hd.le (hs.trans h)]
  apply Real.rpow_lt_rpow_of_neg (by linarith [base_ge_one k hd.le (hs.trans h)]) _ (decay_neg k)
  have := factor_pos k
  have : curveFactor k * d / s' < curveFactor k * d / s :=
    div_lt_div_of_pos_left (by positivity) hs h
  linarith

/-! ### Weighted averages -/

theorem sum_weights_pos {ps : List (ℝ × ℝ)} (hne : ps ≠ []) (hw : ∀ p ∈ ps, 0 < p.1) :
    0 < (ps.map (fun p => p.1)).sum := by
  apply List.sum_pos
  · intro x hx
    obtain ⟨p, hp, rfl⟩ := List.mem_map.1 hx
    exact hw p hp
  · simpa using hne

theorem dot_bounds {ps : List (ℝ × ℝ)} {lo hi : ℝ} (hw : ∀ p ∈ ps, 0 ≤ p.1)
    (hv : ∀ p ∈ ps, lo ≤ p.2 ∧ p.2 ≤ hi) :
    lo * (ps.map (fun p => p.1)).sum ≤ (ps.map (fun p => p.1 * p.2)).sum ∧
      (ps.map (fun p => p.1 * p.2)).sum ≤ hi * (ps.map (fun p => p.1)).sum := by
  induction ps with
  | nil => simp
  | cons p ps ih =>
    have ih := ih (fun q hq => hw q (List.mem_cons_of_mem _ hq))
      (fun q hq => hv q (List.mem_cons_of_mem _ hq))
    have h1 := hw p List.mem_cons_self
    have h2 := hv p List.mem_cons_self
    simp only [List.map_cons, List.sum_cons]
    constructor
    · have := mul_le_mul_of_nonneg_left h2.1 h1
      nlinarith [ih.1]
    · have := mul_le_mul_of_nonneg_left h2.2 h1
      nlinarith [ih.2]

theorem wavg_bounds {ps : List (ℝ × ℝ)} {lo hi : ℝ} (hne : ps ≠ []) (hw : ∀ p ∈ ps, 0 < p.1)
    (hv : ∀ p ∈ ps, lo ≤ p.2 ∧ p.2 ≤ hi) : lo ≤ wavg ps ∧ wavg ps ≤ hi := by
  have hpos := sum_weights_pos hne hw
  have := dot_bounds (fun p hp => (hw p hp).le) hv
  unfold wavg
  exact ⟨(le_div_iff₀ hpos).2 this.1, (div_le_iff₀ hpos).2 this.2⟩

theorem timeWeight_pos (a b : ℤ) : 0 < timeWeight a b :=
  lt_of_lt_of_le (by norm_num) (le_max_right _ _)

theorem posWeight_pos (i : ℕ) : 0 < posWeight i :=
  lt_of_lt_of_le (by norm_num) (le_max_right _ _)

theorem satSub_mono {a b c : ℤ} (h : c ≤ b) : satSub a b ≤ satSub a c := by
  unfold satSub; omega

theorem satSub_mono_left {a b c : ℤ} (h : a ≤ b) : satSub a c ≤ satSub b c := by
  unfold satSub; omega

theorem timeWeight_mono (n : ℤ) {t t' : ℤ} (h : t ≤ t') : timeWeight n t ≤ timeWeight n t' := by
  unfold timeWeight
  apply max_le_max _ (le_refl _)
  apply Real.rpow_le_rpow_of_exponent_ge (by norm_num) (by norm_num)
  apply max_le_max _ (le_refl _)
  apply div_le_div_of_nonneg_right _ (by norm_num)
  unfold daysBetween
  apply div_le_div_of_nonneg_right _ (by norm_num)
  exact_mod_cast satSub_mono h

theorem posWeight_anti {i j : ℕ} (h : i ≤ j) : posWeight j ≤ posWeight i := by
  unfold posWeight
  apply max_le_max _ (le_refl _)
  apply Real.rpow_le_rpow_of_exponent_ge (by norm_num) (by norm_num)
  exact_mod_cast h

/-- The time-based part of the average. -/
noncomputable def timePart (n : ℤ) (l : List Entry) : ℝ :=
  wavg (l.map (fun x => (timeWeight n x.time, x.value)))

/-- The position-based part of the average. -/
noncomputable def posPart (l : List Entry) : ℝ :=
  wavg (l.zipIdx.map (fun x => (posWeight x.2, x.1.value)))

theorem weightedAvg_cons (e : Entry) (l : List Entry) :
    weightedAvg (e :: l) = 8 / 10 * timePart e.time (e :: l) + 2 / 10 * posPart (e :: l) := rfl

theorem weightedAvg_bounds {l : List Entry} {lo hi : ℝ} (hne : l ≠ [])
    (h : ∀ e ∈ l, lo ≤ e.value ∧ e.value ≤ hi) : lo ≤ weightedAvg l ∧ weightedAvg l ≤ hi := by
  cases l with
  | nil => exact absurd rfl hne
  | cons e l =>
    rw [weightedAvg_cons]
    have h1 : lo ≤ timePart e.time (e :: l) ∧ timePart e.time (e :: l) ≤ hi := by
      apply wavg_bounds (by simp)
      · intro p hp; obtain ⟨x, _, rfl⟩ := List.mem_map.1 hp; exact timeWeight_pos _ _
      · intro p hp; obtain ⟨x, hx, rfl⟩ := List.mem_map.1 hp; exact h x hx
    have h2 : lo ≤ posPart (e :: l) ∧ posPart (e :: l) ≤ hi := by
      apply wavg_bounds (by simp)
      · intro p hp; obtain ⟨x, _, rfl⟩ := List.mem_map.1 hp; exact posWeight_pos _
      · intro p hp
        obtain ⟨x, hx, rfl⟩ := List.mem_map.1 hp
        exact h x.1 (List.fst_mem_of_mem_zipIdx hx)
    constructor <;> linarith [h1.1, h1.2, h2.1, h2.2]

/-! ### Effect of changing one value -/

theorem timePart_split (n : ℤ) (a : List Entry) (x : Entry) (c : List Entry) (δ : ℝ) :
    timePart n (a ++ { x with value := x.value + δ } :: c) = timePart n (a ++ x :: c) +
      timeWeight n x.time * δ / ((a ++ x :: c).map (fun y => timeWeight n y.time)).sum := by
  unfold timePart wavg
  simp only [List.map_map, List.map_append, List.map_cons, List.sum_append, List.sum_cons,
    Function.comp_def]
  rw [← add_div]
  congr 1
  ring

theorem posPart_split (a : List Entry) (x : Entry) (c : List Entry) (δ : ℝ) :
    posPart (a ++ { x with value := x.value + δ } :: c) = posPart (a ++ x :: c) +
      posWeight a.length * δ / ((a ++ x :: c).zipIdx.map (fun y => posWeight y.2)).sum := by
  unfold posPart wavg
  simp only [List.map_map, List.zipIdx_append, List.zipIdx_cons, List.map_append, List.map_cons,
    List.sum_append, List.sum_cons, Function.comp_def, Nat.zero_add]
  rw [← add_div]
  congr 1
  ring

/-- The first timestamp of the list with a given head block. -/
theorem head_time (a : List Entry) (x : Entry) (c : List Entry) (δ : ℝ) :
    ((a ++ { x with value := x.value + δ } :: c).head?).map Entry.time =
      ((a ++ x :: c).head?).map Entry.time := by
  cases a <;> simp

theorem weightedAvg_eq {l : List Entry} {n : ℤ} (h : l.head?.map Entry.time = some n) :
    weightedAvg l = 8 / 10 * timePart n l + 2 / 10 * posPart l := by
  cases l with
  | nil => simp at h
  | cons e l =>
    simp only [List.head?_cons, Option.map_some, Option.some.injEq] at h
    rw [weightedAvg_cons, h]

theorem exists_head (a : List Entry) (x : Entry) (c : List Entry) :
    ∃ n, ((a ++ x :: c).head?).map Entry.time = some n := by
  cases a <;> simp

theorem timeSum_pos (n : ℤ) (a : List Entry) (x : Entry) (c : List Entry) :
    0 < ((a ++ x :: c).map (fun y => timeWeight n y.time)).sum := by
  apply List.sum_pos
  · intro w hw
    obtain ⟨y, _, rfl⟩ := List.mem_map.1 hw
    exact timeWeight_pos _ _
  · simp

theorem posSum_pos (a : List Entry) (x : Entry) (c : List Entry) :
    0 < ((a ++ x :: c).zipIdx.map (fun y => posWeight y.2)).sum := by
  apply List.sum_pos
  · intro w hw
    obtain ⟨y, _, rfl⟩ := List.mem_map.1 hw
    exact posWeight_pos _
  · intro h
    have := congrArg List.length h
    simp at this

theorem weightedAvg_raise (a : List Entry) (x : Entry) (c : List Entry) {δ : ℝ} (hδ : 0 < δ) :
    weightedAvg (a ++ x :: c) < weightedAvg (a ++ { x with value := x.value + δ } :: c) := by
  obtain ⟨n, hn⟩ := exists_head a x c
  rw [weightedAvg_eq hn, weightedAvg_eq ((head_time a x c δ).trans hn), timePart_split,
    posPart_split]
  have h1 : 0 < timeWeight n x.time * δ / ((a ++ x :: c).map (fun y => timeWeight n y.time)).sum :=
    div_pos (mul_pos (timeWeight_pos _ _) hδ) (timeSum_pos _ _ _ _)
  have h2 : 0 < posWeight a.length * δ / ((a ++ x :: c).zipIdx.map (fun y => posWeight y.2)).sum :=
    div_pos (mul_pos (posWeight_pos _) hδ) (posSum_pos _ _ _)
  linarith

theorem weightedAvg_recency (a : List Entry) (x : Entry) (b : List Entry) (y : Entry)
    (c : List Entry) {δ : ℝ} (hδ : 0 ≤ δ) (hxy : y.time ≤ x.time) :
    weightedAvg (a ++ x :: (b ++ { y with value := y.value + δ } :: c)) ≤
      weightedAvg (a ++ { x with value := x.value + δ } :: (b ++ y :: c)) := by
  obtain ⟨n, hn⟩ := exists_head a x (b ++ y :: c)
  have e : ∀ z : Entry, a ++ x :: (b ++ z :: c) = (a ++ x :: b) ++ z :: c := by intro z; simp
  rw [weightedAvg_eq ((head_time a x (b ++ y :: c) δ).trans hn), timePart_split, posPart_split]
  have hn' := hn
  rw [e] at hn'
  rw [e { y with value := y.value + δ }, weightedAvg_eq ((head_time (a ++ x :: b) y c δ).trans hn'),
    timePart_split, posPart_split, ← e]
  have h1 : timeWeight n y.time * δ / ((a ++ x :: (b ++ y :: c)).map (fun z => timeWeight n z.time)).sum
      ≤ timeWeight n x.time * δ / ((a ++ x :: (b ++ y :: c)).map (fun z => timeWeight n z.time)).sum :=
    div_le_div_of_nonneg_right (mul_le_mul_of_nonneg_right (timeWeight_mono _ hxy) hδ)
      (timeSum_pos _ _ _ _).le
  have h2 : posWeight (a ++ x :: b).length * δ /
        ((a ++ x :: (b ++ y :: c)).zipIdx.map (fun z => posWeight z.2)).sum
      ≤ posWeight a.length * δ / ((a ++ x :: (b ++ y :: c)).zipIdx.map (fun z => posWeight z.2)).sum :=
    div_le_div_of_nonneg_right
      (mul_le_mul_of_nonneg_right (posWeight_anti (by simp)) hδ) (posSum_pos _ _ _).le
  linarith

/-! ### Difficulty and stability -/

theorem estimate_mem (l : List Entry) : 1 ≤ estimateDifficulty l ∧ estimateDifficulty l ≤ 10 := by
  unfold estimateDifficulty
  split
  · norm_num
  · exact clamp_mem _ (by norm_num)

theorem stabilityStep_mem (k : Kind) (s d v t : ℝ) :
    1 / 2 ≤ stabilityStep k s d v t ∧ stabilityStep k s d v t ≤ 730 :=
  clamp_mem _ (by norm_num)

theorem updateDifficulty_mem (d b v : ℝ) :
    1 ≤ updateDifficulty d b v ∧ updateDifficulty d b v ≤ 10 :=
  clamp_mem _ (by norm_num)

/-- The range invariant of the replay loop. -/
def InRange (r : Replay) : Prop :=
  (1 / 2 ≤ r.stability ∧ r.stability ≤ 730) ∧ (1 ≤ r.difficulty ∧ r.difficulty ≤ 10)

theorem inRange_step (k : Kind) (r : Replay) (t : Entry) (h : InRange r) :
    InRange (replayStep k r t) := by
  unfold replayStep
  split
  · exact h
  · exact ⟨stabilityStep_mem _ _ _ _ _, updateDifficulty_mem _ _ _⟩

theorem inRange_foldl (k : Kind) (l : List Entry) (r : Replay) (h : InRange r) :
    InRange (l.foldl (replayStep k) r) := by
  induction l generalizing r with
  | nil => exact h
  | cons t l ih => exact ih _ (inRange_step k r t h)

theorem inRange_replay (k : Kind) (l : List Entry) {base : ℝ} (h : 1 ≤ base ∧ base ≤ 10) :
    InRange (replay k l base) :=
  inRange_foldl k _ _ ⟨by norm_num, h⟩

theorem stability_pos (k : Kind) (l : List Entry) (base : ℝ) (h : 1 ≤ base ∧ base ≤ 10) :
    0 < computeStability k l base := by
  have := (inRange_replay k l h).1.1
  unfold computeStability
  linarith

theorem spacingGain_ge (k : Kind) (d s p : ℝ) : 1 ≤ spacingGain k d s p := by
  unfold spacingGain
  split
  · exact le_refl _
  · exact (clamp_mem _ (by norm_num)).1

theorem unsorted_iff (l : List Entry) :
    unsorted l = false ↔ l.Pairwise (fun a b => b.time ≤ a.time) := by
  induction l with
  | nil => simp [unsorted]
  | cons a l ih =>
    cases l with
    | nil => simp [unsorted]
    | cons b l =>
      rw [unsorted, Bool.or_eq_false_iff, ih, List.pairwise_cons (a := a)]
      constructor
      · rintro ⟨h1, h2⟩
        have h1 := of_decide_eq_false h1
        refine ⟨?_, h2⟩
        intro c hc
        rcases List.mem_cons.1 hc with rfl | hc
        · omega
        · have := (List.pairwise_cons.1 h2).1 c hc
          omega
      · rintro ⟨h1, h2⟩
        refine ⟨decide_eq_false ?_, h2⟩
        have := h1 b List.mem_cons_self
        omega

end Trane.Scorer
