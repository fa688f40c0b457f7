import Verif.Float.MeanProps
import Verif.Float.SharesProps
import Verif.Float.CostLemmas

/-!
# C127: whether a unit has enough trials, decided in `f32`

A lesson or course lets its dependents through only if its average number of trials reaches the configured minimum.  The
averages are computed in `f32`.  For lessons the decision is always right; for courses it can be wrong at the minimum itself.
-/

namespace Trane.Float

variable {α : Type}

/-- The average number of trials of the exercises of a lesson, /repo/src/scheduler/unit_scorer.rs:572-573; the exercises
without a count are left out before. -/
def gLessonTrials (A : Arith α) (counts : List ℕ) : α := A.div (A.ofInt counts.sum) (A.ofInt counts.length)

/-- The average number of trials of the lessons of a course, /repo/src/scheduler/unit_scorer.rs:612-620. -/
def gCourseTrials (A : Arith α) (lessons : List (List ℕ)) : α := gMean A (lessons.map (gLessonTrials A))

/-- The comparison with the minimum, /repo/src/scheduler.rs:529. -/
def gEnough (A : Arith α) (least avg : α) : Bool := A.le least avg

variable {powf : F → F → F}

theorem ofInt_nat {n : ℕ} (h : n ≤ 2 ^ 24) : (f32 powf).ofInt n = .num (n : ℝ) := by
  have hb : Bd (((n : ℤ) : ℝ)) := bd_int (n : ℤ) rfl (by rw [abs_of_nonneg (by positivity)]; exact_mod_cast h)
  have := round_bd hb
  rw [Int.cast_natCast] at this
  show F.round (((n : ℤ) : ℝ)) = _
  rw [Int.cast_natCast]
  exact this

theorem lesson_val {counts : List ℕ} (hne : counts ≠ []) (hl : counts.length ≤ 2 ^ 24) (hs : counts.sum ≤ 2 ^ 24) :
    gLessonTrials (f32 powf) counts = .num (rnd (counts.sum / counts.length)) := by
  have hp : (0 : ℝ) < counts.length := by exact_mod_cast List.length_pos_iff.2 hne
  have hn1 : (1 : ℝ) ≤ counts.length := by exact_mod_cast List.length_pos_iff.2 hne
  unfold gLessonTrials
  rw [ofInt_nat hs, ofInt_nat hl]
  show (if (counts.length : ℝ) = 0 then _ else F.round _) = _
  rw [if_neg hp.ne']
  refine round_num (le_refl _) rep_big ?_
  rw [abs_of_nonneg (by positivity), div_le_iff₀ hp]
  have h1 : (counts.sum : ℝ) ≤ 2 ^ 24 := by exact_mod_cast hs
  have h2 : (2 : ℝ) ^ 24 ≤ 2 ^ 127 := by norm_num
  nlinarith

/-- **C127, lessons** The comparison of the average number of trials of a lesson with a minimum of up to 20 with two
decimals, `k` hundredths, is right: it succeeds if and only if the trials are at least `k` hundredths of the exercises. -/
theorem machine_lesson_enough {counts : List ℕ} {k : ℕ} (hne : counts ≠ []) (hl : counts.length ≤ 1000) (hs : counts.sum ≤ 2 ^ 24)
    (hk1 : 100 ≤ k) (hk : k ≤ 2000) :
    gEnough (f32 powf) ((f32 powf).lit (k / 100)) (gLessonTrials (f32 powf) counts) =
      decide (k * counts.length ≤ 100 * counts.sum) := by
  have hkr : (k : ℝ) ≤ 2000 := by exact_mod_cast hk
  have hkr1 : (100 : ℝ) ≤ k := by exact_mod_cast hk1
  have hlit : (f32 powf).lit (k / 100) = .num (rnd (k / 100)) := by
    have : (f32 powf).lit (k / 100) = .num (rnd (((k / 100 : ℚ)) : ℝ)) :=
      round_num (le_refl _) rep_big (by
        push_cast
        rw [abs_of_nonneg (by positivity)]
        exact le_trans (by linarith : (k : ℝ) / 100 ≤ 20) (by norm_num))
    rw [this]
    push_cast
    rfl
  rw [hlit, lesson_val hne (by omega) hs]
  show decide (rnd (k / 100) ≤ rnd (counts.sum / counts.length)) = _
  rw [decide_eq_decide]
  have hp : 0 < counts.length := List.length_pos_iff.2 hne
  generalize counts.length = n at *
  generalize counts.sum = a at *
  have hpr : (0 : ℝ) < n := by exact_mod_cast hp
  have hnr : (n : ℝ) ≤ 1000 := by exact_mod_cast hl
  have iff1 : (k : ℝ) / 100 ≤ a / n ↔ k * n ≤ 100 * a := by
    rw [div_le_div_iff₀ (by norm_num) hpr]
    constructor
    · intro h
      have : ((k * n : ℕ) : ℝ) ≤ ((a * 100 : ℕ) : ℝ) := by push_cast; exact h
      have := Nat.cast_le.1 this
      omega
    · intro h
      have : ((k * n : ℕ) : ℝ) ≤ ((100 * a : ℕ) : ℝ) := by exact_mod_cast h
      push_cast at this
      linarith
  rw [← iff1]
  constructor
  · intro h
    by_contra hc
    have hc' : ¬ k * n ≤ 100 * a := fun h => hc (iff1.2 h)
    have hlt := not_le.1 hc
    have hgap : (a : ℝ) / n + 1 / 100000 ≤ k / 100 := by
      have h1 : 100 * a + 1 ≤ k * n := by omega
      have h2 : (100 : ℝ) * a + 1 ≤ k * n := by exact_mod_cast h1
      have h3 : (a : ℝ) / n + 1 / (100 * n) ≤ k / 100 := by
        have : (a : ℝ) / n + 1 / (100 * n) = (100 * a + 1) / (100 * n) := by field_simp
        rw [this, div_le_div_iff₀ (by positivity) (by norm_num)]
        nlinarith
      have h4 : (1 : ℝ) / 100000 ≤ 1 / (100 * n) := by
        apply one_div_le_one_div_of_le (by positivity)
        linarith
      linarith
    have h0 : 0 ≤ (a : ℝ) / n := by positivity
    have e1 := abs_le.1 (rnd_err_le (x := (a : ℝ) / n) (b := 20) (by norm_num) (by rw [abs_of_nonneg h0]; linarith))
    have e2 := abs_le.1 (rnd_err_le (x := (k : ℝ) / 100) (b := 20) (by norm_num) (by rw [abs_of_nonneg (by positivity)]; linarith))
    norm_num at e1 e2 hgap
    linarith
  · intro h
    exact rnd_mono h

/-- **C127, any minimum** Whatever single-precision minimum is configured, a lesson that reaches it passes. -/
theorem machine_lesson_never_refused {counts : List ℕ} {m : ℝ} (hne : counts ≠ []) (hl : counts.length ≤ 2 ^ 24)
    (hs : counts.sum ≤ 2 ^ 24) (hm : Rep m) (h : m ≤ counts.sum / counts.length) :
    gEnough (f32 powf) (.num m) (gLessonTrials (f32 powf) counts) = true := by
  rw [lesson_val hne hl hs]
  exact decide_eq_true (le_rnd hm h)

/-- **C127, any minimum** A lesson that passes falls short of the minimum by at most its average over 2^24. -/
theorem machine_lesson_short {counts : List ℕ} {m : ℝ} (hne : counts ≠ []) (hl : counts.length ≤ 2 ^ 24)
    (hs : counts.sum ≤ 2 ^ 24) (hm : 1 ≤ m)
    (h : gEnough (f32 powf) (.num m) (gLessonTrials (f32 powf) counts) = true) :
    m ≤ (counts.sum / counts.length : ℝ) * (1 + 1 / 2 ^ 24) := by
  rw [lesson_val hne hl hs] at h
  have h' : m ≤ rnd (counts.sum / counts.length) := of_decide_eq_true h
  have h0 : (0 : ℝ) ≤ counts.sum / counts.length := by positivity
  generalize (counts.sum / counts.length : ℝ) = x at h' h0 ⊢
  have he := rnd_err x
  rw [abs_of_nonneg h0] at he
  rcases max_cases (x / 2 ^ 24) ((2 : ℝ) ^ (-150 : ℤ)) with ⟨e, -⟩ | ⟨e, hlt⟩
  · rw [e, abs_le] at he
    linarith
  · exfalso
    rw [e, abs_le] at he
    have t : (2 : ℝ) ^ (-150 : ℤ) ≤ 1 / 2 ^ 30 := by norm_num
    generalize (2 : ℝ) ^ (-150 : ℤ) = y at *
    linarith

/-- The hypotheses are met: five trials of three exercises against a minimum of 3/2. -/
example : gEnough (f32 powf) (.num (3 / 2)) (gLessonTrials (f32 powf) [2, 2, 1]) = true :=
  machine_lesson_never_refused (by simp) (by simp) (by simp)
    (by have := rep_div (m := 3) (k := 1) (by norm_num) (by norm_num); norm_num at this; exact this) (by norm_num)

/-- Sums of numbers of up to 20. -/
theorem sum_within20 {ε : ℝ} (hε : ε ≤ 1 / 2) (hε0 : 0 ≤ ε) (xs : List F) (Xs : List ℝ) (h : List.Forall₂ (Within ε) xs Xs)
    (hX : ∀ X ∈ Xs, 0 ≤ X ∧ X ≤ 20) : ∀ (i : ℕ) (s : F) (S : ℝ), i + xs.length ≤ 1000 → 0 ≤ S → S ≤ 20 * i →
      Within (i * ε + 11 * i * (i + 1) / 2 ^ 24) s S →
      Within ((i + xs.length : ℕ) * ε + 11 * (i + xs.length : ℕ) * ((i + xs.length : ℕ) + 1) / 2 ^ 24)
        (xs.foldl F.add s) (S + Xs.sum) := by
  induction h with
  | nil => intro i s S _ _ _ hs; simpa using hs
  | @cons x X xs Xs hx _ ih =>
    intro i s S hi hS0 hS hs
    obtain ⟨z, rfl, hz⟩ := hx
    obtain ⟨t, rfl, ht⟩ := hs
    obtain ⟨hX0, hX5⟩ := hX X (by simp)
    simp only [List.length_cons] at hi
    have hir : (i : ℝ) ≤ 1000 := by exact_mod_cast (by omega : i ≤ 1000)
    have hi0 : (0 : ℝ) ≤ i := Nat.cast_nonneg i
    have bz := abs_le.1 hz
    have bt := abs_le.1 ht
    have hii : (i : ℝ) * ε ≤ i * (1 / 2) := mul_le_mul_of_nonneg_left hε hi0
    have hiε : 0 ≤ (i : ℝ) * ε := mul_nonneg hi0 hε0
    have hi2 : (i : ℝ) * (i + 1) ≤ 1000 * (i + 1) := mul_le_mul_of_nonneg_right hir (by linarith)
    have hq : 11 * (i : ℝ) * (i + 1) / 2 ^ 24 ≤ 1 / 2 * (i + 1) := by
      rw [div_le_iff₀ (by norm_num)]
      have : 11 * (i : ℝ) * (i + 1) = 11 * (i * (i + 1)) := by ring
      rw [this]
      norm_num
      linarith
    have hsum : |t + z| ≤ 22 * (i + 1) := abs_le.2 ⟨by linarith, by linarith⟩
    obtain ⟨y, hy, hyn⟩ := round_near_abs hsum (by norm_num; linarith) (by norm_num; linarith)
    have by' := abs_le.1 hyn
    have := ih (fun Y hY => hX Y (by simp [hY])) (i + 1) (.num y) (S + X) (by omega) (by linarith)
      (by push_cast; linarith) ⟨y, rfl, by
        have e : 11 * ((i : ℝ) + 1) * (i + 1 + 1) / 2 ^ 24 = 11 * i * (i + 1) / 2 ^ 24 + 22 * (i + 1) / 2 ^ 24 := by ring
        push_cast
        rw [e]
        exact abs_le.2 ⟨by linarith, by linarith⟩⟩
    rw [List.foldl_cons, List.length_cons, List.sum_cons, ← add_assoc S X,
      show i + (xs.length + 1) = i + 1 + xs.length by omega]
    have hadd : F.add (.num t) (.num z) = .num y := hy
    rw [hadd]
    exact this

/-- The exact average of the averages. -/
noncomputable def courseAverage (lessons : List (List ℕ)) : ℝ :=
  (lessons.map fun c => (c.sum : ℝ) / c.length).sum / lessons.length

/-- Lessons with trials: no lesson is empty, none has more than 1000 exercises, no exercise more than 20 trials. -/
def Tried (lessons : List (List ℕ)) : Prop := ∀ c ∈ lessons, c ≠ [] ∧ c.length ≤ 1000 ∧ ∀ t ∈ c, t ≤ 20

/-- **C127, courses** The average number of trials of a course with up to 1000 lessons is within a thousandth of the
exact one. -/
theorem machine_course_trials (lessons : List (List ℕ)) (h : Tried lessons) (hne : lessons ≠ []) (hn : lessons.length ≤ 1000) :
    ∃ z, gCourseTrials (f32 powf) lessons = .num z ∧ |z - courseAverage lessons| ≤ 1 / 1000 := by
  have hsum : ∀ c ∈ lessons, c.sum ≤ 20 * c.length := by
    intro c hc
    have := List.sum_le_card_nsmul c 20 (h c hc).2.2
    simpa [mul_comm] using this
  have hX : ∀ X ∈ lessons.map (fun c => (c.sum : ℝ) / c.length), 0 ≤ X ∧ X ≤ 20 := by
    intro X hX
    obtain ⟨c, hc, rfl⟩ := List.mem_map.1 hX
    have hp : (0 : ℝ) < c.length := by exact_mod_cast List.length_pos_iff.2 (h c hc).1
    refine ⟨by positivity, ?_⟩
    rw [div_le_iff₀ hp]
    exact_mod_cast hsum c hc
  have hF : List.Forall₂ (Within (20 / 2 ^ 24)) (lessons.map (gLessonTrials (f32 powf)))
      (lessons.map (fun c => (c.sum : ℝ) / c.length)) := by
    rw [List.forall₂_map_left_iff, List.forall₂_map_right_iff, List.forall₂_same]
    intro c hc
    obtain ⟨h0, h20⟩ := hX _ (List.mem_map_of_mem hc)
    have hl := (h c hc).2.1
    have := hsum c hc
    refine ⟨_, lesson_val (h c hc).1 (by omega) (by omega), ?_⟩
    exact rnd_err_le (by norm_num) (by rw [abs_of_nonneg h0]; exact h20)
  have hs := sum_within20 (by norm_num) (by norm_num) _ _ hF hX 0 (.num 0) 0 (by simpa using hn) le_rfl (by simp) ⟨0, rfl, by simp⟩
  rw [Nat.zero_add, zero_add, List.length_map] at hs
  obtain ⟨t, ht, htn⟩ := hs
  have hpos : 0 < lessons.length := List.length_pos_iff.2 hne
  have hn1 : (1 : ℝ) ≤ lessons.length := by exact_mod_cast hpos
  have hn2 : (lessons.length : ℝ) ≤ 1000 := by exact_mod_cast hn
  have hS0 : 0 ≤ (lessons.map fun c => (c.sum : ℝ) / c.length).sum := List.sum_nonneg fun X h => (hX X h).1
  have hS1 : (lessons.map fun c => (c.sum : ℝ) / c.length).sum ≤ 20 * lessons.length := by
    have := List.sum_le_card_nsmul _ 20 (fun X h => (hX X h).2)
    simpa [mul_comm] using this
  have l0 : (f32 powf).lit 0 = .num 0 := lit0
  unfold gCourseTrials gMean courseAverage
  rw [l0, List.length_map, ofInt_nat (by omega), show (f32 powf).add = F.add from rfl, ht]
  generalize (lessons.map fun c => (c.sum : ℝ) / c.length).sum = S at *
  generalize hN : (lessons.length : ℝ) = N at *
  show ∃ z, (if N = 0 then _ else F.round _) = F.num z ∧ _
  rw [if_neg (by linarith)]
  have hNp : 0 < N := by linarith
  have htn' : |t - S| ≤ N * (1 / 1200) := by
    refine htn.trans ?_
    have : N * (20 / 2 ^ 24) + 11 * N * (N + 1) / 2 ^ 24 = N * ((20 + 11 * (N + 1)) / 2 ^ 24) := by ring
    rw [this]
    refine mul_le_mul_of_nonneg_left ?_ hNp.le
    rw [div_le_iff₀ (by positivity)]
    norm_num
    linarith
  have hq : |t / N - S / N| ≤ 1 / 1200 := by
    rw [← sub_div, abs_div, abs_of_pos hNp, div_le_iff₀ hNp]
    linarith
  have hS2 : S / N ≤ 20 := by
    rw [div_le_iff₀ hNp]
    exact hS1
  have hS3 : 0 ≤ S / N := div_nonneg hS0 hNp.le
  have hq' := abs_le.1 hq
  obtain ⟨z, hz, hzn⟩ := round_near_abs (y := t / N) (c := 21) (abs_le.2 ⟨by linarith, by linarith⟩) (by norm_num) (by norm_num)
  refine ⟨z, hz, ?_⟩
  have hzn' := abs_le.1 hzn
  norm_num at hzn'
  exact abs_le.2 ⟨by linarith, by linarith⟩

/-- **C127, courses, partial** The decision about a course is right if its average differs from the minimum by at least
1/500.  What is missing is false: see `machine_course_wrong`. -/
theorem machine_course_enough_partial {k : ℕ} (hk1 : 100 ≤ k) (hk : k ≤ 2000) (lessons : List (List ℕ)) (h : Tried lessons)
    (hne : lessons ≠ []) (hn : lessons.length ≤ 1000) (hgap : 1 / 500 ≤ |courseAverage lessons - k / 100|) :
    gEnough (f32 powf) ((f32 powf).lit (k / 100)) (gCourseTrials (f32 powf) lessons) =
      decide ((k : ℝ) / 100 ≤ courseAverage lessons) := by
  obtain ⟨z, hz, hn⟩ := machine_course_trials (powf := powf) lessons h hne hn
  have hkr : (k : ℝ) ≤ 2000 := by exact_mod_cast hk
  have hkr1 : (100 : ℝ) ≤ k := by exact_mod_cast hk1
  obtain ⟨q, hq, -, hqn⟩ := lit_near (powf := powf) (q := (k / 100 : ℚ)) (by push_cast; linarith) (by push_cast; linarith)
  rw [hz, hq]
  show decide (q ≤ z) = _
  rw [decide_eq_decide]
  push_cast at hqn
  have a := abs_le.1 hqn
  have b := abs_le.1 hn
  norm_num at a
  rcases le_abs.1 hgap with hg | hg <;> constructor <;> intro h <;> linarith

/-- Three lessons of five exercises each, with 5, 9 and 13 trials. -/
def threeLessons : List (List ℕ) := [[1, 1, 1, 1, 1], [1, 2, 2, 2, 2], [2, 2, 3, 3, 3]]

theorem threeLessons_tried : Tried threeLessons := by
  unfold Tried threeLessons
  decide

theorem threeLessons_average : courseAverage threeLessons = 9 / 5 := by
  unfold courseAverage threeLessons
  norm_num

/-- **C127, courses, negative** The course `threeLessons` has an average of exactly 1.8 trials, the default minimum, and is
still taken not to have enough: its average in `f32` is 1.7999998. -/
theorem machine_course_wrong : courseAverage threeLessons = 9 / 5 ∧
    gEnough (f32 powf) ((f32 powf).lit (9 / 5)) (gCourseTrials (f32 powf) threeLessons) = false := by
  refine ⟨threeLessons_average, ?_⟩
  have r : ∀ {x : ℝ} (m : ℤ) (k : ℕ), k ≤ 149 → (2 : ℝ) ^ 23 ≤ x * 2 ^ k → x * 2 ^ k < 2 ^ 24 →
      (|x * 2 ^ k - m| < 1 / 2 ∨ 2 ∣ m ∧ |x * 2 ^ k - m| ≤ 1 / 2) → |x| ≤ 16 → F.round x = .num (m / 2 ^ k) := by
    intro x m k h1 h2 h3 h4 h5
    rw [round_num (h := 16) (by norm_num) (by simpa using rep_int (n := 16) (by norm_num)) h5, rnd_val m k h1 h2 h3 h4]
  have l1 : gLessonTrials (f32 powf) [1, 1, 1, 1, 1] = .num 1 := by
    rw [lesson_val (by simp) (by simp) (by simp)]
    norm_num
    exact rnd_fix rep_one
  have l2 : gLessonTrials (f32 powf) [1, 2, 2, 2, 2] = .num (15099494 / 2 ^ 23) := by
    rw [lesson_val (by simp) (by simp) (by simp), rnd_val (x := _) 15099494 23 (by norm_num) (by norm_num) (by norm_num)
      (Or.inl (by rw [abs_lt]; norm_num))]
    norm_num
  have l3 : gLessonTrials (f32 powf) [2, 2, 3, 3, 3] = .num (10905190 / 2 ^ 22) := by
    rw [lesson_val (by simp) (by simp) (by simp), rnd_val (x := _) 10905190 22 (by norm_num) (by norm_num) (by norm_num)
      (Or.inl (by rw [abs_lt]; norm_num))]
    norm_num
  have s0 : F.add (.num 0) (.num 1) = .num 1 := by
    show F.round (0 + 1) = _
    rw [zero_add]
    exact round_bd bd_one
  have s1 : F.add (.num 1) (.num (15099494 / 2 ^ 23)) = .num (11744051 / 2 ^ 22) := by
    have h := r (x := 1 + 15099494 / 2 ^ 23) 11744051 22 (by norm_num) (by norm_num) (by norm_num)
      (by rw [abs_lt, abs_le]; norm_num) (by rw [abs_le]; norm_num)
    push_cast at h
    exact h
  have s2 : F.add (.num (11744051 / 2 ^ 22)) (.num (10905190 / 2 ^ 22)) = .num (11324620 / 2 ^ 21) := by
    have h := r (x := 11744051 / 2 ^ 22 + 10905190 / 2 ^ 22) 11324620 21 (by norm_num) (by norm_num) (by norm_num)
      (by rw [abs_lt, abs_le]; norm_num) (by rw [abs_le]; norm_num)
    push_cast at h
    exact h
  have s3 : (f32 powf).div (.num (11324620 / 2 ^ 21)) (.num 3) = .num (15099493 / 2 ^ 23) := by
    have h := r (x := 11324620 / 2 ^ 21 / 3) 15099493 23 (by norm_num) (by norm_num) (by norm_num)
      (by rw [abs_lt, abs_le]; norm_num) (by rw [abs_le]; norm_num)
    push_cast at h
    show (if (3 : ℝ) = 0 then _ else F.round _) = _
    rw [if_neg (by norm_num)]
    exact h
  have lt : (f32 powf).lit (9 / 5) = .num (15099494 / 2 ^ 23) := by
    have h := r (x := ((9 / 5 : ℚ) : ℝ)) 15099494 23 (by norm_num) (by norm_num) (by norm_num)
      (by rw [abs_lt, abs_le]; norm_num) (by rw [abs_le]; norm_num)
    exact h.trans (by norm_num)
  have l0 : (f32 powf).lit 0 = .num 0 := lit0
  have n3 : (f32 powf).ofInt ((3 : ℕ) : ℤ) = .num 3 := by
    rw [ofInt_nat (by norm_num)]
    norm_num
  have hv : gCourseTrials (f32 powf) threeLessons = .num (15099493 / 2 ^ 23) := by
    unfold gCourseTrials gMean threeLessons
    rw [List.map_cons, List.map_cons, List.map_cons, List.map_nil, l1, l2, l3, l0, show (f32 powf).add = F.add from rfl]
    show (f32 powf).div (F.add (F.add (F.add (.num 0) (.num 1)) _) _) ((f32 powf).ofInt ((3 : ℕ) : ℤ)) = _
    rw [s0, s1, s2, n3, s3]
  rw [hv, lt]
  show decide ((15099494 / 2 ^ 23 : ℝ) ≤ 15099493 / 2 ^ 23) = false
  rw [decide_eq_false_iff_not]
  norm_num

/-- A lesson of five exercises with nine trials has enough, one with eight has not. -/
example : gEnough (f32 powf) ((f32 powf).lit ((180 : ℕ) / 100)) (gLessonTrials (f32 powf) [1, 2, 2, 2, 2]) = true ∧
    gEnough (f32 powf) ((f32 powf).lit ((180 : ℕ) / 100)) (gLessonTrials (f32 powf) [1, 1, 2, 2, 2]) = false :=
  ⟨(machine_lesson_enough (by simp) (by simp) (by simp) (by norm_num) (by norm_num)).trans (by simp),
    (machine_lesson_enough (by simp) (by simp) (by simp) (by norm_num) (by norm_num)).trans (by simp)⟩

/-- A course with an average of 2. -/
example : gEnough (f32 powf) ((f32 powf).lit ((180 : ℕ) / 100)) (gCourseTrials (f32 powf) [[2, 3, 1], [1, 3]]) = true := by
  have e : courseAverage [[2, 3, 1], [1, 3]] = 2 := by
    unfold courseAverage
    norm_num
  rw [machine_course_enough_partial (by norm_num) (by norm_num) _ (by unfold Tried; decide) (by simp) (by simp)
    (by rw [e]; norm_num), e]
  norm_num

end Trane.Float
