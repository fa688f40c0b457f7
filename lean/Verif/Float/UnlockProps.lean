import Verif.Float.MeanProps
import Verif.Float.TrialsProps

/-!
# Whether a lesson unlocks what depends on it, in `f32`

C131.  Puts C124 (scores of lessons) and C127 (trials of lessons) together.
-/

namespace Trane.Float
open Trane.Scorer (Kind Entry)
open Trane.Formula (Safe)

variable {α : Type}

/-- `passes_threshold`, /repo/src/scheduler.rs:523-535. -/
def gPasses (A : Arith α) (minScore minTrials : α) : Option α → Option α → Bool
  | some score, some trials => A.le minScore score && gEnough A minTrials trials
  | _, _ => true

variable {powf : F → F → F}

/-- The numbers of trials that are read for the exercises of a lesson, /repo/src/scheduler/unit_scorer.rs:298-318. -/
def trialCounts (es : List Practised) : List ℕ := es.map fun e => e.trials.length

theorem regular_trials {now : ℤ} {e : Practised} (h : Regular now e) : e.trials.length ≤ 20 := by
  rcases h with h | ⟨_, _, _, _, _, _, _, _, h, _⟩
  · rw [h]; simp
  · exact h

/-- **C131** A lesson passes in `f32` if and only if the average of the documented scores of its exercises reaches the
minimum score and the exact average number of their trials reaches the minimum number of trials, unless the score is
within 1/700 of the minimum. -/
theorem machine_lesson_passes (hp : Faithful powf) {inRange : ℤ → Bool} {now today : ℤ} (hc : Clock inRange today)
    (hn : Safe now) (course lesson : List (GReward ℝ)) (h1 : ∀ r ∈ course, Comparable inRange today r)
    (h2 : ∀ r ∈ lesson, Comparable inRange today r) (hl1 : course.length ≤ 20) (hl2 : lesson.length ≤ 20)
    (es : List Practised) (he : ∀ e ∈ es, Regular now e) (hne : es ≠ []) (hlen : es.length ≤ 1000) (xs : List F)
    (hx : es.map (computed powf inRange course lesson now today) = xs.map some) {m : ℝ} {k : ℕ} (hk1 : 100 ≤ k) (hk : k ≤ 2000)
    (hfar : 1 / 700 < |lessonScore course lesson now today es - m|) :
    gPasses (f32 powf) (.num m) ((f32 powf).lit (k / 100)) (some (gMean (f32 powf) xs))
        (some (gLessonTrials (f32 powf) (trialCounts es))) = true ↔
      m ≤ lessonScore course lesson now today es ∧
        (k : ℝ) / 100 ≤ ((trialCounts es).sum : ℝ) / es.length := by
  have hs := machine_limit_matches (machine_lesson_matches hp hc hn course lesson h1 h2 hl1 hl2 es he hne hlen xs hx) m hfar
  have hl : (trialCounts es).length = es.length := by unfold trialCounts; simp
  have hsum : (trialCounts es).sum ≤ 20 * es.length := by
    have := List.sum_le_card_nsmul (trialCounts es) 20 (by
      intro t ht
      obtain ⟨e, hm, rfl⟩ := List.mem_map.1 ht
      exact regular_trials (he e hm))
    rw [hl] at this
    simpa [mul_comm] using this
  have ht := machine_lesson_enough (powf := powf) (counts := trialCounts es) (k := k) (by simpa [trialCounts] using hne)
    (by omega) (by omega) hk1 hk
  show ((f32 powf).le (.num m) (gMean (f32 powf) xs) && gEnough (f32 powf) _ _) = true ↔ _
  rw [ht, show (f32 powf).le (.num m) (gMean (f32 powf) xs) = _ from hs, Bool.and_eq_true, decide_eq_true_eq, decide_eq_true_eq, hl]
  have hpos : (0 : ℝ) < es.length := by exact_mod_cast List.length_pos_iff.2 hne
  refine and_congr_right fun _ => ?_
  generalize (trialCounts es).sum = S
  rw [div_le_div_iff₀ (by norm_num) hpos]
  constructor
  · intro h
    have : ((k * es.length : ℕ) : ℝ) ≤ ((100 * S : ℕ) : ℝ) := Nat.cast_le.2 h
    push_cast at this
    linarith
  · intro h
    have : ((k * es.length : ℕ) : ℝ) ≤ ((100 * S : ℕ) : ℝ) := by push_cast; linarith
    exact Nat.cast_le.1 this

/-- **C131, courses** A course passes in `f32` if and only if the average of the documented scores of its lessons reaches
the minimum score and the average of the averages of their trials reaches the minimum number of trials, unless the score is
within 1/590 or the trials are within 1/500 of the minimum. -/
theorem machine_course_passes (hp : Faithful powf) {inRange : ℤ → Bool} {now today : ℤ} (hc : Clock inRange today)
    (hn : Safe now) (course : List (GReward ℝ)) (h1 : ∀ r ∈ course, Comparable inRange today r)
    (hl1 : course.length ≤ 20) (lessons : List LessonData) (hne : lessons ≠ []) (hlen : lessons.length ≤ 1000)
    (hreg : ∀ l ∈ lessons, RegularLesson inRange now today l) (ys : List F)
    (hy : List.Forall₂ (fun y l => ∃ xs, l.exercises.map (computed powf inRange course l.rewards now today) =
      xs.map some ∧ y = gMean (f32 powf) xs) ys lessons) {m : ℝ} {k : ℕ} (hk1 : 100 ≤ k) (hk : k ≤ 2000) {X T : ℝ}
    (hX : X = (lessons.map (fun l => lessonScore course l.rewards now today l.exercises)).sum / lessons.length)
    (hT : T = courseAverage (lessons.map fun l => trialCounts l.exercises))
    (hfar : 1 / 590 < |X - m|) (hgap : 1 / 500 ≤ |T - k / 100|) :
    gPasses (f32 powf) (.num m) ((f32 powf).lit (k / 100)) (some (gMean (f32 powf) ys))
        (some (gCourseTrials (f32 powf) (lessons.map fun l => trialCounts l.exercises))) = true ↔
      m ≤ X ∧ (k : ℝ) / 100 ≤ T := by
  subst hX hT
  have hs := machine_limit_matches (machine_course_matches hp hc hn course h1 hl1 lessons hne hlen hreg ys hy) m hfar
  have ht := machine_course_enough_partial (powf := powf) hk1 hk (lessons.map fun l => trialCounts l.exercises) (by
    intro c hc
    obtain ⟨l, hl, rfl⟩ := List.mem_map.1 hc
    obtain ⟨a, b, d, -, -⟩ := hreg l hl
    refine ⟨by simpa [trialCounts] using a, by simpa [trialCounts] using b, ?_⟩
    intro t ht
    obtain ⟨e, hm, rfl⟩ := List.mem_map.1 ht
    exact regular_trials (d e hm)) (by simpa using hne) (by simpa using hlen) hgap
  show ((f32 powf).le (.num m) (gMean (f32 powf) ys) && gEnough (f32 powf) _ _) = true ↔ _
  rw [ht, show (f32 powf).le (.num m) (gMean (f32 powf) ys) = _ from hs, Bool.and_eq_true, decide_eq_true_eq, decide_eq_true_eq]

/-- **C131, missing values** A unit without a score or without trials, such as one that is blacklisted, passes. -/
theorem machine_missing_passes (minScore minTrials : F) (score trials : Option F) (h : score = none ∨ trials = none) :
    gPasses (f32 powf) minScore minTrials score trials = true := by
  rcases h with rfl | rfl
  · rfl
  · cases score <;> rfl

/-- The hypotheses are met: with the defaults, 3.0 and 1.8, a lesson with the exercise of C123 and one that was never
tried does not pass, for its score is at most 5/2. -/
example (hp : Faithful powf) : ∃ xs,
    [(⟨.declarative, steady, changes⟩ : Practised), ⟨.procedural, [], []⟩].map (computed powf sampleRange someRewards [] monthLater monthLater) = xs.map some ∧
    ¬ gPasses (f32 powf) (.num 3) ((f32 powf).lit ((180 : ℕ) / 100)) (some (gMean (f32 powf) xs))
      (some (gLessonTrials (f32 powf) (trialCounts [(⟨.declarative, steady, changes⟩ : Practised), ⟨.procedural, [], []⟩]))) = true := by
  have hsafe : ∀ t : ℤ, 0 ≤ t → t ≤ 2 ^ 40 → Safe t := fun t h1 h2 => ⟨by omega, by omega⟩
  have hclock : Clock sampleRange monthLater :=
    ⟨by norm_num [monthLater], fun t h => (of_decide_eq_true h).trans (by norm_num)⟩
  have hnow : Safe monthLater := hsafe _ (by norm_num [monthLater]) (by norm_num [monthLater])
  have hreg : Regular monthLater ⟨.declarative, steady, changes⟩ := by
    refine Or.inr ⟨⟨5, 1700000000 + 1728000⟩, rfl, ?_, ?_, ?_, ?_, ?_, ?_, ?_, ?_, Or.inr (Or.inl ?_)⟩
    · unfold Sorted steady; simp
    · unfold Sorted changes; simp
    · intro e he
      simp only [steady, List.mem_cons, List.not_mem_nil, or_false] at he
      rcases he with rfl | rfl | rfl
      · exact ⟨5, by norm_num, by norm_num, by norm_num⟩
      · exact ⟨3, by norm_num, by norm_num, by norm_num⟩
      · exact ⟨4, by norm_num, by norm_num, by norm_num⟩
    · intro e he
      simp only [changes, List.mem_cons, List.not_mem_nil, or_false] at he
      rcases he with rfl | rfl | rfl <;> rw [abs_le] <;> constructor <;> norm_num
    · intro e he
      simp only [steady, List.mem_cons, List.not_mem_nil, or_false] at he
      rcases he with rfl | rfl | rfl <;> exact hsafe _ (by norm_num) (by norm_num)
    · intro e he
      simp only [changes, List.mem_cons, List.not_mem_nil, or_false] at he
      rcases he with rfl | rfl | rfl <;> exact hsafe _ (by norm_num) (by norm_num)
    · show steady.length ≤ 20; unfold steady; simp
    · show changes.length ≤ 20; unfold changes; simp
    · unfold Formula.daysAfter monthLater
      norm_num
  have hrest : ∀ e ∈ [(⟨.declarative, steady, changes⟩ : Practised), ⟨.procedural, [], []⟩],
      Regular monthLater e := by
    intro e he
    simp only [List.mem_cons, List.not_mem_nil, or_false] at he
    rcases he with rfl | rfl
    · exact hreg
    · exact Or.inl rfl
  have hsome : ∃ x, computed powf sampleRange someRewards [] monthLater monthLater ⟨.declarative, steady, changes⟩ =
      some x := by
    rcases hreg with h | ⟨newest, a1, a2, a3, a4, a5, a6, a7, a8, a9, a10⟩
    · simp [steady] at h
    · obtain ⟨z, hz, -⟩ := machine_final_matches hp .declarative steady changes someRewards [] monthLater monthLater
        hclock hnow newest a1 a2 a3 a4 a5 a6 a7 a8 a9 a10 someRewards_comparable (by simp)
        (by simp [someRewards]) (by simp)
      exact ⟨_, hz⟩
  obtain ⟨x, hx⟩ := hsome
  have hx2 : computed powf sampleRange someRewards [] monthLater monthLater ⟨.procedural, [], []⟩ =
      some ((f32 powf).lit 0) := rfl
  have hmap : [(⟨.declarative, steady, changes⟩ : Practised), ⟨.procedural, [], []⟩].map
      (computed powf sampleRange someRewards [] monthLater monthLater) = [x, (f32 powf).lit 0].map some := by
    simp only [List.map_cons, List.map_nil, hx, hx2]
  have hle : lessonScore someRewards [] monthLater monthLater [(⟨.declarative, steady, changes⟩ : Practised), ⟨.procedural, [], []⟩] ≤ 5 / 2 := by
    have h1 := (documented_range someRewards [] monthLater monthLater ⟨.declarative, steady, changes⟩).2
    have h2 : documented someRewards [] monthLater monthLater ⟨.procedural, [], []⟩ = 0 := rfl
    unfold lessonScore
    simp only [List.map_cons, List.map_nil, List.sum_cons, List.sum_nil, h2, List.length_cons, List.length_nil]
    norm_num
    linarith
  refine ⟨_, hmap, ?_⟩
  rw [machine_lesson_passes hp hclock hnow someRewards [] someRewards_comparable (by simp)
    (by simp [someRewards]) (by simp) _ hrest (by simp) (by simp) _ hmap (by norm_num) (by norm_num)
    (by rw [lt_abs]; right; linarith)]
  rintro ⟨h, -⟩
  linarith

/-- The hypotheses for courses are met by a course of one lesson that was never tried; it does not pass. -/
example (hp : Faithful powf) : ¬ gPasses (f32 powf) (.num 3) ((f32 powf).lit ((180 : ℕ) / 100))
    (some (gMean (f32 powf) [gMean (f32 powf) [(f32 powf).lit 0]]))
    (some (gCourseTrials (f32 powf) ([(⟨[⟨.procedural, [], []⟩], []⟩ : LessonData)].map fun l => trialCounts l.exercises))) = true := by
  have hclock : Clock sampleRange monthLater :=
    ⟨by norm_num [monthLater], fun t h => (of_decide_eq_true h).trans (by norm_num)⟩
  have hnow : Safe monthLater := ⟨by norm_num [monthLater], by norm_num [monthLater]⟩
  have h2 : documented [] [] monthLater monthLater ⟨.procedural, [], []⟩ = 0 := rfl
  have hX : (0 : ℝ) = ([(⟨[⟨.procedural, [], []⟩], []⟩ : LessonData)].map (fun l =>
      lessonScore [] l.rewards monthLater monthLater l.exercises)).sum / ([(⟨[⟨.procedural, [], []⟩], []⟩ : LessonData)].length : ℝ) := by
    simp [lessonScore, h2]
  rw [machine_course_passes hp hclock hnow [] (by simp) (by simp) [⟨[⟨.procedural, [], []⟩], []⟩] (by simp) (by simp) ?_ _
    (List.Forall₂.cons ⟨[(f32 powf).lit 0], rfl, rfl⟩ List.Forall₂.nil) (by norm_num) (by norm_num) hX rfl
    (by norm_num [lt_abs]) (by norm_num [courseAverage, trialCounts, le_abs])]
  · rintro ⟨h, -⟩
    linarith
  · intro l hl
    rw [List.mem_singleton.1 hl]
    exact ⟨by simp, by simp, by intro e he; rw [List.mem_singleton.1 he]; exact Or.inl rfl, by simp, by simp⟩

end Trane.Float
