import Verif.Float.FinalProps

/-!
# Scores of lessons and courses in `f32` arithmetic

The scores of a lesson and of a course are averages.  Here they are compared with the averages of the documented scores
of the exercises.
-/

namespace Trane.Float

open Trane.Scorer (Kind Entry)
open Trane.Formula (Safe)

variable {powf : F → F → F}

/-- A machine number within `ε` of `X`. -/
def Within (ε : ℝ) (x : F) (X : ℝ) : Prop := ∃ z, x = .num z ∧ |z - X| ≤ ε

theorem sum_within {ε : ℝ} (hε : ε ≤ 1 / 2) (hε0 : 0 ≤ ε) (xs : List F) (Xs : List ℝ) (h : List.Forall₂ (Within ε) xs Xs)
    (hX : ∀ X ∈ Xs, 0 ≤ X ∧ X ≤ 5) : ∀ (i : ℕ) (s : F) (S : ℝ), i + xs.length ≤ 4096 → 0 ≤ S → S ≤ 5 * i →
      Within (i * ε + 3 * i * (i + 1) / 2 ^ 24) s S →
      Within ((i + xs.length : ℕ) * ε + 3 * (i + xs.length : ℕ) * ((i + xs.length : ℕ) + 1) / 2 ^ 24)
        (xs.foldl F.add s) (S + Xs.sum) := by
  induction h with
  | nil => intro i s S _ _ _ hs; simpa using hs
  | @cons x X xs Xs hx _ ih =>
    intro i s S hi hS0 hS hs
    obtain ⟨z, rfl, hz⟩ := hx
    obtain ⟨t, rfl, ht⟩ := hs
    obtain ⟨hX0, hX5⟩ := hX X (by simp)
    simp only [List.length_cons] at hi
    have hir : (i : ℝ) ≤ 4096 := by exact_mod_cast (by omega : i ≤ 4096)
    have hi0 : (0 : ℝ) ≤ i := Nat.cast_nonneg i
    have bz := abs_le.1 hz
    have bt := abs_le.1 ht
    have hii : (i : ℝ) * ε ≤ i * (1 / 2) := mul_le_mul_of_nonneg_left hε hi0
    have hiε : 0 ≤ (i : ℝ) * ε := mul_nonneg hi0 hε0
    have hi2 : (i : ℝ) * (i + 1) ≤ 4096 * (i + 1) := mul_le_mul_of_nonneg_right hir (by linarith)
    have hq : 3 * (i : ℝ) * (i + 1) / 2 ^ 24 ≤ 1 / 2 * (i + 1) := by
      rw [div_le_iff₀ (by norm_num)]
      have : 3 * (i : ℝ) * (i + 1) = 3 * (i * (i + 1)) := by ring
      rw [this]
      norm_num
      linarith
    have hsum : |t + z| ≤ 6 * (i + 1) := abs_le.2 ⟨by linarith, by linarith⟩
    obtain ⟨y, hy, hyn⟩ := round_near_abs hsum (by norm_num; linarith) (by norm_num; linarith)
    have by' := abs_le.1 hyn
    have := ih (fun Y hY => hX Y (by simp [hY])) (i + 1) (.num y) (S + X) (by omega) (by linarith)
      (by push_cast; linarith) ⟨y, rfl, by
        have e : 3 * ((i : ℝ) + 1) * (i + 1 + 1) / 2 ^ 24 = 3 * i * (i + 1) / 2 ^ 24 + 6 * (i + 1) / 2 ^ 24 := by ring
        push_cast
        rw [e]
        exact abs_le.2 ⟨by linarith, by linarith⟩⟩
    rw [List.foldl_cons, List.length_cons, List.sum_cons, ← add_assoc S X,
      show i + (xs.length + 1) = i + 1 + xs.length by omega]
    have hadd : F.add (.num t) (.num z) = .num y := hy
    rw [hadd]
    exact this

/-- **C124, averages**: the average of `n` scores, each within `ε` of a number from 0 to 5, is within `ε + (n + 4) / 2 ^ 22`
of the average of the numbers. -/
theorem machine_mean_matches {ε : ℝ} (hε0 : 0 ≤ ε) (hε : ε ≤ 1 / 2) (xs : List F) (Xs : List ℝ)
    (h : List.Forall₂ (Within ε) xs Xs) (hX : ∀ X ∈ Xs, 0 ≤ X ∧ X ≤ 5) (hne : Xs ≠ []) (hn : Xs.length ≤ 4096) :
    Within (ε + (Xs.length + 4) / 2 ^ 22) (gMean (f32 powf) xs) (Xs.sum / Xs.length) := by
  have hlen := h.length_eq
  have hs := sum_within hε hε0 xs Xs h hX 0 (.num 0) 0 (by omega) le_rfl (by simp) ⟨0, rfl, by simp⟩
  rw [Nat.zero_add, zero_add, hlen] at hs
  obtain ⟨t, ht, htn⟩ := hs
  have hpos : 0 < Xs.length := List.length_pos_iff.2 hne
  have hn1 : (1 : ℝ) ≤ Xs.length := by exact_mod_cast hpos
  have hn2 : (Xs.length : ℝ) ≤ 4096 := by exact_mod_cast hn
  have hofInt : (f32 powf).ofInt xs.length = .num (Xs.length : ℝ) := by
    show F.round _ = _
    rw [hlen]
    have := round_bd (bd_int (x := (Xs.length : ℝ)) (Xs.length : ℤ) (by push_cast; rfl)
      (by rw [abs_of_nonneg (by omega)]; omega))
    simpa using this
  have hS : 0 ≤ Xs.sum ∧ Xs.sum ≤ 5 * Xs.length := by
    clear ht htn hofInt hpos hn1 hn2 hne hn hlen h
    induction Xs with
    | nil => simp
    | cons X Xs ih =>
      have h1 := hX X (by simp)
      have h2 := ih (fun Y hY => hX Y (by simp [hY]))
      rw [List.sum_cons, List.length_cons]
      push_cast
      exact ⟨by linarith, by linarith⟩
  generalize (Xs.length : ℝ) = n at *
  generalize Xs.sum = S at *
  have hdiff : |t / n - S / n| ≤ ε + 3 * (n + 1) / 2 ^ 24 := by
    rw [← sub_div, abs_div, abs_of_pos (by linarith : 0 < n), div_le_iff₀ (by linarith)]
    refine htn.trans (le_of_eq ?_)
    ring
  have hSn : |S / n| ≤ 5 := by
    rw [abs_of_nonneg (div_nonneg hS.1 (by linarith)), div_le_iff₀ (by linarith)]
    exact hS.2
  have htn7 : |t / n| ≤ 7 := by
    have e : t / n = (t / n - S / n) + S / n := by ring
    rw [e]
    refine (abs_add_le _ _).trans ?_
    have : 3 * (n + 1) / 2 ^ 24 ≤ 1 := by norm_num; linarith
    linarith
  obtain ⟨y, hy, hyn⟩ := round_near_abs htn7 (by norm_num) (by norm_num)
  refine ⟨y, ?_, ?_⟩
  · unfold gMean
    rw [lit0, hofInt]
    have : xs.foldl (f32 powf).add (.num 0) = .num t := ht
    rw [this]
    show (if n = 0 then _ else F.round (t / n)) = _
    rw [if_neg (by linarith), hy]
  · have e : y - S / n = (y - t / n) + (t / n - S / n) := by ring
    rw [e]
    refine (abs_add_le _ _).trans ((add_le_add hyn hdiff).trans ?_)
    norm_num
    linarith

/-! ## Lessons and courses -/

/-- What is stored about an exercise. -/
structure Practised where
  kind : Kind
  trials : List (GEntry ℝ)
  deltas : List (GEntry ℝ)

/-- An exercise that was never tried, or one that C123 is about. -/
def Regular (now : ℤ) (e : Practised) : Prop :=
  e.trials = [] ∨ ∃ newest, e.trials.head? = some newest ∧ Sorted e.trials ∧ Sorted e.deltas ∧
    (∀ x ∈ e.trials, ∃ n : ℤ, x.value = n ∧ 3 ≤ n ∧ n ≤ 5) ∧ (∀ x ∈ e.deltas, |x.value| ≤ 5) ∧
    (∀ x ∈ e.trials, Safe x.time) ∧ (∀ x ∈ e.deltas, Safe x.time) ∧ e.trials.length ≤ 20 ∧ e.deltas.length ≤ 20 ∧
    (e.trials.length < 2 ∨ Formula.daysAfter now newest.time < 50 ∨
      1 / 10000 ≤ |Formula.average (e.trials.map toEntry) - 4|)

/-- The score the machine computes for an exercise. -/
noncomputable def computed (powf : F → F → F) (inRange : ℤ → Bool) (course lesson : List (GReward ℝ)) (now today : ℤ)
    (e : Practised) : Option F :=
  gExerciseScore (f32 powf) inRange e.kind (stored e.trials) (stored e.deltas) (storedRewards course)
    (storedRewards lesson) now today

/-- The documented score of an exercise. -/
noncomputable def documented (course lesson : List (GReward ℝ)) (now today : ℤ) (e : Practised) : ℝ :=
  Formula.final e.kind now today (e.trials.map toEntry) (e.deltas.map toEntry) (course.map toReward)
    (lesson.map toReward)

theorem documented_range (course lesson : List (GReward ℝ)) (now today : ℤ) (e : Practised) :
    0 ≤ documented course lesson now today e ∧ documented course lesson now today e ≤ 5 := by
  have hw : ∀ x, 0 ≤ Formula.within 0 5 x ∧ Formula.within 0 5 x ≤ 5 := fun x =>
    ⟨le_max_left _ _, max_le (by norm_num) (min_le_left _ _)⟩
  unfold documented Formula.final
  cases e.trials with
  | nil => simp
  | cons a l =>
    simp only [List.map_cons]
    split
    · exact hw _
    · exact hw _

theorem computed_within (hp : Faithful powf) {inRange : ℤ → Bool} {now today : ℤ} (hc : Clock inRange today)
    (hn : Safe now) (course lesson : List (GReward ℝ)) (h1 : ∀ r ∈ course, Comparable inRange today r)
    (h2 : ∀ r ∈ lesson, Comparable inRange today r) (hl1 : course.length ≤ 20) (hl2 : lesson.length ≤ 20)
    {e : Practised} (he : Regular now e) {x : F} (hx : computed powf inRange course lesson now today e = some x) :
    Within (1 / 900) x (documented course lesson now today e) := by
  rcases he with he | ⟨newest, a1, a2, a3, a4, a5, a6, a7, a8, a9, a10⟩
  · unfold computed gExerciseScore at hx
    unfold documented
    rw [he] at hx ⊢
    have h0 : gApplyReward (f32 powf) today (gScoreRewards (f32 powf) inRange today (storedRewards course)
        (storedRewards lesson)) (stored []) = false := rfl
    have hs : gScore (f32 powf) e.kind (stored []) (stored e.deltas) now =
        some ⟨(f32 powf).lit 0, (f32 powf).lit 1, none⟩ := rfl
    rw [hs] at hx
    simp only [Option.map_some, h0, Bool.false_eq_true, if_false, Option.some.injEq] at hx
    rw [lit0] at hx
    exact ⟨0, hx.symm, by simp [Formula.final]⟩
  · obtain ⟨z, hz, hzn⟩ := machine_final_matches hp e.kind e.trials e.deltas course lesson now today hc hn newest a1 a2
      a3 a4 a5 a6 a7 a8 a9 a10 h1 h2 hl1 hl2
    unfold computed at hx
    rw [hz] at hx
    cases hx
    exact ⟨z, rfl, hzn⟩

theorem all_within (hp : Faithful powf) {inRange : ℤ → Bool} {now today : ℤ} (hc : Clock inRange today)
    (hn : Safe now) (course lesson : List (GReward ℝ)) (h1 : ∀ r ∈ course, Comparable inRange today r)
    (h2 : ∀ r ∈ lesson, Comparable inRange today r) (hl1 : course.length ≤ 20) (hl2 : lesson.length ≤ 20)
    (es : List Practised) (he : ∀ e ∈ es, Regular now e) (xs : List F)
    (hx : es.map (computed powf inRange course lesson now today) = xs.map some) :
    List.Forall₂ (Within (1 / 900)) xs (es.map (documented course lesson now today)) := by
  induction es generalizing xs with
  | nil =>
    cases xs with
    | nil => exact .nil
    | cons x xs => simp at hx
  | cons e es ih =>
    cases xs with
    | nil => simp at hx
    | cons x xs =>
      simp only [List.map_cons, List.cons.injEq] at hx
      exact .cons (computed_within hp hc hn course lesson h1 h2 hl1 hl2 (he e (by simp)) hx.1)
        (ih (fun y hy => he y (by simp [hy])) xs hx.2)

/-- The documented score of a lesson: the average of its exercises. -/
noncomputable def lessonScore (course lesson : List (GReward ℝ)) (now today : ℤ) (es : List Practised) : ℝ :=
  (es.map (documented course lesson now today)).sum / es.length

/-- **C124, lessons**: the score that the machine computes for a lesson with at most a thousand exercises differs from
the average of their documented scores by at most 1/700. -/
theorem machine_lesson_matches (hp : Faithful powf) {inRange : ℤ → Bool} {now today : ℤ} (hc : Clock inRange today)
    (hn : Safe now) (course lesson : List (GReward ℝ)) (h1 : ∀ r ∈ course, Comparable inRange today r)
    (h2 : ∀ r ∈ lesson, Comparable inRange today r) (hl1 : course.length ≤ 20) (hl2 : lesson.length ≤ 20)
    (es : List Practised) (he : ∀ e ∈ es, Regular now e) (hne : es ≠ []) (hlen : es.length ≤ 1000) (xs : List F)
    (hx : es.map (computed powf inRange course lesson now today) = xs.map some) :
    Within (1 / 700) (gMean (f32 powf) xs) (lessonScore course lesson now today es) := by
  have h := machine_mean_matches (powf := powf) (by norm_num) (by norm_num) xs _
    (all_within hp hc hn course lesson h1 h2 hl1 hl2 es he xs hx)
    (fun X hX => by
      obtain ⟨e, -, rfl⟩ := List.mem_map.1 hX
      exact documented_range _ _ _ _ e) (by simpa using hne) (by simp; omega)
  rw [List.length_map] at h
  obtain ⟨z, hz, hzn⟩ := h
  refine ⟨z, hz, hzn.trans ?_⟩
  have : (es.length : ℝ) ≤ 1000 := by exact_mod_cast hlen
  norm_num
  linarith

theorem lessonScore_range (course lesson : List (GReward ℝ)) (now today : ℤ) (es : List Practised) (hne : es ≠ []) :
    0 ≤ lessonScore course lesson now today es ∧ lessonScore course lesson now today es ≤ 5 := by
  have hpos : (0 : ℝ) < es.length := by exact_mod_cast List.length_pos_iff.2 hne
  have hS : 0 ≤ (es.map (documented course lesson now today)).sum ∧
      (es.map (documented course lesson now today)).sum ≤ 5 * es.length := by
    clear hne hpos
    induction es with
    | nil => simp
    | cons e es ih =>
      have h := documented_range course lesson now today e
      rw [List.map_cons, List.sum_cons, List.length_cons]
      push_cast
      exact ⟨by linarith, by linarith⟩
  unfold lessonScore
  exact ⟨div_nonneg hS.1 hpos.le, by rw [div_le_iff₀ hpos]; exact hS.2⟩

/-- A lesson of a course: its exercises and its rewards. -/
structure LessonData where
  exercises : List Practised
  rewards : List (GReward ℝ)

/-- A lesson that `machine_lesson_matches` is about. -/
def RegularLesson (inRange : ℤ → Bool) (now today : ℤ) (l : LessonData) : Prop :=
  l.exercises ≠ [] ∧ l.exercises.length ≤ 1000 ∧ (∀ e ∈ l.exercises, Regular now e) ∧ l.rewards.length ≤ 20 ∧
    ∀ r ∈ l.rewards, Comparable inRange today r

/-- **C124, courses**: the score that the machine computes for a course with at most a thousand lessons of this kind
differs from the average of the documented scores of its lessons by at most 1/590.  Each number in `ys` is what the
machine computes for the lesson at the same position. -/
theorem machine_course_matches (hp : Faithful powf) {inRange : ℤ → Bool} {now today : ℤ} (hc : Clock inRange today)
    (hn : Safe now) (course : List (GReward ℝ)) (h1 : ∀ r ∈ course, Comparable inRange today r)
    (hl1 : course.length ≤ 20) (lessons : List LessonData) (hne : lessons ≠ []) (hlen : lessons.length ≤ 1000)
    (hreg : ∀ l ∈ lessons, RegularLesson inRange now today l) (ys : List F)
    (hy : List.Forall₂ (fun y l => ∃ xs, l.exercises.map (computed powf inRange course l.rewards now today) =
      xs.map some ∧ y = gMean (f32 powf) xs) ys lessons) :
    Within (1 / 590) (gMean (f32 powf) ys)
      ((lessons.map (fun l => lessonScore course l.rewards now today l.exercises)).sum / lessons.length) := by
  have hall : List.Forall₂ (Within (1 / 700)) ys
      (lessons.map (fun l => lessonScore course l.rewards now today l.exercises)) := by
    clear hne hlen
    induction hy with
    | nil => exact .nil
    | @cons y l ys ls hyl _ ih =>
      obtain ⟨xs, hx, rfl⟩ := hyl
      obtain ⟨g1, g2, g3, g4, g5⟩ := hreg l (by simp)
      exact .cons (machine_lesson_matches hp hc hn course l.rewards h1 g5 hl1 g4 l.exercises g3 g1 g2 xs hx)
        (ih (fun m hm => hreg m (by simp [hm])))
  obtain ⟨z, hz, hzn⟩ := machine_mean_matches (powf := powf) (by norm_num) (by norm_num) ys _ hall
    (fun Y hY => by
      obtain ⟨l, hl, rfl⟩ := List.mem_map.1 hY
      exact lessonScore_range _ _ _ _ _ (hreg l hl).1) (by simpa using hne) (by simp; omega)
  rw [List.length_map] at hzn
  refine ⟨z, hz, hzn.trans ?_⟩
  have : (lessons.length : ℝ) ≤ 1000 := by exact_mod_cast hlen
  norm_num
  linarith

/-- Comparing such a score with a limit gives the documented answer, unless the documented score is within the error of
the limit. -/
theorem machine_limit_matches {ε : ℝ} {x : F} {X : ℝ} (h : Within ε x X) (limit : ℝ) (hfar : ε < |X - limit|) :
    F.le (.num limit) x = decide (limit ≤ X) := by
  obtain ⟨z, rfl, hz⟩ := h
  have b := abs_le.1 hz
  show decide (limit ≤ z) = decide (limit ≤ X)
  rcases le_or_gt limit X with hl | hl
  · rw [abs_of_nonneg (by linarith)] at hfar
    simp [hl, (by linarith : limit ≤ z)]
  · rw [abs_of_neg (by linarith)] at hfar
    simp [not_le.2 hl, (by linarith : z < limit)]

/-- The exercise of C123 and one that was never tried. -/
example (hp : Faithful powf) : ∃ xs,
    [⟨.declarative, steady, changes⟩, ⟨.procedural, [], []⟩].map
      (computed powf sampleRange someRewards [] monthLater monthLater) = xs.map some ∧
    Within (1 / 700) (gMean (f32 powf) xs) (lessonScore someRewards [] monthLater monthLater
      [⟨.declarative, steady, changes⟩, ⟨.procedural, [], []⟩]) := by
  have hsafe : ∀ t : ℤ, 0 ≤ t → t ≤ 2 ^ 40 → Safe t := fun t h1 h2 => ⟨by omega, by omega⟩
  have hclock : Clock sampleRange monthLater :=
    ⟨by norm_num [monthLater], fun t h => (of_decide_eq_true h).trans (by norm_num)⟩
  have hnow : Safe monthLater := hsafe _ (by norm_num [monthLater]) (by norm_num [monthLater])
  have hreg : Regular monthLater ⟨.declarative, steady, changes⟩ := by
    refine Or.inr ⟨⟨5, 1700000000 + 1728000⟩, rfl, ?_, ?_, ?_, ?_, ?_, ?_, ?_, ?_, Or.inr (Or.inl ?_)⟩
    · unfold Sorted steady; simp
    · unfold Sorted changes; simp
    · intro e he
      simp only [steady, List.mem_cons, List.not_mem_nil, or_false] at he
      rcases he with rfl | rfl | rfl
      · exact ⟨5, by norm_num, by norm_num, by norm_num⟩
      · exact ⟨3, by norm_num, by norm_num, by norm_num⟩
      · exact ⟨4, by norm_num, by norm_num, by norm_num⟩
    · intro e he
      simp only [changes, List.mem_cons, List.not_mem_nil, or_false] at he
      rcases he with rfl | rfl | rfl <;> rw [abs_le] <;> constructor <;> norm_num
    · intro e he
      simp only [steady, List.mem_cons, List.not_mem_nil, or_false] at he
      rcases he with rfl | rfl | rfl <;> exact hsafe _ (by norm_num) (by norm_num)
    · intro e he
      simp only [changes, List.mem_cons, List.not_mem_nil, or_false] at he
      rcases he with rfl | rfl | rfl <;> exact hsafe _ (by norm_num) (by norm_num)
    · show steady.length ≤ 20; unfold steady; simp
    · show changes.length ≤ 20; unfold changes; simp
    · unfold Formula.daysAfter monthLater
      norm_num
  have hrest : ∀ e ∈ [(⟨.declarative, steady, changes⟩ : Practised), ⟨.procedural, [], []⟩],
      Regular monthLater e := by
    intro e he
    simp only [List.mem_cons, List.not_mem_nil, or_false] at he
    rcases he with rfl | rfl
    · exact hreg
    · exact Or.inl rfl
  have hsome : ∃ x, computed powf sampleRange someRewards [] monthLater monthLater ⟨.declarative, steady, changes⟩ =
      some x := by
    rcases hreg with h | ⟨newest, a1, a2, a3, a4, a5, a6, a7, a8, a9, a10⟩
    · simp [steady] at h
    · obtain ⟨z, hz, -⟩ := machine_final_matches hp .declarative steady changes someRewards [] monthLater monthLater
        hclock hnow newest a1 a2 a3 a4 a5 a6 a7 a8 a9 a10 someRewards_comparable (by simp)
        (by simp [someRewards]) (by simp)
      exact ⟨_, hz⟩
  obtain ⟨x, hx⟩ := hsome
  have hx2 : computed powf sampleRange someRewards [] monthLater monthLater ⟨.procedural, [], []⟩ =
      some ((f32 powf).lit 0) := rfl
  have hmap : [(⟨.declarative, steady, changes⟩ : Practised), ⟨.procedural, [], []⟩].map
      (computed powf sampleRange someRewards [] monthLater monthLater) = [x, (f32 powf).lit 0].map some := by
    simp only [List.map_cons, List.map_nil, hx, hx2]
  exact ⟨_, hmap, machine_lesson_matches hp hclock hnow someRewards [] someRewards_comparable (by simp)
    (by simp [someRewards]) (by simp) _ hrest (by simp) (by simp) _ hmap⟩

end Trane.Float
