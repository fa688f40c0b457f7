import Verif.Data.Options

/-! # C46 and C57: options and grades -/

namespace Trane

/-! ### C57 -/

/-- C57: every grade has its number 1 to 5 and converts back to itself. -/
theorem grade_round_trip (g : MasteryScore) :
    MasteryScore.ofFloat g.toFloat = some g ∧ g.toFloat ∈ [(1 : ℚ), 2, 3, 4, 5] := by
  cases g <;> decide +kernel

/-- C57: a number converts to a grade exactly when it is within the float epsilon of the grade's
number, so every number further away from 1 to 5 is rejected. -/
theorem grade_of_number_iff (s : ℚ) (g : MasteryScore) :
    MasteryScore.ofFloat s = some g ↔ |s - g.toFloat| < f32Epsilon := by
  have eps : f32Epsilon ≤ 1 / 4 := by unfold f32Epsilon; norm_num
  unfold MasteryScore.ofFloat
  constructor
  · intro h
    split_ifs at h <;> (cases h; simpa [MasteryScore.toFloat])
  · intro h
    cases g <;> simp only [MasteryScore.toFloat] at h <;> rw [abs_lt] at h
    · rw [if_pos (by rw [abs_lt]; exact h)]
    · rw [if_neg (by rw [abs_lt]; rintro ⟨a, b⟩; linarith), if_pos (by rw [abs_lt]; exact h)]
    · rw [if_neg (by rw [abs_lt]; rintro ⟨a, b⟩; linarith),
        if_neg (by rw [abs_lt]; rintro ⟨a, b⟩; linarith), if_pos (by rw [abs_lt]; exact h)]
    · rw [if_neg (by rw [abs_lt]; rintro ⟨a, b⟩; linarith),
        if_neg (by rw [abs_lt]; rintro ⟨a, b⟩; linarith),
        if_neg (by rw [abs_lt]; rintro ⟨a, b⟩; linarith), if_pos (by rw [abs_lt]; exact h)]
    · rw [if_neg (by rw [abs_lt]; rintro ⟨a, b⟩; linarith),
        if_neg (by rw [abs_lt]; rintro ⟨a, b⟩; linarith),
        if_neg (by rw [abs_lt]; rintro ⟨a, b⟩; linarith),
        if_neg (by rw [abs_lt]; rintro ⟨a, b⟩; linarith), if_pos (by rw [abs_lt]; exact h)]

/-- Numbers in between are rejected. -/
example : MasteryScore.ofFloat (5 / 2) = none ∧ MasteryScore.ofFloat 0 = none ∧
    MasteryScore.ofFloat (3 + 1 / 2 ^ 24) = some .three := by decide +kernel

/-! ### C46 -/

/-- Passing options with all values in range. -/
def PassingOk (o : PassingScoreOptions) : Prop :=
  (0 ≤ o.minScore ∧ o.minScore < 4) ∧ (0 ≤ o.minFraction ∧ o.minFraction ≤ 1) ∧ 1 ≤ o.minAvgTrials

theorem passing_verify_iff (o : PassingScoreOptions) : o.verify = true ↔ PassingOk o := by
  unfold PassingScoreOptions.verify PassingOk fullCandidatesScore
  constructor
  · intro h
    split_ifs at h with h1 h2 h3
    push Not at h1 h2 h3
    exact ⟨h1, h2, h3⟩
  · rintro ⟨h1, h2, h3⟩
    rw [if_neg (by push Not; exact h1), if_neg (by push Not; exact h2), if_neg (by push Not; exact h3)]

/-- `a` and `b` are the same number up to the float epsilon. -/
def Near (a b : ℚ) : Prop := |a - b| < 1 / 2 ^ 23

/-- C46: verification accepts exactly the options with a positive batch size and lesson cap,
fractions and passing options in range, percentages adding up to one, and windows from 0 to 5 each
starting where the previous one ends (numbers compared up to the float epsilon). -/
theorem options_verify_iff (o : SchedulerOptions) : o.verify = true ↔
    0 < o.batchSize ∧ 0 < o.maxLessonsInProgress ∧
    (0 ≤ o.relearnFraction ∧ o.relearnFraction ≤ 1) ∧ PassingOk o.passing ∧
    Near (o.masteredWindow.percentage + o.easyWindow.percentage + o.currentWindow.percentage +
      o.targetWindow.percentage + o.newWindow.percentage) 1 ∧
    Near o.newWindow.lo 0 ∧ Near o.newWindow.hi o.targetWindow.lo ∧
    Near o.targetWindow.hi o.currentWindow.lo ∧ Near o.currentWindow.hi o.easyWindow.lo ∧
    Near o.easyWindow.hi o.masteredWindow.lo ∧ Near o.masteredWindow.hi 5 := by
  have fe : ∀ a b, floatEquals a b = true ↔ Near a b := by
    intro a b; simp [floatEquals, Near, f32Epsilon]
  unfold SchedulerOptions.verify
  rw [← passing_verify_iff]
  simp only [← fe]
  constructor
  · intro h
    split_ifs at h with h1 h2 h3 h4 h5 h6 h7 h8
    push Not at h2
    simp only [Bool.or_eq_true, Bool.not_eq_true', not_or, Bool.not_eq_false] at h3 h4 h5 h6 h7
    exact ⟨Nat.pos_of_ne_zero h1, Nat.pos_of_ne_zero h8, h2, h3, h4, h5, h7.1.1.1, h7.1.1.2, h7.1.2,
      h7.2, h6⟩
  · rintro ⟨h1, h8, h2, h3, h4, h5, h71, h72, h73, h74, h6⟩
    rw [if_neg (by omega), if_neg (by push Not; exact h2), h3, h4, h5, h6, h71, h72, h73, h74]
    simp
    omega

/-- The default options are accepted. -/
theorem default_options_accepted : SchedulerOptions.default.verify = true := by decide +kernel

/-- Verification does not compare the two ends of a window: it accepts options with inverted windows
(here the target window goes from 4 down to 1), whose scores then fall into several windows at once. -/
theorem inverted_windows_accepted : ∃ o : SchedulerOptions, o.verify = true ∧
    o.targetWindow.hi < o.targetWindow.lo ∧ o.newWindow.inWindow 2 = true ∧
    o.currentWindow.inWindow 2 = true := by
  refine ⟨{ SchedulerOptions.default with
    newWindow := ⟨1 / 5, 0, 4⟩, targetWindow := ⟨1 / 5, 4, 1⟩, currentWindow := ⟨3 / 10, 1, 15 / 4⟩ },
    ?_⟩
  decide +kernel

/-! ### C39 -/

/-- The five mastery windows. -/
def SchedulerOptions.windows (o : SchedulerOptions) : List MasteryWindow :=
  [o.newWindow, o.targetWindow, o.currentWindow, o.easyWindow, o.masteredWindow]

/-- The windows run from 0 to 5 without gap, none is reversed and the last one is not empty. -/
structure OrderedWindows (o : SchedulerOptions) : Prop where
  start : o.newWindow.lo = 0
  a : o.newWindow.hi = o.targetWindow.lo
  b : o.targetWindow.hi = o.currentWindow.lo
  c : o.currentWindow.hi = o.easyWindow.lo
  d : o.easyWindow.hi = o.masteredWindow.lo
  stop : o.masteredWindow.hi = 5
  new : o.newWindow.lo ≤ o.newWindow.hi
  target : o.targetWindow.lo ≤ o.targetWindow.hi
  current : o.currentWindow.lo ≤ o.currentWindow.hi
  easy : o.easyWindow.lo ≤ o.easyWindow.hi
  mastered : o.masteredWindow.lo < o.masteredWindow.hi

theorem in_window_iff (w : MasteryWindow) (s : ℚ) :
    w.inWindow s = true ↔ (5 ≤ w.hi ∧ 5 ≤ s) ∨ (w.lo ≤ s ∧ s < w.hi) := by
  unfold MasteryWindow.inWindow
  split
  · rename_i h; simp [h.1, h.2]
  · rename_i h
    simp only [Bool.and_eq_true, decide_eq_true_eq]
    constructor
    · exact Or.inr
    · rintro (h' | h')
      · exact (h h').elim
      · exact h'

/-- C39 (partial: bounds meet exactly, not up to the float epsilon, and the last window is not empty).
Every score from 0 to 5 is in exactly one window. -/
theorem one_window_partial (o : SchedulerOptions) (h : OrderedWindows o) (s : ℚ) (h0 : 0 ≤ s)
    (h5 : s ≤ 5) : o.windows.countP (fun w => w.inWindow s) = 1 := by
  obtain ⟨h1, h2, h3, h4, h6, h7, h8, h9, h10, h11, h12⟩ := h
  have key : ∀ (w : MasteryWindow) (P : Prop) [Decidable P], (w.inWindow s = true ↔ P) →
      w.inWindow s = decide P := by
    intro w P _ hP
    by_cases hp : P
    · simp [hp, hP.2 hp]
    · simp only [hp, decide_false]
      by_contra hc
      exact hp (hP.1 (by simpa using hc))
  have e1 := key o.newWindow (s < o.targetWindow.lo) (by
    rw [in_window_iff, h1, h2]
    constructor
    · rintro (⟨a, b⟩ | ⟨a, b⟩) <;> linarith
    · intro h; exact Or.inr ⟨h0, h⟩)
  have e2 := key o.targetWindow (o.targetWindow.lo ≤ s ∧ s < o.currentWindow.lo) (by
    rw [in_window_iff, h3]
    constructor
    · rintro (⟨a, b⟩ | ⟨a, b⟩)
      · exfalso; linarith
      · exact ⟨a, b⟩
    · intro h; exact Or.inr h)
  have e3 := key o.currentWindow (o.currentWindow.lo ≤ s ∧ s < o.easyWindow.lo) (by
    rw [in_window_iff, h4]
    constructor
    · rintro (⟨a, b⟩ | ⟨a, b⟩)
      · exfalso; linarith
      · exact ⟨a, b⟩
    · intro h; exact Or.inr h)
  have e4 := key o.easyWindow (o.easyWindow.lo ≤ s ∧ s < o.masteredWindow.lo) (by
    rw [in_window_iff, h6]
    constructor
    · rintro (⟨a, b⟩ | ⟨a, b⟩)
      · exfalso; linarith
      · exact ⟨a, b⟩
    · intro h; exact Or.inr h)
  have e5 := key o.masteredWindow (o.masteredWindow.lo ≤ s) (by
    rw [in_window_iff, h7]
    constructor
    · rintro (⟨a, b⟩ | ⟨a, b⟩) <;> linarith
    · intro h
      by_cases h' : 5 ≤ s
      · exact Or.inl ⟨le_refl _, h'⟩
      · exact Or.inr ⟨h, not_le.1 h'⟩)
  simp only [SchedulerOptions.windows, List.countP_cons, List.countP_nil, e1, e2, e3, e4, e5,
    decide_eq_true_eq]
  rcases lt_or_ge s o.targetWindow.lo with c1 | c1 <;> rcases lt_or_ge s o.currentWindow.lo with c2 | c2 <;>
    rcases lt_or_ge s o.easyWindow.lo with c3 | c3 <;> rcases lt_or_ge s o.masteredWindow.lo with c4 | c4 <;>
    first
    | (exfalso; linarith)
    | (have := not_le.2 c1; have := not_le.2 c2; have := not_le.2 c3; have := not_le.2 c4; simp [*])
    | (have := not_lt.2 c1; have := not_le.2 c2; have := not_le.2 c3; have := not_le.2 c4; simp [*])
    | (have := not_lt.2 c1; have := not_lt.2 c2; have := not_le.2 c3; have := not_le.2 c4; simp [*])
    | (have := not_lt.2 c1; have := not_lt.2 c2; have := not_lt.2 c3; have := not_le.2 c4; simp [*])
    | (have := not_lt.2 c1; have := not_lt.2 c2; have := not_lt.2 c3; have := not_lt.2 c4; simp [*])

/-- The default options meet the hypothesis. -/
theorem default_ordered : OrderedWindows .default := by
  constructor <;> decide +kernel

/-- C39 is false for accepted options whose bounds only meet up to the float epsilon: a score may be in
no window, so its exercise is never selected, or in two, so it may be selected twice. -/
theorem window_gap_accepted : ∃ o : SchedulerOptions, o.verify = true ∧
    (∀ w ∈ o.windows, w.lo < w.hi) ∧ ∃ s, 0 ≤ s ∧ s ≤ 5 ∧ o.windows.countP (fun w => w.inWindow s) = 0 :=
  ⟨{ SchedulerOptions.default with newWindow := ⟨1 / 5, 1 / 2 ^ 24, 1 / 10⟩ }, by decide +kernel,
    by decide +kernel, 0, by decide +kernel, by decide +kernel, by decide +kernel⟩

theorem window_overlap_accepted : ∃ o : SchedulerOptions, o.verify = true ∧
    (∀ w ∈ o.windows, w.lo < w.hi) ∧ ∃ s, 0 ≤ s ∧ s ≤ 5 ∧ o.windows.countP (fun w => w.inWindow s) = 2 :=
  ⟨{ SchedulerOptions.default with newWindow := ⟨1 / 5, 0, 1 / 10 + 1 / 2 ^ 24⟩ }, by decide +kernel,
    by decide +kernel, 1 / 10, by decide +kernel, by decide +kernel, by decide +kernel⟩

/-- C39 is false for accepted options with an empty last window: a score of 5 is in two windows. -/
theorem empty_mastered_window : ∃ o : SchedulerOptions, o.verify = true ∧
    (∀ w ∈ o.windows, w.lo ≤ w.hi) ∧ o.windows.countP (fun w => w.inWindow 5) = 2 :=
  ⟨{ SchedulerOptions.default with easyWindow := ⟨1 / 5, 15 / 4, 5⟩, masteredWindow := ⟨1 / 10, 5, 5⟩ },
    by decide +kernel, by decide +kernel, by decide +kernel⟩

end Trane
