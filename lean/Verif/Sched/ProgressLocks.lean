import Verif.Sched.ProgressSample

/-!
# C105: material that stays locked although everything on offer is mastered

Each of these libraries opens without an error.
-/

namespace Trane.Search
open Trane.Graph
open Trane.UnitScorer
open Relation (TransGen ReflTransGen)

theorem dependsOn_of {g : Graph Nat} {u d : Nat} {s : List Nat} (h : g.getDependencies u = some s) :
    DependsOn g u d ↔ d ∈ s := by
  constructor
  · rintro ⟨s', hs, hd⟩
    rw [h] at hs; cases hs; exact hd
  · exact fun hd => ⟨s, h, hd⟩

theorem startsWith_of {g : Graph Nat} {c l : Nat} (h : CourseStartsWith g c l) :
    c ∈ g.startingLessons.keys ∧ l ∈ (g.getStartingLessons c).getD [] := by
  obtain ⟨s, hs, hl⟩ := h
  exact ⟨(AMap.mem_keys_iff _ _).2 ⟨_, hs⟩, by rw [hs]; exact hl⟩

/-- A lesson that reaches the passing values. -/
def mastered (e : Env Nat) (l : Nat) : Bool :=
  let scores := (e.validInLesson l).map (fun x => ((e.score x).getD none).getD 0)
  !(e.validInLesson l).isEmpty && decide (e.opts.passing.minScore ≤ scores.sum / (scores.length : ℚ)) &&
  (((e.score l).getD none).any (fun s => decide (e.opts.passing.minScore ≤ s))) &&
  ((e.trials l).any (fun n => decide (e.opts.passing.minAvgTrials ≤ n)))

theorem mastered_done {e : Env Nat} (he : Sane e) {l : Nat} (h : mastered e l = true) :
    Satisfied e l ∧ LessonPassed e l := by
  unfold mastered at h
  simp only [Bool.and_eq_true, decide_eq_true_eq, Option.any_eq_true, Bool.not_eq_true', List.isEmpty_eq_false_iff] at h
  obtain ⟨⟨⟨h1, h2⟩, s, h3, h4⟩, n, h5, h6⟩ := h
  have hs : e.score l = some (some s) := by
    cases hx : e.score l with
    | none => rw [hx] at h3; simp at h3
    | some v => rw [hx] at h3; exact congrArg some h3
  refine ⟨.inr (.inr (.inr (.inr (.inr (.inr ⟨s, n, hs, h5, h4, h6⟩))))), .inr (.inr ?_)⟩
  refine ⟨_, n, ⟨e.validInLesson l, h1, validInLesson_nodup he l, mem_validInLesson he l, rfl⟩, h5, .inl ⟨?_, h6⟩⟩
  rw [List.length_map] at h2
  exact h2

/-- Unsatisfied. -/
theorem not_satisfied {e : Env Nat} {t : Nat} {s n : ℚ} (hb : ∀ u, e.black u = false)
    (hsup : e.superseded t = false) (hs : e.score t = some (some s)) (hn : e.trials t = some n)
    (h : s < e.opts.passing.minScore ∨ n < e.opts.passing.minAvgTrials) : ¬ Satisfied e t := by
  rintro (h1 | ⟨c, _, h1⟩ | h1 | h1 | h1 | h1 | ⟨s', n', h1, h2, h3, h4⟩)
  · rw [hb] at h1; simp at h1
  · rw [hb] at h1; simp at h1
  · rw [hsup] at h1; simp at h1
  · rw [hs] at h1; simp at h1
  · rw [hs] at h1; simp at h1
  · rw [hn] at h1; simp at h1
  · rw [hs] at h1; cases h1
    rw [hn] at h2; cases h2
    rcases h with h | h <;> linarith

theorem locked_by {e : Env Nat} {u d : Nat} (h : DependsOn e.graph u d) (hd : ¬ Satisfied e d) :
    ¬ Unlocked e none u := fun hu => hd (hu d h d (.self trivial))

/-- Course 1 has lesson 10 and lesson 11; lesson 11 depends on lesson 10 and on lesson 20 of course 2, and
course 2 depends on course 1. -/
def loopOps : List (Op Nat) :=
  [.addCourse 1, .addDependencies 1 .course [], .addLesson 10 1, .addDependencies 10 .lesson [],
   .addExercise 100 10, .addLesson 11 1, .addDependencies 11 .lesson [10, 20], .addExercise 110 11,
   .addCourse 2, .addDependencies 2 .course [1], .addLesson 20 2, .addDependencies 20 .lesson [],
   .addExercise 200 20, .updateStartingLessons]

theorem loop_sane (stats : Nat → ℚ × Nat) : Sane (practised loopOps stats) :=
  practised_sane _ _ (by decide +kernel) (by decide +kernel) rfl

/-- **C105, what is missing: a loop through a course and its own lesson.**  The check for cycles accepts the
library.  As long as the exercises 110 and 200 have not been practised, no score of exercise 100 up to the best one
opens their lessons 11 and 20: course 2 waits for the average of course 1, which counts lesson 11, which waits for lesson 20
of course 2. -/
theorem containment_loop_locks (stats : Nat → ℚ × Nat) (h110 : (stats 110).1 = 0)
    (h200 : (stats 200).1 = 0) (h100 : (stats 100).1 ≤ 5) :
    (run loopOps).checkCycles (idOrder Nat) 30 = some (.ok ()) ∧
    IsLesson (practised loopOps stats) 11 ∧ IsLesson (practised loopOps stats) 20 ∧
    ¬ Open (practised loopOps stats) 11 ∧ ¬ Open (practised loopOps stats) 20 := by
  have hsc : (practised loopOps stats).score 1 =
      some (some (mean [mean [(stats 110).1], mean [(stats 100).1]])) := rfl
  have htr : (practised loopOps stats).trials 1 =
      some (mean [mean [((stats 110).2 : ℚ)], mean [((stats 100).2 : ℚ)]]) := rfl
  have hsc2 : (practised loopOps stats).score 20 = some (some (mean [(stats 200).1])) := rfl
  have n1 : ¬ Satisfied (practised loopOps stats) 1 := by
    refine not_satisfied (fun _ => rfl) rfl hsc htr (.inl ?_)
    have : (practised loopOps stats).opts.passing.minScore = 3 := rfl
    rw [this]
    simp only [mean, List.sum_cons, List.sum_nil, List.length_cons, List.length_nil, h110]
    norm_num
    linarith
  have n20 : ¬ Satisfied (practised loopOps stats) 20 := by
    have htr2 : (practised loopOps stats).trials 20 = some (mean [((stats 200).2 : ℚ)]) := rfl
    refine not_satisfied (fun _ => rfl) rfl hsc2 htr2 (.inl ?_)
    have : (practised loopOps stats).opts.passing.minScore = 3 := rfl
    rw [this]
    simp only [mean, List.sum_cons, List.sum_nil, List.length_cons, List.length_nil, h200]
    norm_num
  have lock2 : ¬ Unlocked (practised loopOps stats) none 2 :=
    locked_by (d := 1) ((dependsOn_of (s := [1])
      (show (run loopOps).getDependencies 2 = some [1] by decide +kernel)).2 (by simp)) n1
  have hB : ∀ u, (u = 2 ∨ u = 20 ∨ u = 11) → ¬ Open (practised loopOps stats) u := by
    intro u hu
    refine stays_locked (loop_sane stats) (fun u => u = 2 ∨ u = 20 ∨ u = 11) ?_ hu
    have hdep2 : ∀ d, DependsOn (run loopOps) 2 d ↔ d ∈ [1] := fun d => dependsOn_of (by decide +kernel)
    have hdep20 : ∀ d, DependsOn (run loopOps) 20 d ↔ d ∈ [] := fun d => dependsOn_of (by decide +kernel)
    have hdep11 : ∀ d, DependsOn (run loopOps) 11 d ↔ d ∈ [20, 10] := fun d => dependsOn_of (by decide +kernel)
    have hst : ∀ c l, CourseStartsWith (run loopOps) c l → (l = 10 ∧ c = 1) ∨ (l = 20 ∧ c = 2) := by
      intro c l h
      obtain ⟨h1, h2⟩ := startsWith_of h
      have key : ∀ c ∈ (run loopOps).startingLessons.keys, ∀ l ∈ ((run loopOps).getStartingLessons c).getD [],
        (l = 10 ∧ c = 1) ∨ (l = 20 ∧ c = 2) := by decide +kernel
      exact key c h1 l h2
    have hsink : ∀ s, StartingUnit (practised loopOps stats) s → s = 1 := by
      rintro s ⟨_, h, _⟩
      have e : (practised loopOps stats).graph.getDependencySinks = [1] :=
        show (run loopOps).getDependencySinks = [1] by decide +kernel
      rw [e] at h
      rcases h with h | ⟨d, hd, hk, _⟩
      · simpa using h
      · rw [List.mem_singleton] at hd
        subst hd
        exact absurd ⟨.course, show (run loopOps).getUnitType 1 = some .course by decide +kernel⟩ hk
    rintro u (rfl | rfl | rfl)
    · refine ⟨?_, fun c h => ?_, fun d h => .inr (.inr lock2), fun _ => ⟨20, ?_, .inr (.inl rfl)⟩⟩
      · rintro ⟨s, hs, h | h⟩
        · rcases hst s 2 h.1 with h | h <;> omega
        · have := hsink s hs; omega
      · rcases hst c 2 h with h | h <;> omega
      · exact ⟨[20], show (run loopOps).getCourseLessons 2 = some [20] by decide +kernel, by simp⟩
    · refine ⟨?_, fun c h => ?_, fun d h => ?_, fun h => ?_⟩
      · rintro ⟨s, hs, h | h⟩
        · have := hsink s hs
          rcases hst s 20 h.1 with h | h <;> omega
        · have := hsink s hs; omega
      · rcases hst c 20 h with h | h
        · omega
        · exact .inl (.inl h.2)
      · exact absurd ((hdep20 d).1 h) (by simp)
      · have : (run loopOps).getUnitType 20 = some .lesson := by decide +kernel
        rw [IsCourse, show (practised loopOps stats).graph = run loopOps from rfl, this] at h
        simp at h
    · have hnst : ∀ c, ¬ CourseStartsWith (run loopOps) c 11 := by
        intro c h
        rcases hst c 11 h with h | h <;> omega
      refine ⟨?_, fun c h => absurd h (hnst c), fun d h => ?_, fun h => ?_⟩
      · rintro ⟨s, hs, h | h⟩
        · exact hnst s h.1
        · have := hsink s hs; omega
      · exact .inr (.inr (locked_by (d := 20) ((hdep11 20).2 (by simp)) n20))
      · have : (run loopOps).getUnitType 11 = some .lesson := by decide +kernel
        rw [IsCourse, show (practised loopOps stats).graph = run loopOps from rfl, this] at h
        simp at h
  exact ⟨by decide +kernel, show (run loopOps).getUnitType 11 = some .lesson by decide +kernel,
    show (run loopOps).getUnitType 20 = some .lesson by decide +kernel, hB 11 (by simp), hB 20 (by simp)⟩

/-- Nothing is left to learn in this library once lesson 10 is mastered. -/
theorem containment_loop_nothing_to_learn :
    let e := practised loopOps (fun u => if u = 100 then (5, 3) else (0, 0))
    ∀ l, ¬ ToLearn e l := by
  intro e l hl
  have hlock := containment_loop_locks (fun u => if u = 100 then (5, 3) else (0, 0)) rfl rfl (by norm_num)
  have hsane : Sane e := loop_sane _
  obtain ⟨h1, h2, _, _, h4⟩ := hl
  have hm : l ∈ (run loopOps).types.keys := (AMap.mem_keys_iff _ _).2 ⟨_, h1⟩
  have key : ∀ l ∈ (run loopOps).types.keys, (run loopOps).getUnitType l = some .lesson →
      l = 10 ∨ l = 11 ∨ l = 20 := by decide +kernel
  rcases key l hm h1 with rfl | rfl | rfl
  · have := mastered_done hsane (l := 10) (by decide +kernel)
    rcases h4 with h | h
    · exact h this.1
    · exact h this.2
  · exact hlock.2.2.2.1 h2
  · exact hlock.2.2.2.2 h2

/-- Course 3 supersedes course 1.  Lesson 20 of course 2 depends on lesson 10 of course 1. -/
def supersededOps : List (Op Nat) :=
  [.addCourse 1, .addDependencies 1 .course [], .addLesson 10 1, .addDependencies 10 .lesson [],
   .addExercise 100 10,
   .addCourse 2, .addDependencies 2 .course [], .addLesson 20 2, .addDependencies 20 .lesson [10],
   .addExercise 200 20,
   .addCourse 3, .addDependencies 3 .course [], .addSuperseded 3 [1], .addLesson 30 3,
   .addDependencies 30 .lesson [], .addExercise 300 30, .updateStartingLessons]

/-- Lesson 10 was practised without reaching the passing score, then course 3 was mastered. -/
def supersededStats : Nat → ℚ × Nat := fun u => if u = 100 then (1, 3) else if u = 300 then (5, 3) else (0, 0)

/-- **C105, what is missing: lessons of a superseded course.**  Course 1 is superseded, so its lesson 10 is not
offered any more, but lesson 20 of another course still waits for the passing score of lesson 10.  Nothing on
offer is left to learn. -/
theorem superseded_course_locks :
    let e := practised supersededOps supersededStats
    (run supersededOps).checkCycles (idOrder Nat) 30 = some (.ok ()) ∧ e.superseded 1 = true ∧
    LessonSkipped e none 10 ∧ ¬ Satisfied e 10 ∧ IsLesson e 20 ∧ ¬ Open e 20 ∧ ∀ l, ¬ ToLearn e l := by
  intro e
  have hsane : Sane e := practised_sane _ _ (by decide +kernel) (by decide +kernel) (by decide +kernel)
  have hsup : e.superseded 1 = true := by decide +kernel
  have hskip : LessonSkipped e none 10 := .inr (.inr (.inr ⟨1,
    show (run supersededOps).getLessonCourse 10 = some 1 by decide +kernel, hsup⟩))
  have n10 : ¬ Satisfied e 10 := not_satisfied (s := 1) (n := 3) (fun _ => rfl) (by decide +kernel) (by decide +kernel)
    (by decide +kernel) (.inl (by decide +kernel))
  have hdep20 : ∀ d, DependsOn (run supersededOps) 20 d ↔ d ∈ [10] := fun d => dependsOn_of (by decide +kernel)
  have lock : ¬ Unlocked e none 20 := locked_by (d := 10) ((hdep20 10).2 (by simp)) n10
  have hno : ¬ Open e 20 := by
    refine stays_locked hsane (fun u => u = 20) ?_ rfl
    rintro u rfl
    refine ⟨?_, fun c h => .inr lock, fun d h => .inr (.inr lock), fun h => ?_⟩
    · rintro ⟨s, hs, h | h⟩
      · exact lock h.2
      · have h20 : (10 : Nat) ∈ (run supersededOps).types.keys := by decide +kernel
        have := hs.2.2 10
        rw [← h.1] at this
        exact this ((hdep20 10).2 (by simp)) ((AMap.mem_keys_iff _ _).1 h20)
    · have : (run supersededOps).getUnitType 20 = some .lesson := by decide +kernel
      rw [IsCourse, show e.graph = run supersededOps from rfl, this] at h
      simp at h
  refine ⟨by decide +kernel, hsup, hskip, n10,
    show (run supersededOps).getUnitType 20 = some .lesson by decide +kernel, hno, ?_⟩
  rintro l ⟨h1, h2, h3, _, h4⟩
  have hm : l ∈ (run supersededOps).types.keys := (AMap.mem_keys_iff _ _).2 ⟨_, h1⟩
  have key : ∀ l ∈ (run supersededOps).types.keys, (run supersededOps).getUnitType l = some .lesson →
      l = 10 ∨ l = 20 ∨ l = 30 := by decide +kernel
  rcases key l hm h1 with rfl | rfl | rfl
  · exact h3 hskip
  · exact hno h2
  · have := mastered_done hsane (l := 30) (by decide +kernel)
    rcases h4 with h | h
    · exact h this.1
    · exact h this.2

/-- Course 2 depends on exercise 100. -/
def exerciseOps : List (Op Nat) :=
  [.addCourse 1, .addDependencies 1 .course [], .addLesson 10 1, .addDependencies 10 .lesson [],
   .addExercise 100 10,
   .addCourse 2, .addDependencies 2 .course [100], .addLesson 20 2, .addDependencies 20 .lesson [],
   .addExercise 200 20, .updateStartingLessons]

/-- **C105, what is missing: a course that depends on an exercise.**  No search without filter ever offers it,
whatever the student has mastered. -/
theorem exercise_dependency_locks (stats : Nat → ℚ × Nat) :
    (run exerciseOps).checkCycles (idOrder Nat) 30 = some (.ok ()) ∧
    IsLesson (practised exerciseOps stats) 20 ∧ ¬ Open (practised exerciseOps stats) 20 := by
  refine ⟨by decide +kernel, show (run exerciseOps).getUnitType 20 = some .lesson by decide +kernel, ?_⟩
  have hsane : Sane (practised exerciseOps stats) := practised_sane _ _ (by decide +kernel) (by decide +kernel) rfl
  have hdep2 : ∀ d, DependsOn (run exerciseOps) 2 d ↔ d ∈ [100] := fun d => dependsOn_of (by decide +kernel)
  have hdep20 : ∀ d, DependsOn (run exerciseOps) 20 d ↔ d ∈ [] := fun d => dependsOn_of (by decide +kernel)
  have hst : ∀ c l, CourseStartsWith (run exerciseOps) c l → (l = 10 ∧ c = 1) ∨ (l = 20 ∧ c = 2) := by
    intro c l h
    obtain ⟨h1, h2⟩ := startsWith_of h
    have key : ∀ c ∈ (run exerciseOps).startingLessons.keys, ∀ l ∈ ((run exerciseOps).getStartingLessons c).getD [],
      (l = 10 ∧ c = 1) ∨ (l = 20 ∧ c = 2) := by decide +kernel
    exact key c h1 l h2
  have hno2 : ¬ StartingUnit (practised exerciseOps stats) 2 := by
    rintro ⟨_, _, h⟩
    exact h 100 ((hdep2 100).2 (by simp)) ((AMap.mem_keys_iff _ _).1
      (show 100 ∈ (run exerciseOps).types.keys by decide +kernel))
  have hno20 : ¬ StartingUnit (practised exerciseOps stats) 20 := by
    rintro ⟨_, h, _⟩
    have e : (practised exerciseOps stats).graph.getDependencySinks =
      (run exerciseOps).getDependencySinks := rfl
    rw [e] at h
    rcases h with h | ⟨d, _, _, hd⟩
    · exact absurd h (by decide +kernel)
    · exact absurd ((hdep20 d).1 hd) (by simp)
  refine stays_locked hsane (fun u => u = 2 ∨ u = 20) ?_ (.inr rfl)
  rintro u (rfl | rfl)
  · refine ⟨?_, fun c h => ?_, fun d h => .inr (.inl ?_), fun _ => ⟨20, ?_, .inr rfl⟩⟩
    · rintro ⟨s, hs, h | h⟩
      · rcases hst s 2 h.1 with h | h <;> omega
      · exact hno2 (h.1 ▸ hs)
    · rcases hst c 2 h with h | h <;> omega
    · have := (hdep2 d).1 h
      rw [List.mem_singleton] at this
      subst this
      exact show (run exerciseOps).getUnitType 100 = some .exercise by decide +kernel
    · exact ⟨[20], show (run exerciseOps).getCourseLessons 2 = some [20] by decide +kernel, by simp⟩
  · refine ⟨?_, fun c h => ?_, fun d h => absurd ((hdep20 d).1 h) (by simp), fun h => ?_⟩
    · rintro ⟨s, hs, h | h⟩
      · rcases hst s 20 h.1 with h | h
        · omega
        · exact hno2 (h.2 ▸ hs)
      · exact hno20 (h.1 ▸ hs)
    · rcases hst c 20 h with h | h
      · omega
      · exact .inl (.inl h.2)
    · have : (run exerciseOps).getUnitType 20 = some .lesson := by decide +kernel
      rw [IsCourse, show (practised exerciseOps stats).graph = run exerciseOps from rfl, this] at h
      simp at h

/-! ### The hypotheses hold of the sample library -/

/-- The sample library of `SearchSample` with nothing practised. -/
theorem sample_orderly (stats : Nat → ℚ × Nat) : Orderly (practised sampleOps stats) := by
  have hk : ∀ u, Known (run sampleOps) u ↔ u ∈ (run sampleOps).types.keys := fun u => (AMap.mem_keys_iff _ _).symm
  have hdep : ∀ u d, DependsOn (run sampleOps) u d → (u = 11 ∧ d = 10) ∨ (u = 2 ∧ d = 1) ∨ (u = 3 ∧ d = 99) := by
    rintro u d ⟨s, hs, hd⟩
    have key : ∀ u ∈ (run sampleOps).deps.keys, ∀ d ∈ ((run sampleOps).getDependencies u).getD [],
        (u = 11 ∧ d = 10) ∨ (u = 2 ∧ d = 1) ∨ (u = 3 ∧ d = 99) := by decide +kernel
    exact key u ((AMap.mem_keys_iff _ _).2 ⟨_, hs⟩) d (by rw [hs]; exact hd)
  have hst : ∀ c l, CourseStartsWith (run sampleOps) c l → (c = 1 ∧ l = 10) ∨ (c = 2 ∧ l = 20) ∨ (c = 3 ∧ l = 30) := by
    intro c l h
    obtain ⟨h1, h2⟩ := startsWith_of h
    have key : ∀ c ∈ (run sampleOps).startingLessons.keys, ∀ l ∈ ((run sampleOps).getStartingLessons c).getD [],
        (c = 1 ∧ l = 10) ∨ (c = 2 ∧ l = 20) ∨ (c = 3 ∧ l = 30) := by decide +kernel
    exact key c h1 l h2
  have hle : ∀ c l, CourseHasLesson (run sampleOps) c l →
      (c = 1 ∧ l = 10) ∨ (c = 1 ∧ l = 11) ∨ (c = 2 ∧ l = 20) ∨ (c = 3 ∧ l = 30) := by
    rintro c l ⟨s, hs, hd⟩
    have key : ∀ u ∈ (run sampleOps).courseLessons.keys, ∀ d ∈ ((run sampleOps).getCourseLessons u).getD [],
        (u = 1 ∧ d = 10) ∨ (u = 1 ∧ d = 11) ∨ (u = 2 ∧ d = 20) ∨ (u = 3 ∧ d = 30) := by decide +kernel
    exact key c ((AMap.mem_keys_iff _ _).2 ⟨_, hs⟩) l (by rw [hs]; exact hd)
  have h99 : ¬ Known (run sampleOps) 99 := by rw [hk]; decide +kernel
  have hs1 : CourseStartsWith (run sampleOps) 1 10 ∧ CourseStartsWith (run sampleOps) 2 20 ∧
      CourseStartsWith (run sampleOps) 3 30 :=
    ⟨⟨[10], by decide +kernel, by simp⟩, ⟨[20], by decide +kernel, by simp⟩, ⟨[30], by decide +kernel, by simp⟩⟩
  have hd11 : DependsOn (run sampleOps) 11 10 := ⟨[10], by decide +kernel, by simp⟩
  have hd3 : DependsOn (run sampleOps) 3 99 := ⟨[99], by decide +kernel, by simp⟩
  have hl10 : CourseHasLesson (run sampleOps) 1 10 := ⟨[11, 10], by decide +kernel, by simp⟩
  refine ⟨?_, ?_, ?_, ?_⟩
  · -- a rank
    have hrank : ∀ u v, Before (practised sampleOps stats) u v →
        (fun n : Nat => if n = 10 then 0 else if n = 11 then 1 else if n = 1 then 2 else if n = 20 ∨ n = 30 then 3 else 4) v <
        (fun n : Nat => if n = 10 then 0 else if n = 11 then 1 else if n = 1 then 2 else if n = 20 ∨ n = 30 then 3 else 4) u := by
      intro u v h
      cases h with
      | dep h hkn =>
        rcases hdep u v h with ⟨rfl, rfl⟩ | ⟨rfl, rfl⟩ | ⟨rfl, rfl⟩
        · decide
        · decide
        · exact absurd hkn h99
      | @course c u v h1 h2 hkn =>
        rcases hdep c v h2 with ⟨rfl, rfl⟩ | ⟨rfl, rfl⟩ | ⟨rfl, rfl⟩
        · rcases hst 11 u h1 with h | h | h <;> omega
        · rcases hst 2 u h1 with h | ⟨_, rfl⟩ | h
          · omega
          · decide
          · omega
        · exact absurd hkn h99
      | lesson h =>
        rcases hle u v h with ⟨rfl, rfl⟩ | ⟨rfl, rfl⟩ | ⟨rfl, rfl⟩ | ⟨rfl, rfl⟩ <;> decide
    rintro ⟨u, hu⟩
    have : ∀ a b, TransGen (Before (practised sampleOps stats)) a b →
        (fun n : Nat => if n = 10 then 0 else if n = 11 then 1 else if n = 1 then 2 else if n = 20 ∨ n = 30 then 3 else 4) b <
        (fun n : Nat => if n = 10 then 0 else if n = 11 then 1 else if n = 1 then 2 else if n = 20 ∨ n = 30 then 3 else 4) a := by
      intro a b h
      induction h with
      | single h => exact hrank _ _ h
      | tail _ h ih => exact (hrank _ _ h).trans ih
    exact absurd (this u u hu) (lt_irrefl _)
  · intro u d h
    rcases hdep u d h with ⟨rfl, rfl⟩ | ⟨rfl, rfl⟩ | ⟨rfl, rfl⟩
    · exact (show (run sampleOps).getUnitType 10 ≠ some .exercise by decide +kernel)
    · exact (show (run sampleOps).getUnitType 1 ≠ some .exercise by decide +kernel)
    · exact (show (run sampleOps).getUnitType 99 ≠ some .exercise by decide +kernel)
  · intro c hc hno
    left
    have hm : c ∈ (run sampleOps).types.keys := (AMap.mem_keys_iff _ _).2 ⟨_, hc⟩
    have key : ∀ c ∈ (run sampleOps).types.keys, (run sampleOps).getUnitType c = some .course →
      c = 1 ∨ c = 2 ∨ c = 3 := by decide +kernel
    refine ⟨⟨_, hc⟩, ?_, hno⟩
    rcases key c hm hc with rfl | rfl | rfl
    · exact .inl (show 1 ∈ (run sampleOps).getDependencySinks by decide +kernel)
    · exact absurd ((hk 1).2 (by decide +kernel)) (hno 1 ⟨[1], show (run sampleOps).getDependencies 2 = some [1] by decide +kernel, by simp⟩)
    · exact .inr ⟨99, show 99 ∈ (run sampleOps).getDependencySinks by decide +kernel, h99, hd3⟩
  · intro c l h
    rcases hle c l h with ⟨rfl, rfl⟩ | ⟨rfl, rfl⟩ | ⟨rfl, rfl⟩ | ⟨rfl, rfl⟩
    · exact .inl hs1.1
    · exact .inr ⟨10, hl10, hd11⟩
    · exact .inl hs1.2.1
    · exact .inl hs1.2.2

/-- With nothing practised lesson 20 is locked; it waits for a lesson on offer. -/
example : let e := practised sampleOps (fun _ => (0, 0))
    Sane e ∧ NothingStranded e ∧ IsLesson e 20 ∧ ¬ Open e 20 ∧ ∃ l, TransGen (Before e) 20 l ∧ ToLearn e l := by
  intro e
  have hsane : Sane e := practised_sane _ _ (by decide +kernel) (by decide +kernel) (by decide +kernel)
  have hl : IsLesson e 20 := show (run sampleOps).getUnitType 20 = some .lesson by decide +kernel
  have hnone : (run sampleOps).supBy = [] := by decide +kernel
  have hsup : ∀ u, e.superseded u = false := by
    intro u
    show (checkP (practisedWorld sampleOps (fun _ => (0, 0))) (scoreP (practisedWorld sampleOps (fun _ => (0, 0))) 6)
      6 u).getD false = false
    unfold checkP
    have : (practisedWorld sampleOps (fun _ => (0, 0))).graph.getSupersededBy u = none := by
      show (run sampleOps).supBy.find u = none
      rw [hnone]; rfl
    rw [this]; rfl
  have hstr : NothingStranded e := fun c l _ h => by rw [hsup] at h; simp at h
  have n1 : ¬ Satisfied e 1 := not_satisfied (s := 0) (n := 0) (fun _ => rfl) (hsup 1) (by decide +kernel)
    (by decide +kernel) (.inl (by decide +kernel))
  have lock : ¬ Unlocked e none 2 := locked_by (d := 1) ⟨[1], show (run sampleOps).getDependencies 2 = some [1] by decide +kernel, by simp⟩ n1
  have hno : ¬ Open e 20 := by
    have hst : ∀ c l, CourseStartsWith (run sampleOps) c l → (c = 1 ∧ l = 10) ∨ (c = 2 ∧ l = 20) ∨ (c = 3 ∧ l = 30) := by
      intro c l h
      obtain ⟨h1, h2⟩ := startsWith_of h
      have key : ∀ c ∈ (run sampleOps).startingLessons.keys, ∀ l ∈ ((run sampleOps).getStartingLessons c).getD [],
          (c = 1 ∧ l = 10) ∨ (c = 2 ∧ l = 20) ∨ (c = 3 ∧ l = 30) := by decide +kernel
      exact key c h1 l h2
    have hno2 : ¬ StartingUnit e 2 := by
      rintro ⟨_, _, h⟩
      exact h 1 ⟨[1], show (run sampleOps).getDependencies 2 = some [1] by decide +kernel, by simp⟩
        ((AMap.mem_keys_iff _ _).1 (show 1 ∈ (run sampleOps).types.keys by decide +kernel))
    have hno20 : ¬ StartingUnit e 20 := by
      rintro ⟨_, h, _⟩
      have h0 : (run sampleOps).getDependencies 20 = some [] := by decide +kernel
      rcases h with h | ⟨d, _, _, hd⟩
      · exact absurd (show 20 ∈ (run sampleOps).getDependencySinks from h) (by decide +kernel)
      · exact absurd ((dependsOn_of h0).1 hd) (by simp)
    refine stays_locked hsane (fun u => u = 2 ∨ u = 20) ?_ (.inr rfl)
    rintro u (rfl | rfl)
    · refine ⟨?_, fun c h => .inr lock, fun d h => .inr (.inr lock), fun _ => ⟨20, ?_, .inr rfl⟩⟩
      · rintro ⟨s, hs, h | h⟩
        · exact lock h.2
        · exact hno2 (h.1 ▸ hs)
      · exact ⟨[20], show (run sampleOps).getCourseLessons 2 = some [20] by decide +kernel, by simp⟩
    · refine ⟨?_, fun c h => ?_, fun d h => ?_, fun h => ?_⟩
      · rintro ⟨s, hs, h | h⟩
        · rcases hst s 20 h.1 with h | h | h
          · omega
          · exact hno2 (h.1 ▸ hs)
          · omega
        · exact hno20 (h.1 ▸ hs)
      · rcases hst c 20 h with h | h | h
        · omega
        · exact .inl (.inl h.1)
        · omega
      · have h0 : (run sampleOps).getDependencies 20 = some [] := by decide +kernel
        exact absurd ((dependsOn_of h0).1 h) (by simp)
      · rw [IsCourse, show e.graph.getUnitType 20 = some .lesson from hl] at h
        simp at h
  exact ⟨hsane, hstr, hl, hno, scored_waits_for_offer_partial .empty (practised_reads (by decide +kernel)) hsane
    (sample_orderly _) hstr (.inl hl) hno⟩

end Trane.Search
