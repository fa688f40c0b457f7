import Verif.Sched.ProgressProps
import Verif.Sched.OverlayProps
import Mathlib.Algebra.Order.BigOperators.Group.List

/-!
# C105: the scores and trials answered by the unit scorer fit together

A search that reads the answers of a unit scorer whose caches hold nothing out of date meets the conditions
`CourseFollows` and `EmptyHoldsNothing`.
-/

namespace Trane.Search
open Trane.Graph
open Trane.UnitScorer

variable {ι : Type} [DecidableEq ι] {T W : Type}

/-- The search reads what the unit scorer answers in state `w` with caches `c`. -/
structure ReadsFrom (w : World ι ℚ T W) (c : Caches ι ℚ) (e : Env ι) : Prop where
  graph : e.graph = w.graph
  black : ∀ u, e.black u = w.black u
  score : ∀ u, Known e.graph u → ∃ v, e.score u = some v ∧ Answers w c u v
  lessonTrials : ∀ l, IsLesson e l → AnswersLessonTrials w c l (e.trials l)
  courseTrials : ∀ u, IsCourse e u → AnswersCourseTrials w c u (e.trials u)
  superseded : ∀ u, AnswersSuperseded w c u (e.superseded u)

theorem le_mean {m : ℚ} (xs : List ℚ) (hne : xs ≠ []) (h : ∀ x ∈ xs, m ≤ x) : m ≤ mean xs := by
  have hlen : (0 : ℚ) < (xs.length : ℚ) := by
    have : 0 < xs.length := List.length_pos_iff.2 hne
    exact_mod_cast this
  have := List.card_nsmul_le_sum xs m h
  rw [nsmul_eq_mul] at this
  unfold mean
  rw [le_div_iff₀ hlen, mul_comm]
  exact this

theorem keepM_mem {α : Type} {f : α → Option Bool} (xs ys : List α) (h : keepM f xs = some ys) :
    ∀ y ∈ ys, y ∈ xs ∧ f y = some true := by
  induction xs generalizing ys with
  | nil =>
    simp only [keepM, Option.pure_def, Option.some.injEq] at h
    subst h; simp
  | cons x xs ih =>
    simp only [keepM, Option.bind_eq_bind, Option.bind_eq_some_iff, Option.pure_def] at h
    obtain ⟨b, hb, zs, hz, h⟩ := h
    injection h with h
    intro y hy
    have := ih zs hz
    cases b with
    | false =>
      simp only [Bool.false_eq_true, if_false] at h
      subst h
      exact ⟨List.mem_cons_of_mem _ (this y hy).1, (this y hy).2⟩
    | true =>
      simp only [if_true] at h
      subst h
      rcases List.mem_cons.1 hy with rfl | hy
      · exact ⟨List.mem_cons_self, hb⟩
      · exact ⟨List.mem_cons_of_mem _ (this y hy).1, (this y hy).2⟩

section
variable {w : World ι ℚ T W} {c : Caches ι ℚ} {e : Env ι} (hq : Queried w c) (hr : ReadsFrom w c e)
include hq hr

theorem read_score {u : ι} (hk : Known e.graph u) : ∃ v, e.score u = some v ∧ ScoreIs w u v := by
  obtain ⟨v, hv, n, c', h⟩ := hr.score u hk
  exact ⟨v, hv, c, n, c', hq, h⟩

theorem read_lesson_trials {l : ι} (hl : IsLesson e l) : e.trials l = lessonTrialsP w l := by
  obtain ⟨c', h⟩ := hr.lessonTrials l hl
  obtain ⟨c1, h1, _⟩ := sim_lessonTrials Everything w l _ rfl _ (coh_of_queried hq)
  rw [h1] at h
  exact (congrArg Prod.fst (Option.some.inj h)).symm

theorem read_course_trials {u : ι} (hu : IsCourse e u) : ∃ k, courseTrialsP w k u = some (e.trials u) := by
  obtain ⟨n, c', h⟩ := hr.courseTrials u hu
  exact (snd_courseTrials w n u c _ c' (coh_of_queried hq) h).2

theorem read_superseded (u : ι) : e.superseded u = true ↔ Superseded w u := by
  obtain ⟨n, c', h⟩ := hr.superseded u
  obtain ⟨k, hk⟩ := (snd_check w (fun u => snd_score w n u) n u c _ c' (coh_of_queried hq) h).2
  exact checkP_iff w k u _ hk

omit hq hr in
/-- The lesson has neither score nor trials when all its exercises are blacklisted. -/
theorem lesson_trials_none {l : ι} (h : lessonTrialsP w l = none) :
    w.graph.getLessonExercises l = none ∨
      ∃ es, w.graph.getLessonExercises l = some es ∧ ∀ x ∈ es, w.black x = true := by
  unfold lessonTrialsP at h
  cases hes : w.graph.getLessonExercises l with
  | none => exact .inl rfl
  | some es =>
    right
    rw [hes] at h
    refine ⟨es, rfl, ?_⟩
    by_contra hc
    have : ((es.filter (fun e => !w.black e)).isEmpty) = false := by
      simp only [not_forall] at hc
      obtain ⟨x, hx, hb⟩ := hc
      rw [List.isEmpty_eq_false_iff]
      intro h0
      have : x ∈ es.filter (fun e => !w.black e) := by
        rw [List.mem_filter]
        exact ⟨hx, by simpa using hb⟩
      rw [h0] at this
      simp at this
    simp only [this, Bool.false_eq_true, if_false] at h
    simp at h

/-- A satisfied lesson of a course that is not blacklisted, with a score, reaches the passing values. -/
theorem satisfied_lesson {l k : ι} (hl : IsLesson e l) (hk : e.graph.getLessonCourse l = some k)
    (hb : e.black k = false) (hbl : e.black l = false) (hsl : ¬ Superseded w l) (hs : Satisfied e l) :
    (∀ s, e.score l = some (some s) → e.opts.passing.minScore ≤ s) ∧
    (∀ n, e.trials l = some n → e.opts.passing.minAvgTrials ≤ n) := by
  obtain ⟨v, hv, hsc⟩ := read_score hq hr (u := l) ⟨_, hl⟩
  have hty : w.graph.getUnitType l = some .lesson := by rw [← hr.graph]; exact hl
  have htr := read_lesson_trials hq hr hl
  have hwb : w.black l = false := by rw [← hr.black]; exact hbl
  -- no score and no trials go together
  have hnn : v = none ↔ e.trials l = none := by
    rw [htr]
    constructor
    · intro h
      unfold lessonTrialsP
      cases hes : w.graph.getLessonExercises l with
      | none => rfl
      | some es =>
        have := (lesson_score w l hty es hes v hsc).1.1 h
        rcases this with h | h | h
        · rw [hwb] at h; simp at h
        · exact absurd h hsl
        · have : es.filter (fun e => !w.black e) = [] := by
            rw [List.filter_eq_nil_iff]
            intro x hx
            simp [h x hx]
          simp [this]
    · intro h
      rcases lesson_trials_none h with h | ⟨es, hes, h⟩
      · exact lesson_score_empty w l hty h v hsc
      · exact (lesson_score w l hty es hes v hsc).1.2 (.inr (.inr h))
  rcases hs with h | ⟨k', hk', h⟩ | h | h | h | h | ⟨s, n, h1, h2, h3, h4⟩
  · rw [hbl] at h; simp at h
  · rw [hk] at hk'; cases hk'; rw [hb] at h; simp at h
  · exact absurd ((read_superseded hq hr l).1 h) hsl
  · rw [h] at hv; simp at hv
  · rw [h] at hv
    have : v = none := (Option.some.inj hv).symm
    have ht := hnn.1 this
    rw [h, ht]
    simp
  · have := hnn.2 h
    rw [hv, this, h]
    simp
  · rw [h1, h2]
    refine ⟨fun s' hs' => ?_, fun n' hn' => ?_⟩
    · cases hs'; exact h3
    · cases hn'; exact h4

/-- A course all of whose lessons are done is done. -/
theorem course_follows (he : Sane e) : CourseFollows e := by
  intro u hu hall
  obtain ⟨v, hv, hsc⟩ := read_score hq hr (u := u) ⟨_, hu⟩
  have hty : w.graph.getUnitType u = some .course := by rw [← hr.graph]; exact hu
  cases hvn : v with
  | none => rw [hvn] at hv; exact .inr (.inr (.inr (.inr (.inl hv))))
  | some x =>
  cases htn : e.trials u with
  | none => exact .inr (.inr (.inr (.inr (.inr (.inl htn)))))
  | some n =>
  by_cases hbu : e.black u = true
  · exact .inl hbu
  have hbu' : e.black u = false := by simpa using hbu
  refine .inr (.inr (.inr (.inr (.inr (.inr ⟨x, n, by rw [hv, hvn], htn, ?_, ?_⟩)))))
  · -- the score
    cases hls : w.graph.getCourseLessons u with
    | none =>
      exfalso
      obtain ⟨k, hk⟩ := (scoreIs_iff w u v).1 hsc
      cases k with
      | zero => simp [scoreP] at hk
      | succ k =>
        rw [scoreP, hty] at hk
        simp only [courseP, hls] at hk
        split at hk
        · cases hk; cases hvn
        · simp only [Option.bind_eq_bind, Option.bind_eq_some_iff] at hk
          obtain ⟨b, _, hk⟩ := hk
          cases b <;> simp at hk <;> (rw [← hk] at hvn; cases hvn)
    | some ls =>
      have hmem : ∀ l ∈ ls, IsLesson e l ∧ e.graph.getLessonCourse l = some u ∧ CourseHasLesson e.graph u l := by
        intro l hl
        have h1 : CourseHasLesson e.graph u l := ⟨ls, by rw [hr.graph]; exact hls, hl⟩
        have h2 := (he.wf.lesson u l).1 h1
        exact ⟨(he.wf.tyL _ _ h2).1, h2, h1⟩
      have key := course_score w u hty ls hls
        (fun l hl => by rw [← hr.graph]; exact (hmem l hl).1) (fun l => (e.score l).getD none) (by
          intro l hl v' hv'
          obtain ⟨v2, h2, h3⟩ := read_score hq hr (u := l) ⟨_, (hmem l hl).1⟩
          rw [h2]
          exact score_unique w l _ _ h3 hv') v hsc
      obtain ⟨hsc', hx⟩ := key.2 x hvn
      have hne : ls.filterMap (fun l => (e.score l).getD none) ≠ [] := by
        intro h0
        have := key.1.2 (.inr (.inr ?_))
        · rw [hvn] at this; cases this
        · intro l hl
          rw [List.filterMap_eq_nil_iff] at h0
          exact h0 l hl
      rw [hx]
      refine le_mean _ hne ?_
      intro s hs
      rw [List.mem_filterMap] at hs
      obtain ⟨l, hl, hs⟩ := hs
      obtain ⟨a1, a2, a3⟩ := hmem l hl
      have hscl : ScoreIs w l (some s) := by rw [← hs]; exact hsc' l hl
      have htl : w.graph.getUnitType l = some .lesson := by rw [← hr.graph]; exact a1
      have hnot : ¬ (w.black l = true ∨ Superseded w l) := by
        intro h
        cases hes : w.graph.getLessonExercises l with
        | none => exact absurd (lesson_score_empty w l htl hes _ hscl) (by simp)
        | some es =>
          have := (lesson_score w l htl es hes _ hscl).1.2 (h.elim .inl (fun h => .inr (.inl h)))
          cases this
      rw [not_or] at hnot
      have hes : e.score l = some (some s) := by
        obtain ⟨v2, h2, _⟩ := read_score hq hr (u := l) ⟨_, a1⟩
        rw [h2] at hs ⊢
        exact congrArg some hs
      exact (satisfied_lesson hq hr a1 a2 hbu' (by rw [hr.black]; simpa using hnot.1) hnot.2 (hall l a3)).1 s hes
  · -- the trials
    obtain ⟨k, hk⟩ := read_course_trials hq hr hu
    rw [htn] at hk
    unfold courseTrialsP at hk
    simp only [Option.bind_eq_bind, Option.bind_eq_some_iff] at hk
    obtain ⟨ls, hls, hk⟩ := hk
    split at hk
    · cases hk
    · rename_i hne
      have hk' := Option.some.inj (Option.some.inj hk)
      rw [← hk']
      refine le_mean _ (by simpa [List.isEmpty_iff] using hne) ?_
      intro y hy
      rw [List.reduceOption_mem_iff, List.mem_map] at hy
      obtain ⟨l, hl, hy⟩ := hy
      obtain ⟨h1, h2⟩ := keepM_mem _ _ hls l hl
      simp only [Option.bind_eq_some_iff, Option.pure_def, Option.some.injEq, Bool.and_eq_true,
        Bool.not_eq_true'] at h2
      obtain ⟨b, hb, hbl, hbf⟩ := h2
      have hns : ¬ Superseded w l := by
        rw [← checkP_iff w k l b hb, hbf]
        simp
      have hin : CourseHasLesson e.graph u l := by
        cases hcl : w.graph.getCourseLessons u with
        | none => rw [hcl] at h1; simp at h1
        | some s =>
          rw [hcl] at h1
          exact ⟨s, by rw [hr.graph]; exact hcl, by simpa using h1⟩
      have a2 := (he.wf.lesson u l).1 hin
      have a1 : IsLesson e l := (he.wf.tyL _ _ a2).1
      refine (satisfied_lesson hq hr a1 a2 hbu' (by rw [hr.black]; exact hbl) hns (hall l hin)).2 y ?_
      rw [read_lesson_trials hq hr a1, hy]

/-- A lesson with nothing to offer holds nothing back. -/
theorem empty_holds_nothing : EmptyHoldsNothing e := by
  intro l hl hno
  by_cases hb : e.black l = true
  · exact .inl hb
  by_cases hbc : ∃ c, e.graph.getLessonCourse l = some c ∧ e.black c = true
  · exact .inr (.inl hbc)
  have hty : w.graph.getUnitType l = some .lesson := by rw [← hr.graph]; exact hl
  obtain ⟨v, hv, hsc⟩ := read_score hq hr (u := l) ⟨_, hl⟩
  have : v = none := by
    cases hes : w.graph.getLessonExercises l with
    | none => exact lesson_score_empty w l hty hes v hsc
    | some es =>
      refine (lesson_score w l hty es hes v hsc).1.2 (.inr (.inr ?_))
      intro x hx
      by_contra hbx
      refine hno x ⟨⟨es, by rw [hr.graph]; exact hes, hx⟩, by rw [hr.black]; simpa using hbx, by simpa using hb, ?_⟩
      intro c hc
      by_contra hc'
      exact hbc ⟨c, hc, by simpa using hc'⟩
  rw [this] at hv
  exact .inr (.inr (.inr (.inr (.inl hv))))

/-- **C105.**  With the scores answered by a unit scorer whose caches hold nothing out of date: whatever is locked
waits for a lesson that is on offer and not yet mastered. -/
theorem scored_waits_for_offer_partial (he : Sane e) (ho : Orderly e) (hs : NothingStranded e) {u : ι}
    (hu : IsLesson e u ∨ IsCourse e u) (hl : ¬ Open e u) :
    ∃ l, Relation.TransGen (Before e) u l ∧ ToLearn e l :=
  locked_waits_for_offer_partial he ho (course_follows hq hr he) hs (empty_holds_nothing hq hr) hu hl

end

end Trane.Search
