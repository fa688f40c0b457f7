import Verif.Sched.OverlayProps
import Verif.Sched.UnitScorerProps

/-!
# C60: queries end with caches that may be out of date

`score_terminates_partial` takes caches filled by queries.  Here the caches may hold anything, as they do after calls
that leave old entries behind, and the queries are those for scores, for numbers of trials and for superseded units.
-/

namespace Trane.UnitScorer

variable {ι R T W : Type} [DecidableEq ι] [Field R] [LinearOrder R]

theorem keepM_defined {α : Type} {f : α → Option Bool} (xs : List α) (h : ∀ x ∈ xs, ∃ b, f x = some b) :
    ∃ ys, keepM f xs = some ys := by
  induction xs with
  | nil => exact ⟨[], rfl⟩
  | cons x xs ih =>
    obtain ⟨b, hb⟩ := h x List.mem_cons_self
    obtain ⟨ys, hys⟩ := ih (fun y hy => h y (List.mem_cons_of_mem _ hy))
    refine ⟨if b then x :: ys else ys, ?_⟩
    unfold keepM
    rw [hb]
    change (keepM f xs).bind _ = _
    rw [hys]
    rfl

section
variable {w : World ι R T W} {c0 : Caches ι R} {rk : ι → Nat} (hrk : ∀ u s, DependsOnScoreOf w u s → rk s < rk u)
include hrk

theorem lessonO_defined {f : ι → Option (Option R)} {n : Nat} (hf : ∀ u, rk u < n → ∃ v, f u = some v) (u : ι)
    (hu : rk u ≤ n) (h0 : 0 < n) : ∃ v, lessonO w c0 f n u = some v := by
  unfold lessonO
  split
  · exact ⟨_, rfl⟩
  · exact lessonP_defined (w := over w c0) hrk hf u hu h0

theorem courseO_defined {f : ι → Option (Option R)} {n : Nat} (hf : ∀ u, rk u < n → ∃ v, f u = some v) (u : ι)
    (hu : rk u ≤ n) (h0 : 0 < n) : ∃ v, courseO w c0 f n u = some v := by
  unfold courseO
  split
  · exact ⟨_, rfl⟩
  · split
    · exact ⟨_, rfl⟩
    · obtain ⟨b, hb⟩ := checkP_defined (w := over w c0) hrk hf u hu h0
      rw [hb]
      cases b with
      | true => exact ⟨_, rfl⟩
      | false =>
        cases hls : w.graph.getCourseLessons u with
        | none => exact ⟨_, rfl⟩
        | some ls =>
          obtain ⟨vs, hvs⟩ := mapM_defined (f := lessonO w c0 f n) ls (fun l hl =>
            lessonO_defined hrk hf l (by have := hrk u l (Or.inr ⟨ls, hls, hl⟩); omega) h0)
          refine ⟨if vs.reduceOption.isEmpty then none else some (mean vs.reduceOption), ?_⟩
          simp only [Option.bind_eq_bind, Option.bind_some, Bool.false_eq_true, if_false, hvs]
          split <;> rfl

theorem scoreO_defined (n : Nat) (u : ι) (hu : rk u + 1 < n) : ∃ v, scoreO w c0 n u = some v := by
  induction n generalizing u with
  | zero => omega
  | succ n ih =>
    have hrk' : ∀ u s, DependsOnScoreOf w u s → rk s + 1 < rk u + 1 :=
      fun u s h => Nat.succ_lt_succ (hrk u s h)
    rw [scoreO]
    split
    · exact ⟨_, rfl⟩
    · exact ⟨_, rfl⟩
    · exact lessonO_defined (rk := fun u => rk u + 1) hrk' ih u (by omega) (by omega)
    · exact courseO_defined (rk := fun u => rk u + 1) hrk' ih u (by omega) (by omega)

theorem checkO_defined (n : Nat) (u : ι) (hu : rk u + 1 < n) :
    ∃ b, checkP (over w c0) (scoreO w c0 n) n u = some b := by
  have hrk' : ∀ u s, DependsOnScoreOf w u s → rk s + 1 < rk u + 1 :=
    fun u s h => Nat.succ_lt_succ (hrk u s h)
  exact checkP_defined (w := over w c0) (rk := fun u => rk u + 1) hrk' (fun v hv => scoreO_defined hrk n v hv) u
    (by omega) (by omega)

theorem courseTrialsO_defined (n : Nat) (u : ι) (hu : rk u + 1 < n) : ∃ v, courseTrialsO w c0 n u = some v := by
  unfold courseTrialsO
  split
  · exact ⟨_, rfl⟩
  · obtain ⟨ls, hls⟩ := keepM_defined (f := fun l => do
        let b ← checkP (over w c0) (scoreO w c0 n) n l
        return !w.black l && !b) ((w.graph.getCourseLessons u).getD []) (fun l hl => by
      have : DependsOnScoreOf w u l := by
        cases h : w.graph.getCourseLessons u with
        | none => rw [h] at hl; cases hl
        | some ls => rw [h] at hl; exact Or.inr ⟨ls, h, hl⟩
      have := hrk u l this
      obtain ⟨b, hb⟩ := checkO_defined (c0 := c0) hrk n l (by omega)
      rw [hb]
      exact ⟨_, rfl⟩)
    rw [hls]
    simp only [Option.bind_eq_bind, Option.bind_some]
    split <;> exact ⟨_, rfl⟩

end

/-- **C60** (partial: libraries where superseding, combined with containment, has no cycle).  Whatever the caches hold,
every query for a score, a number of trials or whether a unit is superseded is answered. -/
theorem queries_answered_partial (w : World ι R T W) (c : Caches ι R) (h : ¬ Graph.HasCycle (DependsOnScoreOf w)) (u : ι) :
    (∃ v, Answers w c u v) ∧ (∃ b, AnswersSuperseded w c u b) ∧ (∃ v, AnswersCourseTrials w c u v) ∧
      ∃ v, AnswersLessonTrials w c u v := by
  obtain ⟨rk, hrk⟩ := rank_of_acyclic h
  have h0 := grown_refl w c
  refine ⟨?_, ?_, ?_, ?_⟩
  · obtain ⟨v, hv⟩ := scoreO_defined (c0 := c) hrk (rk u + 2) u (by omega)
    obtain ⟨c', h1, -⟩ := (ag_score w c (rk u + 2) u).sim v hv c h0
    exact ⟨v, _, c', h1⟩
  · obtain ⟨v, hv⟩ := checkO_defined (c0 := c) hrk (rk u + 2) u (by omega)
    obtain ⟨c', h1, -⟩ := (ag_check w c (ag_score w c (rk u + 2)) (rk u + 2) u).sim v hv c h0
    exact ⟨v, _, c', h1⟩
  · obtain ⟨v, hv⟩ := courseTrialsO_defined (c0 := c) hrk (rk u + 2) u (by omega)
    obtain ⟨c', h1, -⟩ := (ag_courseTrials w c (rk u + 2) u).sim v hv c h0
    exact ⟨v, _, c', h1⟩
  · obtain ⟨c', h1, -⟩ := (ag_lessonTrials w c u).sim _ rfl c h0
    exact ⟨_, c', h1⟩

end Trane.UnitScorer
