import Verif.Sched.ScoreOrder
import Verif.Sched.PropagatorProps

/-!
# C104: scores do not depend on the order of the sets in the graph, theorems
-/

namespace Trane.UnitScorer

variable {ι R T W : Type} [DecidableEq ι] [Field R] [LinearOrder R]

/-- **C104, scores**: with the same stored data and the same caches, two graphs whose sets differ in their order only
give the same scores, numbers of trials and superseded units. -/
theorem order_same_scores {w : World ι R T W} {g : Graph ι} (h : SameSets w.graph g) (c : Caches ι R) (u : ι) :
    (∀ v, Answers w c u v ↔ Answers (w.on g) c u v) ∧
    (∀ v, AnswersLessonTrials w c u v ↔ AnswersLessonTrials (w.on g) c u v) ∧
    (∀ v, AnswersCourseTrials w c u v ↔ AnswersCourseTrials (w.on g) c u v) ∧
    ∀ b, AnswersSuperseded w c u b ↔ AnswersSuperseded (w.on g) c u b := by
  have h0 := grown_refl w c
  have h1 := grown_refl (w.on g) c
  refine ⟨fun v => ?_, fun v => ?_, fun v => ?_, fun v => ?_⟩
  · refine (agrees_iff (fun n => ag_score w c n u) h0 v).trans (Iff.trans ?_
      (agrees_iff (fun n => ag_score (w.on g) c n u) h1 v).symm)
    simp only [on_scoreO h]
  · obtain ⟨c1, e1, -⟩ := (ag_lessonTrials w c u).sim _ rfl c h0
    obtain ⟨c2, e2, -⟩ := (ag_lessonTrials (w.on g) c u).sim _ rfl c h1
    have e : lessonTrialsO (w.on g) c u = lessonTrialsO w c u := by
      unfold lessonTrialsO
      rw [over_on, on_lessonTrialsP (w := over w c) h]
    unfold AnswersLessonTrials
    rw [e1, e2, e]
    constructor
    · rintro ⟨c', h⟩; cases h; exact ⟨c2, rfl⟩
    · rintro ⟨c', h⟩; cases h; exact ⟨c1, rfl⟩
  · refine (agrees_iff (fun n => ag_courseTrials w c n u) h0 v).trans (Iff.trans ?_
      (agrees_iff (fun n => ag_courseTrials (w.on g) c n u) h1 v).symm)
    simp only [on_courseTrialsO h]
  · refine (agrees_iff (fun n => ag_check w c (ag_score w c n) n u) h0 v).trans (Iff.trans ?_
      (agrees_iff (fun n => ag_check (w.on g) c (ag_score (w.on g) c n) n u) h1 v).symm)
    have e : ∀ n, scoreO (w.on g) c n = scoreO w c n := fun n => funext (on_scoreO h c n)
    simp only [e, over_on, on_checkP (w := over w c) h]

end Trane.UnitScorer

namespace Trane.Propagator

variable {ι : Type} [DecidableEq ι]

theorem validWeights_default {g : Graph ι} (hd : g.encompassingEqualsDependency = true) : ValidWeights g := by
  intro good u v w he
  have : w = 1 := by
    cases good with
    | true => exact ((edge_default hd .five u v w).1 he).2
    | false => exact ((edge_default hd .one u v w).1 he).2
  rw [this]; norm_num

/-- The following theorem for any two graphs. -/
theorem order_same_rewards_of {g g' : Graph ι} (empty e : ι) (score : MasteryScore) (t : Int)
    (hl : ∀ u, g'.getExerciseLesson u = g.getExerciseLesson u)
    (hc : ∀ u, g'.getLessonCourse u = g.getLessonCourse u)
    (hdep : ∀ u v, Graph.DependsOn g' u v ↔ Graph.DependsOn g u v)
    (hbdep : ∀ u v, Graph.HasDependent g' u v ↔ Graph.HasDependent g u v)
    (hd : g.encompassingEqualsDependency = true) (hd' : g'.encompassingEqualsDependency = true)
    {rs rs' : List (UnitReward ι)} (h : Propagates g empty e score t rs)
    (h' : Propagates g' empty e score t rs') : rs.Perm rs' := by
  have hroots : ∀ l c, Roots g' empty e l c ↔ Roots g empty e l c := by
    intro l c
    unfold Roots
    rw [hl, hc]
  have hflow : Flows g' score = Flows g score := by
    funext u v
    cases score <;> first | exact propext (hdep u v) | exact propext (hbdep u v)
  by_cases hr : ∃ l c, Roots g empty e l c
  · obtain ⟨l, c, hr⟩ := hr
    have nd : rs.Nodup := List.Nodup.of_map _ (rewards_bounded_of (validWeights_default hd) empty e score t rs h).1
    have nd' : rs'.Nodup := List.Nodup.of_map _ (rewards_bounded_of (validWeights_default hd') empty e score t rs' h').1
    refine (List.perm_ext_iff_of_nodup nd nd').mpr (fun r => ?_)
    rw [default_rewards_exact_of (validWeights_default hd) empty e l c score t rs h hr hd r,
      default_rewards_exact_of (validWeights_default hd') empty e l c score t rs' h' ((hroots l c).2 hr) hd' r, hflow]
  · have a : rs = [] := by
      rcases propagates_cases h with e | ⟨l, c, m, fuel, hr', -⟩
      · exact e
      · exact (hr ⟨l, c, hr'⟩).elim
    have b : rs' = [] := by
      rcases propagates_cases h' with e | ⟨l, c, m, fuel, hr', -⟩
      · exact e
      · exact (hr ⟨l, c, (hroots l c).1 hr'⟩).elim
    rw [a, b]

/-- **C104, rewards**: when rewards follow the dependencies, two graphs with the same parents and dependencies give the
same rewards. -/
theorem order_same_rewards {ops ops' : List (Graph.Op ι)} (empty e : ι) (score : MasteryScore) (t : Int)
    (hl : ∀ u, (Graph.run ops').getExerciseLesson u = (Graph.run ops).getExerciseLesson u)
    (hc : ∀ u, (Graph.run ops').getLessonCourse u = (Graph.run ops).getLessonCourse u)
    (hdep : ∀ u v, Graph.DependsOn (Graph.run ops') u v ↔ Graph.DependsOn (Graph.run ops) u v)
    (hd : (Graph.run ops).encompassingEqualsDependency = true) (hd' : (Graph.run ops').encompassingEqualsDependency = true)
    {rs rs' : List (UnitReward ι)} (h : Propagates (Graph.run ops) empty e score t rs)
    (h' : Propagates (Graph.run ops') empty e score t rs') : rs.Perm rs' :=
  order_same_rewards_of empty e score t hl hc hdep
    (fun u v => by rw [← Graph.dependents_inverse_of_dependencies, ← Graph.dependents_inverse_of_dependencies, hdep]) hd hd' h h'

end Trane.Propagator
