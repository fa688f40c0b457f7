import Verif.Sched.UnitCacheProps
import Verif.Scorer.Props
import Verif.Scorer.RewardProps

/-!
# The exercise scores of the application

The scorers of `Verif.Scorer` plugged into the unit scorer.
-/

namespace Trane.UnitScorer
open Trane.Scorer (Entry Kind NewestFirst)
open Trane.RewardScorer (Reward scoreRewards applyReward)

variable {ι : Type} [DecidableEq ι]

/-- The stored trials and deltas of an exercise, as returned by `get_scores` and `get_deltas`.
/repo/src/scheduler/unit_scorer.rs:190-212. -/
structure Record where
  trials : List Entry
  deltas : List Entry

/-- The pure part of `get_exercise_score`, /repo/src/scheduler/unit_scorer.rs:190-246: `kind` is the
type of the exercise, `clock` the time used by the reward scorer (`Utc::now()`), and an `Err` of the
exercise scorer, which sorted trials never cause, gives a record of zeros. -/
noncomputable def appScore (kind : ι → Kind) (inRange : ℤ → Bool) (clock : ℤ) (e : ι) (now : ℤ)
    (r : Record) (lesson course : List Reward) : ExRec ℝ :=
  match Scorer.score (kind e) r.trials r.deltas now with
  | none => ⟨0, 0, none, r.trials.length⟩
  | some s =>
    let reward := scoreRewards inRange clock course lesson
    let final := if applyReward clock reward r.trials then Scorer.clamp (s.value + reward) 0 5
      else s.value
    ⟨final, s.urgency, s.velocity, r.trials.length⟩

/-- C19 and C26: with the scorers of the application every exercise score lies in `[0, 5]`, whatever
the stored rewards. -/
theorem app_score_range (kind : ι → Kind) (inRange : ℤ → Bool) (clock : ℤ) (e : ι) (now : ℤ)
    (r : Record) (hr : NewestFirst r.trials) (lesson course : List Reward) :
    0 ≤ (appScore kind inRange clock e now r lesson course).score ∧
    (appScore kind inRange clock e now r lesson course).score ≤ 5 := by
  obtain ⟨s, hs, h⟩ := Scorer.score_well_formed (kind e) r.trials r.deltas now hr
  unfold appScore
  rw [hs]
  dsimp only
  split
  · exact Scorer.clamp_mem _ (by norm_num)
  · exact h.1

/-- C26: whatever the graph, blacklist, stored rewards and trials, every answered unit score lies in
`[0, 5]`. -/
theorem app_unit_score_range (kind : ι → Kind) (inRange : ℤ → Bool) (clock : ℤ)
    (w : World ι ℝ Record (List Reward))
    (hw : w.compute = appScore kind inRange clock)
    (hs : ∀ e, NewestFirst (w.stats e).trials) (u : ι) (x : ℝ) (hx : ScoreIs w u (some x)) :
    0 ≤ x ∧ x ≤ 5 := by
  refine score_in_range w (fun e => ?_) u x hx
  unfold World.exRec
  rw [hw]
  exact app_score_range kind inRange clock e _ _ (hs e) _ _

/-- C26 and C24: the score of an exercise of a lesson of a course is the score of its stored trials, to
which the reward earned by the rewards stored for its lesson and its course is added, within `[0, 5]`, if
the reward applies to the trials. -/
theorem app_exercise_score (kind : ι → Kind) (inRange : ℤ → Bool) (clock : ℤ)
    (w : World ι ℝ Record (List Reward)) (hw : w.compute = appScore kind inRange clock)
    (hs : ∀ e, NewestFirst (w.stats e).trials) {e l c : ι}
    (ht : w.graph.getUnitType e = some .exercise) (hl : w.graph.getExerciseLesson e = some l)
    (hc : w.graph.getLessonCourse l = some c) (v : Option ℝ) :
    ScoreIs w e v ↔ ∃ s, Scorer.score (kind e) (w.stats e).trials (w.stats e).deltas w.now = some s ∧
      let reward := scoreRewards inRange clock (w.rewards c) (w.rewards l)
      v = some (if applyReward clock reward (w.stats e).trials
        then max 0 (min 5 (s.value + reward)) else s.value) := by
  rw [exercise_score_of_data w ht hl hc, hw]
  obtain ⟨s, hs', _⟩ :=
    Scorer.score_well_formed (kind e) (w.stats e).trials (w.stats e).deltas w.now (hs e)
  unfold appScore
  rw [hs']
  have hcl : ∀ x : ℝ, Scorer.clamp x 0 5 = max 0 (min 5 x) := by
    intro x
    unfold Scorer.clamp
    split
    · rename_i h
      rw [min_eq_right (by linarith), max_eq_left h.le]
    · rename_i h
      split
      · rename_i h'
        rw [min_eq_left h'.le, max_eq_right (by norm_num)]
      · rename_i h'
        rw [min_eq_right (not_lt.1 h'), max_eq_right (not_lt.1 h)]
  simp only [Option.some.injEq, exists_eq_left', hcl]

/-- The hypotheses hold for a world over the sample graph in which every exercise has two trials. -/
noncomputable example :
    { w : World Nat ℝ Record (List Reward) // w.graph = sampleGraph ∧
      w.compute = appScore (fun _ => Kind.procedural) (fun _ => true) 864000 ∧
      ∀ e, NewestFirst (w.stats e).trials } :=
  ⟨{ graph := sampleGraph, black := fun _ => false, stats := fun _ => ⟨Scorer.sample, []⟩,
     rewards := fun _ => [], now := 864000,
     compute := appScore (fun _ => Kind.procedural) (fun _ => true) 864000, supScore := 4, dflt := 0 },
   rfl, rfl, fun _ => Scorer.sample_sorted⟩

/-- The sample graph has exercises of lessons of courses. -/
example : sampleGraph.getUnitType 100 = some .exercise ∧
    sampleGraph.getExerciseLesson 100 = some 10 ∧ sampleGraph.getLessonCourse 10 = some 1 := by
  decide +kernel

end Trane.UnitScorer
