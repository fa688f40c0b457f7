import Verif.Top.App

/-!
# Properties of the whole object with the scorers of the application (C83, C82)
-/

namespace Trane.TopLevel
open Trane.Store
open Trane.UnitScorer (scoreC exC)
open Trane.Scorer (Kind)

variable (kind : Str → Kind) (inRange : ℤ → Bool) (sortV : SortDesc ℝ) (sortW : SortDesc (ℚ × ℚ))

/-- **C83.** Every score that `get_unit_score` ever answers lies between 0 and 5: after any calls in any order, with
failed writes, written scores and rewards of any size, changed graphs, stale caches and restarts. -/
theorem scores_always_in_range (g0 : Graph Str) (clock : Int) (h : List (Call ℝ)) (u : Str) (n : Nat) (v : ℝ)
    (hv : answer (appBase kind inRange sortV sortW) (runs (appBase kind inRange sortV sortW) (fresh g0 clock) h) u n =
      some (some v)) : 0 ≤ v ∧ v ≤ 5 := by
  unfold answer at hv
  obtain ⟨⟨a, c⟩, h1, h2⟩ := Option.map_eq_some_iff.1 hv
  exact (keeps_app kind inRange sortV sortW _ n u _ _ _ (ranged_runs kind inRange sortV sortW g0 clock h) h1).1 v h2

/-- **C83.** The same for the urgency of an exercise, which lies between 0 and 1. -/
theorem urgencies_always_in_range (g0 : Graph Str) (clock : Int) (h : List (Call ℝ)) (x : Str) :
    let b := appBase kind inRange sortV sortW
    let t := runs b (fresh g0 clock) h
    ∃ r c, exC (t.sys.world (t.config b)) x t.caches = some (r, c) ∧ 0 ≤ r.urgency ∧ r.urgency ≤ 1 := by
  intro b t
  have hr : Ranged t := ranged_runs kind inRange sortV sortW g0 clock h
  have : ∃ r c, exC (t.sys.world (t.config b)) x t.caches = some (r, c) := by
    unfold exC; split <;> exact ⟨_, _, rfl⟩
  obtain ⟨r, c, e⟩ := this
  exact ⟨r, c, e, (UnitScorer.keeps_ex (V := GoodScore) _ (world_good kind inRange sortV sortW t) x _ _ _ hr e).1.2⟩

/-- The call writes deltas without a grading. -/
def WritesDeltas : Call ℝ → Prop
  | .recordDeltas .. => True
  | _ => False

theorem deltas_step (t : Top ℝ) (hr : Ranged t) (c : Call ℝ) (hc : ¬ WritesDeltas c)
    (h : ∀ r ∈ t.deltas.rows, -4 ≤ r.val ∧ r.val ≤ 5) :
    ∀ r ∈ (step (appBase kind inRange sortV sortW) t c).1.deltas.rows, -4 ≤ r.val ∧ r.val ≤ 5 := by
  cases c with
  | recordDeltas es f => exact absurd trivial hc
  | trimDeltas n s => exact rows_step (fun v => -4 ≤ v ∧ v ≤ 5) sortV t.deltas (.trim n s) h (fun es f e => by cases e)
  | removeDeltas p s => exact rows_step (fun v => -4 ≤ v ∧ v ≤ 5) sortV t.deltas (.removePrefix p s) h (fun es f e => by cases e)
  | scoreExercise x g ts fuel order f =>
    rcases step_score (appBase kind inRange sortV sortW) t x g ts fuel order f with ⟨-, e⟩ | ⟨s, ok, hs, e⟩
    · rw [e]; exact h
    · rw [e]
      obtain ⟨-, hd⟩ := grading _ order fuel t.sys s x g ts f ok (keeps_app kind inRange sortV sortW t)
        (world_good kind inRange sortV sortW t) hr hs
      change ∀ r ∈ s.deltas.rows, _
      rcases hd with hd | ⟨old, ho, hd⟩
      · rw [hd]; exact h
      · rw [hd]
        refine rows_step (fun v => -4 ≤ v ∧ v ≤ 5) _ _ _ h (fun es f' e' a ha => ?_)
        cases e'
        rw [List.mem_singleton.1 ha]
        dsimp only
        have hold : 0 ≤ old.getD 0 ∧ old.getD 0 ≤ (5 : ℝ) := by
          cases old with
          | none => norm_num
          | some v => exact ho v rfl
        have hg : 1 ≤ System.gradeVal ℝ g ∧ System.gradeVal ℝ g ≤ 5 := by
          cases g <;> norm_num [System.gradeVal, MasteryScore.toFloat]
        constructor <;> linarith [hold.1, hold.2, hg.1, hg.2]
  | getBatch q =>
    rcases step_batch (appBase kind inRange sortV sortW) t q with ⟨-, e⟩ | ⟨s, r, -, e⟩ <;> rw [e] <;> exact h
  | setPreferences p f => cases f <;> exact h
  | restart g =>
    rcases step_restart (appBase kind inRange sortV sortW) t g with e | ⟨-, e⟩ <;> rw [e] <;> exact h
  | _ => exact h

/-- **C83.** The deltas stored by gradings lie between -4 and 5, whatever else happens, unless deltas are written
directly. -/
theorem deltas_in_range (g0 : Graph Str) (clock : Int) (h : List (Call ℝ)) (hc : ∀ c ∈ h, ¬ WritesDeltas c) (u : Str)
    (n : Nat) : ∀ p ∈ (runs (appBase kind inRange sortV sortW) (fresh g0 clock) h).deltas.get sortV u n,
      -4 ≤ p.1 ∧ p.1 ≤ 5 := by
  have : ∀ r ∈ (runs (appBase kind inRange sortV sortW) (fresh g0 clock) h).deltas.rows, -4 ≤ r.val ∧ r.val ≤ 5 := by
    induction h using List.reverseRecOn with
    | nil => intro r hr; cases hr
    | append_singleton h c ih =>
      rw [runs_snoc]
      exact deltas_step kind inRange sortV sortW _ (ranged_runs kind inRange sortV sortW g0 clock h) c
        (hc c (by simp)) (ih (fun c' h' => hc c' (by simp [h'])))
  intro p hp
  obtain ⟨r, hr, e⟩ := get_mem_rows sortV _ u n hp
  rw [← e]
  exact this r hr

/-- **C82, C26.** What `get_unit_score` answers for an exercise whose cached score was dropped: the score of the stored
trials and deltas at the time in force, to which the reward of its lesson and course is added if it applies.  The
reward, and whether it applies, are those of the time of the computer, even if the time is overridden. -/
theorem app_score_at_times_partial (g0 : Graph Str) (clock : Int) (h h' : List (Call ℝ)) (o : Option Int)
    (hc' : ∀ c ∈ h', ¬ TouchesOverride c) {x l c : Str} (n : Nat) :
    let b := appBase kind inRange sortV sortW
    let calls := h ++ .overrideTime o :: h' ++ [.invalidate x]
    let t := runs b (fresh g0 clock) calls
    let today := clockAfter clock calls
    let trials := entries (t.trials.get sortV x t.options.made.numTrials)
    let deltas := entries (t.deltas.get sortV x t.options.made.numTrials)
    let reward := RewardScorer.scoreRewards inRange today
      (rewardsOf (t.rewards.table.get sortW c t.options.made.numRewards))
      (rewardsOf (t.rewards.table.get sortW l t.options.made.numRewards))
    t.graph.getUnitType x = some .exercise → t.graph.getExerciseLesson x = some l →
    t.graph.getLessonCourse l = some c →
    ∃ s, Scorer.score (kind x) trials deltas (o.getD today) = some s ∧
      answer b t x (n + 1) = some (some (if RewardScorer.applyReward today reward trials
        then max 0 (min 5 (s.value + reward)) else s.value)) := by
  intro b calls t today trials deltas reward hx hl hc
  have e := score_at_time_in_force_partial b g0 clock h h' o hc' (x := x) (l := l) (c := c) n hx hl hc
  obtain ⟨s, hs, hr⟩ := Scorer.score_well_formed (kind x) trials deltas (o.getD today) (get_newestFirst _ _ _ _)
  refine ⟨s, hs, e.trans ?_⟩
  congr 2
  change (UnitScorer.appScore kind inRange today x (o.getD today) ⟨trials, deltas⟩ _ _).score = _
  unfold UnitScorer.appScore
  dsimp only
  rw [hs]
  dsimp only
  have hcl : ∀ y : ℝ, Scorer.clamp y 0 5 = max 0 (min 5 y) := by
    intro y
    unfold Scorer.clamp
    split
    · rename_i h
      rw [min_eq_right (by linarith), max_eq_left h.le]
    · rename_i h
      split
      · rename_i h'
        rw [min_eq_left h'.le, max_eq_right (by norm_num)]
      · rename_i h'
        rw [min_eq_right (not_lt.1 h'), max_eq_right (not_lt.1 h)]
  rw [hcl]
  rfl

end Trane.TopLevel
