import Verif.Top.AppProps
import Verif.Top.Sample

/-! Cases for the theorems about the object with the scorers of the application. -/

namespace Trane.TopLevel
open Trane.Store Trane.Store.Table
open Trane.UnitScorer (scoreC)

/-- The object of the cases: every exercise is procedural and all timestamps are in range. -/
noncomputable def caseBase : Base ℝ := appBase (fun _ => .procedural) (fun _ => true) insSort insSort

/-- Three trials of exercise `e` with grade 1, and a reward for its lesson at day 10. -/
def rewarded : List (Call ℝ) := [.recordScores [⟨['e'], 1, 0⟩, ⟨['e'], 1, 1⟩, ⟨['e'], 1, 2⟩] false,
  .recordRewards [⟨['l'], 4 / 5, 1, 864000⟩] none]

/-- Setting the time to day 10, and waiting until day 10. -/
def byOverride : List (Call ℝ) := rewarded ++ .overrideTime (some 864000) :: [] ++ [.invalidate ['e']]
def byWaiting : List (Call ℝ) := rewarded ++ .overrideTime none :: [.wait 864000] ++ [.invalidate ['e']]

noncomputable def o1 : Top ℝ := runs caseBase (fresh sampleGraph 10) byOverride
noncomputable def o2 : Top ℝ := runs caseBase (fresh sampleGraph 10) byWaiting

theorem o1_trials : o1.trials.get insSort ['e'] 20 = [(1, 2), (1, 1), (1, 0)] := by rfl
theorem o2_trials : o2.trials.get insSort ['e'] 20 = [(1, 2), (1, 1), (1, 0)] := by rfl
theorem o1_deltas : o1.deltas.get insSort ['e'] 20 = [] := by rfl
theorem o2_deltas : o2.deltas.get insSort ['e'] 20 = [] := by rfl
theorem o2_lesson : o2.rewards.table.get insSort ['l'] 10 = [((4 / 5, 1), 864000)] := by decide +kernel
theorem o2_course : o2.rewards.table.get insSort ['c'] 10 = [] := by decide +kernel
theorem o1_lesson : o1.rewards.table.get insSort ['l'] 10 = [((4 / 5, 1), 864000)] := by decide +kernel
theorem o1_course : o1.rewards.table.get insSort ['c'] 10 = [] := by decide +kernel

theorem reward_value (today : ℤ) (h : today ≤ 864000) :
    RewardScorer.scoreRewards (fun _ => true) today (rewardsOf []) (rewardsOf [((4 / 5, 1), 864000)]) = 4 / 5 := by
  have hd : RewardScorer.daysSince (fun _ => true) ⟨((4 / 5 : ℚ) : ℝ), ((1 : ℚ) : ℝ), 864000⟩ today = 0 := by
    unfold RewardScorer.daysSince RewardScorer.instant
    rw [if_pos rfl]
    have : (today - 864000).tdiv 86400 ≤ 0 := by
      have h1 : 0 ≤ (-(today - 864000)).tdiv 86400 := Int.tdiv_nonneg (by omega) (by norm_num)
      rw [Int.neg_tdiv] at h1
      omega
    exact max_eq_right this
  simp only [rewardsOf, List.map_nil, List.map_cons, RewardScorer.scoreRewards, RewardScorer.average,
    RewardScorer.accumulate, RewardScorer.decayed, hd, RewardScorer.decayFactor]
  norm_num

/-- The trials of the cases. -/
def ones : List Scorer.Entry := [⟨1, 2⟩, ⟨1, 1⟩, ⟨1, 0⟩]

theorem not_applied : RewardScorer.applyReward 10 (4 / 5) ones = false := by
  rw [Bool.eq_false_iff]
  intro h
  rw [RewardScorer.apply_reward_iff] at h
  refine h.2 ⟨⟨⟨1, 2⟩, [⟨1, 1⟩, ⟨1, 0⟩], rfl, by norm_num⟩, Or.inl ⟨by norm_num, ?_⟩⟩
  norm_num [RewardScorer.recentAverage, ones]

theorem applied : RewardScorer.applyReward 864000 (4 / 5) ones = true := by
  rw [RewardScorer.apply_reward_iff]
  refine ⟨by decide, ?_⟩
  rintro ⟨⟨last, rest, h, h'⟩, -⟩
  cases h
  norm_num at h'

/-- What the two objects answer for exercise `e`: the trials give the same score `v`; only the object that waited
adds the reward. -/
theorem two_answers : ∃ v : ℝ, 0 < v ∧ v ≤ 1 ∧ answer caseBase o1 ['e'] 1 = some (some v) ∧
    answer caseBase o2 ['e'] 1 = some (some (v + 4 / 5)) := by
  obtain ⟨s, hs, e1⟩ := app_score_at_times_partial (fun _ => .procedural) (fun _ => true) insSort insSort sampleGraph 10
    rewarded [] (some 864000) (by simp) (x := ['e']) (l := ['l']) (c := ['c']) 0
    (by decide +kernel) (by decide +kernel) (by decide +kernel)
  obtain ⟨s', hs', e2⟩ := app_score_at_times_partial (fun _ => .procedural) (fun _ => true) insSort insSort sampleGraph 10
    rewarded [.wait 864000] none (by simp [TouchesOverride]) (x := ['e']) (l := ['l']) (c := ['c']) 0
    (by decide +kernel) (by decide +kernel) (by decide +kernel)
  change Scorer.score .procedural (entries (o1.trials.get insSort ['e'] 20)) (entries (o1.deltas.get insSort ['e'] 20))
    864000 = some s at hs
  change Scorer.score .procedural (entries (o2.trials.get insSort ['e'] 20)) (entries (o2.deltas.get insSort ['e'] 20))
    864000 = some s' at hs'
  change answer caseBase o1 ['e'] 1 = some (some (if RewardScorer.applyReward 10
    (RewardScorer.scoreRewards (fun _ => true) 10 (rewardsOf (o1.rewards.table.get insSort ['c'] 10))
      (rewardsOf (o1.rewards.table.get insSort ['l'] 10))) (entries (o1.trials.get insSort ['e'] 20)) then _ else _)) at e1
  change answer caseBase o2 ['e'] 1 = some (some (if RewardScorer.applyReward 864000
    (RewardScorer.scoreRewards (fun _ => true) 864000 (rewardsOf (o2.rewards.table.get insSort ['c'] 10))
      (rewardsOf (o2.rewards.table.get insSort ['l'] 10))) (entries (o2.trials.get insSort ['e'] 20)) then
      max 0 (min 5 (s'.value +
        (RewardScorer.scoreRewards (fun _ => true) 864000 (rewardsOf (o2.rewards.table.get insSort ['c'] 10))
      (rewardsOf (o2.rewards.table.get insSort ['l'] 10))))) else _)) at e2
  rw [o1_trials, o1_deltas] at hs
  rw [o2_trials, o2_deltas] at hs'
  rw [hs] at hs'
  cases hs'
  rw [o1_lesson, o1_course, o1_trials, reward_value 10 (by norm_num)] at e1
  rw [o2_lesson, o2_course, o2_trials, reward_value 864000 le_rfl] at e2
  have hent : entries [(1, 2), (1, 1), (1, 0)] = ones := rfl
  rw [hent] at e1 e2 hs
  rw [not_applied] at e1
  rw [applied] at e2
  obtain ⟨s2, h2, hpos, hle⟩ := Scorer.score_positive_and_below_best .procedural ones [] 864000
    (by simp [Scorer.NewestFirst, ones]) (by simp [ones]) (by simp) (lo := 1) (hi := 1) one_pos (by norm_num)
    (by simp [ones])
  have : s = s2 := Option.some.inj (hs.symm.trans h2)
  subst this
  refine ⟨s.value, hpos, hle, by simpa using e1, ?_⟩
  rw [e2, if_pos rfl, min_eq_right (by linarith), max_eq_right (by linarith)]

/-- **C82** without the difference of the two times is false of the code: rewards ignore the time that was set.  Two
objects with the same data, one set to a time and the other one waiting until that time, answer different scores. -/
theorem rewards_ignore_time_set : answer caseBase o1 ['e'] 1 ≠ answer caseBase o2 ['e'] 1 := by
  obtain ⟨v, -, -, e1, e2⟩ := two_answers
  rw [e1, e2]
  intro h
  have := Option.some.inj (Option.some.inj h)
  linarith

/-- The hypothesis of `scores_always_in_range` is met by a score that is not trivial, and those of `deltas_in_range` by
a history that stores a delta. -/
example : (∃ v, answer caseBase o2 ['e'] 1 = some (some v) ∧ 4 / 5 < v) ∧
    (∀ c ∈ ([.scoreExercise ['e'] .three 10 9 id {}, .scoreExercise ['e'] .five 20 9 id {}] : List (Call ℝ)),
      ¬ WritesDeltas c) ∧
    ((runs caseBase (fresh sampleGraph 0) [.scoreExercise ['e'] .three 10 9 id {},
      .scoreExercise ['e'] .five 20 9 id {}]).deltas.get insSort ['e'] 20).length = 1 := by
  refine ⟨?_, by simp [WritesDeltas], by decide +kernel⟩
  obtain ⟨v, h0, -, -, e2⟩ := two_answers
  exact ⟨_, e2, by linarith⟩

end Trane.TopLevel
