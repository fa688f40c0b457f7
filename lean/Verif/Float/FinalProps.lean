import Verif.Float.FinalLemmas
import Verif.Float.RewardSample

/-!
# Rewards and final scores in `f32` arithmetic

The reward of an exercise and its score with the reward, as the machine computes them, against the documented
formulas of C96.
-/

namespace Trane.Float

open Trane.Scorer (Kind Entry)
open Trane.Formula (Safe)

variable {powf : F → F → F}

/-- A stored reward: a known instant, a value from -5 to 5, a weight from 0 to 1, and what is left of the weight
`now` is not within a millionth of a twentieth, below which rewards are dropped. -/
def Comparable (inRange : ℤ → Bool) (now : ℤ) (r : GReward ℝ) : Prop :=
  inRange r.time = true ∧ |r.value| ≤ 5 ∧ 0 ≤ r.weight ∧ r.weight ≤ 1 ∧
    1 / 1000000 ≤ |r.weight * Formula.left now (toReward r) - 1 / 20|

theorem reward_documented {inRange : ℤ → Bool} {now : ℤ} (course lesson : List (GReward ℝ))
    (h1 : ∀ r ∈ course, Comparable inRange now r) (h2 : ∀ r ∈ lesson, Comparable inRange now r) :
    gScoreRewards exact inRange now course lesson =
      Formula.reward now (course.map toReward) (lesson.map toReward) := by
  rw [reward_exact, TopLevel.scoreRewards_eq]
  · intro r hr
    obtain ⟨x, hx, rfl⟩ := List.mem_map.1 hr
    exact (h1 x hx).1
  · intro r hr
    obtain ⟨x, hx, rfl⟩ := List.mem_map.1 hr
    exact (h2 x hx).1

theorem Comparable.clear {inRange : ℤ → Bool} {now : ℤ} {r : GReward ℝ} (h : Comparable inRange now r) :
    Clear inRange now r :=
  ⟨h.2.1, h.2.2.1, h.2.2.2.1, by rw [decay_left h.1]; exact h.2.2.2.2⟩

/-- **C123, the reward**: for at most twenty rewards of the course and of the lesson each, the machine's reward differs
from the documented one by at most 1/25000. -/
theorem machine_reward_matches (hp : Faithful powf) {inRange : ℤ → Bool} {now : ℤ} (hc : Clock inRange now)
    (course lesson : List (GReward ℝ)) (h1 : ∀ r ∈ course, Comparable inRange now r)
    (h2 : ∀ r ∈ lesson, Comparable inRange now r) (hl1 : course.length ≤ 20) (hl2 : lesson.length ≤ 20) :
    ∃ z, gScoreRewards (f32 powf) inRange now (storedRewards course) (storedRewards lesson) = .num z ∧
      |z - Formula.reward now (course.map toReward) (lesson.map toReward)| ≤ 1 / 25000 := by
  obtain ⟨-, z, hz, hn⟩ := reward_near (powf := powf) hp hc course lesson (fun r hr => (h1 r hr).clear)
    (fun r hr => (h2 r hr).clear) hl1 hl2
  rw [reward_documented course lesson h1 h2] at hn
  exact ⟨z, hz, hn.trans (by norm_num)⟩

open Classical in
/-- **C123, the score with the reward**: whatever the score `v` that the machine computed from the trials, it adds the
reward exactly when the documented rule does, or the reward is next to nothing: the result differs by at most 1/25000
from `v` moved by the documented reward, if that counts. -/
theorem machine_reward_added (hp : Faithful powf) {inRange : ℤ → Bool} (k : Kind) (trials deltas : List (GEntry ℝ))
    (course lesson : List (GReward ℝ)) (now today : ℤ) (hc : Clock inRange today) (hg : WholeGrades trials)
    (ht : ∀ e ∈ trials, Safe e.time) (h1 : ∀ r ∈ course, Comparable inRange today r)
    (h2 : ∀ r ∈ lesson, Comparable inRange today r) (hl1 : course.length ≤ 20) (hl2 : lesson.length ≤ 20)
    {s : GScore F} {v : ℝ} (hs : gScore (f32 powf) k (stored trials) (stored deltas) now = some s)
    (hv : s.value = .num v) (hv5 : 0 ≤ v ∧ v ≤ 5) :
    ∃ z, gExerciseScore (f32 powf) inRange k (stored trials) (stored deltas) (storedRewards course)
        (storedRewards lesson) now today = some (.num z) ∧
      |z - (if Formula.Counts today (Formula.reward today (course.map toReward) (lesson.map toReward))
              (trials.map toEntry)
            then Formula.within 0 5 (v + Formula.reward today (course.map toReward) (lesson.map toReward))
            else v)| ≤ 1 / 25000 := by
  obtain ⟨hR, r, hr, hn⟩ := reward_near (powf := powf) hp hc course lesson (fun r hr => (h1 r hr).clear)
    (fun r hr => (h2 r hr).clear) hl1 hl2
  rw [reward_documented course lesson h1 h2] at hn hR
  obtain ⟨z, hz, hzn⟩ := final_near (powf := powf) hc.now_le trials hg
    (fun e he => abs_le.2 ⟨(ht e he).1, (ht e he).2.le⟩) (v := v) (V := v) (ε := 0) (by simp) (by norm_num) hv5 hn
    (by norm_num) hR
  refine ⟨z, ?_, hzn.trans (by norm_num)⟩
  unfold gExerciseScore
  rw [hs, Option.map_some]
  dsimp only
  rw [hr, hv]
  exact congrArg some hz

/-- **C123, the final score**: for at most twenty grades from 3 to 5, twenty changes of score and twenty rewards of the
course and of the lesson each, the machine's final score of an exercise differs from the documented one by at most
1/900, with the exception of C122. -/
theorem machine_final_matches (hp : Faithful powf) {inRange : ℤ → Bool} (k : Kind) (trials deltas : List (GEntry ℝ))
    (course lesson : List (GReward ℝ)) (now today : ℤ) (hc : Clock inRange today) (hn : Safe now)
    (newest : GEntry ℝ) (hnew : trials.head? = some newest) (hs : Sorted trials) (hsd : Sorted deltas)
    (hg : ∀ e ∈ trials, ∃ n : ℤ, e.value = n ∧ 3 ≤ n ∧ n ≤ 5) (hd : ∀ e ∈ deltas, |e.value| ≤ 5)
    (ht : ∀ e ∈ trials, Safe e.time) (htd : ∀ e ∈ deltas, Safe e.time)
    (hl : trials.length ≤ 20) (hl' : deltas.length ≤ 20)
    (hfar : trials.length < 2 ∨ Formula.daysAfter now newest.time < 50 ∨
      1 / 10000 ≤ |Formula.average (trials.map toEntry) - 4|)
    (h1 : ∀ r ∈ course, Comparable inRange today r)
    (h2 : ∀ r ∈ lesson, Comparable inRange today r) (hl1 : course.length ≤ 20) (hl2 : lesson.length ≤ 20) :
    ∃ z, gExerciseScore (f32 powf) inRange k (stored trials) (stored deltas) (storedRewards course)
        (storedRewards lesson) now today = some (.num z) ∧
      |z - Formula.final k now today (trials.map toEntry) (deltas.map toEntry) (course.map toReward)
        (lesson.map toReward)| ≤ 1 / 900 := by
  classical
  have hg' : ∀ e ∈ trials, Rep e.value ∧ 3 ≤ e.value ∧ e.value ≤ 5 := by
    intro e he
    obtain ⟨n, hv, h3, h5⟩ := hg e he
    rw [hv]
    exact ⟨rep_int (by rw [abs_of_nonneg (by omega)]; omega), by exact_mod_cast h3, by exact_mod_cast h5⟩
  have hmem : newest ∈ trials := List.mem_of_mem_head? hnew
  have hts : ∀ e ∈ trials.map toEntry, Safe e.time := by
    intro e he
    obtain ⟨x, hx, rfl⟩ := List.mem_map.1 he
    exact ht x hx
  have hds : ∀ e ∈ deltas.map toEntry, Safe e.time := by
    intro e he
    obtain ⟨x, hx, rfl⟩ := List.mem_map.1 he
    exact htd x hx
  have hdays : Scorer.daysSinceLast now (toEntry newest) = Formula.daysAfter now newest.time :=
    Formula.days_eq hn (ht newest hmem)
  obtain ⟨s, v, u, s', e1, e2, -, e3, e4, -⟩ := machine_score_matches hp k trials deltas now newest hnew hs hsd hg' hd
    hl hl' (by rw [hdays, Formula.average_eq _ hts]; exact hfar)
  obtain ⟨hR, r, hr, hrn⟩ := reward_near (powf := powf) hp hc course lesson (fun r hr => (h1 r hr).clear)
    (fun r hr => (h2 r hr).clear) hl1 hl2
  rw [reward_documented course lesson h1 h2] at hrn hR
  have hnf : Scorer.NewestFirst (trials.map toEntry) := by
    unfold Scorer.NewestFirst
    rw [List.pairwise_map]
    exact hs
  obtain ⟨s'', f1, ⟨f0, f5⟩, -⟩ := Scorer.score_well_formed k (trials.map toEntry) (deltas.map toEntry) now hnf
  rw [e3] at f1
  cases f1
  obtain ⟨z, hz, hzn⟩ := final_near (powf := powf) hc.now_le trials
    (fun e he => by obtain ⟨n, a, b, c⟩ := hg e he; exact ⟨n, a, by omega, c⟩)
    (fun e he => abs_le.2 ⟨(ht e he).1, (ht e he).2.le⟩) e4 (by norm_num) ⟨f0, f5⟩ hrn (by norm_num) hR
  refine ⟨z, ?_, ?_⟩
  · unfold gExerciseScore
    rw [e1, Option.map_some]
    dsimp only
    rw [hr, e2]
    exact congrArg some hz
  · have hval : Formula.final k now today (trials.map toEntry) (deltas.map toEntry) (course.map toReward)
        (lesson.map toReward) =
        (if Formula.Counts today (Formula.reward today (course.map toReward) (lesson.map toReward))
            (trials.map toEntry)
          then Formula.within 0 5 (s'.value + Formula.reward today (course.map toReward) (lesson.map toReward))
          else s'.value) := by
      cases trials with
      | nil => simp at hnew
      | cons last older =>
        obtain ⟨s₂, g1, g2, -⟩ := Formula.score_formula k (toEntry last) (older.map toEntry) (deltas.map toEntry) now
          hnf hts hds hn
        have g3 : Scorer.score k ((last :: older).map toEntry) (deltas.map toEntry) now = some s₂ := g1
        rw [e3] at g3
        cases g3
        unfold Formula.final
        simp only [List.map_cons, g2]
    rw [hval]
    exact hzn.trans (by norm_num)

/-! ## A case -/

/-- The instant of the example: a month after the newest grade. -/
def monthLater : ℤ := 1700000000 + 1728000 + 2592000

/-- A good reward of two weeks ago, a bad one of four weeks ago and one of twenty weeks ago, which is too old. -/
noncomputable def someRewards : List (GReward ℝ) :=
  [⟨1 / 2, 1, monthLater - 1209600⟩, ⟨-1, 1 / 2, monthLater - 2419200⟩, ⟨1, 1, monthLater - 12096000⟩]

theorem left_weeks (r : GReward ℝ) (n : ℕ) (h : r.time = monthLater - 1209600 * n) :
    Formula.left monthLater (toReward r) = (1 / 2) ^ n := by
  have ha : Formula.age monthLater (toReward r) = 14 * n := by
    unfold Formula.age toReward
    rw [h]
    have : (monthLater - (monthLater - 1209600 * (n : ℤ))) / 86400 = 14 * n := by
      rw [show monthLater - (monthLater - 1209600 * (n : ℤ)) = 14 * n * 86400 by ring]
      exact Int.mul_ediv_cancel _ (by norm_num)
    rw [this]
    omega
  unfold Formula.left
  rw [ha]
  have e : ((14 * n : ℕ) : ℝ) / 14 = n := by push_cast; field_simp
  rw [e, Real.rpow_neg (by norm_num), Real.rpow_natCast, one_div, inv_pow]

theorem someRewards_comparable : ∀ r ∈ someRewards, Comparable sampleRange monthLater r := by
  intro r hr
  simp only [someRewards, List.mem_cons, List.not_mem_nil, or_false] at hr
  have hin : ∀ t : ℤ, |t| ≤ 10 ^ 12 → sampleRange t = true := fun t h => decide_eq_true h
  rcases hr with rfl | rfl | rfl
  · refine ⟨hin _ (by norm_num [monthLater]), by norm_num [abs_le], by norm_num, by norm_num, ?_⟩
    rw [left_weeks _ 1 (by norm_num)]
    norm_num [abs_of_pos]
  · refine ⟨hin _ (by norm_num [monthLater]), by norm_num, by norm_num, by norm_num, ?_⟩
    rw [left_weeks _ 2 (by norm_num)]
    norm_num [abs_of_pos]
  · refine ⟨hin _ (by norm_num [monthLater]), by norm_num, by norm_num, by norm_num, ?_⟩
    rw [left_weeks _ 10 (by norm_num)]
    rw [abs_of_neg (by norm_num)]
    norm_num

/-- The steady grades of C122, the changes of score of C121 and these rewards, for the course and for the lesson. -/
example (hp : Faithful powf) (k : Kind) : ∃ z,
    gExerciseScore (f32 powf) sampleRange k (stored steady) (stored changes) (storedRewards someRewards)
        (storedRewards someRewards) monthLater monthLater = some (.num z) ∧
      |z - Formula.final k monthLater monthLater (steady.map toEntry) (changes.map toEntry)
        (someRewards.map toReward) (someRewards.map toReward)| ≤ 1 / 900 := by
  have hsafe : ∀ t : ℤ, 0 ≤ t → t ≤ 2 ^ 40 → Safe t := fun t h1 h2 => ⟨by omega, by omega⟩
  refine machine_final_matches hp k steady changes someRewards someRewards monthLater monthLater
    ⟨by norm_num [monthLater], fun t h => (of_decide_eq_true h).trans (by norm_num)⟩
    (hsafe _ (by norm_num [monthLater]) (by norm_num [monthLater])) ⟨5, 1700000000 + 1728000⟩ rfl ?_ ?_ ?_ ?_ ?_ ?_ ?_ ?_
    (Or.inr (Or.inl ?_)) someRewards_comparable someRewards_comparable (by simp [someRewards]) (by simp [someRewards])
  · unfold Sorted steady; simp
  · unfold Sorted changes; simp
  · intro e he
    simp only [steady, List.mem_cons, List.not_mem_nil, or_false] at he
    rcases he with rfl | rfl | rfl
    · exact ⟨5, by norm_num, by norm_num, by norm_num⟩
    · exact ⟨3, by norm_num, by norm_num, by norm_num⟩
    · exact ⟨4, by norm_num, by norm_num, by norm_num⟩
  · intro e he
    simp only [changes, List.mem_cons, List.not_mem_nil, or_false] at he
    rcases he with rfl | rfl | rfl <;> rw [abs_le] <;> constructor <;> norm_num
  · intro e he
    simp only [steady, List.mem_cons, List.not_mem_nil, or_false] at he
    rcases he with rfl | rfl | rfl <;> exact hsafe _ (by norm_num) (by norm_num)
  · intro e he
    simp only [changes, List.mem_cons, List.not_mem_nil, or_false] at he
    rcases he with rfl | rfl | rfl <;> exact hsafe _ (by norm_num) (by norm_num)
  · unfold steady; simp
  · unfold changes; simp
  · unfold Formula.daysAfter monthLater
    norm_num

end Trane.Float
