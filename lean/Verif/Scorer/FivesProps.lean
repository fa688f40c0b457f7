import Verif.Scorer.SpacingProps
import Verif.Sched.ScoreInstance

/-!
# C110: the score of an exercise whose recent grades are all five
-/

namespace Trane.Scorer
open Trane.RewardScorer (applyReward scoreRewards)

/-- Grades of five never shorten a memory of a day. -/
theorem fives_stability (k : Kind) (l : List Entry) (t : Entry) (b : ℝ) (hb : 1 ≤ b ∧ b ≤ 10) (h5 : ∀ e ∈ t :: l, e.value = 5) :
    1 ≤ computeStability k (t :: l) b := by
  unfold computeStability
  induction l generalizing t with
  | nil => rw [(replay_one k t b).1]
  | cons t' l ih =>
    have ih := ih t' (fun e he => h5 e (List.mem_cons_of_mem _ he))
    obtain ⟨h1, h2⟩ := inRange_replay k (t' :: l) hb
    rw [(replay_two k t t' l b).1]
    refine ih.trans ?_
    rw [h5 t List.mem_cons_self]
    exact (review_direction k (v := 5) h1 h2.2 (le_max_right _ _)).2.2.1 (by norm_num)

/-- **C110, the score.**  If the grades that are looked at are all five, none of the deltas is negative and the last grade is at
most a day old, the score is at least 4.5. -/
theorem fives_score (k : Kind) (last : Entry) (rest deltas : List Entry) (now : ℤ) (hs : NewestFirst (last :: rest))
    (h5 : ∀ e ∈ last :: rest, e.value = 5) (hd : ∀ d ∈ deltas, 0 ≤ d.value) (hday : now ≤ last.time + 86400) :
    ∃ s, score k (last :: rest) deltas now = some s ∧ 9 / 2 ≤ s.value := by
  refine ⟨_, score_sorted k last rest deltas now hs, ?_⟩
  dsimp only
  have hb := estimate_mem (last :: rest)
  have hst := fives_stability k rest last _ hb h5
  generalize computeStability k (last :: rest) (estimateDifficulty (last :: rest)) = st at hst
  have hdy : daysSinceLast now last ≤ 1 := by
    unfold daysSinceLast daysBetween satSub
    refine max_le ?_ (by norm_num)
    rw [div_le_one (by norm_num)]
    have : max (-(2 ^ 63)) (min (2 ^ 63 - 1) (now - last.time)) ≤ (86400 : ℤ) := by
      refine max_le (by norm_num) ((min_le_right _ _).trans (by omega))
    exact_mod_cast this
  have hd0 : 0 ≤ daysSinceLast now last := le_max_right _ _
  generalize daysSinceLast now last = dy at hdy hd0
  have hr : 9 / 10 ≤ retrievability k dy st := by
    have := retr_mono k hd0 hdy (s := 1) (by norm_num) hst
    rwa [(recall_range k (days := 1) (stability := 1) (by norm_num) (by norm_num)).2.2] at this
  have hw : weightedAvg (last :: rest) = 5 := average_constant _ (by simp) h5
  have hz : 0 ≤ computeDelta deltas 1 := by
    unfold computeDelta
    split
    · exact le_rfl
    · rename_i hl
      have hne : deltas ≠ [] := by rintro rfl; simp at hl
      have hmax : ∃ M, ∀ e ∈ deltas, e.value ≤ M := by
        clear hl hne hd
        induction deltas with
        | nil => exact ⟨0, by simp⟩
        | cons e l ih =>
          obtain ⟨M, hM⟩ := ih
          refine ⟨max e.value M, fun x hx => ?_⟩
          rcases List.mem_cons.1 hx with rfl | hx
          · exact le_max_left _ _
          · exact (hM x hx).trans (le_max_right _ _)
      obtain ⟨M, hM⟩ := hmax
      have := (weightedAvg_bounds hne (fun e he => ⟨hd e he, hM e he⟩)).1
      linarith
  rw [hw]
  have hf : retrievability k dy st ≤ oldGoodFloor (retrievability k dy st) 5 dy (last :: rest).length := by
    unfold oldGoodFloor
    split_ifs
    · exact le_max_left _ _
    · exact le_rfl
  generalize oldGoodFloor (retrievability k dy st) 5 dy (last :: rest).length = f at hf
  have hm : 9 / 2 ≤ f * (5 + computeDelta deltas 1) := by nlinarith
  unfold clamp
  split_ifs <;> linarith

/-- A reward that is applied to such an exercise is not negative. -/
theorem fives_reward (clock : ℤ) (reward : ℝ) (last : Entry) (rest : List Entry) (h5 : ∀ e ∈ last :: rest, e.value = 5)
    (hweek : clock < last.time + 604800) (h : applyReward clock reward (last :: rest) = true) : 0 ≤ reward := by
  unfold applyReward at h
  by_contra hneg
  split at h
  · cases h
  · rename_i hl
    dsimp only at h
    have hs : (((last :: rest).take 3).map (fun t => t.value)).sum / 3 = 5 := by
      match rest, hl, h5 with
      | [], hl, _ => simp at hl
      | [_], hl, _ => simp at hl
      | b :: c :: r, _, h5 =>
        simp [h5 last (by simp), h5 b (by simp), h5 c (by simp)]
        norm_num
    rw [hs] at h
    have hdays : ((clock - last.time : ℤ) : ℝ) / 86400 < 7 := by
      rw [div_lt_iff₀ (by norm_num)]
      have : clock - last.time < 604800 := by omega
      have h2 : ((clock - last.time : ℤ) : ℝ) < ((604800 : ℤ) : ℝ) := by exact_mod_cast this
      push_cast at h2 ⊢
      linarith
    rw [if_neg (by intro hh; linarith [hh.2.1]), if_pos ⟨not_le.1 hneg, by norm_num, hdays⟩] at h
    cases h

end Trane.Scorer
