import Verif.Scorer.RewardModel
import Verif.Float.Rewards

/-!
# Scores depend on how long ago things happened, not on the calendar (C109)

The scorers of the application see timestamps.  Here all timestamps and the time at which the score is asked are moved
by the same amount `δ`, forwards or backwards.  The rewards are read through `chrono`, which replaces timestamps that it
cannot represent by 1970: `inRange` says which it can represent, and the rewards have to be representable before and
after the move.
-/

namespace Trane.Scorer

/-- A trial or delta at a time `δ` seconds later. -/
def Entry.later (δ : ℤ) (e : Entry) : Entry := { e with time := e.time + δ }

theorem Entry.later_time (δ : ℤ) (e : Entry) : (e.later δ).time = e.time + δ := rfl

theorem satSub_later (δ a b : ℤ) : satSub (a + δ) (b + δ) = satSub a b := by
  unfold satSub
  rw [add_sub_add_right_eq_sub]

theorem daysBetween_later (δ a b : ℤ) : daysBetween (a + δ) (b + δ) = daysBetween a b := by
  unfold daysBetween
  rw [satSub_later]

theorem estimateDifficulty_later (δ : ℤ) (l : List Entry) : estimateDifficulty (l.map (Entry.later δ)) = estimateDifficulty l := by
  unfold estimateDifficulty
  simp only [List.map_eq_nil_iff, List.filter_map, List.length_map]
  rfl

theorem timeWeight_later (δ a b : ℤ) : timeWeight (a + δ) (b + δ) = timeWeight a b := by
  unfold timeWeight
  rw [daysBetween_later]

theorem weightedAvg_later (δ : ℤ) (l : List Entry) : weightedAvg (l.map (Entry.later δ)) = weightedAvg l := by
  cases l with
  | nil => rfl
  | cons e l =>
    have h1 : ((e :: l).map (Entry.later δ)).map (fun x => (timeWeight (Entry.later δ e).time x.time, x.value)) =
        (e :: l).map (fun x => (timeWeight e.time x.time, x.value)) := by
      rw [List.map_map]
      refine List.map_congr_left fun x _ => ?_
      simp only [Function.comp_apply, Entry.later, timeWeight_later]
    have h2 : ((e :: l).map (Entry.later δ)).zipIdx.map (fun x => (posWeight x.2, x.1.value)) =
        (e :: l).zipIdx.map (fun x => (posWeight x.2, x.1.value)) := by
      rw [List.zipIdx_map, List.map_map]
      rfl
    simp only [weightedAvg]
    rw [← h1, ← h2]
    rfl

theorem replay_later (k : Kind) (δ : ℤ) (l : List Entry) (r : Replay) :
    (l.map (Entry.later δ)).foldl (replayStep k) { r with previous := r.previous.map (· + δ) } =
      { l.foldl (replayStep k) r with previous := (l.foldl (replayStep k) r).previous.map (· + δ) } := by
  induction l generalizing r with
  | nil => rfl
  | cons e l ih =>
    rw [List.map_cons, List.foldl_cons, List.foldl_cons, ← ih]
    congr 1
    obtain ⟨s, d, p⟩ := r
    cases p with
    | none => rfl
    | some p => simp only [replayStep, Option.map_some, Entry.later, daysBetween_later]

theorem computeStability_later (k : Kind) (δ : ℤ) (l : List Entry) (b : ℝ) :
    computeStability k (l.map (Entry.later δ)) b = computeStability k l b := by
  unfold computeStability replay
  rw [← List.map_reverse]
  have := congrArg Replay.stability (replay_later k δ l.reverse { stability := 1, difficulty := b, previous := none })
  exact this

theorem velocity_later (δ : ℤ) (l : List Entry) : velocity (l.map (Entry.later δ)) = velocity l := by
  unfold velocity
  rw [List.length_map, List.getLast?_map]
  split
  · rfl
  · cases l.getLast? with
    | none => rfl
    | some o =>
      simp only [Option.map_some, List.map_map, Function.comp_def, Entry.later, daysBetween_later]

theorem unsorted_later (δ : ℤ) : ∀ l : List Entry, unsorted (l.map (Entry.later δ)) = unsorted l
  | [] => rfl
  | [_] => rfl
  | a :: b :: l => by
    have ih := unsorted_later δ (b :: l)
    simp only [List.map_cons] at ih ⊢
    simp only [unsorted, ih, Entry.later_time, add_lt_add_iff_right]

/-- C109: the score, urgency and velocity of an exercise only depend on how long ago its trials and deltas were: with
all of them and the moment of asking moved by the same amount, they are the same. -/
theorem score_later (δ : ℤ) (k : Kind) (trials deltas : List Entry) (now : ℤ) :
    score k (trials.map (Entry.later δ)) (deltas.map (Entry.later δ)) (now + δ) = score k trials deltas now := by
  have h : ∀ e l, trials = e :: l → score k (trials.map (Entry.later δ)) (deltas.map (Entry.later δ)) (now + δ) =
      score k trials deltas now := by
    intro e l he
    have hd : daysSinceLast (now + δ) (Entry.later δ e) = daysSinceLast now e := by
      unfold daysSinceLast Entry.later
      rw [daysBetween_later]
    subst he
    have h1 := estimateDifficulty_later δ (e :: l)
    have h2 := computeStability_later k δ (e :: l)
    have h3 := weightedAvg_later δ (e :: l)
    have h4 := velocity_later δ (e :: l)
    have h5 := unsorted_later δ (e :: l)
    have h6 := List.length_map (as := e :: l) (Entry.later δ)
    have h7 : ∀ r, computeDelta (deltas.map (Entry.later δ)) r = computeDelta deltas r := fun r => by
      unfold computeDelta
      rw [List.length_map, weightedAvg_later]
    simp only [List.map_cons] at *
    simp only [score, hd, h1, h2, h3, h4, h5, h6, h7]
  cases trials with
  | nil => rfl
  | cons e l => exact h e l rfl

end Trane.Scorer

namespace Trane.RewardScorer
open Trane.Scorer (Entry)

/-- A reward at a time `δ` seconds later. -/
def Reward.later (δ : ℤ) (r : Reward) : Reward := { r with time := r.time + δ }

variable {inRange : ℤ → Bool} {δ : ℤ}

theorem daysSince_later {t : ℤ} (h : inRange t = true) (h' : inRange (t + δ) = true) (r : Reward) (hr : r.time = t) (now : ℤ) :
    daysSince inRange (r.later δ) (now + δ) = daysSince inRange r now := by
  subst hr
  simp only [daysSince, instant, Reward.later, h, h', if_true, add_sub_add_right_eq_sub]

theorem average_later {rs : List Reward} (h : ∀ r ∈ rs, inRange r.time = true ∧ inRange (r.time + δ) = true) (now : ℤ) :
    average inRange (now + δ) (rs.map (Reward.later δ)) = average inRange now rs := by
  have ha : ∀ acc, accumulate inRange (now + δ) acc (rs.map (Reward.later δ)) = accumulate inRange now acc rs := by
    induction rs with
    | nil => exact fun _ => rfl
    | cons r rs ih =>
      intro acc
      have hr := h r (List.mem_cons_self ..)
      have hd : decayed inRange (now + δ) (r.later δ) = decayed inRange now r := by
        unfold decayed
        rw [daysSince_later hr.1 hr.2 r rfl]
        rfl
      simp only [List.map_cons, accumulate, hd, ih (fun r hr => h r (List.mem_cons_of_mem _ hr))]
  unfold average
  rw [ha]

/-- C109: what the rewards of a lesson and its course add up to only depends on how long ago they were given. -/
theorem scoreRewards_later {course lesson : List Reward}
    (hc : ∀ r ∈ course, inRange r.time = true ∧ inRange (r.time + δ) = true)
    (hl : ∀ r ∈ lesson, inRange r.time = true ∧ inRange (r.time + δ) = true) (now : ℤ) :
    scoreRewards inRange (now + δ) (course.map (Reward.later δ)) (lesson.map (Reward.later δ)) =
      scoreRewards inRange now course lesson := by
  unfold scoreRewards
  rw [average_later hc, average_later hl]
  simp only [List.map_eq_nil_iff]

/-- C109: whether a reward applies to an exercise only depends on how long ago its trials were. -/
theorem applyReward_later (now : ℤ) (reward : ℝ) (trials : List Entry) :
    applyReward (now + δ) reward (trials.map (Entry.later δ)) = applyReward now reward trials := by
  cases trials with
  | nil => rfl
  | cons e l =>
    have h6 := List.length_map (as := e :: l) (Entry.later δ)
    have h3 : (((e :: l).map (Entry.later δ)).take 3).map (fun t => t.value) = ((e :: l).take 3).map (fun t => t.value) := by
      rw [← List.map_take, List.map_map]
      rfl
    simp only [List.map_cons] at *
    simp only [applyReward, h6, h3, Entry.later_time, add_sub_add_right_eq_sub]

/-- The moved trials of an exercise, scored now and in a thousand days: the case is not one of an empty history. -/
example : Scorer.score .procedural ([⟨4, 86400⟩, ⟨3, 0⟩].map (Entry.later 86400000)) [] (172800 + 86400000) =
    Scorer.score .procedural [⟨4, 86400⟩, ⟨3, 0⟩] [] 172800 := Scorer.score_later _ _ _ [] _

end Trane.RewardScorer

namespace Trane.Float
open Trane.Scorer (Kind)

variable {α : Type} (A : Arith α) {inRange : ℤ → Bool} {δ : ℤ}

/-- A trial or delta at a time `δ` seconds later. -/
def GEntry.later (δ : ℤ) (e : GEntry α) : GEntry α := { e with time := e.time + δ }

/-- A reward at a time `δ` seconds later. -/
def GReward.later (δ : ℤ) (r : GReward α) : GReward α := { r with time := r.time + δ }

theorem GEntry.later_time (e : GEntry α) : (e.later δ).time = e.time + δ := rfl

theorem GEntry.later_value (e : GEntry α) : (e.later δ).value = e.value := rfl

theorem gDays_later (a b : ℤ) : gDays A (a + δ) (b + δ) = gDays A a b := by
  unfold gDays
  rw [Scorer.satSub_later]

theorem gEstimateDifficulty_later (l : List (GEntry α)) :
    gEstimateDifficulty A (l.map (GEntry.later δ)) = gEstimateDifficulty A l := by
  unfold gEstimateDifficulty
  simp only [List.isEmpty_map, List.filter_map, List.length_map]
  rfl

theorem gWeightedAvg_later (l : List (GEntry α)) : gWeightedAvg A (l.map (GEntry.later δ)) = gWeightedAvg A l := by
  cases l with
  | nil => rfl
  | cons e l =>
    have h1 : ((e :: l).map (GEntry.later δ)).map (fun x => (gTimeWeight A (GEntry.later δ e).time x.time, x.value)) =
        (e :: l).map (fun x => (gTimeWeight A e.time x.time, x.value)) := by
      rw [List.map_map]
      refine List.map_congr_left fun x _ => ?_
      simp only [Function.comp_apply, GEntry.later, gTimeWeight, gDays_later]
    have h2 : ((e :: l).map (GEntry.later δ)).zipIdx.map (fun x => (gPosWeight A x.2, x.1.value)) =
        (e :: l).zipIdx.map (fun x => (gPosWeight A x.2, x.1.value)) := by
      rw [List.zipIdx_map, List.map_map]
      rfl
    simp only [gWeightedAvg]
    rw [← h1, ← h2]
    rfl

theorem gReplay_later (k : Kind) (l : List (GEntry α)) (r : GReplay α) :
    (l.map (GEntry.later δ)).foldl (gReplayStep A k) { r with previous := r.previous.map (· + δ) } =
      { l.foldl (gReplayStep A k) r with previous := (l.foldl (gReplayStep A k) r).previous.map (· + δ) } := by
  induction l generalizing r with
  | nil => rfl
  | cons e l ih =>
    rw [List.map_cons, List.foldl_cons, List.foldl_cons, ← ih]
    congr 1
    obtain ⟨s, d, p⟩ := r
    cases p with
    | none => rfl
    | some p => simp only [gReplayStep, Option.map_some, GEntry.later, gDays_later]

theorem gComputeStability_later (k : Kind) (l : List (GEntry α)) (b : α) :
    gComputeStability A k (l.map (GEntry.later δ)) b = gComputeStability A k l b := by
  unfold gComputeStability
  rw [← List.map_reverse]
  have := congrArg GReplay.stability (gReplay_later A (δ := δ) k l.reverse ⟨A.lit 1, b, none⟩)
  exact this

theorem gVelocity_later (l : List (GEntry α)) : gVelocity A (l.map (GEntry.later δ)) = gVelocity A l := by
  have h : ∀ (o : ℤ) (a : GSums α), (l.map (GEntry.later δ)).foldl (gVelocityStep A (o + δ)) a =
      l.foldl (gVelocityStep A o) a := by
    intro o a
    rw [List.foldl_map]
    congr 1
    funext a x
    simp only [gVelocityStep, GEntry.later, gDays_later]
  unfold gVelocity
  rw [List.length_map, List.getLast?_map]
  split
  · rfl
  · cases l.getLast? with
    | none => rfl
    | some o => simp only [Option.map_some, GEntry.later_time, h]

theorem gUnsorted_later : ∀ l : List (GEntry α), gUnsorted (l.map (GEntry.later δ)) = gUnsorted l
  | [] => rfl
  | [_] => rfl
  | a :: b :: l => by
    have ih := gUnsorted_later (b :: l)
    simp only [List.map_cons] at ih ⊢
    simp only [gUnsorted, ih, GEntry.later_time, add_lt_add_iff_right]

theorem gScore_later (k : Kind) (trials deltas : List (GEntry α)) (now : ℤ) :
    gScore A k (trials.map (GEntry.later δ)) (deltas.map (GEntry.later δ)) (now + δ) = gScore A k trials deltas now := by
  cases trials with
  | nil => rfl
  | cons e l =>
    have h1 := gEstimateDifficulty_later A (δ := δ) (e :: l)
    have h2 := gComputeStability_later A (δ := δ) k (e :: l)
    have h3 := gWeightedAvg_later A (δ := δ) (e :: l)
    have h4 := gVelocity_later A (δ := δ) (e :: l)
    have h5 := gUnsorted_later (δ := δ) (e :: l)
    have h6 := List.length_map (as := e :: l) (GEntry.later δ)
    have h7 : ∀ r, gComputeDelta A (deltas.map (GEntry.later δ)) r = gComputeDelta A deltas r := fun r => by
      unfold gComputeDelta
      rw [List.length_map, gWeightedAvg_later]
    simp only [List.map_cons] at *
    simp only [gScore, GEntry.later_time, gDays_later, h1, h2, h3, h4, h5, h6, h7]

theorem gRewardAverage_later {rs : List (GReward α)}
    (h : ∀ r ∈ rs, inRange r.time = true ∧ inRange (r.time + δ) = true) (now : ℤ) :
    gRewardAverage A inRange (now + δ) (rs.map (GReward.later δ)) = gRewardAverage A inRange now rs := by
  have ha : ∀ acc, (rs.map (GReward.later δ)).foldl (gRewardStep A inRange (now + δ)) acc =
      rs.foldl (gRewardStep A inRange now) acc := by
    induction rs with
    | nil => exact fun _ => rfl
    | cons r rs ih =>
      intro acc
      have hr := h r (List.mem_cons_self ..)
      have hd : gRewardStep A inRange (now + δ) acc (r.later δ) = gRewardStep A inRange now acc r := by
        simp only [gRewardStep, gDecay, gDaysSince, GReward.later, RewardScorer.instant, hr.1, hr.2, if_true,
          add_sub_add_right_eq_sub]
      rw [List.map_cons, List.foldl_cons, List.foldl_cons, hd, ih (fun r hr => h r (List.mem_cons_of_mem _ hr))]
  unfold gRewardAverage
  rw [ha]

theorem gApplyReward_later (now : ℤ) (reward : α) (trials : List (GEntry α)) :
    gApplyReward A (now + δ) reward (trials.map (GEntry.later δ)) = gApplyReward A now reward trials := by
  cases trials with
  | nil => rfl
  | cons e l =>
    have h6 := List.length_map (as := e :: l) (GEntry.later δ)
    have h3 : ∀ a, (((e :: l).map (GEntry.later δ)).take 3).foldl (fun s t => A.add s t.value) a =
        ((e :: l).take 3).foldl (fun s t => A.add s t.value) a := by
      intro a
      rw [← List.map_take, List.foldl_map]
      rfl
    simp only [List.map_cons] at *
    simp only [gApplyReward, h6, h3, GEntry.later_time, add_sub_add_right_eq_sub]

/-- C109, on the machine: also with every operation rounded as `f32` does, and whatever the arithmetic of the machine,
the final score of an exercise is bit for bit the same when its trials, its deltas, the rewards of its lesson and its
course and the moment of asking move by the same amount. -/
theorem machine_score_later (k : Kind) (trials deltas : List (GEntry α)) {course lesson : List (GReward α)}
    (hc : ∀ r ∈ course, inRange r.time = true ∧ inRange (r.time + δ) = true)
    (hl : ∀ r ∈ lesson, inRange r.time = true ∧ inRange (r.time + δ) = true) (now rewardNow : ℤ) :
    gExerciseScore A inRange k (trials.map (GEntry.later δ)) (deltas.map (GEntry.later δ))
        (course.map (GReward.later δ)) (lesson.map (GReward.later δ)) (now + δ) (rewardNow + δ) =
      gExerciseScore A inRange k trials deltas course lesson now rewardNow := by
  unfold gExerciseScore
  rw [gScore_later]
  have h : gScoreRewards A inRange (rewardNow + δ) (course.map (GReward.later δ)) (lesson.map (GReward.later δ)) =
      gScoreRewards A inRange rewardNow course lesson := by
    unfold gScoreRewards
    rw [gRewardAverage_later A hc, gRewardAverage_later A hl]
    simp only [List.isEmpty_map]
  simp only [h, gApplyReward_later]

end Trane.Float
