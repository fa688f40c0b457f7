import Verif.Scorer.Lemmas2

/-!
# Properties of the exercise scorer (C19-C22, C25, C58, C59)

`Entry` is a trial (grade, time) or a delta; histories are lists, newest first.
-/

namespace Trane.Scorer

/-- A history in which times never increase from newest to oldest entry. -/
def NewestFirst (l : List Entry) : Prop := l.Pairwise (fun a b => b.time ≤ a.time)

/-- Two reviews, on day 0 and day 10. -/
def sample : List Entry := [⟨4, 864000⟩, ⟨2, 0⟩]

theorem sample_sorted : NewestFirst sample := by simp [NewestFirst, sample]

/-! ## C19 -/

/-- C19: every history sorted newest first is scored, with a value in [0, 5], an urgency in [0, 1],
and a velocity exactly when there are two trials or more. -/
theorem score_well_formed (k : Kind) (trials deltas : List Entry) (now : ℤ)
    (h : NewestFirst trials) :
    ∃ s, score k trials deltas now = some s ∧ (0 ≤ s.value ∧ s.value ≤ 5) ∧
      (0 ≤ s.urgency ∧ s.urgency ≤ 1) ∧ (s.velocity = none ↔ trials.length < 2) := by
  cases trials with
  | nil => exact ⟨_, rfl, by norm_num, by norm_num, by simp⟩
  | cons last rest =>
    refine ⟨_, score_sorted k last rest deltas now h, clamp_mem _ (by norm_num), ?_, ?_⟩
    · have := retr_mem k (daysSinceLast now last)
        (computeStability k (last :: rest) (estimateDifficulty (last :: rest)))
      constructor <;> dsimp only <;> linarith [this.1, this.2]
    · dsimp only
      unfold velocity
      split
      · simp_all
      · rename_i hl
        rw [List.getLast?_eq_some_getLast (by simp : last :: rest ≠ [])]
        dsimp only
        constructor
        · intro h; split at h <;> simp at h
        · intro h; exact absurd h hl

example : NewestFirst sample := sample_sorted

/-- C19: an exercise that was never tried has value 0, urgency 1 and no velocity. -/
theorem score_no_history (k : Kind) (deltas : List Entry) (now : ℤ) :
    score k [] deltas now = some ⟨0, 1, none⟩ := rfl

/-- C19: a history is rejected exactly when some later entry is newer than an earlier one. -/
theorem score_rejects_iff (k : Kind) (trials deltas : List Entry) (now : ℤ) :
    score k trials deltas now = none ↔ ¬ NewestFirst trials := by
  constructor
  · intro h hs
    obtain ⟨s, hs, _⟩ := score_well_formed k trials deltas now hs
    rw [h] at hs
    simp at hs
  · intro h
    cases trials with
    | nil => exact absurd List.Pairwise.nil h
    | cons last rest =>
      unfold score
      have : unsorted (last :: rest) = true := by
        cases e : unsorted (last :: rest)
        · exact absurd ((unsorted_iff _).1 e) h
        · rfl
      rw [this]
      simp

example (k : Kind) : score k sample.reverse [] 0 = none := by
  rw [score_rejects_iff]; simp [NewestFirst, sample]

/-- C19: without a delta correction (fewer than two deltas), a practised exercise never scores 0 and
never scores above its best grade. -/
theorem score_positive_and_below_best (k : Kind) (trials deltas : List Entry) (now : ℤ)
    (hs : NewestFirst trials) (hne : trials ≠ []) (hd : deltas.length < 2) {lo hi : ℝ}
    (hlo : 0 < lo) (hhi : hi ≤ 5) (hv : ∀ t ∈ trials, lo ≤ t.value ∧ t.value ≤ hi) :
    ∃ s, score k trials deltas now = some s ∧ 0 < s.value ∧ s.value ≤ hi := by
  cases trials with
  | nil => exact absurd rfl hne
  | cons last rest =>
    refine ⟨_, score_sorted k last rest deltas now hs, ?_⟩
    dsimp only
    have hw := weightedAvg_bounds hne hv
    have h0 : computeDelta deltas 1 = 0 := by unfold computeDelta; rw [if_pos hd]
    rw [h0, add_zero]
    set s := computeStability k (last :: rest) (estimateDifficulty (last :: rest))
    have hspos : 0 < s := stability_pos k _ _ (estimate_mem _)
    have hr := retr_pos k (daysSinceLast_nonneg now last) hspos
    have hr1 := (retr_mem k (daysSinceLast now last) s).2
    set r := retrievability k (daysSinceLast now last) s
    have he : 0 < oldGoodFloor r (weightedAvg (last :: rest)) (daysSinceLast now last)
        (last :: rest).length ∧ oldGoodFloor r (weightedAvg (last :: rest))
        (daysSinceLast now last) (last :: rest).length ≤ 1 := by
      unfold oldGoodFloor
      split
      · exact ⟨lt_of_lt_of_le hr (le_max_left _ _), max_le hr1 (by norm_num)⟩
      · exact ⟨hr, hr1⟩
    set e := oldGoodFloor r (weightedAvg (last :: rest)) (daysSinceLast now last)
        (last :: rest).length
    set w := weightedAvg (last :: rest)
    have hwpos : 0 < w := lt_of_lt_of_le hlo hw.1
    have h1 : 0 < e * w := mul_pos he.1 hwpos
    have h2 : e * w ≤ w := by nlinarith [he.2]
    rw [clamp_eq_self h1.le (by linarith [hw.2])]
    exact ⟨h1, h2.trans hw.2⟩

example : sample ≠ [] ∧ ∀ t ∈ sample, (2 : ℝ) ≤ t.value ∧ t.value ≤ 4 := by
  simp [sample]; norm_num

/-! ## C20 -/

/-- C20: recall is a probability in (0, 1], 1 right after a review, and 0.9 after exactly
`stability` days, for both kinds of exercise. -/
theorem recall_range (k : Kind) {days stability : ℝ} (hd : 0 ≤ days) (hs : 0 < stability) :
    (0 < retrievability k days stability ∧ retrievability k days stability ≤ 1) ∧
      retrievability k 0 stability = 1 ∧ retrievability k stability stability = 9 / 10 := by
  refine ⟨⟨retr_pos k hd hs, (retr_mem k _ _).2⟩, ?_, ?_⟩
  · rw [retr_eq k (le_refl _) hs]; simp
  · rw [retr_eq k hs.le hs, mul_div_assoc, div_self hs.ne', mul_one, factor_eq]
    rw [add_sub_cancel, ← Real.rpow_mul (by norm_num), inv_mul_cancel₀ (decay_neg k).ne]
    simp

/-- C20: recall strictly decreases with the elapsed time. -/
theorem recall_decreases (k : Kind) {days days' stability : ℝ} (hd : 0 ≤ days) (h : days < days')
    (hs : 0 < stability) : retrievability k days' stability < retrievability k days stability :=
  retr_anti k hd h hs

/-- C20: recall strictly increases with the stability. -/
theorem recall_increases_with_stability (k : Kind) {days stability stability' : ℝ}
    (hd : 0 < days) (hs : 0 < stability) (h : stability < stability') :
    retrievability k days stability < retrievability k days stability' :=
  retr_mono_s k hd hs h

example : retrievability .declarative 10 10 = 9 / 10 :=
  (recall_range .declarative (days := 0) (le_refl _) (by norm_num)).2.2

/-! ## C21 -/

/-- C21: the base difficulty is 5 without history and otherwise 1 + 9 * (share of grades below 3),
so it always lies in [1, 10]. -/
theorem difficulty_estimate (trials : List Entry) :
    (1 ≤ estimateDifficulty trials ∧ estimateDifficulty trials ≤ 10) ∧
      (trials = [] → estimateDifficulty trials = 5) ∧
      (trials ≠ [] → estimateDifficulty trials =
        1 + 9 * ((trials.countP (fun t => decide (t.value < 3)) : ℝ) / (trials.length : ℝ))) := by
  refine ⟨estimate_mem _, ?_, ?_⟩
  · rintro rfl; simp [estimateDifficulty]
  · intro h
    unfold estimateDifficulty
    rw [if_neg h, List.countP_eq_length_filter]
    have hn : (0 : ℝ) < trials.length := by exact_mod_cast List.length_pos_iff.2 h
    have hle : ((trials.filter (fun t => decide (t.value < 3))).length : ℝ) ≤ trials.length := by
      exact_mod_cast List.length_filter_le _ _
    have h0 : (0 : ℝ) ≤ (trials.filter (fun t => decide (t.value < 3))).length := Nat.cast_nonneg _
    have h1 : ((trials.filter (fun t => decide (t.value < 3))).length : ℝ) / trials.length ≤ 1 :=
      (div_le_one hn).2 hle
    have h2 : 0 ≤ ((trials.filter (fun t => decide (t.value < 3))).length : ℝ) / trials.length :=
      div_nonneg h0 hn.le
    dsimp only
    rw [clamp_eq_self (by linarith) (by linarith)]
    ring

/-- C21: replaying any history leaves the stability in [0.5, 730] and the difficulty in [1, 10]. -/
theorem replay_in_range (k : Kind) (trials : List Entry) :
    let r := replay k trials (estimateDifficulty trials)
    (1 / 2 ≤ r.stability ∧ r.stability ≤ 730) ∧ (1 ≤ r.difficulty ∧ r.difficulty ≤ 10) :=
  inRange_replay k trials (estimate_mem trials)

example : estimateDifficulty sample = 11 / 2 := by
  have h := (difficulty_estimate sample).2.2 (by simp [sample])
  rw [h]
  norm_num [sample, List.countP_cons]

/-! ## C22 -/

/-- C22: the weighted performance lies between the lowest and the highest value. -/
theorem average_between (l : List Entry) (hne : l ≠ []) {lo hi : ℝ}
    (h : ∀ e ∈ l, lo ≤ e.value ∧ e.value ≤ hi) : lo ≤ weightedAvg l ∧ weightedAvg l ≤ hi :=
  weightedAvg_bounds hne h

/-- C22: equal grades average to that grade. -/
theorem average_constant (l : List Entry) (hne : l ≠ []) {c : ℝ} (h : ∀ e ∈ l, e.value = c) :
    weightedAvg l = c := by
  have := weightedAvg_bounds hne (lo := c) (hi := c) (fun e he => by simp [h e he])
  exact le_antisymm this.2 this.1

/-- C22: every trial counts: raising any one grade strictly raises the average. -/
theorem average_counts_every_trial (newer : List Entry) (x : Entry) (older : List Entry) {δ : ℝ}
    (hδ : 0 < δ) :
    weightedAvg (newer ++ x :: older) <
      weightedAvg (newer ++ { x with value := x.value + δ } :: older) :=
  weightedAvg_raise newer x older hδ

/-- C22: recent trials count at least as much as older ones: raising a newer grade helps no less
than raising an older grade by the same amount. -/
theorem average_favours_recent (a : List Entry) (x : Entry) (b : List Entry) (y : Entry)
    (c : List Entry) {δ : ℝ} (hδ : 0 ≤ δ) (hs : NewestFirst (a ++ x :: (b ++ y :: c))) :
    weightedAvg (a ++ x :: (b ++ { y with value := y.value + δ } :: c)) ≤
      weightedAvg (a ++ { x with value := x.value + δ } :: (b ++ y :: c)) := by
  apply weightedAvg_recency a x b y c hδ
  have := (List.pairwise_append.1 hs).2.1
  exact (List.pairwise_cons.1 this).1 y (by simp)

example : weightedAvg sample ≤ 4 ∧ (2 : ℝ) ≤ weightedAvg sample := by
  have := average_between sample (by simp [sample]) (lo := 2) (hi := 4) (by simp [sample]; norm_num)
  exact ⟨this.2, this.1⟩

/-! ## C25 -/

/-- Days from the oldest trial, in exact arithmetic. -/
noncomputable def daysFrom (oldest : Entry) (e : Entry) : ℝ := ((e.time - oldest.time : ℤ) : ℝ) / 86400

/-- The sum of squared residuals of the line `a + b * days` over the history. -/
noncomputable def residuals (oldest : Entry) (l : List Entry) (a b : ℝ) : ℝ :=
  (l.map (fun e => (e.value - (a + b * daysFrom oldest e)) ^ 2)).sum

/-- The spread `n * Σ days² - (Σ days)²` of the trial times. -/
noncomputable def spread (oldest : Entry) (l : List Entry) : ℝ :=
  (l.length : ℝ) * (l.map (fun e => daysFrom oldest e * daysFrom oldest e)).sum
    - (l.map (daysFrom oldest)).sum * (l.map (daysFrom oldest)).sum

/-- Timestamps whose differences do not overflow an `i64`. -/
def SafeTimes (l : List Entry) : Prop := ∀ e ∈ l, -(2 ^ 62) ≤ e.time ∧ e.time < 2 ^ 62

theorem daysBetween_eq {l : List Entry} (h : SafeTimes l) {e o : Entry} (he : e ∈ l) (ho : o ∈ l) :
    daysBetween e.time o.time = daysFrom o e := by
  unfold daysBetween daysFrom
  congr 2
  have h1 := h e he
  have h2 := h o ho
  unfold satSub
  omega

theorem velocity_eq {l : List Entry} (hs : SafeTimes l) (h2 : 2 ≤ l.length) (o : Entry)
    (ho : l.getLast? = some o) :
    velocity l = if |spread o l| < 1 / 2 ^ 23 then some 0 else
      some (((l.length : ℝ) * (l.map (fun e => daysFrom o e * e.value)).sum
        - (l.map (daysFrom o)).sum * (l.map (fun e => e.value)).sum) / spread o l) := by
  have hm : o ∈ l := List.mem_of_getLast? ho
  have e1 : l.map (fun x => daysBetween x.time o.time) = l.map (daysFrom o) :=
    List.map_congr_left (fun x hx => daysBetween_eq hs hx hm)
  have e2 : l.map (fun x => daysBetween x.time o.time * x.value) =
      l.map (fun x => daysFrom o x * x.value) :=
    List.map_congr_left (fun x hx => by rw [daysBetween_eq hs hx hm])
  have e3 : l.map (fun x => daysBetween x.time o.time * daysBetween x.time o.time) =
      l.map (fun x => daysFrom o x * daysFrom o x) :=
    List.map_congr_left (fun x hx => by rw [daysBetween_eq hs hx hm])
  unfold velocity
  rw [if_neg (by omega), ho]
  dsimp only
  rw [e1, e2, e3]
  rfl

/-- C25: the velocity is absent exactly when there are fewer than two trials. -/
theorem velocity_absent_iff (l : List Entry) : velocity l = none ↔ l.length < 2 := by
  unfold velocity
  split
  · simp_all
  · rename_i hl
    have hne : l ≠ [] := by rintro rfl; simp at hl
    rw [List.getLast?_eq_some_getLast hne]
    dsimp only
    constructor
    · intro h; split at h <;> simp at h
    · intro h; exact absurd h hl

/-- C25 (partial): if the trial times are spread enough (`spread ≥ f32::EPSILON`), the velocity is
the slope of the unique line that minimises the sum of squared residuals.  Missing: nearly
simultaneous trials, for which `velocity_close_trials` shows that 0 is reported. -/
theorem velocity_least_squares_partial (l : List Entry) (hs : SafeTimes l) (h2 : 2 ≤ l.length)
    (o : Entry) (ho : l.getLast? = some o) (hD : 1 / 2 ^ 23 ≤ spread o l) :
    ∃ v a, velocity l = some v ∧ ∀ a' b', residuals o l a v ≤ residuals o l a' b' ∧
      (b' ≠ v → residuals o l a v < residuals o l a' b') := by
  have hne : l ≠ [] := by rintro rfl; simp at h2
  have hpos : 0 < spread o l := lt_of_lt_of_le (by norm_num) hD
  have hv := velocity_eq hs h2 o ho
  rw [abs_of_pos hpos, if_neg (not_lt.2 hD)] at hv
  obtain ⟨a, ha⟩ := least_squares (daysFrom o) (fun e => e.value) hne hpos.ne' _ rfl
  exact ⟨_, a, hv, ha⟩

/-- C25 (partial): if the grades are an affine function of time, the velocity is its slope. -/
theorem velocity_affine_partial (l : List Entry) (hs : SafeTimes l) (h2 : 2 ≤ l.length)
    (o : Entry) (ho : l.getLast? = some o) (hD : 1 / 2 ^ 23 ≤ spread o l) {a b : ℝ}
    (h : ∀ e ∈ l, e.value = a + b * daysFrom o e) : velocity l = some b := by
  obtain ⟨v, a0, hv, hmin⟩ := velocity_least_squares_partial l hs h2 o ho hD
  rw [hv]
  by_contra hc
  have hne : b ≠ v := fun e => hc (by rw [e])
  have h1 := (hmin a b).2 hne
  have h0 : residuals o l a b = 0 := by
    unfold residuals
    rw [List.map_congr_left (g := fun _ => (0 : ℝ)) (fun e he => by rw [h e he]; ring)]
    simp
  have h3 : 0 ≤ residuals o l a0 v := by
    unfold residuals
    apply List.sum_nonneg
    intro y hy
    obtain ⟨x, _, rfl⟩ := List.mem_map.1 hy
    positivity
  linarith

/-- C25: two or more trials with the same grade have velocity 0, whatever their times. -/
theorem velocity_constant (l : List Entry) (h2 : 2 ≤ l.length) {c : ℝ}
    (h : ∀ e ∈ l, e.value = c) : velocity l = some 0 := by
  have hne : l ≠ [] := by rintro rfl; simp at h2
  unfold velocity
  rw [if_neg (by omega), List.getLast?_eq_some_getLast hne]
  dsimp only
  split
  · rfl
  · congr 1
    rw [div_eq_zero_iff]
    left
    set o := l.getLast hne
    have e1 : l.map (fun x => daysBetween x.time o.time * x.value) =
        l.map (fun x => daysBetween x.time o.time * c) :=
      List.map_congr_left (fun x hx => by rw [h x hx])
    have e2 : l.map (fun x => x.value) = l.map (fun _ => c) :=
      List.map_congr_left (fun x hx => by rw [h x hx])
    rw [e1, e2, List.sum_map_mul_right]
    simp only [List.map_const', List.sum_replicate, nsmul_eq_mul]
    ring

/-- C25: trials whose times are (nearly) equal have velocity 0. -/
theorem velocity_simultaneous (l : List Entry) (hs : SafeTimes l) (h2 : 2 ≤ l.length)
    (o : Entry) (ho : l.getLast? = some o) (hD : spread o l < 1 / 2 ^ 23) :
    velocity l = some 0 := by
  have hne : l ≠ [] := by rintro rfl; simp at h2
  have h0 : 0 ≤ spread o l := denominator_nonneg (daysFrom o) hne
  rw [velocity_eq hs h2 o ho, abs_of_nonneg h0, if_pos hD]

/-- C25, where the full statement fails: two trials one second apart, graded 2 then 5, have velocity
0 although the grades are an affine function of time with slope 3 * 86400 per day. -/
theorem velocity_close_trials :
    velocity [⟨5, 1⟩, ⟨2, 0⟩] = some 0 ∧
      ∀ e ∈ ([⟨5, 1⟩, ⟨2, 0⟩] : List Entry), e.value = 2 + (3 * 86400) * daysFrom ⟨2, 0⟩ e := by
  constructor
  · apply velocity_simultaneous _ _ (by simp) ⟨2, 0⟩ (by simp)
    · norm_num [spread, daysFrom]
    · intro e he; simp at he; rcases he with rfl | rfl <;> norm_num
  · intro e he; simp at he; rcases he with rfl | rfl <;> norm_num [daysFrom]

/-- A witness of the hypotheses of `velocity_affine_partial`: grades 2, 3, 5 on days 0, 1, 3. -/
example : velocity [⟨5, 259200⟩, ⟨3, 86400⟩, ⟨2, 0⟩] = some 1 := by
  apply velocity_affine_partial _ _ (by simp) ⟨2, 0⟩ (by simp) _ (a := 2)
  · intro e he; simp at he; rcases he with rfl | rfl | rfl <;> norm_num [daysFrom]
  · intro e he; simp at he; rcases he with rfl | rfl | rfl <;> norm_num
  · norm_num [spread, daysFrom]

/-! ## C58: scores decay with time -/

/-- C58 (partial): while an exercise is not practised its score never rises and its urgency never
falls, if both moments are before, or both at or after, 50 days from the last trial.  Missing: an
interval that crosses the 50 days mark, for which `waiting_can_raise_score` is a counterexample. -/
theorem score_decays_partial (k : Kind) (last : Entry) (rest deltas : List Entry)
    (hs : NewestFirst (last :: rest)) {now now' : ℤ} (hn : now ≤ now')
    (hside : now' < last.time + 50 * 86400 ∨ last.time + 50 * 86400 ≤ now) :
    ∃ s s', score k (last :: rest) deltas now = some s ∧
      score k (last :: rest) deltas now' = some s' ∧ s'.value ≤ s.value ∧
      s.urgency ≤ s'.urgency := by
  refine ⟨_, _, score_sorted k last rest deltas now hs, score_sorted k last rest deltas now' hs, ?_⟩
  have hst := stability_pos k (last :: rest) _ (estimate_mem (last :: rest))
  have hr := retr_mono k (daysSinceLast_nonneg now last) (daysSinceLast_mono last hn) hst
    (le_refl _)
  dsimp only
  constructor
  · apply clamp_scaled_mono (floor_nonneg (retr_mem k _ _).1) _ (le_refl _)
    unfold oldGoodFloor
    have i1 := fifty_le_days_iff now last
    have i2 := fifty_le_days_iff now' last
    rcases hside with h | h
    · rw [if_neg (fun hc => absurd (i2.1 hc.2.2) (by omega)),
        if_neg (fun hc => absurd (i1.1 hc.2.2) (by omega))]
      exact hr
    · by_cases hc : 2 ≤ (last :: rest).length ∧ 4 ≤ weightedAvg (last :: rest)
      · rw [if_pos ⟨hc.1, hc.2, i2.2 (by omega)⟩, if_pos ⟨hc.1, hc.2, i1.2 h⟩]
        exact max_le_max hr (le_refl _)
      · rw [if_neg (fun h => hc ⟨h.1, h.2.1⟩), if_neg (fun h => hc ⟨h.1, h.2.1⟩)]
        exact hr
  · linarith

example : (864000 : ℤ) ≤ 864000 + 86400 ∧ NewestFirst sample ∧
    (864000 + 86400 : ℤ) < 864000 + 50 * 86400 := ⟨by norm_num, sample_sorted, by norm_num⟩

/-- C58: the urgency of an exercise never falls while it is not practised. -/
theorem urgency_grows (k : Kind) (last : Entry) (rest deltas : List Entry)
    (hs : NewestFirst (last :: rest)) {now now' : ℤ} (hn : now ≤ now') :
    ∃ s s', score k (last :: rest) deltas now = some s ∧
      score k (last :: rest) deltas now' = some s' ∧ s.urgency ≤ s'.urgency := by
  refine ⟨_, _, score_sorted k last rest deltas now hs, score_sorted k last rest deltas now' hs, ?_⟩
  have := retr_mono k (daysSinceLast_nonneg now last) (daysSinceLast_mono last hn)
    (stability_pos k (last :: rest) _ (estimate_mem (last :: rest))) (le_refl _)
  dsimp only
  linarith

/-- The history of the counterexample: the top grade given twice at the same moment. -/
def topTwice : List Entry := [⟨5, 0⟩, ⟨5, 0⟩]

theorem topTwice_stability (k : Kind) (b : ℝ) : computeStability k topTwice b = 1 := by
  unfold computeStability topTwice
  rw [replay_cons, replay_cons]
  have h0 : daysBetween 0 0 = 0 := by norm_num [daysBetween, satSub]
  simp only [replay, List.reverse_nil, List.foldl_nil, replayStep, h0, max_self]
  exact stabilityStep_instant k (by norm_num)

theorem topTwice_avg : weightedAvg topTwice = 5 :=
  average_constant _ (by simp [topTwice]) (by simp [topTwice])

theorem topTwice_recall {d : ℝ} (h : 49 ≤ d) : retrievability .procedural d 1 < 3 / 4 := by
  rw [retr_eq _ (by linarith) (by norm_num)]
  have hf : curveFactor .procedural = ((9 / 10 : ℝ) ^ 5)⁻¹ - 1 := by
    rw [factor_eq]
    have : (curveDecay .procedural)⁻¹ = -((5 : ℕ) : ℝ) := by norm_num [curveDecay]
    rw [this, Real.rpow_neg (by norm_num), Real.rpow_natCast]
  have hlt : (4 / 3 : ℝ) ^ (5 : ℝ) < 1 + curveFactor .procedural * d / 1 := by
    rw [hf, show (5 : ℝ) = ((5 : ℕ) : ℝ) by norm_num, Real.rpow_natCast]
    have : (1 / 2 : ℝ) ≤ ((9 / 10 : ℝ) ^ 5)⁻¹ - 1 := by norm_num
    have h2 : (1 / 2 : ℝ) * 49 ≤ (((9 / 10 : ℝ) ^ 5)⁻¹ - 1) * d :=
      mul_le_mul this h (by norm_num) (by linarith)
    rw [div_one]
    norm_num at *
    linarith
  have h3 := Real.rpow_lt_rpow_of_neg (z := curveDecay .procedural)
    (by positivity : (0 : ℝ) < (4 / 3 : ℝ) ^ (5 : ℝ)) hlt (decay_neg _)
  have h4 : ((4 / 3 : ℝ) ^ (5 : ℝ)) ^ curveDecay .procedural = 3 / 4 := by
    rw [← Real.rpow_mul (by norm_num)]
    have : (5 : ℝ) * curveDecay .procedural = -1 := by norm_num [curveDecay]
    rw [this, Real.rpow_neg_one]
    norm_num
  linarith

/-- C58, where the full statement fails: an exercise graded 5 twice at one moment and then left alone
scores strictly higher after 50 days than after 49 days. -/
theorem waiting_can_raise_score :
    ∃ s s', score .procedural topTwice [] (49 * 86400) = some s ∧
      score .procedural topTwice [] (50 * 86400) = some s' ∧ s.value < s'.value := by
  have hs : NewestFirst topTwice := by simp [NewestFirst, topTwice]
  refine ⟨_, _, score_sorted _ _ _ _ _ hs, score_sorted _ _ _ _ _ hs, ?_⟩
  dsimp only
  have e : (⟨5, 0⟩ :: [⟨5, 0⟩] : List Entry) = topTwice := rfl
  rw [e, topTwice_stability, topTwice_avg]
  have d1 : daysSinceLast (49 * 86400) ⟨5, 0⟩ = 49 := by
    norm_num [daysSinceLast, daysBetween, satSub]
  have d2 : daysSinceLast (50 * 86400) ⟨5, 0⟩ = 50 := by
    norm_num [daysSinceLast, daysBetween, satSub]
  have r1 := topTwice_recall (d := 49) (le_refl _)
  have r2 := topTwice_recall (d := 50) (by norm_num)
  have p1 := (retr_mem .procedural 49 1).1
  have c0 : computeDelta [] 1 = 0 := by simp [computeDelta]
  rw [d1, d2, c0]
  have f1 : oldGoodFloor (retrievability .procedural 49 1) 5 49 topTwice.length =
      retrievability .procedural 49 1 := by
    unfold oldGoodFloor; rw [if_neg (by norm_num)]
  have f2 : oldGoodFloor (retrievability .procedural 50 1) 5 50 topTwice.length = 3 / 4 := by
    unfold oldGoodFloor
    rw [if_pos (by norm_num [topTwice])]
    exact max_eq_right r2.le
  rw [f1, f2, clamp_eq_self (by linarith) (by linarith), clamp_eq_self (by norm_num) (by norm_num)]
  linarith

/-! ## C59: the effect of a review -/

/-- C59: a review graded 3 or taken at once leaves the stability unchanged; a grade above 3 never
lowers it, a grade below 3 never raises it. -/
theorem review_direction (k : Kind) {s d v t : ℝ} (hs : 1 / 2 ≤ s ∧ s ≤ 730) (hd : d ≤ 10)
    (ht : 0 ≤ t) :
    stabilityStep k s d 3 t = s ∧ stabilityStep k s d v 0 = s ∧
      (3 ≤ v → s ≤ stabilityStep k s d v t) ∧ (v ≤ 3 → stabilityStep k s d v t ≤ s) := by
  have h0 : (0 : ℝ) ≤ s := by linarith [hs.1]
  refine ⟨stabilityStep_neutral k hs, stabilityStep_instant k hs, ?_, ?_⟩
  · intro h
    have := stabilityStep_mono k h0 (by linarith) ht h (d := d)
    rwa [stabilityStep_neutral k hs] at this
  · intro h
    have := stabilityStep_mono k h0 (by linarith) ht h (d := d)
    rwa [stabilityStep_neutral k hs] at this

/-- C59 (partial): with all else equal, a better latest grade never gives a lower score nor a higher
urgency, at any time.  Missing: a change of the latest grade across the failure threshold 3, for
which `better_grade_more_urgent` shows that the urgency can rise. -/
theorem better_grade_helps_partial (k : Kind) (t : Entry) (rest deltas : List Entry) (now : ℤ)
    (hs : NewestFirst (t :: rest)) {v' : ℝ} (hv : t.value ≤ v') (hside : t.value < 3 ↔ v' < 3) :
    ∃ s s', score k (t :: rest) deltas now = some s ∧
      score k ({ t with value := v' } :: rest) deltas now = some s' ∧
      s.value ≤ s'.value ∧ s'.urgency ≤ s.urgency := by
  have hs' : NewestFirst ({ t with value := v' } :: rest) := by
    unfold NewestFirst at *
    rw [List.pairwise_cons] at *
    exact hs
  refine ⟨_, _, score_sorted k _ _ deltas now hs, score_sorted k _ _ deltas now hs', ?_⟩
  dsimp only
  rw [estimate_same_side t rest hside]
  have hb := estimate_mem (t :: rest)
  have hst := stability_latest_mono k rest t hb hv
  have hday : daysSinceLast now { t with value := v' } = daysSinceLast now t := rfl
  rw [hday]
  have hr := retr_mono k (daysSinceLast_nonneg now t) (le_refl _) (stability_pos k _ _ hb) hst
  have hw : weightedAvg (t :: rest) ≤ weightedAvg ({ t with value := v' } :: rest) := by
    rcases hv.eq_or_lt with e | e
    · have : ({ t with value := v' } : Entry) = t := by cases t; simp_all
      rw [this]
    · have := average_counts_every_trial [] t rest (sub_pos.2 e)
      simp only [List.nil_append, add_sub_cancel] at this
      exact this.le
  refine ⟨?_, by linarith⟩
  apply clamp_scaled_mono (floor_nonneg (retr_mem k _ _).1)
  · exact floor_mono hr hw
  · linarith

example : NewestFirst (⟨3, 864000⟩ :: [⟨2, 0⟩]) ∧ ((3 : ℝ) < 3 ↔ (5 : ℝ) < 3) := by
  constructor
  · simp [NewestFirst]
  · norm_num

/-- C59, where the full statement fails: raising the latest grade from 2 to 4 in this history makes
the exercise strictly more urgent. -/
theorem better_grade_more_urgent :
    ∃ s s', score .procedural [⟨2, 43200⟩, ⟨2, 43200⟩, ⟨5, 0⟩] [] 86400 = some s ∧
      score .procedural [⟨4, 43200⟩, ⟨2, 43200⟩, ⟨5, 0⟩] [] 86400 = some s' ∧
      s.urgency < s'.urgency := by
  have e0 : daysBetween 43200 43200 = 0 := by norm_num [daysBetween, satSub]
  have e1 : daysBetween 43200 0 = 1 / 2 := by norm_num [daysBetween, satSub]
  have st : ∀ v b : ℝ, 1 / 2 ≤ 1 - (11 - b) / 16 → 1 - (11 - b) / 16 ≤ 730 →
      computeStability .procedural [⟨v, 43200⟩, ⟨2, 43200⟩, ⟨5, 0⟩] b = 1 - (11 - b) / 16 := by
    intro v b h1 h2
    unfold computeStability
    rw [replay_cons, replay_cons, replay_cons]
    simp only [replay, List.reverse_nil, List.foldl_nil, replayStep, e0, e1, max_self]
    have hstep : stabilityStep .procedural 1 b 2 (max (1 / 2) 0) = 1 - (11 - b) / 16 := by
      unfold stabilityStep
      rw [max_eq_left (by norm_num : (0 : ℝ) ≤ 1 / 2)]
      have hp : ((2 : ℝ) - 1) / 4 - 1 / 2 = -(1 / 4) := by norm_num
      have hg : spacingGain .procedural (1 / 2) 1 (-(1 / 4)) = 1 := by
        unfold spacingGain; rw [if_pos (by norm_num)]
      have hm : min (1 / 2 : ℝ) 1 = 1 / 2 := min_eq_left (by norm_num)
      simp only [hp, hg, hm]
      rw [show (1 : ℝ) * (1 + 5 / 2 * -(1 / 4) * ((11 - b) / 5) * 1 * (1 / 2)) =
        1 - (11 - b) / 16 by ring]
      exact clamp_eq_self h1 h2
    rw [hstep]
    exact stabilityStep_instant _ ⟨h1, h2⟩
  have b1 : estimateDifficulty [⟨2, 43200⟩, ⟨2, 43200⟩, ⟨5, 0⟩] = 7 := by
    rw [(difficulty_estimate _).2.2 (by simp)]; norm_num [List.countP_cons]
  have b2 : estimateDifficulty [⟨4, 43200⟩, ⟨2, 43200⟩, ⟨5, 0⟩] = 4 := by
    rw [(difficulty_estimate _).2.2 (by simp)]; norm_num [List.countP_cons]
  refine ⟨_, _, score_sorted _ _ _ _ _ (by simp), score_sorted _ _ _ _ _ (by simp), ?_⟩
  dsimp only
  rw [b1, b2, st 2 7 (by norm_num) (by norm_num), st 4 4 (by norm_num) (by norm_num)]
  have d : ∀ v, daysSinceLast 86400 ⟨v, 43200⟩ = 1 / 2 := by
    intro v; norm_num [daysSinceLast, daysBetween, satSub]
  rw [d, d]
  have := retr_mono_s .procedural (d := 1 / 2) (s := 1 - (11 - 4) / 16) (s' := 1 - (11 - 7) / 16)
    (by norm_num) (by norm_num) (by norm_num)
  linarith

end Trane.Scorer
