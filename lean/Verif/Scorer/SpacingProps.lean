import Verif.Scorer.Formula
import Verif.Scorer.Props

/-!
# C108: spaced practice builds memory, cramming does not

The theorems speak of the scores and urgencies that `Scorer.score` returns; histories are newest first, and `Formula.recall`
(`Verif/Scorer/FormulaSpec.lean`) is the chance of recall written out.
-/

namespace Trane.Scorer

/-! ### Specification -/

/-- Each trial comes at least a day after the one before. -/
def Daily (l : List Entry) : Prop := l.Pairwise (fun a b => b.time + 86400 ≤ a.time)

/-- The days between two instants. -/
noncomputable def daysOf (later earlier : ℤ) : ℝ := ((later - earlier : ℤ) : ℝ) / 86400

/-! ### Lemmas -/

theorem daily_newest {l : List Entry} (h : Daily l) : NewestFirst l := by
  unfold Daily at h
  unfold NewestFirst
  exact h.imp (fun {a b} h => by omega)

theorem replay_previous (k : Kind) (t : Entry) (l : List Entry) (b : ℝ) : (replay k (t :: l) b).previous = some t.time := by
  rw [replay_cons]
  unfold replayStep
  split <;> rfl

theorem replay_two (k : Kind) (t t' : Entry) (l : List Entry) (b : ℝ) :
    (replay k (t :: t' :: l) b).stability = stabilityStep k (replay k (t' :: l) b).stability (replay k (t' :: l) b).difficulty t.value
      (max (daysBetween t.time t'.time) 0) ∧
    (replay k (t :: t' :: l) b).difficulty = updateDifficulty (replay k (t' :: l) b).difficulty 5 t.value := by
  rw [replay_cons k t]
  have h := replay_previous k t' l b
  unfold replayStep
  rw [h]
  exact ⟨rfl, rfl⟩

theorem replay_one (k : Kind) (t : Entry) (b : ℝ) : (replay k [t] b).stability = 1 ∧ (replay k [t] b).difficulty = b := ⟨rfl, rfl⟩

theorem gain_le (k : Kind) (d s p : ℝ) : spacingGain k d s p ≤ 33 / 20 := by
  unfold spacingGain
  split
  · norm_num
  · have := (clamp_mem (1 + 65 / 100 * (1 - retrievability k d s)) (lo := 1) (hi := 1 + 65 / 100) (by norm_num)).2
    linarith

/-- One review multiplies the stability at most by `exp (33/8 * days)`. -/
theorem step_le_exp (k : Kind) {s d v t : ℝ} (hs : 1 / 2 ≤ s) (hd : 1 ≤ d ∧ d ≤ 10) (hv : v ≤ 5) (ht : 0 ≤ t) {M : ℝ} (hM : 1 ≤ M)
    (h : s ≤ M) : stabilityStep k s d v t ≤ M * Real.exp (33 / 8 * t) := by
  have hexp : 1 ≤ Real.exp (33 / 8 * t) := Real.one_le_exp (by positivity)
  have hMe : 1 ≤ M * Real.exp (33 / 8 * t) := one_le_mul_of_one_le_of_one_le hM hexp
  have hg1 := spacingGain_ge k t s ((v - 1) / 4 - 1 / 2)
  have hg2 := gain_le k t s ((v - 1) / 4 - 1 / 2)
  have hgrow : 5 / 2 * ((v - 1) / 4 - 1 / 2) * ((11 - d) / 5) * spacingGain k t s ((v - 1) / 4 - 1 / 2) * min t 1 ≤ 33 / 8 * t := by
    generalize spacingGain k t s ((v - 1) / 4 - 1 / 2) = g at *
    have hp : (v - 1) / 4 - 1 / 2 ≤ 1 / 2 := by linarith
    generalize (v - 1) / 4 - 1 / 2 = p at *
    have he : 0 ≤ (11 - d) / 5 ∧ (11 - d) / 5 ≤ 2 := ⟨by linarith [hd.2], by linarith [hd.1]⟩
    generalize (11 - d) / 5 = e at *
    have hm : 0 ≤ min t 1 ∧ min t 1 ≤ t := ⟨le_min ht zero_le_one, min_le_left _ _⟩
    generalize min t 1 = m at *
    have h0 : 0 ≤ e * g * m := mul_nonneg (mul_nonneg he.1 (by linarith)) hm.1
    have h1 : e * g * m ≤ 2 * (33 / 20) * t := by
      apply mul_le_mul (mul_le_mul he.2 hg2 (by linarith) (by norm_num)) hm.2 hm.1 (by norm_num)
    have h2 : p * (e * g * m) ≤ 1 / 2 * (e * g * m) := mul_le_mul_of_nonneg_right hp h0
    calc 5 / 2 * p * e * g * m = 5 / 2 * (p * (e * g * m)) := by ring
      _ ≤ 5 / 2 * (1 / 2 * (2 * (33 / 20) * t)) := by linarith
      _ = 33 / 8 * t := by ring
  unfold stabilityStep
  dsimp only
  generalize 5 / 2 * ((v - 1) / 4 - 1 / 2) * ((11 - d) / 5) * spacingGain k t s ((v - 1) / 4 - 1 / 2) * min t 1 = g at *
  have h1 : s * (1 + g) ≤ M * Real.exp (33 / 8 * t) := by
    have a1 : 1 + g ≤ Real.exp (33 / 8 * t) := by
      have := Real.add_one_le_exp (33 / 8 * t)
      linarith
    calc s * (1 + g) ≤ s * Real.exp (33 / 8 * t) := mul_le_mul_of_nonneg_left a1 (by linarith)
      _ ≤ M * Real.exp (33 / 8 * t) := mul_le_mul_of_nonneg_right h (Real.exp_pos _).le
  unfold clamp
  split_ifs
  · linarith
  · linarith
  · exact h1

theorem daysBetween_of {l : List Entry} (h : SafeTimes l) {e o : Entry} (he : e ∈ l) (ho : o ∈ l) :
    daysBetween e.time o.time = daysOf e.time o.time := daysBetween_eq h he ho

/-- A later review that succeeds builds at least as much stability. -/
theorem stabilityStep_days (k : Kind) {s d v t t' : ℝ} (hs : 0 < s) (hd : d ≤ 11) (hv : 3 ≤ v) (ht : 0 ≤ t) (h : t ≤ t') :
    stabilityStep k s d v t ≤ stabilityStep k s d v t' := by
  unfold stabilityStep
  dsimp only
  apply clamp_mono (by norm_num)
  apply mul_le_mul_of_nonneg_left _ hs.le
  have hp : 0 ≤ (v - 1) / 4 - 1 / 2 := by linarith
  have he : 0 ≤ (11 - d) / 5 := by linarith
  have hgain : spacingGain k t s ((v - 1) / 4 - 1 / 2) ≤ spacingGain k t' s ((v - 1) / 4 - 1 / 2) := by
    unfold spacingGain
    split_ifs
    · exact le_rfl
    · apply clamp_mono (by norm_num)
      have := retr_mono k ht h hs le_rfl
      linarith
  have hg := spacingGain_ge k t s ((v - 1) / 4 - 1 / 2)
  generalize spacingGain k t s ((v - 1) / 4 - 1 / 2) = g at *
  generalize spacingGain k t' s ((v - 1) / 4 - 1 / 2) = g' at *
  have hm : min t 1 ≤ min t' 1 := min_le_min_right 1 h
  have hm0 : 0 ≤ min t 1 := le_min ht zero_le_one
  have := mul_le_mul (mul_le_mul_of_nonneg_left hgain (mul_nonneg (mul_nonneg (by norm_num : (0 : ℝ) ≤ 5 / 2) hp) he)) hm hm0
    (mul_nonneg (mul_nonneg (mul_nonneg (by norm_num) hp) he) (by linarith))
  linarith

/-- The stability of trials that were all perfect, one a day at most. -/
theorem perfect_stability (k : Kind) {b : ℝ} (hb : b = 1) (l : List Entry) (t : Entry) (hsafe : SafeTimes (t :: l)) (hd : Daily (t :: l))
    (h5 : ∀ e ∈ t :: l, e.value = 5) :
    min 730 ((31 / 10 : ℝ) ^ l.length) ≤ (replay k (t :: l) b).stability ∧ (replay k (t :: l) b).difficulty ≤ 9 / 4 := by
  induction l generalizing t with
  | nil => rw [(replay_one k t b).1, (replay_one k t b).2, hb]; norm_num
  | cons t' l ih =>
    obtain ⟨i1, i2⟩ := ih t' (fun e he => hsafe e (List.mem_cons_of_mem _ he)) (List.Pairwise.of_cons hd)
      (fun e he => h5 e (List.mem_cons_of_mem _ he))
    obtain ⟨e1, e2⟩ := replay_two k t t' l b
    have hr := (inRange_replay k (t' :: l) (base := b) (by rw [hb]; norm_num)).1.1
    have hgap : 1 ≤ max (daysBetween t.time t'.time) 0 := by
      rw [daysBetween_of hsafe List.mem_cons_self (List.mem_cons_of_mem _ List.mem_cons_self)]
      refine le_max_of_le_left ?_
      have := (List.pairwise_cons.1 hd).1 t' List.mem_cons_self
      unfold daysOf
      rw [le_div_iff₀ (by norm_num)]
      have : (86400 : ℤ) ≤ t.time - t'.time := by omega
      exact_mod_cast (by linarith : (1 : ℤ) * 86400 ≤ t.time - t'.time)
    rw [e1, e2, h5 t List.mem_cons_self]
    generalize (replay k (t' :: l) b).stability = s at *
    generalize (replay k (t' :: l) b).difficulty = d at *
    generalize max (daysBetween t.time t'.time) 0 = g at *
    constructor
    · unfold stabilityStep
      dsimp only
      rw [min_eq_right hgap]
      have hg := spacingGain_ge k g s ((5 - 1) / 4 - 1 / 2)
      generalize spacingGain k g s ((5 - 1) / 4 - 1 / 2) = gn at *
      have hfac : (31 / 10 : ℝ) ≤ 1 + 5 / 2 * ((5 - 1) / 4 - 1 / 2) * ((11 - d) / 5) * gn * 1 := by
        have : (7 / 4 : ℝ) * 1 ≤ (11 - d) / 5 * gn := mul_le_mul (by linarith) hg (by norm_num) (by linarith)
        nlinarith
      have hs0 : 0 ≤ s := by linarith
      have hmul : s * (31 / 10) ≤ s * (1 + 5 / 2 * ((5 - 1) / 4 - 1 / 2) * ((11 - d) / 5) * gn * 1) :=
        mul_le_mul_of_nonneg_left hfac hs0
      generalize s * (1 + 5 / 2 * ((5 - 1) / 4 - 1 / 2) * ((11 - d) / 5) * gn * 1) = x at *
      have hx : min 730 ((31 / 10 : ℝ) ^ (t' :: l).length) ≤ x ∨ 730 ≤ x := by
        rcases le_total 730 ((31 / 10 : ℝ) ^ l.length) with h | h
        · right
          rw [min_eq_left h] at i1
          linarith
        · left
          rw [min_eq_right h] at i1
          refine (min_le_right _ _).trans ?_
          rw [List.length_cons, pow_succ]
          linarith
      unfold clamp
      split_ifs with c1 c2
      · rcases hx with hx | hx
        · linarith
        · linarith
      · exact min_le_left _ _
      · rcases hx with hx | hx
        · exact hx
        · exact (min_le_left _ _).trans hx
    · unfold updateDifficulty
      dsimp only
      have ha : clamp (d + (3 - 5) / 4 * (105 / 100)) 1 10 ≤ 69 / 40 := by
        unfold clamp
        split_ifs <;> linarith
      generalize clamp (d + (3 - 5) / 4 * (105 / 100)) 1 10 = a at *
      have hc : ∀ x : ℝ, x ≤ 9 / 4 → clamp x 1 10 ≤ 9 / 4 := by
        intro x hx
        unfold clamp
        split_ifs <;> linarith
      exact hc _ (by linarith)

/-- The stability of three or more trials that all failed, one a day at most. -/
theorem failed_stability (k : Kind) {b : ℝ} (hb : b = 10) (l : List Entry) (t t' t'' : Entry) (hsafe : SafeTimes (t :: t' :: t'' :: l))
    (hd : Daily (t :: t' :: t'' :: l)) (h1 : ∀ e ∈ t :: t' :: t'' :: l, e.value = 1) :
    (replay k (t :: t' :: t'' :: l) b).stability = 1 / 2 := by
  have gap : ∀ {t t' : Entry} {l : List Entry}, SafeTimes (t :: t' :: l) → Daily (t :: t' :: l) →
      1 ≤ max (daysBetween t.time t'.time) 0 := by
    intro t t' l hsafe hd
    rw [daysBetween_of hsafe List.mem_cons_self (List.mem_cons_of_mem _ List.mem_cons_self)]
    refine le_max_of_le_left ?_
    have := (List.pairwise_cons.1 hd).1 t' List.mem_cons_self
    unfold daysOf
    rw [le_div_iff₀ (by norm_num)]
    exact_mod_cast (by linarith : (1 : ℤ) * 86400 ≤ t.time - t'.time)
  have cons : ∀ {t : Entry} {l : List Entry}, SafeTimes (t :: l) → SafeTimes l := fun h e he => h e (List.mem_cons_of_mem _ he)
  have step : ∀ {s d g : ℝ}, 1 ≤ g → stabilityStep k s d 1 g = clamp (s * (1 - 5 / 4 * ((11 - d) / 5))) (1 / 2) 730 := by
    intro s d g hg
    unfold stabilityStep
    dsimp only
    have hp : ((1 : ℝ) - 1) / 4 - 1 / 2 = -(1 / 2) := by norm_num
    rw [min_eq_right hg, hp]
    unfold spacingGain
    rw [if_pos (by norm_num)]
    congr 1
    ring
  induction l generalizing t t' t'' with
  | nil =>
    obtain ⟨a1, a2⟩ := replay_two k t' t'' [] b
    obtain ⟨b1, b2⟩ := replay_two k t t' [t''] b
    obtain ⟨c1, c2⟩ := replay_one k t'' b
    rw [b1, a1, a2, c1, c2, h1 t (by simp), h1 t' (by simp), step (gap hsafe hd), step (gap (cons hsafe) hd.of_cons), hb]
    unfold updateDifficulty
    norm_num [clamp]
  | cons u l ih =>
    obtain ⟨b1, b2⟩ := replay_two k t t' (t'' :: u :: l) b
    have i := ih t' t'' u (cons hsafe) hd.of_cons (fun e he => h1 e (List.mem_cons_of_mem _ he))
    have hr := inRange_replay k (t' :: t'' :: u :: l) (base := b) (by rw [hb]; norm_num)
    rw [b1, i, h1 t (by simp)]
    refine le_antisymm ?_ (stabilityStep_mem _ _ _ _ _).1
    exact (review_direction k (s := 1 / 2) (v := 1) ⟨le_rfl, by norm_num⟩ hr.2.2 (by linarith [gap hsafe hd])).2.2.2 (by norm_num)

/-! ### Theorems -/

/-- **C108.**  However often something is practised, its stability (the days until recall falls to nine tenths) is at most
`exp (33/8 * T)` when the first and the last trial are `T` days apart. -/
theorem cramming_bounded (k : Kind) (b : ℝ) (hb : 1 ≤ b ∧ b ≤ 10) (l : List Entry) (t o : Entry) (hsafe : SafeTimes (t :: l))
    (hs : NewestFirst (t :: l)) (hv : ∀ e ∈ t :: l, e.value ≤ 5) (ho : (t :: l).getLast? = some o) :
    computeStability k (t :: l) b ≤ Real.exp (33 / 8 * daysOf t.time o.time) := by
  unfold computeStability
  induction l generalizing t with
  | nil =>
    rw [(replay_one k t b).1]
    cases ho
    simp [daysOf]
  | cons t' l ih =>
    have i := ih t' (fun e he => hsafe e (List.mem_cons_of_mem _ he)) (List.Pairwise.of_cons hs)
      (fun e he => hv e (List.mem_cons_of_mem _ he)) (by simpa using ho)
    obtain ⟨e1, -⟩ := replay_two k t t' l b
    have hr := inRange_replay k (t' :: l) hb
    have hle := (List.pairwise_cons.1 hs).1 t' List.mem_cons_self
    have hot : o.time ≤ t'.time := by
      have hm : o ∈ t' :: l := List.mem_of_getLast? (by simpa using ho)
      rcases List.mem_cons.1 hm with rfl | hm
      · exact le_rfl
      · exact (List.pairwise_cons.1 (List.Pairwise.of_cons hs)).1 o hm
    have hM : (1 : ℝ) ≤ Real.exp (33 / 8 * daysOf t'.time o.time) := by
      apply Real.one_le_exp
      unfold daysOf
      have : (0 : ℝ) ≤ ((t'.time - o.time : ℤ) : ℝ) := by exact_mod_cast (by omega)
      positivity
    rw [e1, daysBetween_of hsafe List.mem_cons_self (List.mem_cons_of_mem _ List.mem_cons_self)]
    have hnn : 0 ≤ daysOf t.time t'.time := by
      unfold daysOf
      have : (0 : ℝ) ≤ ((t.time - t'.time : ℤ) : ℝ) := by exact_mod_cast (by omega)
      positivity
    rw [max_eq_left hnn]
    refine (step_le_exp k hr.1.1 hr.2 (hv t List.mem_cons_self) hnn hM i).trans (le_of_eq ?_)
    rw [← Real.exp_add]
    congr 1
    unfold daysOf
    push_cast
    ring

/-- What `score` returns for a sorted history. -/
theorem urgency_of {k : Kind} {last : Entry} {rest deltas : List Entry} {now : ℤ} {s : Score}
    (hs : NewestFirst (last :: rest)) (h : score k (last :: rest) deltas now = some s) :
    s.urgency = 1 - retrievability k (daysSinceLast now last) (computeStability k (last :: rest) (estimateDifficulty (last :: rest))) := by
  rw [score_sorted k last rest deltas now hs] at h
  cases h
  rfl

/-- **C108, cramming.**  However many trials there were and however good, the chance of recall is at most that of something of
stability `exp (33/8 * T)` when the first and the last trial are `T` days apart. -/
theorem cramming_urgency (k : Kind) (last o : Entry) (rest deltas : List Entry) (now : ℤ) (hsafe : SafeTimes (last :: rest))
    (hs : NewestFirst (last :: rest)) (hv : ∀ e ∈ last :: rest, e.value ≤ 5) (ho : (last :: rest).getLast? = some o) (hnow : Formula.Safe now) :
    ∃ s, score k (last :: rest) deltas now = some s ∧
      1 - Formula.recall k (Formula.daysAfter now last.time) (Real.exp (33 / 8 * daysOf last.time o.time)) ≤ s.urgency := by
  refine ⟨_, score_sorted k last rest deltas now hs, ?_⟩
  dsimp only
  have hb := estimate_mem (last :: rest)
  have h1 := cramming_bounded k _ hb rest last o hsafe hs hv ho
  have h2 := retr_mono k (daysSinceLast_nonneg now last) le_rfl (stability_pos k _ _ hb) h1
  have h3 : daysSinceLast now last = Formula.daysAfter now last.time := Formula.days_eq hnow (hsafe last List.mem_cons_self)
  rw [h3] at h2 ⊢
  rw [Formula.recall_eq k (Formula.daysAfter_nonneg _ _) (Real.exp_pos _)] at h2
  linarith

/-- **C108, cramming.**  Trials that all have the same time leave the urgency of a single trial. -/
theorem crammed_like_one (k : Kind) (last : Entry) (rest deltas : List Entry) (now : ℤ) (hsame : ∀ e ∈ rest, e.time = last.time) :
    ∃ s s', score k (last :: rest) deltas now = some s ∧ score k [last] deltas now = some s' ∧ s.urgency = s'.urgency := by
  have hst : ∀ (l : List Entry) (t : Entry) (b : ℝ), 1 ≤ b ∧ b ≤ 10 → (∀ e ∈ l, e.time = t.time) → (replay k (t :: l) b).stability = 1 := by
    intro l
    induction l with
    | nil => intro t b _ _; exact (replay_one k t b).1
    | cons t' l ih =>
      intro t b hb he
      have e' := he t' List.mem_cons_self
      rw [(replay_two k t t' l b).1, ih t' b hb (fun e h => (he e (List.mem_cons_of_mem _ h)).trans e'.symm)]
      have : max (daysBetween t.time t'.time) 0 = 0 := by simp [daysBetween, satSub, e']
      rw [this]
      exact stabilityStep_instant k (by norm_num)
  have hn : NewestFirst (last :: rest) := by
    unfold NewestFirst
    refine List.pairwise_cons.2 ⟨fun e he => (hsame e he).le, ?_⟩
    refine List.Pairwise.imp_of_mem ?_ (List.pairwise_of_forall (R := fun _ _ => True) (fun _ _ => trivial))
    intro a c ha hc _
    rw [hsame a ha, hsame c hc]
  refine ⟨_, _, score_sorted k last rest deltas now hn, score_sorted k last [] deltas now (by simp), ?_⟩
  dsimp only
  unfold computeStability
  rw [hst rest last _ (estimate_mem _) hsame, hst [] last _ (estimate_mem _) (by simp)]

/-- **C108, spacing.**  The same review graded 3 or better, taken later, leaves an exercise that is at most as urgent the same time
after it. -/
theorem spacing_helps (k : Kind) (t t' : Entry) (rest deltas : List Entry) (now now' : ℤ) (hs : NewestFirst (t :: rest))
    (hv : t'.value = t.value) (h3 : 3 ≤ t.value) (hlater : t.time ≤ t'.time) (hsince : daysSinceLast now' t' = daysSinceLast now t) :
    ∃ s s', score k (t :: rest) deltas now = some s ∧ score k (t' :: rest) deltas now' = some s' ∧ s'.urgency ≤ s.urgency := by
  have hs' : NewestFirst (t' :: rest) := by
    unfold NewestFirst at *
    rw [List.pairwise_cons] at *
    exact ⟨fun e he => (hs.1 e he).trans hlater, hs.2⟩
  refine ⟨_, _, score_sorted k t rest deltas now hs, score_sorted k t' rest deltas now' hs', ?_⟩
  dsimp only
  have hb : estimateDifficulty (t' :: rest) = estimateDifficulty (t :: rest) := by
    unfold estimateDifficulty
    simp only [List.filter_cons, hv, List.length_cons]
    split_ifs <;> simp_all
  rw [hb, hsince]
  have hm := estimate_mem (t :: rest)
  have : computeStability k (t :: rest) (estimateDifficulty (t :: rest)) ≤ computeStability k (t' :: rest) (estimateDifficulty (t :: rest)) := by
    unfold computeStability
    cases rest with
    | nil => rw [(replay_one k t _).1, (replay_one k t' _).1]
    | cons o rest =>
      rw [(replay_two k t o rest _).1, (replay_two k t' o rest _).1, hv]
      have hr := inRange_replay k (o :: rest) hm
      apply stabilityStep_days k (by linarith [hr.1.1]) (by linarith [hr.2.2]) h3 (le_max_right _ _)
      apply max_le_max_right
      unfold daysBetween
      have := satSub_mono_left (c := o.time) hlater
      have : ((satSub t.time o.time : ℤ) : ℝ) ≤ (satSub t'.time o.time : ℝ) := by exact_mod_cast this
      linarith
  have := retr_mono k (daysSinceLast_nonneg now t) le_rfl (stability_pos k _ _ hm) this
  linarith

/-- **C108, a week of perfect days.**  Seven or more trials, all graded 5 and at least a day apart, make an exercise as stable as can
be: for two years after the last one its urgency is at most a tenth and, without deltas, its score at least 4.5. -/
theorem perfect_week (k : Kind) (last : Entry) (rest deltas : List Entry) (now : ℤ) (hsafe : SafeTimes (last :: rest)) (hnow : Formula.Safe now)
    (hd : Daily (last :: rest)) (h5 : ∀ e ∈ last :: rest, e.value = 5) (h7 : 7 ≤ (last :: rest).length)
    (hsoon : Formula.daysAfter now last.time ≤ 730) :
    ∃ s, score k (last :: rest) deltas now = some s ∧ s.urgency ≤ 1 / 10 ∧ (deltas.length < 2 → 9 / 2 ≤ s.value) := by
  refine ⟨_, score_sorted k last rest deltas now (daily_newest hd), ?_⟩
  dsimp only
  have hb : estimateDifficulty (last :: rest) = 1 := by
    unfold estimateDifficulty
    rw [if_neg (by simp), List.filter_eq_nil_iff.2 (fun e he => by rw [h5 e he]; norm_num)]
    norm_num [clamp]
  have hst : computeStability k (last :: rest) (estimateDifficulty (last :: rest)) = 730 := by
    rw [hb]
    have h1 := (perfect_stability k rfl rest last hsafe hd h5).1
    have h2 := (inRange_replay k (last :: rest) (base := 1) (by norm_num)).1.2
    have h6 : (730 : ℝ) ≤ (31 / 10) ^ rest.length := by
      have : 6 ≤ rest.length := by simpa using h7
      calc (730 : ℝ) ≤ (31 / 10) ^ 6 := by norm_num
        _ ≤ (31 / 10) ^ rest.length := pow_le_pow_right₀ (by norm_num) this
    rw [min_eq_left h6] at h1
    exact le_antisymm h2 h1
  have hday : daysSinceLast now last = Formula.daysAfter now last.time := Formula.days_eq hnow (hsafe last List.mem_cons_self)
  rw [hst, hday]
  have hr : 9 / 10 ≤ retrievability k (Formula.daysAfter now last.time) 730 := by
    have := retr_mono k (Formula.daysAfter_nonneg now last.time) hsoon (s := 730) (by norm_num) le_rfl
    rwa [(recall_range k (days := 730) (stability := 730) (by norm_num) (by norm_num)).2.2] at this
  refine ⟨by linarith, fun hdl => ?_⟩
  have hw : weightedAvg (last :: rest) = 5 := average_constant _ (by simp) h5
  have hz : computeDelta deltas 1 = 0 := by unfold computeDelta; rw [if_pos hdl]
  rw [hw, hz]
  have hf : retrievability k (Formula.daysAfter now last.time) 730 ≤
      oldGoodFloor (retrievability k (Formula.daysAfter now last.time) 730) 5 (Formula.daysAfter now last.time) (last :: rest).length := by
    unfold oldGoodFloor
    split_ifs
    · exact le_max_left _ _
    · exact le_rfl
  unfold clamp
  split_ifs <;> linarith

/-- **C108, failures.**  Three or more trials, all graded 1 and at least a day apart, leave the least stability: half a day after the
last one the urgency is a tenth already, and more later. -/
theorem failed_days (k : Kind) (a b c : Entry) (rest deltas : List Entry) (now : ℤ) (hsafe : SafeTimes (a :: b :: c :: rest))
    (hnow : Formula.Safe now) (hd : Daily (a :: b :: c :: rest)) (h1 : ∀ e ∈ a :: b :: c :: rest, e.value = 1)
    (hafter : 1 / 2 ≤ Formula.daysAfter now a.time) :
    ∃ s, score k (a :: b :: c :: rest) deltas now = some s ∧ 1 / 10 ≤ s.urgency := by
  refine ⟨_, score_sorted k a _ deltas now (daily_newest hd), ?_⟩
  dsimp only
  have hb : estimateDifficulty (a :: b :: c :: rest) = 10 := by
    unfold estimateDifficulty
    rw [if_neg (by simp), List.filter_eq_self.2 (fun e he => by rw [h1 e he]; norm_num)]
    have : ((a :: b :: c :: rest).length : ℝ) ≠ 0 := by simp; positivity
    dsimp only
    rw [div_self this]
    norm_num [clamp]
  have hday : daysSinceLast now a = Formula.daysAfter now a.time := Formula.days_eq hnow (hsafe a List.mem_cons_self)
  unfold computeStability
  rw [hb, failed_stability k rfl rest a b c hsafe hd h1, hday]
  have := retr_mono k (d' := 1 / 2) (by norm_num) hafter (s := 1 / 2) (by norm_num) le_rfl
  rw [(recall_range k (days := 1 / 2) (stability := 1 / 2) (by norm_num) (by norm_num)).2.2] at this
  linarith

/-- **C108, kinds.**  With the same stability, a fact (declarative) is remembered better than a skill (procedural) up to the stability,
and worse from then on. -/
theorem kinds_cross {days stability : ℝ} (hd : 0 ≤ days) (hs : 0 < stability) :
    (days ≤ stability → Formula.recall .procedural days stability ≤ Formula.recall .declarative days stability) ∧
    (stability ≤ days → Formula.recall .declarative days stability ≤ Formula.recall .procedural days stability) := by
  have hA : (1 : ℝ) < (10 / 9 : ℝ) ^ (5 / 2 : ℝ) := Real.one_lt_rpow (by norm_num) (by norm_num)
  have hA2 : (10 / 9 : ℝ) ^ (5 : ℝ) = ((10 / 9 : ℝ) ^ (5 / 2 : ℝ)) ^ 2 := by
    rw [← Real.rpow_natCast, ← Real.rpow_mul (by norm_num)]
    norm_num
  simp only [Formula.recall]
  rw [hA2]
  have hx : 0 ≤ days / stability := div_nonneg hd hs.le
  have hle : (days ≤ stability ↔ days / stability ≤ 1) ∧ (stability ≤ days ↔ 1 ≤ days / stability) :=
    ⟨(div_le_one hs).symm, (one_le_div hs).symm⟩
  rw [hle.1, hle.2]
  generalize days / stability = x at *
  generalize (10 / 9 : ℝ) ^ (5 / 2 : ℝ) = A at *
  have h1 : 1 ≤ 1 + (A - 1) * x := by nlinarith
  have h2 : 1 ≤ 1 + (A ^ 2 - 1) * x := by nlinarith [mul_nonneg (by nlinarith : (0 : ℝ) ≤ A ^ 2 - 1) hx]
  have e : (1 + (A - 1) * x) ^ (-(2 / 5) : ℝ) = ((1 + (A - 1) * x) ^ 2) ^ (-(1 / 5) : ℝ) := by
    rw [← Real.rpow_natCast, ← Real.rpow_mul (by linarith)]
    norm_num
  have key : (1 + (A - 1) * x) ^ 2 - (1 + (A ^ 2 - 1) * x) = (A - 1) ^ 2 * x * (x - 1) := by ring
  have hq : 0 ≤ (A - 1) ^ 2 * x := by positivity
  rw [e]
  constructor
  · intro h
    apply Real.rpow_le_rpow_of_nonpos (by positivity) _ (by norm_num)
    nlinarith [mul_nonneg hq (by linarith : 0 ≤ 1 - x)]
  · intro h
    apply Real.rpow_le_rpow_of_nonpos (by linarith) _ (by norm_num)
    nlinarith [mul_nonneg hq (by linarith : 0 ≤ x - 1)]

/-- **C108, kinds.**  An exercise tried once is less urgent, and scores at least as high, if it is a skill and not a fact, from a day
after the trial on. -/
theorem kinds_after_one_trial (t : Entry) (deltas : List Entry) (now : ℤ) (hsafe : Formula.Safe t.time) (hnow : Formula.Safe now)
    (h : 1 ≤ Formula.daysAfter now t.time) (h0 : 0 ≤ t.value) (hdl : deltas.length < 2) :
    ∃ s s', score .declarative [t] deltas now = some s ∧ score .procedural [t] deltas now = some s' ∧
      s.value ≤ s'.value ∧ s'.urgency ≤ s.urgency := by
  refine ⟨_, _, score_sorted _ t [] deltas now (by simp), score_sorted _ t [] deltas now (by simp), ?_⟩
  dsimp only
  have hst : ∀ k b, computeStability k [t] b = 1 := fun k b => (replay_one k t b).1
  have hday : daysSinceLast now t = Formula.daysAfter now t.time := Formula.days_eq hnow hsafe
  have hz : computeDelta deltas 1 = 0 := by unfold computeDelta; rw [if_pos hdl]
  rw [hst, hst, hday, hz, average_constant [t] (by simp) (c := t.value) (by simp)]
  have hr := (kinds_cross (Formula.daysAfter_nonneg now t.time) one_pos).2 h
  rw [← Formula.recall_eq _ (Formula.daysAfter_nonneg _ _) one_pos, ← Formula.recall_eq _ (Formula.daysAfter_nonneg _ _) one_pos] at hr
  refine ⟨clamp_mono (by norm_num) ?_, by linarith⟩
  unfold oldGoodFloor
  rw [if_neg (by simp), if_neg (by simp)]
  exact mul_le_mul_of_nonneg_right hr (by linarith)

/-! ### The hypotheses are met -/

/-- Seven perfect days in a row. -/
def perfectDays : List Entry := [⟨5, 518400⟩, ⟨5, 432000⟩, ⟨5, 345600⟩, ⟨5, 259200⟩, ⟨5, 172800⟩, ⟨5, 86400⟩, ⟨5, 0⟩]

example : SafeTimes perfectDays ∧ Daily perfectDays ∧ (∀ e ∈ perfectDays, e.value = 5) ∧ 7 ≤ perfectDays.length ∧
    Formula.Safe 60000000 ∧ Formula.daysAfter 60000000 518400 ≤ 730 := by
  refine ⟨?_, ?_, ?_, by simp [perfectDays], ?_, ?_⟩
  · simp [SafeTimes, perfectDays]
  · simp [Daily, perfectDays]
  · simp [perfectDays]
  · norm_num [Formula.Safe]
  · norm_num [Formula.daysAfter]

/-- A day of cramming: a hundred trials, one a minute. -/
example : ∃ l : List Entry, l.length = 100 ∧ SafeTimes l ∧ NewestFirst l ∧ ∀ e ∈ l, e.value ≤ 5 := by
  refine ⟨(List.range 100).map (fun i : ℕ => ⟨5, 6000 - 60 * (i : ℤ)⟩), by simp, ?_, ?_, ?_⟩
  · intro e he
    obtain ⟨i, hi, rfl⟩ := List.mem_map.1 he
    have := List.mem_range.1 hi
    dsimp only
    omega
  · unfold NewestFirst
    rw [List.pairwise_map]
    refine List.pairwise_lt_range.imp (fun {a b} h => ?_)
    dsimp only
    omega
  · intro e he
    obtain ⟨i, hi, rfl⟩ := List.mem_map.1 he
    exact le_rfl

/-- Three failures in a row. -/
example : SafeTimes [⟨1, 172800⟩, ⟨1, 86400⟩, ⟨1, 0⟩] ∧ Daily [⟨1, 172800⟩, ⟨1, 86400⟩, ⟨1, 0⟩] ∧
    1 / 2 ≤ Formula.daysAfter 259200 172800 := by
  refine ⟨by simp [SafeTimes], by simp [Daily], by norm_num [Formula.daysAfter]⟩

/-- A review a week later instead of a day later. -/
example : NewestFirst [⟨4, 86400⟩, ⟨3, 0⟩] ∧ daysSinceLast 691200 ⟨4, 604800⟩ = daysSinceLast 172800 ⟨4, 86400⟩ := by
  constructor
  · simp [NewestFirst]
  · norm_num [daysSinceLast, daysBetween, satSub]

end Trane.Scorer
