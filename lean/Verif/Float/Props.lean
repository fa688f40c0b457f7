import Verif.Float.ScorerLemmas
import Verif.Scorer.Props

/-!
# Scores in machine arithmetic (C80)

The theorems about scores elsewhere are about exact arithmetic.  Here the scorer runs in `f32` arithmetic, with
every rounding.
-/

namespace Trane.Float

open Trane.Scorer (Kind satSub)

/-! ## The exact instance is the model of `Verif.Scorer.Model` -/

/-- A trial or delta of the other model. -/
def toEntry (e : GEntry ℝ) : Scorer.Entry := ⟨e.value, e.time⟩

theorem gDays_exact (a b : ℤ) : gDays exact a b = Scorer.daysBetween a b := by
  simp [gDays, exact, Scorer.daysBetween]

theorem clamp_exact (x lo hi : ℝ) : exact.clamp x lo hi = Scorer.clamp x lo hi := by
  simp [Arith.clamp, exact, Scorer.clamp]

theorem estimate_exact (l : List (GEntry ℝ)) :
    gEstimateDifficulty exact l = Scorer.estimateDifficulty (l.map toEntry) := by
  cases l with
  | nil => simp [gEstimateDifficulty, Scorer.estimateDifficulty, exact]
  | cons e l =>
    unfold gEstimateDifficulty Scorer.estimateDifficulty
    rw [if_neg (by simp), if_neg (by simp), clamp_exact, List.filter_map, List.length_map,
      List.length_map]
    simp [exact, Function.comp_def, toEntry]
    congr!

theorem foldl_sums (ps : List (ℝ × ℝ)) (a b : ℝ) :
    ps.foldl (fun s p => (s.1 + p.1 * p.2, s.2 + p.1)) (a, b) =
      (a + (ps.map (fun p => p.1 * p.2)).sum, b + (ps.map (fun p => p.1)).sum) := by
  induction ps generalizing a b with
  | nil => simp
  | cons p ps ih => simp [ih, add_assoc]

theorem gAvg_exact (ps : List (ℝ × ℝ)) : gAvg exact ps = Scorer.wavg ps := by
  have := foldl_sums ps 0 0
  unfold gAvg Scorer.wavg
  simp only [exact, Rat.cast_zero]
  rw [this]
  simp

theorem timeWeight_exact (a b : ℤ) : gTimeWeight exact a b = Scorer.timeWeight a b := by
  unfold gTimeWeight Scorer.timeWeight
  rw [gDays_exact]
  simp [exact]

theorem posWeight_exact (i : ℕ) : gPosWeight exact i = Scorer.posWeight i := by
  unfold gPosWeight Scorer.posWeight
  simp [exact]

theorem weightedAvg_exact (l : List (GEntry ℝ)) :
    gWeightedAvg exact l = Scorer.weightedAvg (l.map toEntry) := by
  cases l with
  | nil => simp [gWeightedAvg, Scorer.weightedAvg, exact]
  | cons e l =>
    have h1 : gWeightedAvg exact (e :: l) = 8 / 10 *
        Scorer.wavg ((e :: l).map (fun x => (Scorer.timeWeight e.time x.time, x.value))) + 2 / 10 *
        Scorer.wavg ((e :: l).zipIdx.map (fun x => (Scorer.posWeight x.2, x.1.value))) := by
      unfold gWeightedAvg
      simp only [gAvg_exact, timeWeight_exact, posWeight_exact]
      simp [exact]
    have h2 : Scorer.weightedAvg ((e :: l).map toEntry) = 8 / 10 *
        Scorer.wavg (((e :: l).map toEntry).map (fun x => (Scorer.timeWeight e.time x.time, x.value))) +
        2 / 10 * Scorer.wavg (((e :: l).map toEntry).zipIdx.map
          (fun x => (Scorer.posWeight x.2, x.1.value))) := rfl
    rw [h1, h2, List.zipIdx_map, List.map_map, List.map_map]
    rfl

theorem decay_exact (k : Kind) : gCurveDecay exact k = Scorer.curveDecay k := by
  cases k <;> simp [gCurveDecay, Scorer.curveDecay, exact]

theorem factor_exact (k : Kind) : gCurveFactor exact k = Scorer.curveFactor k := by
  unfold gCurveFactor Scorer.curveFactor
  rw [decay_exact]
  simp [exact]

theorem retr_exact (k : Kind) (d s : ℝ) :
    gRetrievability exact k d s = Scorer.retrievability k d s := by
  unfold gRetrievability Scorer.retrievability
  rw [decay_exact, factor_exact, clamp_exact]
  simp [exact]

theorem gain_exact (k : Kind) (d s p : ℝ) :
    gSpacingGain exact k d s p = Scorer.spacingGain k d s p := by
  unfold gSpacingGain Scorer.spacingGain
  rw [retr_exact, clamp_exact]
  simp [exact]

theorem update_exact (d b s : ℝ) : gUpdateDifficulty exact d b s = Scorer.updateDifficulty d b s := by
  unfold gUpdateDifficulty Scorer.updateDifficulty
  rw [clamp_exact, clamp_exact]
  simp [exact]

theorem stab_exact (k : Kind) (st d s days : ℝ) :
    gStabilityStep exact k st d s days = Scorer.stabilityStep k st d s days := by
  unfold gStabilityStep Scorer.stabilityStep
  simp only [gain_exact, clamp_exact]
  simp [exact]

/-- The loop variables of the other model. -/
def toReplay (r : GReplay ℝ) : Scorer.Replay := ⟨r.stability, r.difficulty, r.previous⟩

theorem replayStep_exact (k : Kind) (r : GReplay ℝ) (t : GEntry ℝ) :
    toReplay (gReplayStep exact k r t) = Scorer.replayStep k (toReplay r) (toEntry t) := by
  unfold gReplayStep Scorer.replayStep toReplay
  cases r.previous with
  | none => rfl
  | some p =>
    simp only [stab_exact, update_exact, gDays_exact]
    simp [exact, toEntry]

theorem replay_exact (k : Kind) (l : List (GEntry ℝ)) (r : GReplay ℝ) :
    toReplay (l.foldl (gReplayStep exact k) r) =
      (l.map toEntry).foldl (Scorer.replayStep k) (toReplay r) := by
  induction l generalizing r with
  | nil => rfl
  | cons t l ih =>
    simp only [List.foldl_cons, List.map_cons]
    rw [ih, replayStep_exact]

theorem stability_exact (k : Kind) (l : List (GEntry ℝ)) (b : ℝ) :
    gComputeStability exact k l b = Scorer.computeStability k (l.map toEntry) b := by
  unfold gComputeStability Scorer.computeStability Scorer.replay
  have := congrArg Scorer.Replay.stability (replay_exact k l.reverse ⟨exact.lit 1, b, none⟩)
  rw [List.map_reverse] at this
  simpa [toReplay, exact] using this

theorem floor_exact (r w d : ℝ) (n : ℕ) : gOldGoodFloor exact r w d n = Scorer.oldGoodFloor r w d n := by
  unfold gOldGoodFloor Scorer.oldGoodFloor
  simp [exact, and_assoc]

theorem delta_exact (l : List (GEntry ℝ)) (r : ℝ) :
    gComputeDelta exact l r = Scorer.computeDelta (l.map toEntry) r := by
  unfold gComputeDelta Scorer.computeDelta
  rw [weightedAvg_exact]
  simp [exact]

theorem velocitySums_exact (o : ℤ) (l : List (GEntry ℝ)) (a : GSums ℝ) :
    l.foldl (gVelocityStep exact o) a =
      ⟨a.t + (l.map (fun x => Scorer.daysBetween x.time o)).sum, a.s + (l.map (fun x => x.value)).sum,
       a.ts + (l.map (fun x => Scorer.daysBetween x.time o * x.value)).sum,
       a.tt + (l.map (fun x => Scorer.daysBetween x.time o * Scorer.daysBetween x.time o)).sum⟩ := by
  induction l generalizing a with
  | nil => simp
  | cons x l ih =>
    rw [List.foldl_cons, ih]
    simp only [gVelocityStep, gDays_exact, List.map_cons, List.sum_cons, GSums.mk.injEq]
    simp [exact, add_assoc]

theorem velocity_exact (l : List (GEntry ℝ)) :
    gVelocity exact l = Scorer.velocity (l.map toEntry) := by
  unfold gVelocity Scorer.velocity
  rw [List.length_map, List.getLast?_map]
  split
  · rfl
  · cases l.getLast? with
    | none => rfl
    | some o =>
      simp only [Option.map_some, velocitySums_exact]
      simp [exact, toEntry, Function.comp_def]

theorem unsorted_map (l : List (GEntry ℝ)) : gUnsorted l = Scorer.unsorted (l.map toEntry) := by
  induction l with
  | nil => rfl
  | cons a l ih =>
    cases l with
    | nil => rfl
    | cons b l => simp only [gUnsorted, List.map_cons, Scorer.unsorted]; rw [ih]; rfl

/-- **C80.** Run in exact arithmetic, the scorer modelled here is the one the other theorems are about. -/
theorem score_exact (k : Kind) (trials deltas : List (GEntry ℝ)) (now : ℤ) :
    (gScore exact k trials deltas now).map (fun s => (⟨s.value, s.urgency, s.velocity⟩ : Scorer.Score)) =
      Scorer.score k (trials.map toEntry) (deltas.map toEntry) now := by
  cases trials with
  | nil => simp [gScore, Scorer.score, exact]
  | cons last rest =>
    unfold gScore Scorer.score
    rw [List.map_cons, ← List.map_cons (f := toEntry), ← unsorted_map]
    dsimp only
    split
    · rfl
    · simp only [Option.map_some, clamp_exact, retr_exact, stability_exact, estimate_exact,
        floor_exact, weightedAvg_exact, delta_exact, velocity_exact, gDays_exact]
      simp [exact, toEntry, Scorer.daysSinceLast]

/-! ## Machine arithmetic -/

variable {powf : F → F → F}

/-- A finite number between two bounds: not NaN, not infinite. -/
def Between (lo hi : ℝ) (a : F) : Prop := ∃ z, a = .num z ∧ lo ≤ z ∧ z ≤ hi

/-- Grades as they are stored: `f32` numbers from 1 to 5. -/
def Grades (trials : List (GEntry F)) : Prop := ∀ t ∈ trials, ∃ v, t.value = .num v ∧ Rep v ∧ 1 ≤ v ∧ v ≤ 5

/-- Deltas as they are stored: differences of grades and scores. -/
def Deltas (deltas : List (GEntry F)) : Prop := ∀ t ∈ deltas, ∃ v, t.value = .num v ∧ Rep v ∧ -5 ≤ v ∧ v ≤ 5

/-- No later entry is newer. -/
def Sorted {α : Type} (l : List (GEntry α)) : Prop := l.Pairwise (fun a b => b.time ≤ a.time)

theorem gUnsorted_iff {α : Type} (l : List (GEntry α)) : gUnsorted l = false ↔ Sorted l := by
  induction l with
  | nil => simp [gUnsorted, Sorted]
  | cons a l ih =>
    cases l with
    | nil => simp [gUnsorted, Sorted]
    | cons b l =>
      simp only [gUnsorted, Bool.or_eq_false_iff, ih, Sorted, decide_eq_false_iff_not, not_lt]
      constructor
      · rintro ⟨h1, h2⟩
        refine List.pairwise_cons.2 ⟨?_, h2⟩
        intro c hc
        rcases List.mem_cons.1 hc with rfl | hc
        · exact h1
        · exact ((List.pairwise_cons.1 h2).1 c hc).trans h1
      · intro h
        have := List.pairwise_cons.1 h
        exact ⟨this.1 b (by simp), this.2⟩

theorem In.between {l h : ℝ} {a : F} (H : In l h a) : Between l h a := by
  obtain ⟨z, h1, -, h2, h3⟩ := H
  exact ⟨z, h1, h2, h3⟩

theorem gScore_in (hp : Faithful powf) (k : Kind) (trials deltas : List (GEntry F)) (now : ℤ)
    (hs : Sorted trials) (hg : Grades trials) (hd : Deltas deltas)
    (hl : trials.length ≤ 4096) (hl' : deltas.length ≤ 4096) :
    ∃ s, gScore (f32 powf) k trials deltas now = some s ∧ In 0 5 s.value ∧
      Between 0 1 s.urgency ∧ (s.velocity = none ↔ trials.length < 2) ∧
      (∀ v, s.velocity = some v → ∃ z, v = .num z) := by
  cases trials with
  | nil =>
    refine ⟨_, rfl, ?_, ?_, by simp, by simp⟩
    · rw [lit0]; exact ⟨0, rfl, rep_zero, le_rfl, by norm_num⟩
    · rw [lit1]; exact ⟨1, rfl, by norm_num, le_rfl⟩
  | cons last rest =>
    have hg' : ∀ t ∈ last :: rest, In 1 5 t.value := hg
    have hd' : ∀ t ∈ deltas, In (-8) 8 t.value := fun t ht => by
      obtain ⟨v, h1, h2, h3, h4⟩ := hd t ht
      exact ⟨v, h1, h2, by linarith, by linarith⟩
    have hl24 : (last :: rest).length ≤ 2 ^ 24 := by omega
    have hst := gComputeStability_in hp k _ hg' (gEstimateDifficulty_in (powf := powf) hl24)
    have hr := gRetrievability_in hp k (posDays_in (powf := powf) now last.time) hst
    have hw := gWeightedAvg_in hp hl24 (fun e he => (hg' e he).mono (by norm_num) (by norm_num))
    refine ⟨_, by
      unfold gScore
      dsimp only
      rw [(gUnsorted_iff _).2 hs]
      rfl, ?_, ?_, ?_, ?_⟩
    · dsimp only
      rw [lit0, lit_nat 5 (by norm_num)]
      have he := gOldGoodFloor_in (powf := powf) (w := gWeightedAvg (f32 powf) (last :: rest))
        (d := (f32 powf).max (gDays (f32 powf) now last.time) ((f32 powf).lit 0))
        (n := (last :: rest).length) hr
      rw [lit0] at he
      have h1 := In.mul_abs (he.mono (l' := -1) (by norm_num) le_rfl) hw (b := 2 ^ 32) (bdp 32)
        (by norm_num)
      have h2 := gComputeDelta_in hp (by omega : deltas.length ≤ 2 ^ 24) hd'
        (he.mono (by norm_num) le_rfl)
      have h3 := In.add h1 h2 (a := -2 ^ 33) (b := 2 ^ 33) (Bd.neg (bdp 33)) (bdp 33)
        (by norm_num) (by norm_num)
      exact In.clamp powf h3 rep_zero (bd_int (x := 5) 5 (by norm_num)).1 (by norm_num)
    · refine In.between ?_
      dsimp only
      have h1 : In 1 1 ((f32 powf).lit 1) := by rw [lit1]; exact num_in bd_one
      exact In.sub h1 hr bd_zero bd_one (by norm_num) (by norm_num)
    · dsimp only
      unfold gVelocity
      split
      · simp_all
      · rename_i hlen
        rw [List.getLast?_eq_some_getLast (by simp : last :: rest ≠ [])]
        dsimp only
        constructor
        · intro h; split at h <;> simp at h
        · intro h; exact absurd h hlen
    · intro v hv
      obtain ⟨z, hz, -⟩ := gVelocity_in (fun e he => (hg' e he).mono (by norm_num) (by norm_num))
        (by omega) hv
      exact ⟨z, hz⟩

/-- **C80.** In machine arithmetic too, every sorted history of at most 4096 trials and deltas is scored
with a number in [0, 5], an urgency in [0, 1], and a velocity that is a finite number, whatever the
times are: no NaN and no infinity comes up. -/
theorem machine_score (hp : Faithful powf) (k : Kind) (trials deltas : List (GEntry F)) (now : ℤ)
    (hs : Sorted trials) (hg : Grades trials) (hd : Deltas deltas)
    (hl : trials.length ≤ 4096) (hl' : deltas.length ≤ 4096) :
    ∃ s, gScore (f32 powf) k trials deltas now = some s ∧ Between 0 5 s.value ∧
      Between 0 1 s.urgency ∧ (s.velocity = none ↔ trials.length < 2) ∧
      (∀ v, s.velocity = some v → ∃ z, v = .num z) := by
  obtain ⟨s, h1, h2, h3⟩ := gScore_in hp k trials deltas now hs hg hd hl hl'
  exact ⟨s, h1, h2.between, h3⟩

/-- **C80.** In machine arithmetic too, a history is rejected exactly when it is not sorted. -/
theorem machine_rejects_iff (k : Kind) (trials deltas : List (GEntry F)) (now : ℤ) :
    gScore (f32 powf) k trials deltas now = none ↔ ¬ Sorted trials := by
  rw [← gUnsorted_iff]
  cases trials with
  | nil => simp [gScore, gUnsorted]
  | cons a l =>
    unfold gScore
    dsimp only
    split <;> simp_all

/-- **C80.** In machine arithmetic too, an exercise that was practised never has score 0 unless deltas
lower it: the score of an exercise that was never practised is told apart, however long ago the trials
were. -/
theorem machine_score_positive (hp : Faithful powf) (k : Kind) (trials deltas : List (GEntry F))
    (now : ℤ) (hs : Sorted trials) (hne : trials ≠ []) (hg : Grades trials) (hd : deltas.length < 2)
    (hl : trials.length ≤ 4096) :
    ∃ s z, gScore (f32 powf) k trials deltas now = some s ∧ s.value = .num z ∧ 0 < z ∧ z ≤ 5 := by
  cases trials with
  | nil => exact absurd rfl hne
  | cons last rest =>
    have hg' : ∀ t ∈ last :: rest, In 1 5 t.value := hg
    have hl24 : (last :: rest).length ≤ 2 ^ 24 := by omega
    have hst := gComputeStability_in hp k _ hg' (gEstimateDifficulty_in (powf := powf) hl24)
    have hr := gRetrievability_in hp k (posDays_in (powf := powf) now last.time) hst
    have hw := gWeightedAvg_ge hp hl24 hne (fun e he => (hg' e he).mono le_rfl (by norm_num))
    have he := gOldGoodFloor_in (powf := powf) (w := gWeightedAvg (f32 powf) (last :: rest))
        (d := (f32 powf).max (gDays (f32 powf) now last.time) ((f32 powf).lit 0))
        (n := (last :: rest).length) hr
    have hb58 : Bd (1 / 2 ^ 58 : ℝ) := bd_div 1 58 (by norm_num) (by norm_num) (by norm_num)
    have h1 : In (1 / 2 ^ 58) (2 ^ 32) _ := In.mul he hw hb58 (bdp 32)
      (fun z w a b c d => ⟨by
        calc (1 / 2 ^ 58 : ℝ) ≤ 1 / 2 ^ 57 * (7 / 8) := by norm_num
          _ ≤ z * w := mul_le_mul a c (by norm_num) (le_trans (by norm_num) a), by
        calc z * w ≤ 1 * 2 ^ 32 := mul_le_mul b d (by linarith) (by norm_num)
          _ = 2 ^ 32 := by norm_num⟩)
    have h2 := In.add h1 (num_in bd_zero) hb58 (b := 2 ^ 32) (bdp 32) (by norm_num) (by norm_num)
    have h3 := In.clamp_low powf h2 rep_zero (bd_int (x := 5) 5 (by norm_num)).1 (by norm_num)
      (by norm_num)
    obtain ⟨z, hz, -, hz1, hz2⟩ := h3
    refine ⟨_, z, by
      unfold gScore
      dsimp only
      rw [(gUnsorted_iff _).2 hs]
      rfl, ?_, lt_of_lt_of_le (by norm_num) hz1, hz2⟩
    dsimp only
    have hdel : ∀ r, gComputeDelta (f32 powf) deltas r = .num 0 := fun r => by
      unfold gComputeDelta
      rw [if_pos hd, lit0]
    rw [hdel, lit_nat 5 (by norm_num), lit0]
    rw [lit0] at hz
    exact hz

/-! ## The hypotheses can be met -/

/-- A `powf` that rounds the true power to nearest. -/
noncomputable def nearestPow : F → F → F
  | .num x, .num y => .num (rnd (x ^ y))
  | _, _ => .nan

theorem nearestPow_faithful : Faithful nearestPow := by
  intro x y _ _
  exact ⟨_, rfl, rnd_rep _, fun a ha => ⟨le_rnd ha, rnd_le ha⟩⟩

/-- Grades 4 after 2, ten days apart. -/
def machineSample : List (GEntry F) := [⟨.num 4, 864000⟩, ⟨.num 2, 0⟩]

theorem machineSample_grades : Grades machineSample := by
  intro t ht
  simp [machineSample] at ht
  rcases ht with rfl | rfl
  · exact ⟨4, rfl, (bd_int (x := 4) 4 (by norm_num)).1, by norm_num, by norm_num⟩
  · exact ⟨2, rfl, (bd_int (x := 2) 2 (by norm_num)).1, by norm_num, by norm_num⟩

example : ∃ s z, gScore (f32 nearestPow) .declarative machineSample [] 1000000 = some s ∧
    s.value = .num z ∧ 0 < z ∧ z ≤ 5 :=
  machine_score_positive nearestPow_faithful _ _ _ _ (by simp [Sorted, machineSample])
    (by simp [machineSample]) machineSample_grades (by simp) (by simp [machineSample])

example : ∃ s, gScore (f32 nearestPow) .procedural machineSample [⟨.num (-1), 3⟩, ⟨.num 2, 1⟩] (-5)
    = some s ∧ Between 0 5 s.value ∧ Between 0 1 s.urgency ∧
    (s.velocity = none ↔ machineSample.length < 2) ∧ (∀ v, s.velocity = some v → ∃ z, v = .num z) :=
  machine_score nearestPow_faithful _ _ _ _ (by simp [Sorted, machineSample]) machineSample_grades
    (by
      intro t ht
      simp at ht
      rcases ht with rfl | rfl
      · exact ⟨-1, rfl, (bd_int (x := -1) (-1) (by norm_num)).1, by norm_num, by norm_num⟩
      · exact ⟨2, rfl, (bd_int (x := 2) 2 (by norm_num)).1, by norm_num, by norm_num⟩)
    (by simp [machineSample]) (by simp)

end Trane.Float
