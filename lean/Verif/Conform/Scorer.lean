import Verif.Numeric.Score
import Verif.Numeric.Reward

/-!
# The project's own tests of the exercise scorer and the reward scorer, replayed on the model

/repo/src/exercise_scorer.rs:501-1723 and /repo/src/reward_scorer.rs:145-450.  These are tests of the model, not theorems about it: each
`example` makes the calls of one `#[test]` of the code on the model and checks the assertions of that test.  No claim rests on them.

The model has real numbers.  What it answers is enclosed by intervals with rational ends (`Trane.Numeric.score_computed` and
`rewards_computed`), and the kernel computes those.  The tests read the clock; here it is some second of 2023, and by C109 no other second
makes a difference.
-/

namespace Trane.Conform.Scorer

open Trane.Scorer Trane.RewardScorer Trane.Numeric

/-- `Utc::now().timestamp()`. -/
def now : ℤ := 1700000000

/-- `generate_timestamp`. -/
def ts (days : ℤ) : ℤ := now - days * 86400

/-- A trial or a delta so many days ago. -/
def t (value : ℚ) (days : ℤ) : QEntry := (value, ts days)

theorem above {I : Iv} {x : ℝ} {q : ℚ} (hx : I.Has x) (h : q < I.lo) : (q : ℝ) < x :=
  lt_of_lt_of_le (by exact_mod_cast h) hx.1

theorem below {I : Iv} {x : ℝ} {q : ℚ} (hx : I.Has x) (h : I.hi < q) : x < (q : ℝ) :=
  lt_of_le_of_lt hx.2 (by exact_mod_cast h)

theorem at_least {I : Iv} {x : ℝ} {q : ℚ} (hx : I.Has x) (h : q ≤ I.lo) : (q : ℝ) ≤ x :=
  le_trans (by exact_mod_cast h) hx.1

theorem at_most {I : Iv} {x : ℝ} {q : ℚ} (hx : I.Has x) (h : I.hi ≤ q) : x ≤ (q : ℝ) :=
  hx.2.trans (by exact_mod_cast h)

theorem apart {I J : Iv} {x y : ℝ} (hx : I.Has x) (hy : J.Has y) (h : I.hi < J.lo) : x < y :=
  lt_of_le_of_lt hx.2 (lt_of_lt_of_le (by exact_mod_cast h) hy.1)

theorem close {I : Iv} {x : ℝ} {q e : ℚ} (hx : I.Has x) (h : q - e < I.lo ∧ I.hi < q + e) : |x - (q : ℝ)| < (e : ℝ) := by
  have a := above hx h.1
  have b := below hx h.2
  push_cast at a b
  rw [abs_lt]
  constructor <;> linarith

/-- `score_helper`: the score, the intervals it was enclosed in, and what was found out about these. -/
theorem helper {k : Kind} {trials deltas : List QEntry} {now : ℤ} (f : Iv × Iv × Option ℚ → Bool)
    (h : (scoreI k trials deltas now).any f = true) :
    ∃ s v u w, score k (toEntries trials) (toEntries deltas) now = some s ∧ v.Has s.value ∧ u.Has s.urgency ∧
      s.velocity = w.map (fun q => ((q : ℚ) : ℝ)) ∧ f (v, u, w) = true := by
  have := score_computed k trials deltas now
  cases hs : scoreI k trials deltas now with
  | none => rw [hs] at h; exact absurd h (by simp)
  | some r =>
    obtain ⟨v, u, w⟩ := r
    rw [hs] at h this
    obtain ⟨s, a, b, c, d⟩ := this
    exact ⟨s, v, u, w, a, b, c, d, h⟩

theorem value_between {k : Kind} {trials deltas : List QEntry} {now : ℤ} (lo hi : ℚ)
    (h : (scoreI k trials deltas now).any (fun r => decide (lo < r.1.lo ∧ r.1.hi < hi)) = true) :
    ∃ s, score k (toEntries trials) (toEntries deltas) now = some s ∧ (lo : ℝ) < s.value ∧ s.value < (hi : ℝ) := by
  obtain ⟨s, v, u, w, h1, h2, -, -, h5⟩ := helper _ h
  have h5 := of_decide_eq_true h5
  exact ⟨s, h1, above h2 h5.1, below h2 h5.2⟩

/-! ### Tests of the exercise scorer -/

/-- `estimate_difficulty`, /repo/src/exercise_scorer.rs:530-627. -/
example : estimateDifficulty [] = 5 ∧ estimateDifficulty (toEntries [t 5 0, t 4 1, t 5 2]) < 3 ∧
    estimateDifficulty (toEntries [t 1 0, t 2 1, t 1 2]) > 8 ∧
    (4 ≤ estimateDifficulty (toEntries [t 3 0, t 4 1, t 2 2]) ∧ estimateDifficulty (toEntries [t 3 0, t 4 1, t 2 2]) < 7) ∧
    (estimateDifficulty (toEntries [t 3 0, t 1 1, t 2 2, t 5 3, t 5 4]) > 4 ∧
      estimateDifficulty (toEntries [t 3 0, t 1 1, t 2 2, t 5 3, t 5 4]) < 6) := by
  have e : estimateDifficulty [] = ((difficultyQ [] : ℚ) : ℝ) := (difficultyQ_cast []).symm
  rw [e]
  simp only [← difficultyQ_cast]
  have h : difficultyQ [] = 5 ∧ difficultyQ [t 5 0, t 4 1, t 5 2] < 3 ∧ difficultyQ [t 1 0, t 2 1, t 1 2] > 8 ∧
      (4 ≤ difficultyQ [t 3 0, t 4 1, t 2 2] ∧ difficultyQ [t 3 0, t 4 1, t 2 2] < 7) ∧
      (difficultyQ [t 3 0, t 1 1, t 2 2, t 5 3, t 5 4] > 4 ∧ difficultyQ [t 3 0, t 1 1, t 2 2, t 5 3, t 5 4] < 6) := by decide +kernel
  exact_mod_cast h

/-- `no_previous_trials`, /repo/src/exercise_scorer.rs:631-636. -/
example : ∃ s, score .declarative [] [] now = some s ∧ s.value = 0 ∧ s.urgency = 1 ∧ s.velocity = none := ⟨_, rfl, rfl, rfl, rfl⟩

/-- `score_trials`, /repo/src/exercise_scorer.rs:640-669. -/
example : ∃ s, score .declarative (toEntries [t 3 1, t 4 2, t 5 3]) (toEntries []) now = some s ∧ (s.value > 0 ∧ s.value ≤ 5) ∧ s.value > 2 ∧
    (0 ≤ s.urgency ∧ s.urgency ≤ 1) ∧ ∃ w, s.velocity = some w ∧ w < 0 := by
  obtain ⟨s, v, u, w, h1, h2, h3, h4, h5⟩ := helper (k := .declarative) (trials := [t 3 1, t 4 2, t 5 3]) (deltas := []) (now := now)
    (fun r => decide (2 < r.1.lo ∧ r.1.hi ≤ 5 ∧ 0 ≤ r.2.1.lo ∧ r.2.1.hi ≤ 1) && r.2.2 == some (-1)) (by decide +kernel)
  simp only [Bool.and_eq_true, decide_eq_true_eq, beq_iff_eq] at h5
  obtain ⟨⟨a, b, c, d⟩, rfl⟩ := h5
  have h2a := above h2 a
  have h2b := at_most h2 b
  have h3a := at_least h3 c
  have h3b := at_most h3 d
  push_cast at h2a h2b h3a h3b
  exact ⟨s, h1, ⟨by linarith, h2b⟩, h2a, ⟨h3a, h3b⟩, _, h4, by norm_num⟩

/-- `invalid_timestamp`, /repo/src/exercise_scorer.rs:673-687. -/
example : ∃ s, score .declarative (toEntries [t 5 10000000000]) (toEntries []) now = some s ∧ (s.value ≥ 0 ∧ s.value ≤ 5) ∧ s.value < 1 ∧
    (0 ≤ s.urgency ∧ s.urgency ≤ 1) := by
  obtain ⟨s, v, u, w, h1, h2, h3, h4, h5⟩ := helper (k := .declarative) (trials := [t 5 10000000000]) (deltas := []) (now := now)
    (fun r => decide (0 ≤ r.1.lo ∧ r.1.hi < 1 ∧ 0 ≤ r.2.1.lo ∧ r.2.1.hi ≤ 1)) (by decide +kernel)
  obtain ⟨a, b, c, d⟩ := of_decide_eq_true h5
  have h2a := at_least h2 a
  have h2b := below h2 b
  have h3a := at_least h3 c
  have h3b := at_most h3 d
  push_cast at h2a h2b h3a h3b
  exact ⟨s, h1, ⟨h2a, by linarith⟩, h2b, h3a, h3b⟩

/-- `extreme_timestamp_gap_does_not_overflow`, /repo/src/exercise_scorer.rs:691-711. -/
example : ∃ s, score .declarative (toEntries [(5, 2 ^ 63 - 1), (1, -2 ^ 63)]) (toEntries []) now = some s ∧ (s.value ≥ 0 ∧ s.value ≤ 5) ∧
    (0 ≤ s.urgency ∧ s.urgency ≤ 1) := by
  obtain ⟨s, v, u, w, h1, h2, h3, h4, h5⟩ := helper (k := .declarative) (trials := [(5, 2 ^ 63 - 1), (1, -2 ^ 63)]) (deltas := []) (now := now)
    (fun r => decide (0 ≤ r.1.lo ∧ r.1.hi ≤ 5 ∧ 0 ≤ r.2.1.lo ∧ r.2.1.hi ≤ 1)) (by decide +kernel)
  obtain ⟨a, b, c, d⟩ := of_decide_eq_true h5
  have h2a := at_least h2 a
  have h2b := at_most h2 b
  have h3a := at_least h3 c
  have h3b := at_most h3 d
  push_cast at h2a h2b h3a h3b
  exact ⟨s, h1, ⟨h2a, h2b⟩, h3a, h3b⟩

/-- `compute_stability` of the code on the model. -/
theorem stability_in (k : Kind) (l : List QEntry) : (stabilityI k l 5).Has (computeStability k (toEntries l) 5) := by
  have := (has_stability k l 5).1
  push_cast at this
  exact this

/-- `compute_stability`, /repo/src/exercise_scorer.rs:715-737. -/
example : computeStability .declarative (toEntries [t 1 3, t 5 2, t 3 1]) 5 > 0 ∧
    computeStability .declarative (toEntries [t 1 3, t 5 2, t 3 1]) 5 < 2 := by
  have h := stability_in .declarative [t 1 3, t 5 2, t 3 1]
  have a := above (q := 0) h (by decide +kernel)
  have b := below (q := 2) h (by decide +kernel)
  push_cast at a b
  exact ⟨a, b⟩

/-- `compute_stability_spacing_effect`, /repo/src/exercise_scorer.rs:741-789. -/
example : computeStability .declarative (toEntries [t 4 1, t 4 10, t 4 30]) 5 > computeStability .declarative (toEntries [t 4 1, t 4 2, t 4 3]) 5 :=
  apart (stability_in _ _) (stability_in _ _) (by decide +kernel)

/-- `bad_score_reduces_stability`, /repo/src/exercise_scorer.rs:793-843. -/
example : computeStability .declarative (toEntries [t 3 1, t 3 2, t 3 3]) 5 > 1 / 2 ∧
    computeStability .declarative (toEntries [t 1 1, t 3 2, t 3 3]) 5 < computeStability .declarative (toEntries [t 3 1, t 3 2, t 3 3]) 5 ∧
    computeStability .declarative (toEntries [t 1 1, t 3 2, t 3 3]) 5 ≥ 1 / 2 := by
  have h1 := stability_in .declarative [t 3 1, t 3 2, t 3 3]
  have h2 := stability_in .declarative [t 1 1, t 3 2, t 3 3]
  have a := above (q := 1 / 2) h1 (by decide +kernel)
  have c := at_least (q := 1 / 2) h2 (by decide +kernel)
  push_cast at a c
  exact ⟨a, apart h2 h1 (by decide +kernel), c⟩

/-- `multiple_lapses_bounded`, /repo/src/exercise_scorer.rs:847-871. -/
example : computeStability .declarative (toEntries [t 1 3, t 1 2, t 1 1]) 5 ≥ 1 / 2 ∧
    computeStability .declarative (toEntries [t 1 3, t 1 2, t 1 1]) 5 ≤ 1 := by
  have h := stability_in .declarative [t 1 3, t 1 2, t 1 1]
  have a := at_least (q := 1 / 2) h (by decide +kernel)
  have b := at_most (q := 1) h (by decide +kernel)
  push_cast at a b
  exact ⟨a, b⟩

/-- `high_stability_does_not_explode`, /repo/src/exercise_scorer.rs:875-899: the step of its loop, from any stability in the range. -/
example : ∀ s : ℝ, 1 / 2 ≤ s → s ≤ 730 → ∀ growth, growth = 5 / 2 * ((5 - 1) / 4 - 5 / 10) * ((11 - 5) / 5) *
      spacingGain .declarative 0 (1 / 2) ((5 - 1) / 4 - 5 / 10) →
    (0 ≤ (clamp (s * (1 + growth)) (1 / 2) 730 - s) / s ∧ (clamp (s * (1 + growth)) (1 / 2) 730 - s) / s ≤ growth) ∧
    clamp (s * (1 + growth)) (1 / 2) 730 ≤ 730 ∧ 1 / 2 ≤ clamp (s * (1 + growth)) (1 / 2) 730 := by
  intro s h1 h2 growth hg
  have h0 : 0 < s := by linarith
  have h := has_gain .declarative (days := 0) le_rfl (has_pt (1 / 2)) (by norm_num [pt]) ((5 - 1) / 4 - 5 / 10)
  have a := at_least (q := 1) h (by decide +kernel)
  push_cast at a
  have hpos : 0 ≤ growth := by rw [hg]; norm_num at a ⊢; linarith
  have hs : s ≤ s * (1 + growth) := by nlinarith
  rw [le_div_iff₀ h0, div_le_iff₀ h0]
  simp only [clamp]
  split_ifs <;> refine ⟨⟨?_, ?_⟩, ?_, ?_⟩ <;> nlinarith

/-- `compute_retrievability` of the code on the model. -/
theorem ret_in (k : Kind) {days : ℚ} (hd : 0 ≤ days) : (retI k days (pt 1)).Has (retrievability k days 1) := by
  have h1 := has_pt 1
  push_cast at h1
  exact has_ret k hd h1 one_pos

/-- `compute_retrievability`, /repo/src/exercise_scorer.rs:903-928. -/
example : retrievability .declarative (1 / 100) 1 > 9 / 10 ∧ retrievability .declarative (1 / 100) 1 > retrievability .procedural (1 / 100) 1 ∧
    (retrievability .declarative 10 1 < 6 / 10 ∧ retrievability .declarative 10 1 > 4 / 10) ∧
    retrievability .declarative 10 1 < retrievability .procedural 10 1 ∧
    retrievability .declarative 100 1 < 26 / 100 ∧ retrievability .declarative 100 1 < retrievability .procedural 100 1 := by
  have d0 := ret_in .declarative (days := 1 / 100) (by norm_num)
  have p0 := ret_in .procedural (days := 1 / 100) (by norm_num)
  have d1 := ret_in .declarative (days := 10) (by norm_num)
  have p1 := ret_in .procedural (days := 10) (by norm_num)
  have d2 := ret_in .declarative (days := 100) (by norm_num)
  have p2 := ret_in .procedural (days := 100) (by norm_num)
  have a := above (q := 9 / 10) d0 (by decide +kernel)
  have b := apart p0 d0 (by decide +kernel)
  have c := below (q := 6 / 10) d1 (by decide +kernel)
  have d := above (q := 4 / 10) d1 (by decide +kernel)
  have e := apart d1 p1 (by decide +kernel)
  have f := below (q := 26 / 100) d2 (by decide +kernel)
  have g := apart d2 p2 (by decide +kernel)
  push_cast at a b c d e f g
  exact ⟨a, b, ⟨c, d⟩, e, f, g⟩

/-- `retrievability_at_stability_is_ninety_percent`, /repo/src/exercise_scorer.rs:932-946. -/
example : |retrievability .declarative 1 1 - 9 / 10| < 1 / 1000000 ∧ |retrievability .procedural 1 1 - 9 / 10| < 1 / 1000000 := by
  have d := ret_in .declarative (days := 1) (by norm_num)
  have p := ret_in .procedural (days := 1) (by norm_num)
  have a := close (q := 9 / 10) (e := 1 / 1000000) d (by decide +kernel)
  have b := close (q := 9 / 10) (e := 1 / 1000000) p (by decide +kernel)
  push_cast at a b
  exact ⟨a, b⟩

/-- `compute_spacing_gain`, /repo/src/exercise_scorer.rs:951-966. -/
example : (1 ≤ spacingGain .declarative 0 1 (1 / 4) ∧ spacingGain .declarative 0 1 (1 / 4) ≤ 1 + 65 / 100) ∧
    spacingGain .declarative 10 1 (1 / 4) > spacingGain .declarative 0 1 (1 / 4) ∧ spacingGain .declarative 10 1 0 = 1 ∧
    spacingGain .declarative 10 1 (-(1 / 2)) = 1 := by
  have h1 := has_pt 1
  push_cast at h1
  have s := has_gain .declarative (days := 0) le_rfl h1 one_pos (1 / 4)
  have l := has_gain .declarative (days := 10) (by norm_num) h1 one_pos (1 / 4)
  have a := at_least (q := 1) s (by decide +kernel)
  have b := at_most (q := 1 + 65 / 100) s (by decide +kernel)
  have c := apart s l (by decide +kernel)
  push_cast at a b c
  refine ⟨⟨a, b⟩, c, ?_, ?_⟩ <;> simp [spacingGain]

/-- `intra_day_damping`, /repo/src/exercise_scorer.rs:970-1001. -/
example : stabilityStep .declarative 1 5 5 (1 / 2) > 1 ∧ stabilityStep .declarative 1 5 5 1 > 1 ∧ stabilityStep .declarative 1 5 5 2 > 1 ∧
    stabilityStep .declarative 1 5 5 (1 / 2) < stabilityStep .declarative 1 5 5 1 := by
  have h1 := has_pt 1
  push_cast at h1
  have x := (has_stab .declarative (days := 1 / 2) (by norm_num) h1 one_pos 5 5).1
  have y := (has_stab .declarative (days := 1) (by norm_num) h1 one_pos 5 5).1
  have z := (has_stab .declarative (days := 2) (by norm_num) h1 one_pos 5 5).1
  have a := above (q := 1) x (by decide +kernel)
  have b := above (q := 1) y (by decide +kernel)
  have c := above (q := 1) z (by decide +kernel)
  have d := apart x y (by decide +kernel)
  push_cast at a b c d
  exact ⟨a, b, c, d⟩

/-- `compute_weighted_avg`, /repo/src/exercise_scorer.rs:1005-1115. -/
example : weightedAvg [] = 0 ∧ |weightedAvg (toEntries [t 5 0]) - 5| < 1 / 1000000 ∧
    |weightedAvg (toEntries [t 5 0, t 4 1, t 3 2]) - 4017 / 1000| < 1 / 100 ∧
    weightedAvg (toEntries [t 5 0, t 1 1, t 1 30]) > weightedAvg (toEntries [t 5 0, t 1 1, t 1 2]) ∧
    weightedAvg (toEntries [t 5 0, t 4 1, t 1 365]) < weightedAvg (toEntries [t 5 0, t 4 1]) ∧
    weightedAvg (toEntries [t 5 0, t 4 1, t 1 365]) > 4 := by
  have a := close (q := 5) (e := 1 / 1000000) (has_weighted [t 5 0]) (by decide +kernel)
  have b := close (q := 4017 / 1000) (e := 1 / 100) (has_weighted [t 5 0, t 4 1, t 3 2]) (by decide +kernel)
  have c := apart (has_weighted [t 5 0, t 1 1, t 1 2]) (has_weighted [t 5 0, t 1 1, t 1 30]) (by decide +kernel)
  have d := apart (has_weighted [t 5 0, t 4 1, t 1 365]) (has_weighted [t 5 0, t 4 1]) (by decide +kernel)
  have e := above (q := 4) (has_weighted [t 5 0, t 4 1, t 1 365]) (by decide +kernel)
  push_cast at a b e
  exact ⟨rfl, a, b, c, d, e⟩

/-- `apply_old_good_retrievability_floor`, /repo/src/exercise_scorer.rs:1119-1140. -/
example : oldGoodFloor (2 / 10) 4 80 3 = 3 / 4 ∧ oldGoodFloor (95 / 100) 4 80 3 = 95 / 100 ∧ oldGoodFloor (2 / 10) (34 / 10) 80 3 = 2 / 10 ∧
    oldGoodFloor (2 / 10) 4 49 3 = 2 / 10 ∧ oldGoodFloor (2 / 10) 4 80 1 = 2 / 10 := by
  unfold oldGoodFloor
  norm_num

/-- `score_bad_recent`, /repo/src/exercise_scorer.rs:1144-1174. -/
example : ∃ s, score .declarative (toEntries [t 1 3, t 3 7, t 2 10, t 1 13]) (toEntries []) now = some s ∧ s.value < 2 := by
  obtain ⟨s, h, _, b⟩ := value_between (k := .declarative) (trials := [t 1 3, t 3 7, t 2 10, t 1 13]) (deltas := []) (now := now) (-1) 2
    (by decide +kernel)
  exact ⟨s, h, by exact_mod_cast b⟩

/-- `score_mixed_performance`, /repo/src/exercise_scorer.rs:1178-1238. -/
example : ∃ s, score .declarative (toEntries [t 3 1, t 4 4, t 2 5, t 5 6, t 3 7, t 4 10, t 2 14, t 3 18, t 4 21, t 3 25]) (toEntries []) now = some s ∧
    s.value > 1 ∧ s.value < 4 := by
  obtain ⟨s, h, a, b⟩ := value_between (k := .declarative) (deltas := []) (now := now)
    (trials := [t 3 1, t 4 4, t 2 5, t 5 6, t 3 7, t 4 10, t 2 14, t 3 18, t 4 21, t 3 25]) 1 4 (by decide +kernel)
  exact ⟨s, h, by exact_mod_cast a, by exact_mod_cast b⟩

/-- `score_unsorted_trials`, /repo/src/exercise_scorer.rs:1242-1261. -/
example : score .declarative (toEntries [t 3 2, t 4 1]) (toEntries []) now = none := by
  have := score_computed .declarative [t 3 2, t 4 1] [] now
  rw [show scoreI .declarative [t 3 2, t 4 1] [] now = none by decide +kernel] at this
  exact this

/-- `score_old_timestamp`, /repo/src/exercise_scorer.rs:1265-1277. -/
example : ∃ s, score .declarative (toEntries [t 5 100]) (toEntries []) now = some s ∧ s.value < 3 := by
  obtain ⟨s, h, _, b⟩ := value_between (k := .declarative) (trials := [t 5 100]) (deltas := []) (now := now) (-1) 3 (by decide +kernel)
  exact ⟨s, h, by exact_mod_cast b⟩

/-- `score_multiple_good`, /repo/src/exercise_scorer.rs:1281-1331. -/
example : ∃ s, score .declarative (toEntries [t 5 0, t 4 1, t 5 2, t 5 3, t 4 4, t 5 5, t 5 6, t 4 7]) (toEntries []) now = some s ∧ s.value > 4 := by
  obtain ⟨s, h, a, _⟩ := value_between (k := .declarative) (deltas := []) (now := now)
    (trials := [t 5 0, t 4 1, t 5 2, t 5 3, t 4 4, t 5 5, t 5 6, t 4 7]) 4 6 (by decide +kernel)
  exact ⟨s, h, by exact_mod_cast a⟩

/-- `score_multiple_bad`, /repo/src/exercise_scorer.rs:1335-1385. -/
example : ∃ s, score .declarative (toEntries [t 1 0, t 2 2, t 1 4, t 4 6, t 2 9, t 1 15, t 1 16, t 2 27]) (toEntries []) now = some s ∧ s.value < 2 := by
  obtain ⟨s, h, _, b⟩ := value_between (k := .declarative) (deltas := []) (now := now)
    (trials := [t 1 0, t 2 2, t 1 4, t 4 6, t 2 9, t 1 15, t 1 16, t 2 27]) (-1) 2 (by decide +kernel)
  exact ⟨s, h, by exact_mod_cast b⟩

/-- `score_old_good_trials`, /repo/src/exercise_scorer.rs:1390-1437. -/
example : ∀ k : Kind, ∃ s, score k (toEntries [t 5 200, t 4 210, t 5 213, t 5 248, t 4 256, t 4 270]) (toEntries []) now = some s ∧
    s.value ≥ 35 / 10 := by
  intro k
  obtain ⟨s, v, u, w, h1, h2, -, -, h5⟩ := helper (k := k) (trials := [t 5 200, t 4 210, t 5 213, t 5 248, t 4 256, t 4 270]) (deltas := [])
    (now := now) (fun r => decide (35 / 10 ≤ r.1.lo)) (by cases k <;> decide +kernel)
  have := at_least h2 (of_decide_eq_true h5)
  push_cast at this
  exact ⟨s, h1, this⟩

/-- `score_very_good_old_trials`, /repo/src/exercise_scorer.rs:1442-1489. -/
example : ∀ k : Kind, ∃ s, score k (toEntries [t 5 400, t 4 410, t 5 411, t 5 420, t 5 430, t 4 431]) (toEntries []) now = some s ∧
    s.value ≥ 35 / 10 := by
  intro k
  obtain ⟨s, v, u, w, h1, h2, -, -, h5⟩ := helper (k := k) (trials := [t 5 400, t 4 410, t 5 411, t 5 420, t 5 430, t 4 431]) (deltas := [])
    (now := now) (fun r => decide (35 / 10 ≤ r.1.lo)) (by cases k <;> decide +kernel)
  have := at_least h2 (of_decide_eq_true h5)
  push_cast at this
  exact ⟨s, h1, this⟩

/-- `urgency_increases_with_elapsed_time`, /repo/src/exercise_scorer.rs:1493-1519. -/
example : ∃ recent old, score .declarative (toEntries [t 5 1]) (toEntries []) now = some recent ∧
    score .declarative (toEntries [t 5 30]) (toEntries []) now = some old ∧ old.urgency > recent.urgency := by
  obtain ⟨r, _, u, _, h1, -, h3, -, h5⟩ := helper (k := .declarative) (trials := [t 5 1]) (deltas := []) (now := now)
    (fun r => decide (r.2.1.hi < 2 / 10)) (by decide +kernel)
  obtain ⟨o, _, u', _, h1', -, h3', -, h5'⟩ := helper (k := .declarative) (trials := [t 5 30]) (deltas := []) (now := now)
    (fun r => decide (2 / 10 < r.2.1.lo)) (by decide +kernel)
  exact ⟨r, o, h1, h1', apart h3 h3' ((of_decide_eq_true h5).trans (of_decide_eq_true h5'))⟩

/-- `velocity_empty_trials`, /repo/src/exercise_scorer.rs:1523-1532. -/
example : velocity [] = none ∧ velocity (toEntries [t 3 0]) = none := ⟨rfl, rfl⟩

/-- `velocity_improving_scores`, /repo/src/exercise_scorer.rs:1536-1567. -/
example : ∃ v, velocity (toEntries [t 5 0, t 4 1, t 3 2, t 2 3, t 1 4]) = some v ∧ v > 0 := by
  rw [velocityQ_cast, show velocityQ [t 5 0, t 4 1, t 3 2, t 2 3, t 1 4] = some 1 by decide +kernel]
  exact ⟨_, rfl, by norm_num⟩

/-- `velocity_worsening_scores`, /repo/src/exercise_scorer.rs:1571-1602. -/
example : ∃ v, velocity (toEntries [t 1 0, t 2 1, t 3 2, t 4 3, t 5 4]) = some v ∧ v < 0 := by
  rw [velocityQ_cast, show velocityQ [t 1 0, t 2 1, t 3 2, t 4 3, t 5 4] = some (-1) by decide +kernel]
  exact ⟨_, rfl, by norm_num⟩

/-- `velocity_constant_scores`, /repo/src/exercise_scorer.rs:1606-1626. -/
example : ∃ v, velocity (toEntries [t 3 0, t 3 1, t 3 2]) = some v ∧ |v| < 1 / 1000000 := by
  rw [velocityQ_cast, show velocityQ [t 3 0, t 3 1, t 3 2] = some 0 by decide +kernel]
  exact ⟨_, rfl, by norm_num⟩

/-- `score_with_positive_deltas`, /repo/src/exercise_scorer.rs:1630-1674, and `score_with_negative_deltas`,
/repo/src/exercise_scorer.rs:1678-1722. -/
example : ∃ base up down, score .declarative (toEntries [t 3 0, t 4 1, t 4 2]) (toEntries []) now = some base ∧
    score .declarative (toEntries [t 3 0, t 4 1, t 4 2]) (toEntries [t (5 / 10) 1, t (12 / 10) 2]) now = some up ∧
    score .declarative (toEntries [t 3 0, t 4 1, t 4 2]) (toEntries [t (-(5 / 10)) 1, t (-(8 / 10)) 2]) now = some down ∧
    up.value > base.value ∧ down.value < base.value := by
  obtain ⟨b, vb, _, _, b1, b2, -, -, b5⟩ := helper (k := .declarative) (trials := [t 3 0, t 4 1, t 4 2]) (deltas := []) (now := now)
    (fun r => decide (36 / 10 < r.1.lo ∧ r.1.hi < 37 / 10)) (by decide +kernel)
  obtain ⟨p, vp, _, _, p1, p2, -, -, p5⟩ := helper (k := .declarative) (trials := [t 3 0, t 4 1, t 4 2])
    (deltas := [t (5 / 10) 1, t (12 / 10) 2]) (now := now) (fun r => decide (37 / 10 < r.1.lo)) (by decide +kernel)
  obtain ⟨n, vn, _, _, n1, n2, -, -, n5⟩ := helper (k := .declarative) (trials := [t 3 0, t 4 1, t 4 2])
    (deltas := [t (-(5 / 10)) 1, t (-(8 / 10)) 2]) (now := now) (fun r => decide (r.1.hi < 36 / 10)) (by decide +kernel)
  have b5 := of_decide_eq_true b5
  exact ⟨b, p, n, b1, p1, n1, apart b2 p2 (b5.2.trans (of_decide_eq_true p5)), apart n2 b2 ((of_decide_eq_true n5).trans b5.1)⟩

/-! ### Tests of the reward scorer -/

/-- `test_decay_factor`, /repo/src/reward_scorer.rs:173-177. -/
example : |decayFactor 0 - 1| < 1 / 1000000 ∧ |decayFactor 14 - 5 / 10| < 1 / 1000 ∧ |decayFactor 28 - 25 / 100| < 1 / 1000 := by
  have a := close (q := 1) (e := 1 / 1000000) (has_decay 0) (by decide +kernel)
  have b := close (q := 5 / 10) (e := 1 / 1000) (has_decay 14) (by decide +kernel)
  have c := close (q := 25 / 100) (e := 1 / 1000) (has_decay 28) (by decide +kernel)
  push_cast at a b c
  exact ⟨a, b, c⟩

/-- `test_decayed_reward`, /repo/src/reward_scorer.rs:181-203, and `test_future_timestamp_is_clamped`, /repo/src/reward_scorer.rs:207-218. -/
example : ∀ inRange : ℤ → Bool, (∀ x, inRange x = true) →
    (|(decayed inRange now ⟨1, 2, ts 14⟩).1 - 5 / 10| < 1 / 1000 ∧ |(decayed inRange now ⟨1, 2, ts 14⟩).2 - 1| < 1 / 1000) ∧
    (|(decayed inRange now ⟨-1, 1, ts 14⟩).1 + 5 / 10| < 1 / 1000 ∧ |(decayed inRange now ⟨-1, 1, ts 14⟩).2 - 5 / 10| < 1 / 1000) ∧
    (|(decayed inRange now ⟨1, 2, ts (-3)⟩).1 - 1| < 1 / 1000 ∧ |(decayed inRange now ⟨1, 2, ts (-3)⟩).2 - 2| < 1 / 1000) := by
  intro inRange hr
  have x := has_decayed (inRange := inRange) (r := ⟨1, 2, ts 14⟩) (hr _) now
  have y := has_decayed (inRange := inRange) (r := ⟨-1, 1, ts 14⟩) (hr _) now
  have z := has_decayed (inRange := inRange) (r := ⟨1, 2, ts (-3)⟩) (hr _) now
  have a := close (q := 5 / 10) (e := 1 / 1000) x.1 (by decide +kernel)
  have b := close (q := 1) (e := 1 / 1000) x.2 (by decide +kernel)
  have c := close (q := -(5 / 10)) (e := 1 / 1000) y.1 (by decide +kernel)
  have d := close (q := 5 / 10) (e := 1 / 1000) y.2 (by decide +kernel)
  have e := close (q := 1) (e := 1 / 1000) z.1 (by decide +kernel)
  have f := close (q := 2) (e := 1 / 1000) z.2 (by decide +kernel)
  simp only [toReward] at a b c d e f
  push_cast at a b c d e f
  rw [sub_neg_eq_add] at c
  exact ⟨⟨a, b⟩, ⟨c, d⟩, e, f⟩

/-- `test_no_rewards`, /repo/src/reward_scorer.rs:222-226. -/
example : ∀ inRange, scoreRewards inRange now [] [] = 0 := by intro r; simp [scoreRewards]

/-- The score of rewards, within an error. -/
theorem rewards_close {course lesson : List QReward} (q e : ℚ)
    (h : (scoreRewardsI now course lesson).any (fun I => decide (q - e < I.lo ∧ I.hi < q + e)) = true) (inRange : ℤ → Bool)
    (hr : ∀ x, inRange x = true) : |scoreRewards inRange now (toRewards course) (toRewards lesson) - (q : ℝ)| < (e : ℝ) := by
  cases hI : scoreRewardsI now course lesson with
  | none => rw [hI] at h; exact absurd h (by simp)
  | some I =>
    rw [hI] at h
    exact close (rewards_computed (fun _ _ => hr _) (fun _ _ => hr _) hI) (of_decide_eq_true h)

/-- `test_only_lesson_rewards`, `test_only_course_rewards`, `test_both_rewards` and `test_min_weight`, /repo/src/reward_scorer.rs:230-330. -/
example : ∀ inRange : ℤ → Bool, (∀ x, inRange x = true) →
    |scoreRewards inRange now (toRewards []) (toRewards [⟨1, 1, ts 1⟩, ⟨2, 1, ts 2⟩]) - 1371 / 1000| < 1 / 1000 ∧
    |scoreRewards inRange now (toRewards [⟨1, 1, ts 1⟩, ⟨2, 1, ts 2⟩]) (toRewards []) - 1371 / 1000| < 1 / 1000 ∧
    |scoreRewards inRange now (toRewards [⟨1, 1, ts 1⟩, ⟨2, 1, ts 2⟩]) (toRewards [⟨2, 1, ts 1⟩, ⟨4, 2, ts 2⟩]) - 2533 / 1000| < 1 / 1000 ∧
    |scoreRewards inRange now (toRewards []) (toRewards [⟨2, 1, ts 0⟩, ⟨1, 1 / 10000, ts 0 - 1⟩]) - 2| < 1 / 1000 := by
  intro inRange hr
  have a := rewards_close (course := []) (lesson := [⟨1, 1, ts 1⟩, ⟨2, 1, ts 2⟩]) (1371 / 1000) (1 / 1000) (by decide +kernel) inRange hr
  have b := rewards_close (lesson := []) (course := [⟨1, 1, ts 1⟩, ⟨2, 1, ts 2⟩]) (1371 / 1000) (1 / 1000) (by decide +kernel) inRange hr
  have c := rewards_close (course := [⟨1, 1, ts 1⟩, ⟨2, 1, ts 2⟩]) (lesson := [⟨2, 1, ts 1⟩, ⟨4, 2, ts 2⟩]) (2533 / 1000) (1 / 1000)
    (by decide +kernel) inRange hr
  have d := rewards_close (course := []) (lesson := [⟨2, 1, ts 0⟩, ⟨1, 1 / 10000, ts 0 - 1⟩]) 2 (1 / 1000) (by decide +kernel) inRange hr
  push_cast at a b c d
  exact ⟨a, b, c, d⟩

/-- `test_stale_rewards_do_not_drag_denominator`, /repo/src/reward_scorer.rs:334-352. -/
example : ∀ inRange : ℤ → Bool, (∀ x, inRange x = true) →
    scoreRewards inRange now (toRewards []) (toRewards [⟨1, 10, ts 70⟩, ⟨1, 1, ts 0⟩]) > 7 / 10 := by
  intro inRange hr
  have := rewards_close (course := []) (lesson := [⟨1, 10, ts 70⟩, ⟨1, 1, ts 0⟩]) (85 / 100) (15 / 100) (by decide +kernel) inRange hr
  push_cast at this
  rw [abs_lt] at this
  linarith [this.1]

/-- `test_apply_rewards`, /repo/src/reward_scorer.rs:356-449. -/
example : applyReward now (5 / 10) [⟨2, ts 1⟩] = false ∧ applyReward now (-1) [⟨2, ts 1⟩] = false ∧
    applyReward now (5 / 10) [⟨2, ts 1⟩, ⟨2, ts 8⟩, ⟨3, ts 10⟩] = false ∧ applyReward now (-1) [⟨2, ts 1⟩, ⟨2, ts 8⟩, ⟨3, ts 10⟩] = true ∧
    applyReward now (-(5 / 10)) [⟨4, ts 1⟩, ⟨5, ts 8⟩, ⟨4, ts 10⟩] = false ∧ applyReward now 1 [⟨4, ts 1⟩, ⟨5, ts 8⟩, ⟨4, ts 10⟩] = true ∧
    applyReward now (5 / 10) [⟨3, ts 1⟩, ⟨3, ts 8⟩, ⟨4, ts 10⟩] = true ∧
    applyReward now (-(5 / 10)) [⟨2, ts 1⟩, ⟨3, ts 8⟩, ⟨2, ts 10⟩] = true := by
  simp only [applyReward, ts, now]
  norm_num

end Trane.Conform.Scorer
