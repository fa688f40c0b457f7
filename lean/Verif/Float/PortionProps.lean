import Verif.Float.Portion

/-!
# C126: how many exercises of a lesson are taken, in `f32`: the properties
-/

namespace Trane.Float

open Trane.Search (numToSelect)

variable {powf : F → F → F}

/-- The documented number of exercises: all of them from a score of 4 on, and below the passing score `m`; in between
the part grows linearly from `f` to 1, and at least one exercise is taken if the part is not 0. -/
noncomputable def documentedCount (m f s : ℝ) (n : Nat) : Nat :=
  if 4 ≤ s ∨ s < m then n
  else
    let p := f + (s - m) / (4 - m) * (1 - f)
    if 0 < p then max 1 ⌊p * n⌋₊ else 0

/-- The documented number is that of the model used for the search. -/
theorem documentedCount_model (o : PassingScoreOptions) (s : ℚ) (n : Nat) (h0 : 0 ≤ o.minFraction) (h1 : o.minFraction ≤ 1) :
    documentedCount o.minScore o.minFraction s n = numToSelect o s n := by
  unfold documentedCount numToSelect fullCandidatesScore
  have c1 : ((4 : ℝ) ≤ s ∨ (s : ℝ) < o.minScore) ↔ (s ≥ 4 ∨ s < o.minScore) := by
    rw [ge_iff_le]
    refine or_congr ?_ Rat.cast_lt
    exact_mod_cast Iff.rfl
  by_cases hc : s ≥ 4 ∨ s < o.minScore
  · rw [if_pos hc, if_pos (c1.2 hc)]
  · rw [if_neg hc, if_neg (fun h => hc (c1.1 h))]
    push Not at hc
    have hid : Search.clampQ o.minFraction 0 1 = o.minFraction := by
      unfold Search.clampQ
      rw [if_neg (by linarith), if_neg (by linarith)]
    have hd : 0 < 4 - o.minScore := by linarith [hc.1, hc.2]
    have q0 : 0 ≤ (s - o.minScore) / (4 - o.minScore) := div_nonneg (by linarith [hc.2]) hd.le
    have q1 : (s - o.minScore) / (4 - o.minScore) ≤ 1 := (div_le_one hd).2 (by linarith [hc.1])
    have hcl : Search.clampQ (o.minFraction + (s - o.minScore) / (4 - o.minScore) * (1 - o.minFraction)) 0 1 =
        o.minFraction + (s - o.minScore) / (4 - o.minScore) * (1 - o.minFraction) := by
      unfold Search.clampQ
      rw [if_neg (by nlinarith), if_neg (by nlinarith)]
    dsimp only
    rw [hid, hcl]
    have hp : (o.minFraction : ℝ) + (s - o.minScore) / (4 - o.minScore) * (1 - o.minFraction) =
        ((o.minFraction + (s - o.minScore) / (4 - o.minScore) * (1 - o.minFraction) : ℚ) : ℝ) := by push_cast; ring
    rw [hp]
    generalize o.minFraction + (s - o.minScore) / (4 - o.minScore) * (1 - o.minFraction) = p
    have hfl : ⌊(p : ℝ) * n⌋₊ = ⌊p * (n : ℚ)⌋₊ := by
      rw [show (p : ℝ) * n = ((p * n : ℚ) : ℝ) by push_cast; ring, ← Int.floor_toNat, Rat.floor_cast, Int.floor_toNat]
    rw [hfl]
    by_cases h : 0 < p
    · rw [if_pos (by exact_mod_cast h)]
      by_cases h2 : ⌊p * (n : ℚ)⌋₊ = 0
      · rw [if_pos ⟨h, h2⟩, h2]
        rfl
      · rw [if_neg (fun h => h2 h.2), max_eq_right (by omega)]
    · rw [if_neg (by exact_mod_cast h), if_neg (fun h' => h h'.1)]
      have : p * (n : ℚ) ≤ 0 := mul_nonpos_of_nonpos_of_nonneg (not_lt.1 h) (by positivity)
      exact (Nat.floor_of_nonpos this).symm

theorem floors_close {x y : ℝ} (hx : 0 ≤ x) (h : |x - y| ≤ 1 / 2) : ⌊x⌋₊ ≤ ⌊y⌋₊ + 1 := by
  have h' := abs_le.1 h
  have h1 := Nat.floor_le hx
  have h2 := Nat.lt_floor_add_one y
  have : ((⌊x⌋₊ : ℕ) : ℝ) < ((⌊y⌋₊ + 2 : ℕ) : ℝ) := by
    push_cast
    linarith
  have := Nat.cast_lt.1 this
  omega

/-- **C126** In `f32` the number of exercises taken from a lesson differs from the documented one by at most one,
for every passing score that is accepted. -/
theorem machine_portion_near {m f s : ℝ} {n : Nat} (hr : Rep m) (hs : Rep s) (hm : 0 ≤ m ∧ m < 4) (hf : 0 ≤ f ∧ f ≤ 1) (hn : n ≤ 65536) :
    machineCount powf m f s n ≤ documentedCount m f s n + 1 ∧ documentedCount m f s n ≤ machineCount powf m f s n + 1 := by
  by_cases h : 4 ≤ s ∨ s < m
  · rw [machineCount_all h]
    unfold documentedCount
    rw [if_pos h]
    omega
  · have h' := h
    push Not at h'
    rw [machineCount_val hr hm.1 hm.2 hf.1 hf.2 h'.2 h'.1 (by omega)]
    unfold documentedCount
    rw [if_neg h]
    dsimp only
    have hpn := part_near hr hs hm.1 hm.2 hf.1 hf.2 h'.2 h'.1.le
    have hd : 0 < 4 - m := by linarith [hm.2]
    have q0 : 0 ≤ (s - m) / (4 - m) := div_nonneg (by linarith [h'.2]) hd.le
    have q1 : (s - m) / (4 - m) ≤ 1 := (div_le_one hd).2 (by linarith [h'.1])
    have c0 : 0 ≤ part m f s := (clamp_range _).1
    have c1 : part m f s ≤ 1 := (clamp_range _).2
    have p0 : 0 ≤ f + (s - m) / (4 - m) * (1 - f) := add_nonneg hf.1 (mul_nonneg q0 (by linarith [hf.2]))
    have p1 : f + (s - m) / (4 - m) * (1 - f) ≤ 1 := by nlinarith [hf.2]
    rw [clamp_id p0 p1] at hpn
    generalize part m f s = c at *
    generalize f + (s - m) / (4 - m) * (1 - f) = p at *
    have hn0 : (0 : ℝ) ≤ n := by positivity
    have hnr : (n : ℝ) ≤ 65536 := by exact_mod_cast hn
    have hcn : |c * n| ≤ 65536 := by
      rw [abs_of_nonneg (mul_nonneg c0 hn0)]
      nlinarith
    have e1 := rnd_err_le (x := c * n) (b := 65536) (by norm_num) hcn
    have e2 : |c * n - p * n| ≤ 100 / 2 ^ 24 * 65536 := by
      rw [← sub_mul, abs_mul, abs_of_nonneg hn0]
      exact mul_le_mul hpn hnr hn0 (by norm_num)
    have e3 : |rnd (c * n) - p * n| ≤ 1 / 2 := by
      have : rnd (c * n) - p * n = (rnd (c * n) - c * n) + (c * n - p * n) := by ring
      rw [this]
      exact (abs_add_le _ _).trans ((add_le_add e1 e2).trans (by norm_num))
    have f1 := floors_close (rnd_nonneg (mul_nonneg c0 hn0)) e3
    have f2 := floors_close (mul_nonneg p0 hn0) (by rwa [abs_sub_comm])
    have hz : ¬ 0 < p → ⌊p * n⌋₊ = 0 := fun h =>
      Nat.floor_of_nonpos (mul_nonpos_of_nonpos_of_nonneg (not_lt.1 h) hn0)
    generalize ⌊rnd (c * n)⌋₊ = a at *
    generalize ⌊p * n⌋₊ = b at *
    by_cases hp : 0 < p
    · rw [if_pos hp]
      split_ifs with h3
      · omega
      · have : a = 0 → ¬ 0 < c := fun ha hc => h3 ⟨hc, ha⟩
        rcases le_total 1 b with hb | hb
        · rw [max_eq_right hb]
          omega
        · rw [max_eq_left hb]
          omega
    · rw [if_neg hp]
      have hb := hz hp
      split_ifs <;> omega

/-- **C126** No more exercises are taken than there are. -/
theorem machine_portion_le {m f s : ℝ} {n : Nat} (hr : Rep m) (hm : 0 ≤ m ∧ m < 4) (hf : 0 ≤ f ∧ f ≤ 1) (hn : n ≤ 2 ^ 24) (h1 : 0 < n) :
    machineCount powf m f s n ≤ n := by
  by_cases h : 4 ≤ s ∨ s < m
  · rw [machineCount_all h]
  · push Not at h
    rw [machineCount_val hr hm.1 hm.2 hf.1 hf.2 h.2 h.1 hn]
    have hrep : Rep (n : ℝ) := by
      have := rep_int (n := (n : ℤ)) (by rw [abs_of_nonneg (by positivity)]; exact_mod_cast hn)
      simpa using this
    have c1 : part m f s ≤ 1 := (clamp_range _).2
    have h3 : rnd (part m f s * n) ≤ n := rnd_le hrep (by nlinarith [show (0 : ℝ) ≤ n by positivity])
    have h4 := Nat.floor_mono h3
    rw [Nat.floor_natCast] at h4
    split_ifs <;> omega

/-- **C126** With a positive least fraction at least one exercise is taken. -/
theorem machine_portion_pos {m f s : ℝ} {n : Nat} (hr : Rep m) (hm : 0 ≤ m ∧ m < 4) (hf : 0 < f ∧ f ≤ 1) (hrf : Rep f) (hn : n ≤ 2 ^ 24)
    (h1 : 0 < n) : 1 ≤ machineCount powf m f s n := by
  by_cases h : 4 ≤ s ∨ s < m
  · rw [machineCount_all h]
    exact h1
  · push Not at h
    rw [machineCount_val hr hm.1 hm.2 hf.1.le hf.2 h.2 h.1 hn]
    have := part_least hr hm.2 h.2 h.1.le hrf hf.1.le hf.2
    split_ifs with h3
    · exact le_rfl
    · have : ⌊rnd (part m f s * n)⌋₊ ≠ 0 := fun h0 => h3 ⟨by linarith [hf.1], h0⟩
      omega

/-- **C126** From the passing score on, a higher score never means fewer exercises. -/
theorem machine_portion_mono {m f s s' : ℝ} {n : Nat} (hr : Rep m) (hm : 0 ≤ m ∧ m < 4) (hf : 0 ≤ f ∧ f ≤ 1) (hn : n ≤ 2 ^ 24)
    (h0 : 0 < n) (h1 : m ≤ s) (h : s ≤ s') : machineCount powf m f s n ≤ machineCount powf m f s' n := by
  by_cases h4 : 4 ≤ s'
  · rw [machineCount_all (s := s') (Or.inl h4)]
    exact machine_portion_le hr hm hf hn h0
  · have h4 := not_le.1 h4
    rw [machineCount_val hr hm.1 hm.2 hf.1 hf.2 h1 (by linarith) hn,
      machineCount_val hr hm.1 hm.2 hf.1 hf.2 (by linarith) h4 hn]
    have hp := part_mono (f := f) hr hm.2 h1 h h4.le hf.2
    have hfl : ⌊rnd (part m f s * n)⌋₊ ≤ ⌊rnd (part m f s' * n)⌋₊ :=
      Nat.floor_mono (rnd_mono (mul_le_mul_of_nonneg_right hp (by positivity)))
    split_ifs with a b b
    · exact le_rfl
    · have : ⌊rnd (part m f s' * n)⌋₊ ≠ 0 := fun h0 => b ⟨by linarith [a.1], h0⟩
      omega
    · omega
    · exact hfl

/-- **C126** With the default options, a lesson that just passes gives exactly half of its exercises, and at least one. -/
theorem machine_portion_passing {n : Nat} (hn : n ≤ 2 ^ 24) : machineCount powf 3 (1 / 2) 3 n = max 1 (n / 2) := by
  rw [machineCount_val (by simpa using rep_int (n := 3) (by norm_num)) (by norm_num) (by norm_num) (by norm_num) (by norm_num) le_rfl (by norm_num) hn]
  have hr : Rep (1 / 2 : ℝ) := by
    have := rep_div (m := 1) (k := 1) (by norm_num) (by norm_num)
    simpa using this
  have hpart : part 3 (1 / 2) 3 = 1 / 2 := by
    unfold part
    rw [sub_self, rnd_zero, zero_div, rnd_zero, zero_mul, rnd_zero, add_zero, rnd_fix hr, clamp_id (by norm_num) (by norm_num)]
  have hrn : Rep ((n : ℤ) / 2 ^ 1 : ℝ) := rep_div (by rw [abs_of_nonneg (by positivity)]; exact_mod_cast hn) (by norm_num)
  have hval : (1 / 2 : ℝ) * n = ((n : ℤ) / 2 ^ 1 : ℝ) := by
    push_cast
    ring
  rw [hpart, hval, rnd_fix hrn]
  have hfl : ⌊((n : ℤ) / 2 ^ 1 : ℝ)⌋₊ = n / 2 := by
    rw [show ((n : ℤ) / 2 ^ 1 : ℝ) = (n : ℝ) / ((2 : ℕ) : ℝ) by push_cast; ring]
    exact Nat.floor_div_eq_div n 2
  rw [hfl]
  split_ifs with h
  · omega
  · have : n / 2 ≠ 0 := fun h0 => h ⟨by norm_num, h0⟩
    omega

/-- A lesson of 25 exercises with a score of 3.5: the documented number is 18. -/
example : documentedCount 3 (1 / 2) (7 / 2) 25 = 18 ∧ 17 ≤ machineCount powf 3 (1 / 2) (7 / 2) 25 ∧
    machineCount powf 3 (1 / 2) (7 / 2) 25 ≤ 19 := by
  have h : documentedCount 3 (1 / 2) (7 / 2) 25 = 18 := by
    unfold documentedCount
    norm_num
  have := machine_portion_near (powf := powf) (m := 3) (f := 1 / 2) (s := 7 / 2) (n := 25)
    (by simpa using rep_int (n := 3) (by norm_num))
    (by simpa using rep_div (m := 7) (k := 1) (by norm_num) (by norm_num)) (by norm_num) (by norm_num) (by norm_num)
  rw [h] at this
  exact ⟨h, by omega, this.1⟩

end Trane.Float
