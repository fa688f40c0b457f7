import Verif.Float.RewardProps
import Verif.Float.OrderSample

/-!
# C104: averages in `f32` are close to the exact ones, whatever the order
-/

namespace Trane.Float

variable {powf : F → F → F}

/-! ### Lemmas -/

theorem round_close {x h c : ℝ} (hh : Bd h) (h0 : 0 ≤ x) (h1 : x ≤ h) (hc : x / 2 ^ 24 + 1 / 2 ^ 24 ≤ c) :
    ∃ z, F.round x = .num z ∧ Rep z ∧ 0 ≤ z ∧ z ≤ h ∧ |z - x| ≤ c := by
  obtain ⟨z, hz, hr, a, b⟩ := round_in bd_zero hh h0 h1
  have e : F.round x = .num (rnd x) :=
    round_num ((le_abs_self h).trans hh.2) hh.1 (by rw [abs_of_nonneg h0]; exact h1)
  have : z = rnd x := by rw [hz] at e; cases e; rfl
  refine ⟨z, hz, hr, a, b, ?_⟩
  rw [this]
  refine (rnd_err x).trans (max_le ?_ ?_)
  · rw [abs_of_nonneg h0]
    have : (0 : ℝ) < 1 / 2 ^ 24 := by positivity
    linarith
  · have h2 : (2 : ℝ) ^ (-150 : ℤ) ≤ 1 / 2 ^ 24 := by
      rw [zpow_neg, ← one_div]
      exact one_div_le_one_div_of_le (by positivity) (by norm_cast)
    have h3 : 0 ≤ x / 2 ^ 24 := by positivity
    exact h2.trans ((le_add_of_nonneg_left h3).trans hc)

theorem sum_close (vs : List ℝ) : ∀ (n : ℕ) (s e : ℝ), n + vs.length ≤ 2 ^ 21 → Rep s → 0 ≤ s → s ≤ 5 * n →
    |s - e| ≤ 3 * n * (n + 1) / 2 ^ 24 → (∀ v ∈ vs, Rep v ∧ 0 ≤ v ∧ v ≤ 5) →
    ∃ z, (vs.map F.num).foldl F.add (.num s) = .num z ∧ Rep z ∧ 0 ≤ z ∧ z ≤ 5 * (n + vs.length : ℕ) ∧
      |z - (e + vs.sum)| ≤ 3 * (n + vs.length : ℕ) * ((n + vs.length : ℕ) + 1) / 2 ^ 24 := by
  induction vs with
  | nil =>
    intro n s e _ hr h0 h1 he _
    exact ⟨s, rfl, hr, h0, by simpa using h1, by simpa using he⟩
  | cons v vs ih =>
    intro n s e hn hr h0 h1 he hv
    simp only [List.length_cons] at hn
    obtain ⟨v1, v2, v3⟩ := hv v (by simp)
    have hb : Bd ((5 : ℝ) * (n + 1 : ℕ)) := by
      have := bd_times 5 (n + 1) (by norm_num) (by omega)
      exact_mod_cast this
    have hn0 : (0 : ℝ) ≤ n := Nat.cast_nonneg n
    obtain ⟨z, hz, hzr, z0, z1, z2⟩ := round_close (x := s + v) (c := 6 * (n + 1) / 2 ^ 24) hb (by linarith) (by push_cast; linarith) (by
      rw [← add_div]
      apply div_le_div_of_nonneg_right _ (by positivity)
      nlinarith)
    obtain ⟨y, hy, hyr, y0, y1, y2⟩ := ih (n + 1) z (e + v) (by omega) hzr z0 (by push_cast at z1 ⊢; linarith) (by
      have : z - (e + v) = (z - (s + v)) + (s - e) := by ring
      rw [this]
      refine (abs_add_le _ _).trans ((add_le_add z2 he).trans (le_of_eq ?_))
      push_cast
      ring) (fun x hx => hv x (by simp [hx]))
    refine ⟨y, ?_, hyr, y0, ?_, ?_⟩
    · rw [List.map_cons, List.foldl_cons]
      change (vs.map F.num).foldl F.add (F.round (s + v)) = _
      rw [hz, hy]
    · rw [List.length_cons, show n + (vs.length + 1) = n + 1 + vs.length by omega]; exact y1
    · rw [List.length_cons, List.sum_cons, show n + (vs.length + 1) = n + 1 + vs.length by omega,
        show e + (v + vs.sum) = e + v + vs.sum by ring]
      exact y2

/-! ### Theorems -/

/-- **C104, averages in `f32`**: the average of `n` scores from 0 to 5 (one to two million of them) is within
`3 (n + 3) / 2^24` of the exact average. -/
theorem machine_mean_close (vs : List ℝ) (hne : vs ≠ []) (hn : vs.length ≤ 2 ^ 21) (hv : ∀ v ∈ vs, Rep v ∧ 0 ≤ v ∧ v ≤ 5) :
    ∃ z, gMean (f32 powf) (vs.map F.num) = .num z ∧ |z - vs.sum / vs.length| ≤ 3 * (vs.length + 3) / 2 ^ 24 := by
  have hpos : 0 < vs.length := List.length_pos_iff.2 hne
  have hp : (0 : ℝ) < vs.length := by exact_mod_cast hpos
  have hp1 : (1 : ℝ) ≤ vs.length := by exact_mod_cast hpos
  obtain ⟨s, hs, hsr, s0, s1, s2⟩ := sum_close vs 0 0 0 (by omega) rep_zero le_rfl (by simp) (by simp) hv
  simp only [zero_add] at s1 s2
  have hbn : Bd ((vs.length : ℕ) : ℝ) := by simpa using bd_times 1 vs.length (by norm_num) hn
  obtain ⟨z, hz, -, -, -, z2⟩ := round_close (x := s / vs.length) (h := 5) (c := 6 / 2 ^ 24) (bd_int 5 (by norm_num))
    (by positivity) (by rw [div_le_iff₀ hp]; exact s1) (by
      rw [← add_div]
      apply div_le_div_of_nonneg_right _ (by positivity)
      have : s / vs.length ≤ 5 := by rw [div_le_iff₀ hp]; exact s1
      linarith)
  refine ⟨z, ?_, ?_⟩
  · unfold gMean
    rw [lit0]
    change F.div ((vs.map F.num).foldl F.add (.num 0)) (F.round (((vs.map F.num).length : ℤ) : ℝ)) = _
    rw [hs, List.length_map, show (((vs.length : ℤ)) : ℝ) = ((vs.length : ℕ) : ℝ) by push_cast; rfl, round_bd hbn]
    change (if (vs.length : ℝ) = 0 then _ else F.round (s / vs.length)) = _
    rw [if_neg hp.ne', hz]
  · have e : z - vs.sum / vs.length = (z - s / vs.length) + (s - vs.sum) / vs.length := by ring
    rw [e]
    have h3 : |(s - vs.sum) / vs.length| ≤ 3 * (vs.length + 1) / 2 ^ 24 := by
      rw [abs_div, abs_of_pos hp, div_le_iff₀ hp]
      refine s2.trans (le_of_eq ?_)
      ring
    refine (abs_add_le _ _).trans ((add_le_add z2 h3).trans (le_of_eq ?_))
    ring

/-- **C104, two orders in `f32`**: summed in another order, the average moves by at most `6 (n + 3) / 2^24`. -/
theorem machine_mean_order {vs vs' : List ℝ} (hp : vs.Perm vs') (hne : vs ≠ []) (hn : vs.length ≤ 2 ^ 21)
    (hv : ∀ v ∈ vs, Rep v ∧ 0 ≤ v ∧ v ≤ 5) : ∃ z z', gMean (f32 powf) (vs.map F.num) = .num z ∧
      gMean (f32 powf) (vs'.map F.num) = .num z' ∧ |z - z'| ≤ 6 * (vs.length + 3) / 2 ^ 24 := by
  obtain ⟨z, hz, h1⟩ := machine_mean_close (powf := powf) vs hne hn hv
  obtain ⟨z', hz', h2⟩ := machine_mean_close (powf := powf) vs' (fun e => hne (e ▸ hp).eq_nil) (hp.length_eq ▸ hn)
    (fun v h => hv v (hp.mem_iff.2 h))
  refine ⟨z, z', hz, hz', ?_⟩
  rw [← hp.length_eq, ← hp.sum_eq, abs_sub_comm] at h2
  have e : z - z' = (z - vs.sum / vs.length) + (vs.sum / vs.length - z') := by ring
  rw [e]
  refine (abs_add_le _ _).trans ((add_le_add h1 h2).trans (le_of_eq ?_))
  ring

/-- Twenty scores: the average is the exact one up to a hundred-thousandth. -/
example (vs : List ℝ) (hl : vs.length = 20) (hv : ∀ v ∈ vs, Rep v ∧ 0 ≤ v ∧ v ≤ 5) :
    ∃ z, gMean (f32 powf) (vs.map F.num) = .num z ∧ |z - vs.sum / 20| < 1 / 10 ^ 5 := by
  obtain ⟨z, h1, h2⟩ := machine_mean_close (powf := powf) vs (by rintro rfl; cases hl) (by omega) hv
  refine ⟨z, h1, ?_⟩
  rw [hl] at h2
  norm_num at h2 ⊢
  linarith

example : ∃ z, gMean (f32 powf) ([4, 3, 0, 5].map F.num) = .num z ∧ |z - 3| ≤ 1 / 2 ^ 19 := by
  obtain ⟨z, h1, h2⟩ := machine_mean_close (powf := powf) [4, 3, 0, 5] (by simp) (by norm_num) (by
    intro v hv
    have : ∀ n : ℤ, 0 ≤ n → n ≤ 5 → Rep (n : ℝ) ∧ (0 : ℝ) ≤ n ∧ (n : ℝ) ≤ 5 := fun n h1 h2 =>
      ⟨rep_int (by rw [abs_of_nonneg h1]; omega), by exact_mod_cast h1, by exact_mod_cast h2⟩
    simp only [List.mem_cons, List.not_mem_nil, or_false] at hv
    rcases hv with rfl | rfl | rfl | rfl
    · exact_mod_cast this 4 (by norm_num) (by norm_num)
    · exact_mod_cast this 3 (by norm_num) (by norm_num)
    · exact_mod_cast this 0 (by norm_num) (by norm_num)
    · exact_mod_cast this 5 (by norm_num) (by norm_num))
  refine ⟨z, h1, ?_⟩
  norm_num at h2 ⊢
  linarith

end Trane.Float
