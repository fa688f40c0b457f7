import Verif.Float.ReplayProps
import Verif.Float.RewardProps

/-! # Rewards in `f32` arithmetic, against the exact ones -/

namespace Trane.Float

variable {powf : F → F → F}

/-- The rewards as the machine holds them. -/
def storedRewards (l : List (GReward ℝ)) : List (GReward F) :=
  l.map (fun r => ⟨.num r.value, .num r.weight, r.time⟩)

theorem gDecay_real (inRange : ℤ → Bool) (t now : ℤ) :
    gDecay exact inRange t now = (1 / 2 : ℝ) ^ ((gDaysSince inRange t now : ℝ) / 14) := by
  simp [gDecay, exact]

theorem half_num : (f32 powf).lit (1 / 2) = .num (1 / 2) := by
  have := lit_bd powf (q := 1 / 2) (bd_div 1 1 (by norm_num) (by norm_num) (by norm_num))
  simpa using this

/-- What is left of a reward: close to the exact part, or both at most a 32nd. -/
theorem rewardDecay_near (hp : Faithful powf) {inRange : ℤ → Bool} {now : ℤ} (h : Clock inRange now) (t : ℤ) :
    ∃ z, gDecay (f32 powf) inRange t now = .num z ∧ 0 ≤ z ∧ z ≤ 1 ∧ 0 < gDecay exact inRange t now ∧
      gDecay exact inRange t now ≤ 1 ∧
      ((1 / 32 ≤ gDecay exact inRange t now ∧
          |z - gDecay exact inRange t now| ≤ 10 / 2 ^ 24 * gDecay exact inRange t now) ∨
        (gDecay exact inRange t now ≤ 1 / 32 ∧ z ≤ 1 / 32)) := by
  obtain ⟨z, hz, -, hz0, hz1⟩ := gDecay_in hp h t
  obtain ⟨h1, h2⟩ := gDaysSince_le h t
  rw [gDecay_real]
  have hD0 : (0 : ℝ) ≤ gDaysSince inRange t now := by exact_mod_cast h1
  have h14 : (f32 powf).lit 14 = .num 14 := litn (powf := powf) 14 (by norm_num)
  have hdiv : ∀ z : ℝ, (f32 powf).div (.num z) (.num 14) = F.round (z / 14) := by
    intro z
    show (if (14 : ℝ) = 0 then _ else F.round (z / 14)) = _
    rw [if_neg (by norm_num)]
  have hpos : (0 : ℝ) < (1 / 2 : ℝ) ^ ((gDaysSince inRange t now : ℝ) / 14) := by positivity
  have hle1 : (1 / 2 : ℝ) ^ ((gDaysSince inRange t now : ℝ) / 14) ≤ 1 :=
    Real.rpow_le_one (by norm_num) (by norm_num) (by positivity)
  have h32 : (1 / 2 : ℝ) ^ (5 : ℝ) = 1 / 32 := by
    have : (1 / 2 : ℝ) ^ (5 : ℝ) = (1 / 2 : ℝ) ^ (5 : ℕ) := by rw [← Real.rpow_natCast]; norm_num
    rw [this]; norm_num
  refine ⟨z, hz, hz0, hz1, hpos, hle1, ?_⟩
  unfold gDecay at hz
  rw [half_num, h14] at hz
  generalize gDaysSince inRange t now = D at *
  rcases le_or_gt D 70 with hD | hD
  · left
    have hDr : (D : ℝ) ≤ 70 := by exact_mod_cast hD
    have hx5 : (D : ℝ) / 14 ≤ 5 := by rw [div_le_iff₀ (by norm_num)]; linarith
    have hlo : (1 / 32 : ℝ) ≤ (1 / 2 : ℝ) ^ ((D : ℝ) / 14) := by
      rw [← h32]
      exact Real.rpow_le_rpow_of_exponent_ge (by norm_num) (by norm_num) hx5
    refine ⟨hlo, ?_⟩
    have hDn : (f32 powf).ofInt D = .num (D : ℝ) := by
      show F.round _ = _
      exact round_bd (bd_int D rfl (by rw [abs_of_nonneg h1]; omega))
    obtain ⟨y, hy, hyn⟩ := round_near_abs (y := (D : ℝ) / 14) (c := 5)
      (by rw [abs_of_nonneg (by positivity)]; exact hx5) (by norm_num) (by norm_num)
    rw [hDn, hdiv, hy] at hz
    have hy6 : |y| ≤ 6 := by
      have e : y = (y - D / 14) + D / 14 := by ring
      rw [e]
      refine (abs_add_le _ _).trans ?_
      rw [abs_of_nonneg (by positivity : (0 : ℝ) ≤ (D : ℝ) / 14)]
      norm_num at hyn ⊢
      linarith
    have hlog : |Real.log (1 / 2)| ≤ 1 := by
      have := Real.one_sub_inv_le_log_of_pos (x := (1 / 2 : ℝ)) (by norm_num)
      have h2 : Real.log (1 / 2) ≤ 0 := Real.log_nonpos (by norm_num) (by norm_num)
      norm_num at this
      exact abs_le.2 ⟨by norm_num; linarith, by linarith⟩
    have hpow := rpow_close (B := 1 / 2) (b := 1 / 2) (x := (D : ℝ) / 14) (y := y) (p := 0) (q := 5 / 2 ^ 24)
      (L := 1) (Y := 6) (τ := 5 / 2 ^ 24) (by norm_num) (by norm_num) (by simp) hy6 hyn hlog (by norm_num) (by norm_num)
    generalize (1 / 2 : ℝ) ^ ((D : ℝ) / 14) = P at *
    have hpow' := abs_le.1 hpow
    obtain ⟨z', hz', -, hzn⟩ := faithful_rel hp (x := 1 / 2) (by norm_num) (y := y)
      (by norm_num at hpow' ⊢; linarith) (by norm_num at hpow' ⊢; linarith)
    have e : powf (.num (1 / 2)) (.num y) = .num z := hz
    rw [hz'] at e
    cases e
    have hzn' := abs_le.1 hzn
    exact abs_le.2 ⟨by norm_num at hpow' hzn' ⊢; linarith, by norm_num at hpow' hzn' ⊢; linarith⟩
  · right
    have hDr : (71 : ℝ) ≤ D := by exact_mod_cast hD
    have hx5 : 5 ≤ (D : ℝ) / 14 := by rw [le_div_iff₀ (by norm_num)]; linarith
    refine ⟨?_, ?_⟩
    · rw [← h32]
      exact Real.rpow_le_rpow_of_exponent_ge (by norm_num) (by norm_num) hx5
    · have hd : In 70 (2 ^ 63) ((f32 powf).ofInt D) :=
        ofInt_in powf (bdi 70) (bdp 63) (by linarith) (by exact_mod_cast h2)
      obtain ⟨d, hd, -, hd0, hd1⟩ := hd
      rw [hd, hdiv] at hz
      have hq : In 5 (2 ^ 63) (F.round (d / 14)) :=
        round_in (bdi 5) (bdp 63) (by rw [le_div_iff₀ (by norm_num)]; linarith)
          (by rw [div_le_iff₀ (by norm_num)]; linarith)
      have hb : Bd (1 / 2) := bd_div 1 1 (by norm_num) (by norm_num) (by norm_num)
      obtain ⟨z', hz', -, -, hz2⟩ := powf_in (a := 0) (b := 1 / 32) hp (in_num hb.1 le_rfl le_rfl) hq bd_zero
        (bd_div 1 5 (by norm_num) (by norm_num) (by norm_num)) (by norm_num) (by norm_num)
        (fun u w a b c _ => by
          have : u = 1 / 2 := le_antisymm b a
          subst this
          refine ⟨by positivity, ?_⟩
          rw [← h32]
          exact Real.rpow_le_rpow_of_exponent_ge (by norm_num) (by norm_num) c)
      have e : powf (.num (1 / 2)) (F.round (d / 14)) = .num z := hz
      rw [hz'] at e
      cases e
      exact hz2

/-- A reward that can be compared: a value and a weight in range, and a weight that is not next to the least one
that counts. -/
def Clear (inRange : ℤ → Bool) (now : ℤ) (r : GReward ℝ) : Prop :=
  |r.value| ≤ 5 ∧ 0 ≤ r.weight ∧ r.weight ≤ 1 ∧
    1 / 1000000 ≤ |r.weight * gDecay exact inRange r.time now - 1 / 20|

/-- The machine's sums after some rewards: `N` and `A` are the exact ones. -/
def RewNear (i : ℕ) (N A : ℝ) (s : F × F) : Prop :=
  ∃ n d, s = (.num n, .num d) ∧ |N| ≤ 5 * A ∧ (A = 0 ∧ n = 0 ∧ d = 0 ∨ 1 / 20 ≤ A) ∧ A ≤ i ∧
    |n - N| ≤ (130 + 6 * i) / 2 ^ 24 * A ∧ |d - A| ≤ (12 + 2 * i) / 2 ^ 24 * A

/-- One term: the value and the weight that are left, and their product. -/
theorem rewTerm_near {v w P z : ℝ} (hv : |v| ≤ 5) (hw0 : 0 ≤ w) (hw1 : w ≤ 1) (hP : 1 / 32 ≤ P) (hP1 : P ≤ 1)
    (hz : |z - P| ≤ 10 / 2 ^ 24 * P) : ∃ a b, F.mul (.num v) (.num z) = .num a ∧
      F.mul (.num w) (.num z) = .num b ∧ |b - w * P| ≤ 11 / 2 ^ 24 + 1 / 10 / 2 ^ 24 ∧ (1 / 20 ≤ w * P →
        |b - w * P| ≤ 12 / 2 ^ 24 * (w * P) ∧ ∃ m, F.mul (.num a) (.num b) = .num m ∧
          |m - v * P * (w * P)| ≤ 130 / 2 ^ 24 * (w * P)) := by
  have hzb := abs_le.1 hz
  have hz0 : 0 ≤ z := by norm_num at hzb; linarith
  have hz2 : z ≤ 1001 / 1000 * P := by norm_num at hzb ⊢; linarith
  have hvz : |v * z| ≤ 5005 / 1000 * P := by
    rw [abs_mul, abs_of_nonneg hz0]
    have := mul_le_mul hv hz2 hz0 (by norm_num)
    linarith
  obtain ⟨a, ha, han⟩ := round_near_abs hvz (by norm_num; linarith) (by norm_num; linarith)
  have hwz : |w * z| ≤ 1001 / 1000 := by
    rw [abs_mul, abs_of_nonneg hz0, abs_of_nonneg hw0]
    have := mul_le_mul hw1 hz2 hz0 (by norm_num)
    linarith
  obtain ⟨b, hb, hbn⟩ := round_near_abs hwz (by norm_num) (by norm_num)
  have hd : |w * z - w * P| ≤ 10 / 2 ^ 24 * (w * P) := by
    rw [← mul_sub, abs_mul, abs_of_nonneg hw0]
    have := mul_le_mul_of_nonneg_left hz hw0
    linarith
  have hwP0 : 0 ≤ w * P := mul_nonneg hw0 (by linarith)
  have hwP1 : w * P ≤ 1 := mul_le_one₀ hw1 (by linarith) hP1
  have hwz0 : 0 ≤ w * z := mul_nonneg hw0 hz0
  refine ⟨a, b, ha, hb, ?_, fun hk => ?_⟩
  · have e : b - w * P = (b - w * z) + (w * z - w * P) := by ring
    rw [e]
    refine (abs_add_le _ _).trans ?_
    norm_num at hbn hd ⊢
    linarith
  · clear hwz
    have hb2 : F.round (w * z) = .num b := hb
    generalize w * P = W at *
    generalize w * z = ζ at *
    have hdb := abs_le.1 hd
    have hwz2 : |ζ| ≤ 1001 / 1000 * W := by
      rw [abs_of_nonneg hwz0]
      norm_num at hdb ⊢
      linarith
    obtain ⟨b', hb', hbn'⟩ := round_near_abs hwz2 (by norm_num; linarith) (by norm_num; linarith)
    rw [hb2] at hb'
    cases hb'
    have hbW : |b - W| ≤ 12 / 2 ^ 24 * W := by
      have e : b - W = (b - ζ) + (ζ - W) := by ring
      rw [e]
      refine (abs_add_le _ _).trans ?_
      norm_num at hbn' hd ⊢
      linarith
    refine ⟨hbW, ?_⟩
    have haV : |a - v * P| ≤ 56 / 2 ^ 24 := by
      have e : a - v * P = (a - v * z) + v * (z - P) := by ring
      rw [e]
      refine (abs_add_le _ _).trans ?_
      have : |v * (z - P)| ≤ 5 * (10 / 2 ^ 24 * P) := by
        rw [abs_mul]
        exact mul_le_mul hv hz (abs_nonneg _) (by norm_num)
      norm_num at han this ⊢
      linarith
    have hvP : |v * P| ≤ 5 := by
      rw [abs_mul, abs_of_pos (by linarith : 0 < P)]
      have := mul_le_mul hv hP1 (by linarith) (by norm_num)
      linarith
    generalize v * P = V at *
    have ha5 : |a| ≤ 501 / 100 := by
      have e : a = (a - V) + V := by ring
      rw [e]
      refine (abs_add_le _ _).trans ?_
      norm_num at haV ⊢
      linarith
    have hab : |a * b - V * W| ≤ 117 / 2 ^ 24 * W := by
      have e : a * b - V * W = a * (b - W) + (a - V) * W := by ring
      rw [e]
      refine (abs_add_le _ _).trans ?_
      rw [abs_mul, abs_mul, abs_of_nonneg hwP0]
      have h1 := mul_le_mul ha5 hbW (abs_nonneg _) (by norm_num)
      have h2 := mul_le_mul_of_nonneg_right haV hwP0
      norm_num at h1 h2 ⊢
      linarith
    have hVW : |V * W| ≤ 5 * W := by
      rw [abs_mul, abs_of_nonneg hwP0]
      exact mul_le_mul_of_nonneg_right hvP hwP0
    have habs : |a * b| ≤ 6 * W := by
      have e : a * b = (a * b - V * W) + V * W := by ring
      rw [e]
      refine (abs_add_le _ _).trans ?_
      linarith
    obtain ⟨m, hm, hmn⟩ := round_near_abs habs (by norm_num; linarith) (by norm_num; linarith)
    refine ⟨m, hm, ?_⟩
    have e : m - V * W = (m - a * b) + (a * b - V * W) := by ring
    rw [e]
    refine (abs_add_le _ _).trans ?_
    norm_num at hmn hab ⊢
    linarith

theorem rewNear_add {i : ℕ} (hi : i < 20) {N A : ℝ} {s : F × F} (h : RewNear i N A s) {W V m b : ℝ}
    (hW : 1 / 20 ≤ W) (hW1 : W ≤ 1) (hV : |V| ≤ 5 * W) (hm : |m - V| ≤ 130 / 2 ^ 24 * W)
    (hb : |b - W| ≤ 12 / 2 ^ 24 * W) :
    RewNear (i + 1) (N + V) (A + W) (F.add s.1 (.num m), F.add s.2 (.num b)) := by
  obtain ⟨n, d, rfl, h1, h2, h3, h4, h5⟩ := h
  have hA0 : 0 ≤ A := by rcases h2 with ⟨h, -, -⟩ | h <;> linarith
  have hir : (i : ℝ) + 1 ≤ 20 := by exact_mod_cast hi
  have hi0 : (0 : ℝ) ≤ i := Nat.cast_nonneg i
  have hWpos : 0 < W := by linarith
  have hAw : 0 < A + W := by linarith
  have hk1 : 0 ≤ (6 * (i : ℝ)) / 2 ^ 24 * W := by positivity
  have hk2 : 0 ≤ (2 * (i : ℝ)) / 2 ^ 24 * W := by positivity
  have hsum : |n + m - (N + V)| ≤ (130 + 6 * i) / 2 ^ 24 * (A + W) := by
    have e : n + m - (N + V) = (n - N) + (m - V) := by ring
    rw [e]
    refine (abs_add_le _ _).trans ?_
    have e2 : (130 + 6 * (i : ℝ)) / 2 ^ 24 * (A + W) =
        (130 + 6 * i) / 2 ^ 24 * A + (130 / 2 ^ 24 * W + (6 * i) / 2 ^ 24 * W) := by ring
    rw [e2]
    linarith
  have hNew : |N + V| ≤ 5 * (A + W) := (abs_add_le _ _).trans (by linarith)
  have hc1 : (130 + 6 * (i : ℝ)) / 2 ^ 24 * (A + W) ≤ 1 / 100 * (A + W) :=
    mul_le_mul_of_nonneg_right (by norm_num; linarith) hAw.le
  have hbig : |n + m| ≤ 501 / 100 * (A + W) := by
    have e : n + m = (n + m - (N + V)) + (N + V) := by ring
    rw [e]
    refine (abs_add_le _ _).trans ?_
    linarith
  obtain ⟨n', hn', hn1⟩ := round_near_abs hbig (by norm_num; linarith) (by norm_num; linarith)
  have hd : |d + b - (A + W)| ≤ (12 + 2 * i) / 2 ^ 24 * (A + W) := by
    have e : d + b - (A + W) = (d - A) + (b - W) := by ring
    rw [e]
    refine (abs_add_le _ _).trans ?_
    have e2 : (12 + 2 * (i : ℝ)) / 2 ^ 24 * (A + W) =
        (12 + 2 * i) / 2 ^ 24 * A + (12 / 2 ^ 24 * W + (2 * i) / 2 ^ 24 * W) := by ring
    rw [e2]
    linarith
  have hc2 : (12 + 2 * (i : ℝ)) / 2 ^ 24 * (A + W) ≤ 1 / 100 * (A + W) :=
    mul_le_mul_of_nonneg_right (by norm_num; linarith) hAw.le
  have hbig2 : |d + b| ≤ 101 / 100 * (A + W) := by
    have e : d + b = (d + b - (A + W)) + (A + W) := by ring
    rw [e]
    refine (abs_add_le _ _).trans ?_
    rw [abs_of_pos hAw]
    linarith
  obtain ⟨d', hd', hd1⟩ := round_near_abs hbig2 (by norm_num; linarith) (by norm_num; linarith)
  refine ⟨n', d', ?_, hNew, Or.inr (by linarith), by push_cast; linarith, ?_, ?_⟩
  · have e2 : F.add (.num n) (.num m) = .num n' := hn'
    have e3 : F.add (.num d) (.num b) = .num d' := hd'
    simp only [e2, e3]
  · have e : n' - (N + V) = (n' - (n + m)) + (n + m - (N + V)) := by ring
    rw [e]
    refine (abs_add_le _ _).trans ?_
    push_cast
    have e2 : (130 + 6 * ((i : ℝ) + 1)) / 2 ^ 24 * (A + W) =
        6 / 2 ^ 24 * (A + W) + (130 + 6 * i) / 2 ^ 24 * (A + W) := by ring
    rw [e2]
    have : 501 / 100 * (A + W) / 2 ^ 24 ≤ 6 / 2 ^ 24 * (A + W) := by norm_num; linarith
    linarith
  · have e : d' - (A + W) = (d' - (d + b)) + (d + b - (A + W)) := by ring
    rw [e]
    refine (abs_add_le _ _).trans ?_
    push_cast
    have e2 : (12 + 2 * ((i : ℝ) + 1)) / 2 ^ 24 * (A + W) =
        2 / 2 ^ 24 * (A + W) + (12 + 2 * i) / 2 ^ 24 * (A + W) := by ring
    rw [e2]
    have : 101 / 100 * (A + W) / 2 ^ 24 ≤ 2 / 2 ^ 24 * (A + W) := by norm_num; linarith
    linarith

theorem RewNear.next {i : ℕ} {N A : ℝ} {s : F × F} (h : RewNear i N A s) : RewNear (i + 1) N A s := by
  obtain ⟨n, d, rfl, h1, h2, h3, h4, h5⟩ := h
  have hA0 : 0 ≤ A := by rcases h2 with ⟨h, -, -⟩ | h <;> linarith
  have hi0 : (0 : ℝ) ≤ i := Nat.cast_nonneg i
  refine ⟨n, d, rfl, h1, h2, by push_cast; linarith, h4.trans ?_, h5.trans ?_⟩
  · refine mul_le_mul_of_nonneg_right ?_ hA0
    push_cast
    gcongr
    linarith
  · refine mul_le_mul_of_nonneg_right ?_ hA0
    push_cast
    gcongr
    linarith

theorem rewNear_step (hp : Faithful powf) {inRange : ℤ → Bool} {now : ℤ} (hc : Clock inRange now) {i : ℕ}
    (hi : i < 20) {e : ℝ × ℝ} {s : F × F} (h : RewNear i e.1 e.2 s) {r : GReward ℝ} (hr : Clear inRange now r) :
    RewNear (i + 1) (gRewardStep exact inRange now e r).1 (gRewardStep exact inRange now e r).2
      (gRewardStep (f32 powf) inRange now s ⟨.num r.value, .num r.weight, r.time⟩) := by
  obtain ⟨hv, hw0, hw1, hfar⟩ := hr
  obtain ⟨z, hz, hz0, hz1, hP0, hP1, hcase⟩ := rewardDecay_near hp hc r.time
  obtain ⟨q, hq, -, hqn⟩ := lit_near (powf := powf) (q := 5 / 100) (by norm_num) (by norm_num)
  have hqn' := abs_le.1 hqn
  push_cast at hqn'
  have hex : gRewardStep exact inRange now e r =
      if r.weight * gDecay exact inRange r.time now < 1 / 20 then e else
        (e.1 + r.value * gDecay exact inRange r.time now * (r.weight * gDecay exact inRange r.time now),
          e.2 + r.weight * gDecay exact inRange r.time now) := by
    unfold gRewardStep
    have e1 : exact.lit (5 / 100) = 1 / 20 := by simp [exact]; norm_num
    rw [e1]
    simp [exact]
  rw [hex]
  unfold gRewardStep
  dsimp only
  rw [hz, hq]
  generalize gDecay exact inRange r.time now = P at *
  have hmw : ∀ x y, (f32 powf).mul x y = F.mul x y := fun _ _ => rfl
  have haw : ∀ x y, (f32 powf).add x y = F.add x y := fun _ _ => rfl
  have hlt : ∀ x y : ℝ, (f32 powf).lt (.num x) (.num y) = decide (x < y) := fun _ _ => rfl
  simp only [hmw, haw]
  rcases hcase with ⟨hP, hzP⟩ | ⟨hP, hz32⟩
  · obtain ⟨a, b, ha, hb, hbn, hk⟩ := rewTerm_near hv hw0 hw1 hP hP1 hzP
    have hbn' := abs_le.1 hbn
    rw [ha, hb, hlt]
    by_cases hskip : r.weight * P < 1 / 20
    · rw [if_pos hskip, if_pos]
      · exact h.next
      · rw [abs_of_neg (by linarith)] at hfar
        rw [decide_eq_true_eq]
        norm_num at hfar hbn' hqn' ⊢
        linarith
    · rw [if_neg hskip, if_neg]
      · obtain ⟨h1, m, hm, hmn⟩ := hk (not_lt.1 hskip)
        rw [hm]
        have hWp : 0 ≤ r.weight * P := mul_nonneg hw0 hP0.le
        refine rewNear_add hi h (not_lt.1 hskip) (mul_le_one₀ hw1 hP0.le hP1) ?_ hmn h1
        rw [abs_mul, abs_of_nonneg hWp]
        refine mul_le_mul_of_nonneg_right ?_ hWp
        rw [abs_mul, abs_of_pos hP0]
        have := mul_le_mul hv hP1 hP0.le (by norm_num)
        linarith
      · rw [abs_of_nonneg (by linarith)] at hfar
        rw [decide_eq_true_eq, not_lt]
        norm_num at hfar hbn' hqn' ⊢
        linarith
  · have hwz : r.weight * z ≤ 1 / 32 := by
      have := mul_le_mul hw1 hz32 hz0 (by norm_num)
      linarith
    obtain ⟨b, hb, -, -, hb2⟩ : In 0 (1 / 32) (F.round (r.weight * z)) :=
      round_in bd_zero (bd_div 1 5 (by norm_num) (by norm_num) (by norm_num)) (mul_nonneg hw0 hz0) hwz
    have hb' : F.mul (.num r.weight) (.num z) = .num b := hb
    have hskip : r.weight * P < 1 / 20 := by
      have := mul_le_mul hw1 hP hP0.le (by norm_num)
      linarith
    rw [hb', hlt, if_pos hskip, if_pos]
    · exact h.next
    · rw [decide_eq_true_eq]
      norm_num at hqn' hb2 ⊢
      linarith

theorem rewNear_fold (hp : Faithful powf) {inRange : ℤ → Bool} {now : ℤ} (hc : Clock inRange now)
    (l : List (GReward ℝ)) (hl : ∀ r ∈ l, Clear inRange now r) {i : ℕ} (hi : i + l.length ≤ 20) {e : ℝ × ℝ}
    {s : F × F} (h : RewNear i e.1 e.2 s) :
    RewNear (i + l.length) (l.foldl (gRewardStep exact inRange now) e).1
      (l.foldl (gRewardStep exact inRange now) e).2
      ((storedRewards l).foldl (gRewardStep (f32 powf) inRange now) s) := by
  induction l generalizing i e s with
  | nil => simpa [storedRewards] using h
  | cons r l ih =>
    simp only [List.length_cons] at hi
    have h1 := rewNear_step hp hc (by omega) h (hl r (by simp))
    have h2 := ih (fun y hy => hl y (by simp [hy])) (by omega) h1
    simp only [List.length_cons, List.foldl_cons, storedRewards, List.map_cons]
    rw [show i + (l.length + 1) = i + 1 + l.length by omega]
    exact h2

/-- The average of at most twenty rewards. -/
theorem rewardAverage_near (hp : Faithful powf) {inRange : ℤ → Bool} {now : ℤ} (hc : Clock inRange now)
    (l : List (GReward ℝ)) (hl : ∀ r ∈ l, Clear inRange now r) (hl20 : l.length ≤ 20) :
    |gRewardAverage exact inRange now l| ≤ 5 ∧
    ∃ z, gRewardAverage (f32 powf) inRange now (storedRewards l) = .num z ∧
      |z - gRewardAverage exact inRange now l| ≤ 530 / 2 ^ 24 := by
  have h := rewNear_fold (powf := powf) hp hc l hl (i := 0) (by omega) (e := (0, 0))
    (s := ((f32 powf).lit 0, (f32 powf).lit 0)) ⟨0, 0, by rw [lit0], by simp, Or.inl ⟨rfl, rfl, rfl⟩, by simp,
      by simp, by simp⟩
  have hz : (exact.lit 0 : ℝ) = 0 := by simp [exact]
  obtain ⟨n, d, hs, h1, h2, h3, h4, h5⟩ := h
  rw [Nat.zero_add] at h3 h4 h5
  unfold gRewardAverage
  rw [hs, hz]
  generalize l.foldl (gRewardStep exact inRange now) (0, 0) = NA at *
  obtain ⟨N, A⟩ := NA
  dsimp only at *
  have hze : ∀ x : ℝ, exact.isZero x = true ↔ x = 0 := by
    intro x
    simp only [Arith.isZero, exact, Rat.cast_zero, Bool.and_eq_true, decide_eq_true_eq]
    exact ⟨fun h => le_antisymm h.1 h.2, fun h => ⟨h.le, h.ge⟩⟩
  have hzf : ∀ x : ℝ, (f32 powf).isZero (.num x) = true ↔ x = 0 := by
    intro x
    have hle : ∀ a b : ℝ, (f32 powf).le (.num a) (.num b) = decide (a ≤ b) := fun _ _ => rfl
    simp only [Arith.isZero, lit0, hle, Bool.and_eq_true, decide_eq_true_eq]
    exact ⟨fun h => le_antisymm h.1 h.2, fun h => ⟨h.le, h.ge⟩⟩
  rcases h2 with ⟨rfl, rfl, rfl⟩ | hA
  · rw [if_pos ((hze 0).2 rfl), if_pos ((hzf 0).2 rfl), lit0]
    exact ⟨by norm_num, 0, rfl, by norm_num⟩
  have hpos : 0 < A := by linarith
  have hn20 : (l.length : ℝ) ≤ 20 := by exact_mod_cast hl20
  have hn0 : (0 : ℝ) ≤ l.length := Nat.cast_nonneg _
  have h4' : |n - N| ≤ 250 / 2 ^ 24 * A := h4.trans (mul_le_mul_of_nonneg_right (by norm_num; linarith) hpos.le)
  have h5' : |d - A| ≤ 52 / 2 ^ 24 * A := h5.trans (mul_le_mul_of_nonneg_right (by norm_num; linarith) hpos.le)
  have hq : |N / A| ≤ 5 := by rw [abs_div, abs_of_pos hpos, div_le_iff₀ hpos]; exact h1
  have hd : 999 / 1000 * A ≤ d := by
    have := (abs_le.1 h5').1
    norm_num at this ⊢
    linarith
  have hdpos : 0 < d := lt_of_lt_of_le (by positivity) hd
  have hquot : |n / d - N / A| ≤ 515 / 2 ^ 24 := by
    have e : n / d - N / A = ((n - N) - N / A * (d - A)) / d := by field_simp; ring
    rw [e, abs_div, abs_of_pos hdpos, div_le_iff₀ hdpos]
    have h6 : |(n - N) - N / A * (d - A)| ≤ |n - N| + |N / A| * |d - A| := by
      rw [← abs_mul]; exact abs_sub _ _
    have h7 : |N / A| * |d - A| ≤ 5 * (52 / 2 ^ 24 * A) := mul_le_mul hq h5' (abs_nonneg _) (by norm_num)
    refine h6.trans ?_
    norm_num at h4' h7 ⊢
    linarith
  have hnd : |n / d| ≤ 6 := by
    have e : n / d = (n / d - N / A) + N / A := by ring
    rw [e]
    refine (abs_add_le _ _).trans ?_
    norm_num at hquot ⊢
    linarith
  obtain ⟨z, hz, hz1⟩ := round_near_abs hnd (by norm_num) (by norm_num)
  rw [if_neg (fun h => hpos.ne' ((hze A).1 h)), if_neg (fun h => hdpos.ne' ((hzf d).1 h))]
  refine ⟨hq, z, ?_, ?_⟩
  · show (if d = 0 then _ else F.round (n / d)) = _
    rw [if_neg hdpos.ne', hz]
  · show |z - N / A| ≤ _
    have e : z - N / A = (z - n / d) + (n / d - N / A) := by ring
    rw [e]
    refine (abs_add_le _ _).trans ?_
    norm_num at hz1 hquot ⊢
    linarith

/-- The reward of an exercise. -/
theorem reward_near (hp : Faithful powf) {inRange : ℤ → Bool} {now : ℤ} (hc : Clock inRange now)
    (course lesson : List (GReward ℝ)) (h1 : ∀ r ∈ course, Clear inRange now r)
    (h2 : ∀ r ∈ lesson, Clear inRange now r) (hl1 : course.length ≤ 20) (hl2 : lesson.length ≤ 20) :
    |gScoreRewards exact inRange now course lesson| ≤ 5 ∧
    ∃ z, gScoreRewards (f32 powf) inRange now (storedRewards course) (storedRewards lesson) = .num z ∧
      |z - gScoreRewards exact inRange now course lesson| ≤ 570 / 2 ^ 24 := by
  obtain ⟨c5, c, hcv, hcn⟩ := rewardAverage_near (powf := powf) hp hc course h1 hl1
  obtain ⟨l5, l, hlv, hln⟩ := rewardAverage_near (powf := powf) hp hc lesson h2 hl2
  have e1 : (storedRewards course).isEmpty = course.isEmpty := by cases course <;> rfl
  have e2 : (storedRewards lesson).isEmpty = lesson.isEmpty := by cases lesson <;> rfl
  unfold gScoreRewards
  dsimp only
  rw [e1, e2, hcv, hlv]
  generalize gRewardAverage exact inRange now course = C at *
  generalize gRewardAverage exact inRange now lesson = L at *
  by_cases hce : course.isEmpty = true
  · by_cases hle : lesson.isEmpty = true
    · rw [if_pos (by simp [hce, hle]), if_pos (by simp [hce, hle]), lit0]
      have : (exact.lit 0 : ℝ) = 0 := by simp [exact]
      rw [this]
      exact ⟨by norm_num, 0, rfl, by norm_num⟩
    · have hn : ¬ (course.isEmpty && lesson.isEmpty) = true := by simp only [Bool.and_eq_true]; exact fun h => hle h.2
      rw [if_neg hn, if_neg hn, if_pos hce, if_pos hce]
      exact ⟨l5, l, rfl, hln.trans (by norm_num)⟩
  · have hn : ¬ (course.isEmpty && lesson.isEmpty) = true := by simp only [Bool.and_eq_true]; exact fun h => hce h.1
    rw [if_neg hn, if_neg hn, if_neg hce, if_neg hce]
    by_cases hle : lesson.isEmpty = true
    · rw [if_pos hle, if_pos hle]
      exact ⟨c5, c, rfl, hcn.trans (by norm_num)⟩
    · rw [if_neg hle, if_neg hle]
      obtain ⟨p, hpv, -, hpn⟩ := lit_near (powf := powf) (q := 3 / 10) (by norm_num) (by norm_num)
      obtain ⟨q, hqv, -, hqn⟩ := lit_near (powf := powf) (q := 7 / 10) (by norm_num) (by norm_num)
      push_cast at hpn hqn
      have hex : exact.div (exact.add (exact.mul C (exact.lit (3 / 10))) (exact.mul L (exact.lit (7 / 10))))
          (exact.add (exact.lit (3 / 10)) (exact.lit (7 / 10))) = C * (3 / 10) + L * (7 / 10) := by
        simp [exact]
        norm_num
      rw [hex, hpv, hqv]
      have cb := abs_le.1 c5
      have lb := abs_le.1 l5
      have pb := abs_le.1 hpn
      have qb := abs_le.1 hqn
      have prod : ∀ {x X y Y : ℝ}, |X| ≤ 5 → |x - X| ≤ 530 / 2 ^ 24 → 0 ≤ Y → Y ≤ 7 / 10 → 3 / 10 ≤ Y →
          |y - Y| ≤ Y / 2 ^ 24 → ∃ m, F.mul (.num x) (.num y) = .num m ∧ |m - X * Y| ≤ 541 / 2 ^ 24 * Y := by
        intro x X y Y hX hx hY0 hY1 hY3 hy
        have hyb := abs_le.1 hy
        have hy0 : 0 ≤ y := by norm_num at hyb; linarith
        have hy2 : y ≤ 1001 / 1000 * Y := by norm_num at hyb ⊢; linarith
        have hx5 : |x| ≤ 501 / 100 := by
          have e : x = (x - X) + X := by ring
          rw [e]
          refine (abs_add_le _ _).trans ?_
          norm_num at hx ⊢
          linarith
        have hxy : |x * y| ≤ 502 / 100 * Y := by
          rw [abs_mul, abs_of_nonneg hy0]
          have := mul_le_mul hx5 hy2 hy0 (by norm_num)
          linarith
        obtain ⟨m, hm, hmn⟩ := round_near_abs hxy (by norm_num; linarith) (by norm_num; linarith)
        refine ⟨m, hm, ?_⟩
        have e : m - X * Y = (m - x * y) + (x * (y - Y) + (x - X) * Y) := by ring
        rw [e]
        refine (abs_add_le _ _).trans ?_
        have hb : |x * (y - Y) + (x - X) * Y| ≤ 501 / 100 * (Y / 2 ^ 24) + 530 / 2 ^ 24 * Y := by
          refine (abs_add_le _ _).trans ?_
          rw [abs_mul, abs_mul, abs_of_nonneg hY0]
          exact add_le_add (mul_le_mul hx5 hy (abs_nonneg _) (by norm_num)) (mul_le_mul_of_nonneg_right hx hY0)
        norm_num at hmn hb ⊢
        linarith
      obtain ⟨m1, hm1, hm1n⟩ := prod c5 hcn (by norm_num) (by norm_num) (by norm_num) hpn
      obtain ⟨m2, hm2, hm2n⟩ := prod l5 hln (by norm_num) (by norm_num) (by norm_num) hqn
      set X := C * (3 / 10) + L * (7 / 10) with hX
      have hX5 : |X| ≤ 5 := abs_le.2 ⟨by rw [hX]; linarith, by rw [hX]; linarith⟩
      have hsum : |m1 + m2 - X| ≤ 541 / 2 ^ 24 := by
        have e : m1 + m2 - X = (m1 - C * (3 / 10)) + (m2 - L * (7 / 10)) := by rw [hX]; ring
        rw [e]
        refine (abs_add_le _ _).trans ?_
        norm_num at hm1n hm2n ⊢
        linarith
      have hs6 : |m1 + m2| ≤ 501 / 100 := by
        have e : m1 + m2 = (m1 + m2 - X) + X := by ring
        rw [e]
        refine (abs_add_le _ _).trans ?_
        norm_num at hsum ⊢
        linarith
      obtain ⟨y, hy, hyn⟩ := round_near_abs hs6 (by norm_num) (by norm_num)
      have hpq : |p + q| ≤ 11 / 10 := abs_le.2 ⟨by norm_num at pb qb ⊢; linarith, by norm_num at pb qb ⊢; linarith⟩
      obtain ⟨t, ht, htn⟩ := round_near_abs hpq (by norm_num) (by norm_num)
      have htb := abs_le.1 htn
      have ht1 : |t - 1| ≤ 21 / 10 / 2 ^ 24 :=
        abs_le.2 ⟨by norm_num at htb pb qb ⊢; linarith, by norm_num at htb pb qb ⊢; linarith⟩
      have ht1b := abs_le.1 ht1
      have ht0 : 999999 / 1000000 ≤ t := by norm_num at ht1b ⊢; linarith
      have hyb : |y - X| ≤ 547 / 2 ^ 24 := by
        have e : y - X = (y - (m1 + m2)) + (m1 + m2 - X) := by ring
        rw [e]
        refine (abs_add_le _ _).trans ?_
        norm_num at hyn hsum ⊢
        linarith
      have hyt : |y / t - X| ≤ 558 / 2 ^ 24 := by
        have e : y / t - X = ((y - X) - X * (t - 1)) / t := by
          have : t ≠ 0 := by linarith
          field_simp
          ring
        rw [e, abs_div, abs_of_pos (by linarith : 0 < t), div_le_iff₀ (by linarith)]
        have h6 : |(y - X) - X * (t - 1)| ≤ |y - X| + |X| * |t - 1| := by
          rw [← abs_mul]; exact abs_sub _ _
        have h7 : |X| * |t - 1| ≤ 5 * (21 / 10 / 2 ^ 24) := mul_le_mul hX5 ht1 (abs_nonneg _) (by norm_num)
        refine h6.trans ?_
        norm_num at hyb h7 ⊢
        linarith
      have hyt6 : |y / t| ≤ 501 / 100 := by
        have e : y / t = (y / t - X) + X := by ring
        rw [e]
        refine (abs_add_le _ _).trans ?_
        norm_num at hyt ⊢
        linarith
      obtain ⟨g, hg, hgn⟩ := round_near_abs hyt6 (by norm_num) (by norm_num)
      refine ⟨hX5, g, ?_, ?_⟩
      · have a1 : (f32 powf).mul (.num c) (.num p) = .num m1 := hm1
        have a2 : (f32 powf).mul (.num l) (.num q) = .num m2 := hm2
        have a3 : (f32 powf).add (.num m1) (.num m2) = .num y := hy
        have a4 : (f32 powf).add (.num p) (.num q) = .num t := ht
        rw [a1, a2, a3, a4]
        show (if t = 0 then _ else F.round (y / t)) = _
        rw [if_neg (by linarith), hg]
      · have e : g - X = (g - y / t) + (y / t - X) := by ring
        rw [e]
        refine (abs_add_le _ _).trans ?_
        norm_num at hgn hyt ⊢
        linarith

end Trane.Float
