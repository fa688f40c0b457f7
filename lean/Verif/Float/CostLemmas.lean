import Verif.Float.MeanProps
import Verif.Float.SharesLemmas
import Verif.Float.RewardProps

/-!
# How far selection weights in `f32` are from the exact ones: helper lemmas
-/

namespace Trane.Float

open Trane.Scorer

variable {powf : F → F → F}

/-- A library function that returns one of the two `f32` numbers next to the exact value `g x`, for the
arguments `x` in `D`. -/
def NextTo (f : F → F) (g : ℝ → ℝ) (D : ℝ → Prop) : Prop :=
  ∀ x : ℝ, D x → ∃ z, f (.num x) = .num z ∧ Rep z ∧ ∀ a, Rep a → (a ≤ g x → a ≤ z) ∧ (g x ≤ a → z ≤ a)

theorem nextTo_near {f : F → F} {g : ℝ → ℝ} {D : ℝ → Prop} (hf : NextTo f g D) {x c : ℝ} (hx : D x) (hc : |g x| ≤ c)
    (h1 : 1 / 2 ^ 40 ≤ c) : ∃ z, f (.num x) = .num z ∧ |z - g x| ≤ 4 * c / 2 ^ 24 := by
  obtain ⟨z, hz, -, H⟩ := hf x hx
  refine ⟨z, hz, ?_⟩
  generalize g x = p at *
  have hc' := abs_le.1 hc
  have hc0 : 0 < c := lt_of_lt_of_le (by norm_num) h1
  have key : ∀ q : ℝ, |q| ≤ 11 / 10 * c → |rnd q - q| ≤ 11 / 10 * c / 2 ^ 24 := by
    intro q hq
    refine (rnd_err q).trans (max_le ?_ ?_)
    · gcongr
    · have : (1 : ℝ) / 2 ^ 40 / 2 ^ 24 ≤ 11 / 10 * c / 2 ^ 24 := by
        gcongr
        linarith
      exact le_trans (by norm_num) this
  have hd : c / 2 ^ 24 ≤ c / 100 := by
    gcongr
    norm_num
  refine abs_le.2 ⟨?_, ?_⟩
  · have e := abs_le.1 (key (p - 2 * (c / 2 ^ 24)) (abs_le.2 ⟨by linarith, by linarith⟩))
    have := (H _ (rnd_rep (p - 2 * (c / 2 ^ 24)))).1 (by
      have := e.2
      rw [mul_div_assoc] at this
      have h0 : 0 < c / 2 ^ 24 := by positivity
      linarith)
    have e1 := e.1
    rw [mul_div_assoc] at e1 ⊢
    have h0 : 0 < c / 2 ^ 24 := by positivity
    linarith
  · have e := abs_le.1 (key (p + 2 * (c / 2 ^ 24)) (abs_le.2 ⟨by linarith, by linarith⟩))
    have := (H _ (rnd_rep (p + 2 * (c / 2 ^ 24)))).2 (by
      have := e.1
      rw [mul_div_assoc] at this
      have h0 : 0 < c / 2 ^ 24 := by positivity
      linarith)
    have e2 := e.2
    rw [mul_div_assoc] at e2 ⊢
    have h0 : 0 < c / 2 ^ 24 := by positivity
    linarith

theorem within_add {e e' x y : ℝ} {a b : F} (ha : Within (e / 2 ^ 24) a x) (hb : Within (e' / 2 ^ 24) b y)
    (h : |x + y| ≤ 82) (he : e + e' ≤ 2 ^ 24) : Within ((e + e' + 83) / 2 ^ 24) ((f32 powf).add a b) (x + y) := by
  obtain ⟨u, rfl, hu⟩ := ha
  obtain ⟨v, rfl, hv⟩ := hb
  have hu' := abs_le.1 hu
  have hv' := abs_le.1 hv
  have h' := abs_le.1 h
  have hee : e / 2 ^ 24 + e' / 2 ^ 24 ≤ 1 := by
    rw [← add_div, div_le_one (by positivity)]
    exact he
  obtain ⟨z, hz, hn⟩ := round_near_abs (y := u + v) (c := 83) (abs_le.2 ⟨by linarith, by linarith⟩) (by norm_num) (by norm_num)
  have hn' := abs_le.1 hn
  refine ⟨z, hz, ?_⟩
  rw [add_div, add_div]
  exact abs_le.2 ⟨by linarith, by linarith⟩

theorem within_sub {e e' x y : ℝ} {a b : F} (ha : Within (e / 2 ^ 24) a x) (hb : Within (e' / 2 ^ 24) b y)
    (h : |x - y| ≤ 82) (he : e + e' ≤ 2 ^ 24) : Within ((e + e' + 83) / 2 ^ 24) ((f32 powf).sub a b) (x - y) := by
  have hb' : Within (e' / 2 ^ 24) b.neg (-y) := by
    obtain ⟨v, rfl, hv⟩ := hb
    refine ⟨-v, rfl, ?_⟩
    rw [show -v - -y = -(v - y) by ring, abs_neg]
    exact hv
  rw [sub_eq_add_neg] at h ⊢
  exact within_add (powf := powf) ha hb' h he

/-- A literal times a logarithm. -/
theorem within_term {q : ℚ} (h1 : (1 : ℝ) / 100 ≤ q) (h2 : (q : ℝ) ≤ 2) {a : F} {L e : ℝ} (hL : |L| ≤ 17)
    (ha : Within (e / 2 ^ 24) a L) (he : e ≤ 2 ^ 20) (he0 : 0 ≤ e) :
    Within ((2 * e + 72) / 2 ^ 24) ((f32 powf).mul ((f32 powf).lit q) a) (q * L) := by
  obtain ⟨r, hr, -, hn⟩ := lit_near (powf := powf) h1 (h2.trans (by norm_num))
  obtain ⟨l, rfl, hl⟩ := ha
  rw [hr]
  have hε : e / 2 ^ 24 ≤ 1 / 16 := by
    rw [div_le_iff₀ (by positivity)]
    norm_num
    linarith
  have hε0 : 0 ≤ e / 2 ^ 24 := by positivity
  have hl17 : |l| ≤ 18 := by
    have := abs_le.1 hL
    have := abs_le.1 hl
    exact abs_le.2 ⟨by linarith, by linarith⟩
  have hr2 : |r| ≤ 2 + 1 / 100 := by
    have h3 := abs_le.1 hn
    have h4 : (q : ℝ) / 2 ^ 24 ≤ 2 / 2 ^ 24 := by gcongr
    norm_num at h4
    exact abs_le.2 ⟨by linarith, by linarith⟩
  have hrl : |r * l| ≤ 37 := by
    rw [abs_mul]
    calc |r| * |l| ≤ (2 + 1 / 100) * 18 := by gcongr
      _ ≤ 37 := by norm_num
  obtain ⟨z, hz, hzn⟩ := round_near_abs hrl (by norm_num) (by norm_num)
  refine ⟨z, hz, ?_⟩
  have hd : |r * l - q * L| ≤ (2 * e + 34 + 1) / 2 ^ 24 := by
    have : r * l - q * L = (r - q) * l + q * (l - L) := by ring
    rw [this]
    refine (abs_add_le _ _).trans ?_
    rw [abs_mul, abs_mul, abs_of_pos (by linarith : 0 < (q : ℝ))]
    have hl' : |l| ≤ 17 + e / 2 ^ 24 := by
      have := abs_le.1 hL
      have := abs_le.1 hl
      exact abs_le.2 ⟨by linarith, by linarith⟩
    have a1 : |r - q| * |l| ≤ 2 / 2 ^ 24 * (17 + 1 / 16) := by
      refine mul_le_mul (hn.trans (by gcongr)) (by linarith) (abs_nonneg _) (by norm_num)
    have a2 : (q : ℝ) * |l - L| ≤ 2 * (e / 2 ^ 24) := mul_le_mul h2 hl (abs_nonneg _) (by norm_num)
    calc _ ≤ 2 / 2 ^ 24 * (17 + 1 / 16) + 2 * (e / 2 ^ 24) := add_le_add a1 a2
      _ ≤ _ := by
        rw [add_div, add_div, mul_div_assoc]
        norm_num
        linarith
  have : z - q * L = (z - r * l) + (r * l - q * L) := by ring
  rw [this]
  refine (abs_add_le _ _).trans ((add_le_add hzn hd).trans ?_)
  rw [← add_div]
  exact div_le_div_of_nonneg_right (by linarith) (by positivity)

/-- Logarithms of numbers that are not too large. -/
theorem log_abs_17 {x : ℝ} (h1 : -(1 / 2) ≤ x) (h2 : x ≤ 65536) : |Real.log (1 + x)| ≤ 17 := by
  have hp : 0 < 1 + x := by linarith
  refine abs_le.2 ⟨?_, ?_⟩
  · have h3 := Real.one_sub_inv_le_log_of_pos hp
    have h4 : (1 + x)⁻¹ ≤ 2 := by
      rw [inv_le_comm₀ hp (by norm_num)]
      linarith
    linarith
  · have h3 : Real.log (1 + x) ≤ Real.log ((2 : ℝ) ^ (17 : ℕ)) := Real.log_le_log hp (by norm_num; linarith)
    rw [Real.log_pow] at h3
    have := Real.log_le_sub_one_of_pos (x := 2) (by norm_num)
    push_cast at h3
    linarith

/-- `ln_1p`, next to the exact logarithm. -/
theorem ln1p_within {ln1p : F → F} (hf : NextTo ln1p (fun x => Real.log (1 + x)) (fun x => -1 < x ∧ |Real.log (1 + x)| < 2 ^ 127)) {x : ℝ}
    (h1 : -(1 / 2) ≤ x) (h2 : x ≤ 65536) : Within (68 / 2 ^ 24) (ln1p (.num x)) (Real.log (1 + x)) := by
  obtain ⟨z, hz, hn⟩ := nextTo_near hf (x := x) ⟨by linarith, lt_of_le_of_lt (log_abs_17 h1 h2) (by norm_num)⟩
    (log_abs_17 h1 h2) (by norm_num)
  exact ⟨z, hz, hn.trans (by norm_num)⟩

/-- A coefficient times `ln_1p`. -/
theorem coef_within {ln1p : F → F} (hf : NextTo ln1p (fun x => Real.log (1 + x)) (fun x => -1 < x ∧ |Real.log (1 + x)| < 2 ^ 127)) {q : ℚ}
    (q1 : (1 : ℝ) / 100 ≤ q) (q2 : (q : ℝ) ≤ 2) {x : ℝ} (h1 : 0 ≤ x) (h2 : x ≤ 65536) :
    Within (208 / 2 ^ 24) ((f32 powf).mul ((f32 powf).lit q) (ln1p (.num x))) (q * Real.log (1 + x)) := by
  have := within_term (powf := powf) q1 q2 (log_abs_17 (by linarith) h2) (ln1p_within hf (by linarith) h2) (by norm_num) (by norm_num)
  norm_num at this ⊢
  exact this

theorem log_17 {x : ℝ} (h1 : 0 ≤ x) (h2 : x ≤ 65536) : 0 ≤ Real.log (1 + x) ∧ Real.log (1 + x) ≤ 17 :=
  ⟨Real.log_nonneg (by linarith), (abs_le.1 (log_abs_17 (by linarith) h2)).2⟩

theorem within_num {x : ℝ} : Within (0 / 2 ^ 24) (.num x) x := ⟨x, rfl, by simp⟩

/-- The logarithm of the cost before velocities. -/
theorem base_within {ln1p : F → F} (hf : NextTo ln1p (fun x => Real.log (1 + x)) (fun x => -1 < x ∧ |Real.log (1 + x)| < 2 ^ 127)) {d e g n : ℝ}
    (hd : 0 ≤ d ∧ d ≤ 65536) (he : 0 ≤ e ∧ e ≤ 65536) (hg : 0 ≤ g ∧ g ≤ 65536) (hn : 0 ≤ n ∧ n ≤ 65536) (b : Bool) :
    let A := f32 powf
    let x := A.sub (A.lit 0) (A.mul (A.lit (7 / 10)) (ln1p (.num d)))
    let x := A.sub x (A.mul (A.lit (9 / 10)) (ln1p (.num e)))
    let x := A.add x (A.mul (A.lit (6 / 10)) (ln1p (.num g)))
    let x := A.add x (A.mul (A.lit 2) (ln1p (.num n)))
    Within (1247 / 2 ^ 24) (if b then A.sub x (A.lit 1) else x)
      (0 - 7 / 10 * Real.log (1 + d) - 9 / 10 * Real.log (1 + e) + 6 / 10 * Real.log (1 + g) + 2 * Real.log (1 + n)
        - (if b then 1 else 0)) := by
  have l0 : (f32 powf).lit 0 = .num 0 := lit0
  have l1 : (f32 powf).lit 1 = .num 1 := lit1
  obtain ⟨d0, d1⟩ := log_17 hd.1 hd.2
  obtain ⟨e0, e1⟩ := log_17 he.1 he.2
  obtain ⟨g0, g1⟩ := log_17 hg.1 hg.2
  obtain ⟨n0, n1⟩ := log_17 hn.1 hn.2
  have t1 := coef_within (powf := powf) hf (q := 7 / 10) (by norm_num) (by norm_num) hd.1 hd.2
  have t2 := coef_within (powf := powf) hf (q := 9 / 10) (by norm_num) (by norm_num) he.1 he.2
  have t3 := coef_within (powf := powf) hf (q := 6 / 10) (by norm_num) (by norm_num) hg.1 hg.2
  have t4 := coef_within (powf := powf) hf (q := 2) (by norm_num) (by norm_num) hn.1 hn.2
  push_cast at t1 t2 t3 t4
  intro A
  generalize Real.log (1 + d) = D at *
  generalize Real.log (1 + e) = E at *
  generalize Real.log (1 + g) = G at *
  generalize Real.log (1 + n) = N at *
  have s1 := within_sub (powf := powf) (within_num (x := 0)) t1 (abs_le.2 ⟨by linarith, by linarith⟩) (by norm_num)
  have s2 := within_sub (powf := powf) s1 t2 (abs_le.2 ⟨by linarith, by linarith⟩) (by norm_num)
  have s3 := within_add (powf := powf) s2 t3 (abs_le.2 ⟨by linarith, by linarith⟩) (by norm_num)
  have s4 := within_add (powf := powf) s3 t4 (abs_le.2 ⟨by linarith, by linarith⟩) (by norm_num)
  rw [← l0] at s4
  cases b with
  | false =>
    obtain ⟨z, hz, h⟩ := s4
    refine ⟨z, hz, ?_⟩
    simp only [Bool.false_eq_true, if_false, sub_zero]
    exact h.trans (by norm_num)
  | true =>
    have s5 := within_sub (powf := powf) s4 (within_num (x := 1)) (abs_le.2 ⟨by linarith, by linarith⟩) (by norm_num)
    rw [← l1] at s5
    obtain ⟨z, hz, h⟩ := s5
    refine ⟨z, hz, ?_⟩
    simp only [if_true]
    exact h.trans (by norm_num)

/-- Whether a velocity is close to zero is decided exactly. -/
theorem stagnant_exact {v : ℝ} (hv : Rep v) :
    (f32 powf).lt ((f32 powf).abs (.num v)) ((f32 powf).lit (2 / 10)) = decide (|v| < 1 / 5) := by
  obtain ⟨z, hz, -, hn⟩ := lit_near (powf := powf) (q := 2 / 10) (by norm_num) (by norm_num)
  have hz' : z = rnd (1 / 5) := by
    have h : (f32 powf).lit (2 / 10) = .num (rnd ((2 / 10 : ℚ) : ℝ)) :=
      round_num (h := 1) (by norm_num) rep_one (by norm_num)
    rw [h] at hz
    injection hz with hz
    rw [← hz]
    norm_num
  rw [hz]
  have ha : Rep |v| := by
    rcases abs_choice v with h | h <;> rw [h]
    · exact hv
    · exact hv.neg
  show decide (|v| < z) = _
  rw [decide_eq_decide]
  constructor
  · intro h
    by_contra hc
    have := rnd_le ha (not_lt.1 hc)
    rw [← hz'] at this
    linarith
  · intro h
    have h1 : |v| ≤ z := by
      have := rnd_mono h.le
      rwa [rnd_fix ha, ← hz'] at this
    rcases h1.lt_or_eq with h2 | h2
    · exact h2
    · have h3 : rnd (1 / 5) = (13421773 : ℤ) / 2 ^ 26 :=
        rnd_val 13421773 26 (by norm_num) (by norm_num) (by norm_num) (Or.inl (by rw [abs_lt]; norm_num))
      rw [h2, hz', h3] at h
      norm_num at h

/-- What velocities add to the logarithm of the cost. -/
theorem velocity_within {ln1p : F → F} (hf : NextTo ln1p (fun x => Real.log (1 + x)) (fun x => -1 < x ∧ |Real.log (1 + x)| < 2 ^ 127)) {v s B : ℝ} {x : F}
    (hB : -29 ≤ B ∧ B ≤ 45) (hx : Within (1247 / 2 ^ 24) x B) (hv : Rep v) (h1 : -(1 / 2) ≤ v) (h2 : v ≤ 65536) :
    let A := f32 powf
    let y := A.add x (A.mul (A.lit (5 / 10)) (A.sub (A.lit 0) (ln1p (.num v))))
    let r := if A.lt (A.abs (.num v)) (A.lit (2 / 10)) then
        if A.le (A.lit 4) (.num s) then A.add y (A.lit 1) else A.sub y (A.lit (7 / 10))
      else y
    Within (1800 / 2 ^ 24) r
      (B + (1 / 2 * -Real.log (1 + v) + (if |v| < 1 / 5 then (if 4 ≤ s then 1 else -(7 / 10)) else 0))) ∧
      (-45 ≤ B + (1 / 2 * -Real.log (1 + v) + (if |v| < 1 / 5 then (if 4 ≤ s then 1 else -(7 / 10)) else 0)) ∧
        B + (1 / 2 * -Real.log (1 + v) + (if |v| < 1 / 5 then (if 4 ≤ s then 1 else -(7 / 10)) else 0)) ≤ 47) := by
  have l0 : (f32 powf).lit 0 = .num 0 := lit0
  have l1 : (f32 powf).lit 1 = .num 1 := lit1
  have l4 : (f32 powf).lit 4 = .num 4 := litn 4 (by norm_num)
  have hL := log_abs_17 h1 h2
  have hLow : -1 ≤ Real.log (1 + v) := by
    have hp : 0 < 1 + v := by linarith
    have h3 := Real.one_sub_inv_le_log_of_pos hp
    have h4 : (1 + v)⁻¹ ≤ 2 := by
      rw [inv_le_comm₀ hp (by norm_num)]
      linarith
    linarith
  have t0 := ln1p_within hf h1 h2
  intro A
  rw [show A.lt (A.abs (.num v)) (A.lit (2 / 10)) = _ from stagnant_exact (powf := powf) hv]
  generalize Real.log (1 + v) = L at *
  have hL' := abs_le.1 hL
  have t1 := within_sub (powf := powf) (within_num (x := 0)) t0 (abs_le.2 ⟨by linarith, by linarith⟩) (by norm_num)
  rw [← l0, lit0, zero_sub] at t1
  have t2 := within_term (powf := powf) (q := 5 / 10) (by norm_num) (by norm_num) (by rwa [abs_neg]) t1 (by norm_num) (by norm_num)
  have t3 := within_add (powf := powf) hx t2 (by
    norm_num
    exact abs_le.2 ⟨by linarith, by linarith⟩) (by norm_num)
  rw [show (((5 / 10 : ℚ) : ℝ)) = 1 / 2 by norm_num] at t3
  rw [← l0] at t3
  intro y
  have t3' : Within (1704 / 2 ^ 24) y (B + 1 / 2 * -L) := by
    obtain ⟨z, hz, h⟩ := t3
    exact ⟨z, hz, h.trans (by norm_num)⟩
  rw [show A.le (A.lit 4) (.num s) = decide (4 ≤ s) by rw [show A.lit 4 = .num 4 from l4]; rfl]
  dsimp only
  by_cases hs : |v| < 1 / 5
  · rw [if_pos (decide_eq_true hs), if_pos hs]
    by_cases h4 : 4 ≤ s
    · rw [if_pos (decide_eq_true h4), if_pos h4]
      have t4 := within_add (powf := powf) t3' (within_num (x := 1)) (abs_le.2 ⟨by linarith, by linarith⟩) (by norm_num)
      rw [← l1] at t4
      obtain ⟨z, hz, h⟩ := t4
      refine ⟨⟨z, hz, ?_⟩, by linarith, by linarith⟩
      rw [← add_assoc]
      exact h.trans (by norm_num)
    · rw [if_neg (by simpa using h4), if_neg h4]
      obtain ⟨q, hq, -, hn⟩ := lit_near (powf := powf) (q := 7 / 10) (by norm_num) (by norm_num)
      have t4 := within_sub (powf := powf) (b := (f32 powf).lit (7 / 10)) (e' := 1) (y := 7 / 10) t3' ⟨q, hq, by
        refine le_trans (le_of_eq ?_) (hn.trans ?_)
        · norm_num
        · norm_num⟩ (abs_le.2 ⟨by linarith, by linarith⟩) (by norm_num)
      obtain ⟨z, hz, h⟩ := t4
      refine ⟨⟨z, hz, ?_⟩, by linarith, by linarith⟩
      rw [← add_assoc, ← sub_eq_add_neg]
      exact h.trans (by norm_num)
  · rw [if_neg (by simpa using hs), if_neg hs]
    obtain ⟨z, hz, h⟩ := t3'
    refine ⟨⟨z, hz, ?_⟩, by linarith, by linarith⟩
    rw [add_zero]
    exact h.trans (by norm_num)

/-- Exponentials of close numbers. -/
theorem exp_close {x y ε : ℝ} (h : |x - y| ≤ ε) (he : ε ≤ 1 / 1000) :
    |Real.exp x - Real.exp y| ≤ 1001 / 1000 * ε * Real.exp y := by
  have he0 : 0 ≤ ε := (abs_nonneg _).trans h
  have e : Real.exp x = Real.exp y * Real.exp (x - y) := by rw [← Real.exp_add]; ring_nf
  have h2 := Real.abs_exp_sub_one_sub_id_le (x := x - y) (h.trans (by linarith))
  have h3 : |Real.exp (x - y) - 1| ≤ 1001 / 1000 * ε := by
    have : Real.exp (x - y) - 1 = (Real.exp (x - y) - 1 - (x - y)) + (x - y) := by ring
    rw [this]
    refine (abs_add_le _ _).trans ((add_le_add h2 h).trans ?_)
    have : (x - y) ^ 2 ≤ ε ^ 2 := by rw [← sq_abs]; gcongr
    nlinarith
  have : Real.exp x - Real.exp y = (Real.exp (x - y) - 1) * Real.exp y := by rw [e]; ring
  rw [this, abs_mul, abs_of_pos (Real.exp_pos y)]
  gcongr

/-- The clamped exponential. -/
theorem cost_within {exp : F → F} (hf : NextTo exp Real.exp (fun x => Real.exp x < 2 ^ 127)) {X : ℝ} {x : F}
    (hx : Within (1800 / 2 ^ 24) x X) (hX : X ≤ 47) :
    ∃ z, (f32 powf).clamp (exp x) ((f32 powf).lit (5 / 100)) ((f32 powf).lit 100) = .num z ∧
      |z - CandidateFilter.clampCost (Real.exp X)| ≤ 1900 / 2 ^ 24 * CandidateFilter.clampCost (Real.exp X) := by
  obtain ⟨y, rfl, hy⟩ := hx
  obtain ⟨q, hq, -, hqn⟩ := lit_near (powf := powf) (q := 5 / 100) (by norm_num) (by norm_num)
  have hy' := abs_le.1 hy
  have h48 : y ≤ 48 := by
    have : (1800 : ℝ) / 2 ^ 24 ≤ 1 := by norm_num
    linarith
  have hbig : Real.exp y ≤ 2 ^ 96 := by
    refine (Real.exp_le_exp.2 h48).trans ((Real.le_log_iff_exp_le (by positivity)).1 ?_)
    rw [Real.log_pow]
    have := Real.one_sub_inv_le_log_of_pos (x := 2) (by norm_num)
    push_cast
    linarith
  have hE := exp_close hy (by norm_num)
  obtain ⟨z, hz, hzn⟩ := nextTo_near hf (x := y) (c := Real.exp y + 1 / 2 ^ 40) (lt_of_le_of_lt hbig (by norm_num))
    (by rw [abs_of_pos (Real.exp_pos y)]; linarith [show (0 : ℝ) < 1 / 2 ^ 40 by positivity])
    (by linarith [Real.exp_pos y])
  rw [hz, hq, show (f32 powf).lit 100 = .num 100 from litn 100 (by norm_num), clamp_num_val]
  refine ⟨_, rfl, ?_⟩
  have hEp := Real.exp_pos X
  have hzE : |z - Real.exp X| ≤ 1810 / 2 ^ 24 * Real.exp X + 1 / 2 ^ 60 := by
    generalize Real.exp y = e at *
    generalize Real.exp X = E at *
    have a1 := abs_le.1 hE
    have a2 := abs_le.1 hzn
    norm_num at a1 a2 ⊢
    exact abs_le.2 ⟨by linarith, by linarith⟩
  generalize Real.exp X = E at *
  have a1 := abs_le.1 hzE
  have a2 := abs_le.1 hqn
  unfold Scorer.clamp CandidateFilter.clampCost CandidateFilter.minCost CandidateFilter.maxCost
  norm_num at a1 a2
  by_cases e1 : E < 1 / 20
  · rw [if_pos e1]
    by_cases z1 : z < q
    · rw [if_pos z1]
      norm_num
      exact abs_le.2 ⟨by linarith, by linarith⟩
    · rw [if_neg z1, if_neg (by linarith)]
      norm_num
      exact abs_le.2 ⟨by linarith, by linarith⟩
  · rw [if_neg e1]
    by_cases e2 : 100 < E
    · rw [if_pos e2, if_neg (by linarith)]
      by_cases z2 : z > 100
      · rw [if_pos z2]
        norm_num
      · rw [if_neg z2]
        norm_num
        exact abs_le.2 ⟨by linarith, by linarith⟩
    · rw [if_neg e2]
      by_cases z1 : z < q
      · rw [if_pos z1]
        norm_num
        exact abs_le.2 ⟨by linarith, by linarith⟩
      · rw [if_neg z1]
        by_cases z2 : z > 100
        · rw [if_pos z2]
          norm_num
          exact abs_le.2 ⟨by linarith, by linarith⟩
        · rw [if_neg z2]
          norm_num
          exact abs_le.2 ⟨by linarith, by linarith⟩

theorem max_num (x y : ℝ) : (f32 powf).max (.num x) (.num y) = .num (max x y) := by
  show (if decide (x < y) then F.num y else F.num x) = _
  by_cases h : x < y
  · rw [if_pos (by simpa using h), max_eq_right h.le]
  · rw [if_neg (by simpa using h), max_eq_left (not_lt.1 h)]

/-- The square root of a close number, rounded. -/
theorem sqrt_within {sqrt : F → F} (hq : SqrtRounds sqrt) {k K : ℝ} (hK : 1 / 20 ≤ K ∧ K ≤ 100)
    (hk : |k - K| ≤ 1900 / 2 ^ 24 * K) :
    ∃ r, sqrt (.num k) = .num r ∧ |r - Real.sqrt K| ≤ 975 / 2 ^ 24 * Real.sqrt K := by
  have hk' := abs_le.1 hk
  have hk0 : 0 < k := by
    norm_num at hk'
    linarith [hK.1]
  have hs0 : 0 < Real.sqrt K := Real.sqrt_pos.2 (by linarith [hK.1])
  have hss : Real.sqrt K * Real.sqrt K = K := Real.mul_self_sqrt (by linarith [hK.1])
  have hs1 : 1 / 10 ≤ Real.sqrt K := Real.le_sqrt_of_sq_le (by norm_num; linarith [hK.1])
  have hs2 : Real.sqrt K ≤ 10 := Real.sqrt_le_iff.2 ⟨by norm_num, by norm_num; linarith [hK.2]⟩
  have up : Real.sqrt k ≤ Real.sqrt K * (1 + 950 / 2 ^ 24) := by
    refine Real.sqrt_le_iff.2 ⟨by positivity, ?_⟩
    rw [mul_pow, sq, hss]
    norm_num at hk' ⊢
    linarith [hK.1]
  have dn : Real.sqrt K * (1 - 970 / 2 ^ 24) ≤ Real.sqrt k := by
    refine Real.le_sqrt_of_sq_le ?_
    rw [mul_pow, sq, hss]
    norm_num at hk' ⊢
    linarith [hK.1]
  rw [hq.1 k hk0.le]
  generalize Real.sqrt k = t at *
  generalize Real.sqrt K = s at *
  have ht : 0 < t := lt_of_lt_of_le (mul_pos hs0 (by norm_num)) dn
  norm_num at up dn
  obtain ⟨r, hr, hn⟩ := round_near_abs (y := t) (c := t) (by rw [abs_of_pos ht]) (by norm_num; linarith) (by norm_num; linarith)
  refine ⟨r, hr, ?_⟩
  have hn' := abs_le.1 hn
  norm_num at hn' ⊢
  exact abs_le.2 ⟨by linarith, by linarith⟩

/-- The weight, given the cost. -/
theorem weight_within {sqrt : F → F} (hq : SqrtRounds sqrt) {u k K : ℝ} (hu : 0 ≤ u ∧ u ≤ 1) (hK : 1 / 20 ≤ K ∧ K ≤ 100)
    (hk : |k - K| ≤ 1900 / 2 ^ 24 * K) :
    ∃ z, (f32 powf).max ((f32 powf).div (.num u) (sqrt (.num k))) ((f32 powf).lit (5 / 100)) = .num z ∧
      |z - max (u / Real.sqrt K) (1 / 20)| ≤ 1 / 15000 * max (u / Real.sqrt K) (1 / 20) := by
  obtain ⟨r, hr, hn⟩ := sqrt_within hq hK hk
  obtain ⟨q, hql, -, hqn⟩ := lit_near (powf := powf) (q := 5 / 100) (by norm_num) (by norm_num)
  have hs1 : 1 / 10 ≤ Real.sqrt K := Real.le_sqrt_of_sq_le (by norm_num; linarith [hK.1])
  rw [hr, hql]
  generalize Real.sqrt K = s at *
  have hn' := abs_le.1 hn
  norm_num at hn'
  have hr0 : 0 < r := by linarith
  have hs0 : 0 < s := by linarith
  have hU0 : 0 ≤ u / s := div_nonneg hu.1 hs0.le
  have hU10 : u / s ≤ 10 := by
    rw [div_le_iff₀ hs0]
    linarith [hu.2]
  have c1 : u / r ≤ u / s * (1 + 980 / 2 ^ 24) := by
    rw [div_le_iff₀ hr0]
    have : u / s * s = u := div_mul_cancel₀ _ hs0.ne'
    have h2 : s ≤ (1 + 980 / 2 ^ 24) * r := by
      norm_num
      linarith
    calc u = u / s * s := this.symm
      _ ≤ u / s * ((1 + 980 / 2 ^ 24) * r) := by gcongr
      _ = _ := by ring
  have c2 : u / s * (1 - 980 / 2 ^ 24) ≤ u / r := by
    rw [le_div_iff₀ hr0]
    have : u / s * s = u := div_mul_cancel₀ _ hs0.ne'
    have h2 : (1 - 980 / 2 ^ 24) * r ≤ s := by
      norm_num
      linarith
    calc u / s * (1 - 980 / 2 ^ 24) * r = u / s * ((1 - 980 / 2 ^ 24) * r) := by ring
      _ ≤ u / s * s := by gcongr
      _ = u := this
  have hw0 : 0 ≤ u / r := div_nonneg hu.1 hr0.le
  rw [show (f32 powf).div (.num u) (.num r) = F.round (u / r) from if_neg hr0.ne']
  generalize u / r = w at *
  generalize u / s = U at *
  norm_num at c1 c2
  obtain ⟨z, hz, hzn⟩ := round_near_abs (y := w) (c := w + 1 / 40) (by rw [abs_of_nonneg hw0]; linarith)
    (by norm_num; linarith) (by norm_num; linarith)
  rw [hz, max_num]
  refine ⟨_, rfl, ?_⟩
  have m1 : U ≤ max U (1 / 20) := le_max_left _ _
  have m2 : 1 / 20 ≤ max U (1 / 20) := le_max_right _ _
  refine (abs_max_sub_max_le_max _ _ _ _).trans (max_le ?_ ?_)
  · have hzn' := abs_le.1 hzn
    norm_num at hzn'
    generalize max U (1 / 20) = M at *
    exact abs_le.2 ⟨by linarith, by linarith⟩
  · have hqn' := abs_le.1 hqn
    norm_num at hqn'
    generalize max U (1 / 20) = M at *
    exact abs_le.2 ⟨by linarith, by linarith⟩

end Trane.Float
