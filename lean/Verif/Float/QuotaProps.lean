import Verif.Float.SharesProps
import Verif.Float.CostLemmas

/-!
# Any shares given in percent, in `f32`

C128.  C100 has the sizes of the windows for the default shares.  Here the shares are any whole percentages.
-/

namespace Trane.Float
open Trane.CandidateFilter Trane.Knocker

variable {powf : F → F → F} {ι : Type} [DecidableEq ι]

/-! ### Specification -/

/-- A share given as a whole percentage. -/
def WholePercent (w : MasteryWindow) : Prop := ∃ k : ℕ, k ≤ 100 ∧ w.percentage = k / 100

/-- All shares of the options are whole percentages. -/
def WholePercents (o : SchedulerOptions) : Prop :=
  WholePercent o.masteredWindow ∧ WholePercent o.easyWindow ∧ WholePercent o.currentWindow ∧
    WholePercent o.targetWindow ∧ WholePercent o.newWindow

/-- The number of exercises for the window is the exact one, or one fewer where the exact share is a whole number of
exercises; it is never less than one. -/
def RightOrOneFewer (n : ℕ) (w : MasteryWindow) (count : ℕ) : Prop :=
  count = quota n w ∨ (∃ m : ℕ, (n : ℚ) * w.percentage = m) ∧ count = max (quota n w - 1) 1

/-- The shares of the options as the machine holds them, each the `f32` nearest to the percentage,
/repo/src/data.rs:884-887 and 913-935. -/
def gConfigured {α : Type} (A : Arith α) (o : SchedulerOptions) : Shares α :=
  ⟨A.lit o.masteredWindow.percentage, A.lit o.easyWindow.percentage, A.lit o.currentWindow.percentage,
    A.lit o.targetWindow.percentage, A.lit o.newWindow.percentage⟩

/-! ### Proofs -/

theorem lit_unit {q : ℚ} (h : |(q : ℝ)| ≤ 1) : Within (1 / 2 ^ 24) ((f32 powf).lit q) q := by
  obtain ⟨z, hz, he⟩ := round_near_abs (y := (q : ℝ)) (c := 1) h (by norm_num) (by norm_num)
  exact ⟨z, hz, he⟩

theorem add_units {e e' x y : ℝ} {a b : F} (ha : Within (e / 2 ^ 24) a x) (hb : Within (e' / 2 ^ 24) b y)
    (h : |x + y| ≤ 2) (he : e + e' ≤ 100) : Within ((e + e' + 3) / 2 ^ 24) ((f32 powf).add a b) (x + y) := by
  obtain ⟨u, rfl, hu⟩ := ha
  obtain ⟨v, rfl, hv⟩ := hb
  rw [abs_le] at hu hv h
  obtain ⟨z, hz, hn⟩ := round_near_abs (y := u + v) (c := 3) (by rw [abs_le]; constructor <;> linarith) (by norm_num)
    (by norm_num)
  refine ⟨z, hz, ?_⟩
  rw [abs_le] at hn ⊢
  constructor <;> linarith

theorem sub_units {e e' x y : ℝ} {a b : F} (ha : Within (e / 2 ^ 24) a x) (hb : Within (e' / 2 ^ 24) b y)
    (h : |x - y| ≤ 2) (he : e + e' ≤ 100) : Within ((e + e' + 3) / 2 ^ 24) ((f32 powf).sub a b) (x - y) := by
  have hb' : Within (e' / 2 ^ 24) b.neg (-y) := by
    obtain ⟨v, rfl, hv⟩ := hb
    refine ⟨-v, rfl, ?_⟩
    rw [show -v - -y = -(v - y) by ring, abs_neg]
    exact hv
  rw [sub_eq_add_neg] at h ⊢
  exact add_units (powf := powf) ha hb' h he

theorem clamp_units {x : F} {X : ℚ} (h : Within (5 / 2 ^ 24) x X) :
    Within (5 / 2 ^ 24) ((f32 powf).clamp x ((f32 powf).lit (1 / 20)) ((f32 powf).lit (1 / 2)))
      ((clampQ X (1 / 20) (1 / 2) : ℚ) : ℝ) := by
  obtain ⟨z, rfl, hz⟩ := h
  refine ⟨clampR z, clamp_num z, ?_⟩
  rw [abs_le] at hz
  have e : ((clampQ X (1 / 20) (1 / 2) : ℚ) : ℝ) = if (X : ℝ) < 1 / 20 then 1 / 20 else if 1 / 2 < (X : ℝ) then 1 / 2 else X := by
    unfold clampQ
    have c1 : X < 1 / 20 ↔ (X : ℝ) < 1 / 20 := by
      rw [show (1 / 20 : ℝ) = ((1 / 20 : ℚ) : ℝ) by norm_num, Rat.cast_lt]
    have c2 : 1 / 2 < X ↔ 1 / 2 < (X : ℝ) := by
      rw [show (1 / 2 : ℝ) = ((1 / 2 : ℚ) : ℝ) by norm_num, Rat.cast_lt]
    simp only [c1, c2]
  rw [e]
  unfold clampR
  rw [abs_le]
  split_ifs <;> constructor <;> linarith

theorem max_units {x : F} {X : ℝ} (h : Within (32 / 2 ^ 24) x X) :
    Within (32 / 2 ^ 24) ((f32 powf).max x ((f32 powf).lit (1 / 20))) (max X (1 / 20)) := by
  obtain ⟨z, rfl, hz⟩ := h
  rw [f5, max_num]
  refine ⟨_, rfl, ?_⟩
  rw [abs_le] at hz ⊢
  rcases max_cases z (13421773 / 2 ^ 28 : ℝ) with ⟨a, b⟩ | ⟨a, b⟩ <;> rcases max_cases X (1 / 20 : ℝ) with ⟨c, d⟩ | ⟨c, d⟩ <;>
    rw [a, c] <;> constructor <;> linarith

theorem clamp_percent (i : ℤ) : ∃ K : ℕ, K ≤ 50 ∧ clampQ ((i : ℚ) / 100) (1 / 20) (1 / 2) = K / 100 := by
  unfold clampQ
  split_ifs with h1 h2
  · exact ⟨5, by norm_num, by norm_num⟩
  · exact ⟨50, by norm_num, by norm_num⟩
  · have a : (5 : ℚ) ≤ i := by linarith
    have b : (i : ℚ) ≤ 50 := by linarith
    have a' : (5 : ℤ) ≤ i := by exact_mod_cast a
    have b' : i ≤ (50 : ℤ) := by exact_mod_cast b
    refine ⟨i.toNat, by omega, ?_⟩
    have : ((i.toNat : ℤ) : ℚ) = i := by rw [Int.toNat_of_nonneg (by omega)]
    rw [← this]
    push_cast
    rfl

theorem toUsize_max {y : ℝ} {N : ℕ} (h : (N : ℝ) ≤ y ∨ N = 0) (hu : y < N + 1) (hN : N ≤ 2 ^ 20) :
    F.toUsize (.num (max y 1)) = max N 1 := by
  have hf : ⌊max y 1⌋₊ = max N 1 := by
    rw [Nat.floor_eq_iff (by positivity)]
    push_cast
    constructor
    · rcases h with h | h
      · exact max_le_max_right _ h
      · rw [h]; simp
    · have : (N : ℝ) ≤ max (N : ℝ) 1 := le_max_left _ _
      have : (1 : ℝ) ≤ max (N : ℝ) 1 := le_max_right _ _
      exact max_lt (by linarith) (by linarith)
  show Nat.min ⌊max y 1⌋₊ (2 ^ 64 - 1) = _
  rw [hf]
  show min (max N 1) (2 ^ 64 - 1) = _
  omega

theorem quota_percent {n K : ℕ} {w : MasteryWindow} (h : w.percentage = K / 100) : quota n w = max (n * K / 100) 1 := by
  unfold quota
  have e : (n : ℚ) * w.percentage = ((n * K : ℕ) : ℚ) / ((100 : ℕ) : ℚ) := by rw [h]; push_cast; ring
  rw [e]
  rcases le_total (((n * K : ℕ) : ℚ) / ((100 : ℕ) : ℚ)) 1 with hc | hc
  · rw [max_eq_right hc, Nat.floor_one]
    have : n * K / 100 ≤ 1 := by
      rw [← Nat.floor_div_eq_div (K := ℚ)]
      exact_mod_cast (Nat.floor_le (by positivity)).trans hc
    omega
  · rw [max_eq_left hc, Nat.floor_div_eq_div]
    have : 1 ≤ n * K / 100 := by
      rw [← Nat.floor_div_eq_div (K := ℚ)]
      exact Nat.le_floor (by exact_mod_cast hc)
    omega

theorem count_near {n K : ℕ} {x : F} {w : MasteryWindow} (hn : n ≤ 4096) (hK : K ≤ 100) (hw : w.percentage = K / 100)
    (hx : Within (32 / 2 ^ 24) x ((w.percentage : ℚ) : ℝ)) : RightOrOneFewer n w (gQuota (f32 powf) F.toUsize n x) := by
  obtain ⟨v, rfl, hv⟩ := hx
  rw [hw] at hv
  push_cast at hv
  have hnr : (n : ℝ) ≤ 4096 := by exact_mod_cast hn
  have hn0 : (0 : ℝ) ≤ n := Nat.cast_nonneg n
  have hKr : (K : ℝ) ≤ 100 := by exact_mod_cast hK
  have hK0 : (0 : ℝ) ≤ K := Nat.cast_nonneg K
  have hd : |n * v - n * K / 100| ≤ 4096 * (32 / 2 ^ 24) := by
    rw [show n * v - n * K / 100 = n * (v - K / 100) by ring, abs_mul, abs_of_nonneg hn0]
    exact mul_le_mul hnr hv (abs_nonneg _) (by norm_num)
  have hp : (n : ℝ) * K ≤ 4096 * 100 := mul_le_mul hnr hKr hK0 (by norm_num)
  have hp0 : (0 : ℝ) ≤ n * K := mul_nonneg hn0 hK0
  rw [abs_le] at hd
  obtain ⟨y, hy, he⟩ := round_near_abs (y := n * v) (c := 8192) (by rw [abs_le]; constructor <;> linarith) (by norm_num)
    (by norm_num)
  rw [abs_le] at he
  have hq : gQuota (f32 powf) F.toUsize n (.num v) = F.toUsize (.num (max y 1)) := by
    unfold gQuota
    rw [ofNat_val (hn.trans (by norm_num)), f1, show (f32 powf).mul (.num n) (.num v) = .num y from hy, max_num]
  rw [hq]
  unfold RightOrOneFewer
  rw [quota_percent hw]
  obtain ⟨N, r, hr, hNr⟩ : ∃ N r : ℕ, r < 100 ∧ n * K = 100 * N + r :=
    ⟨n * K / 100, n * K % 100, Nat.mod_lt _ (by norm_num), (Nat.div_add_mod _ _).symm⟩
  have hdiv : n * K / 100 = N := by omega
  have hNK : n * K ≤ 4096 * 100 := Nat.mul_le_mul hn hK
  have hcast : (n : ℝ) * K = 100 * N + r := by exact_mod_cast hNr
  rw [hdiv]
  have hrr : (r : ℝ) ≤ 99 := by exact_mod_cast (by omega : r ≤ 99)
  by_cases h0 : r = 0
  · subst h0
    have hz : (n : ℝ) * K = 100 * N := by simpa using hcast
    rcases le_or_gt (N : ℝ) y with h | h
    · left
      exact toUsize_max (Or.inl h) (by linarith) (by omega)
    · right
      refine ⟨⟨N, ?_⟩, ?_⟩
      · rw [hw]
        have : ((n * K : ℕ) : ℚ) = 100 * N := by rw [hNr]; push_cast; ring
        push_cast at this
        rw [mul_div_assoc', this]
        ring
      · rcases Nat.eq_zero_or_pos N with e | e
        · subst e
          have := toUsize_max (y := y) (N := 0) (Or.inr rfl) (by push_cast at h ⊢; linarith) (by norm_num)
          rw [this]
          omega
        · obtain ⟨M, rfl⟩ : ∃ M, N = M + 1 := ⟨N - 1, by omega⟩
          push_cast at h hz
          have := toUsize_max (y := y) (N := M) (Or.inl (by linarith)) (by linarith) (by omega)
          rw [this]
          omega
  · left
    have hr1 : (1 : ℝ) ≤ r := by exact_mod_cast Nat.pos_of_ne_zero h0
    exact toUsize_max (Or.inl (by linarith)) (by linarith) (by omega)

/-- The machine's share of a window against the exact one. -/
def ShareNear (x : F) (w : MasteryWindow) : Prop :=
  Within (32 / 2 ^ 24) x ((w.percentage : ℚ) : ℝ) ∧ WholePercent w

theorem within_weaken {e e' X : ℝ} {x : F} (h : Within e x X) (he : e ≤ e') : Within e' x X := by
  obtain ⟨z, hz, hn⟩ := h
  exact ⟨z, hz, hn.trans he⟩

theorem lit_share {w : MasteryWindow} (h : WholePercent w) : Within (1 / 2 ^ 24) ((f32 powf).lit w.percentage) ((w.percentage : ℚ) : ℝ) := by
  obtain ⟨k, hk, e⟩ := h
  refine lit_unit ?_
  have hkr : (k : ℝ) ≤ 100 := by exact_mod_cast hk
  have hk0 : (0 : ℝ) ≤ k := Nat.cast_nonneg k
  rw [e, abs_le]
  push_cast
  constructor <;> linarith

theorem percent_range {w : MasteryWindow} (h : WholePercent w) : (0 : ℝ) ≤ ((w.percentage : ℚ) : ℝ) ∧ ((w.percentage : ℚ) : ℝ) ≤ 1 := by
  obtain ⟨k, hk, e⟩ := h
  have hkr : (k : ℝ) ≤ 100 := by exact_mod_cast hk
  have hk0 : (0 : ℝ) ≤ k := Nat.cast_nonneg k
  rw [e]
  push_cast
  constructor <;> linarith

theorem clampQ_range (x : ℚ) : (0 : ℝ) ≤ ((clampQ x (1 / 20) (1 / 2) : ℚ) : ℝ) ∧ ((clampQ x (1 / 20) (1 / 2) : ℚ) : ℝ) ≤ 1 / 2 := by
  have h : 0 ≤ clampQ x (1 / 20) (1 / 2) ∧ clampQ x (1 / 20) (1 / 2) ≤ 1 / 2 := by
    unfold clampQ
    split_ifs <;> constructor <;> linarith
  constructor
  · exact_mod_cast h.1
  · have := (Rat.cast_le (K := ℝ)).2 h.2
    norm_num at this
    exact this

theorem shares_near {o : SchedulerOptions} (ho : WholePercents o) {passed failed : ℕ} (h : passed + failed ≤ 2 ^ 20) :
    let p := gAdjusted (f32 powf) (gConfigured (f32 powf) o) (gSuccessRate (f32 powf) passed failed)
    let a := adjusted o (rateOf passed failed)
    ShareNear p.mastered a.masteredWindow ∧ ShareNear p.easy a.easyWindow ∧ ShareNear p.current a.currentWindow ∧
      ShareNear p.target a.targetWindow ∧ ShareNear p.new a.newWindow := by
  obtain ⟨hm, he, hc, ht, hw⟩ := ho
  intro p a
  have hs : ∀ shift, shiftOf (rateOf passed failed) = some shift → ∃ j : ℤ, -10 ≤ j ∧ j ≤ 5 ∧ shift = j / 100 := by
    intro shift hs
    unfold shiftOf at hs
    split_ifs at hs <;> cases hs
    · exact ⟨5, by norm_num, by norm_num, by norm_num⟩
    · exact ⟨-5, by norm_num, by norm_num, by norm_num⟩
    · exact ⟨-10, by norm_num, by norm_num, by norm_num⟩
  have hg := machine_shift (powf := powf) h
  cases hsh : shiftOf (rateOf passed failed) with
  | none =>
    rw [hsh] at hg
    have hp : p = gConfigured (f32 powf) o := by
      show gAdjusted _ _ _ = _
      unfold gAdjusted
      rw [hg]
      rfl
    have ha : a = o := by
      show adjusted _ _ = _
      unfold adjusted
      rw [hsh]
    rw [hp, ha]
    have := fun {w} (hw : WholePercent w) =>
      (⟨within_weaken (lit_share (powf := powf) hw) (by norm_num), hw⟩ : ShareNear _ w)
    exact ⟨this hm, this he, this hc, this ht, this hw⟩
  | some shift =>
    obtain ⟨j, hj1, hj2, hj⟩ := hs shift hsh
    rw [hsh] at hg
    have hjr : (-10 : ℝ) ≤ j := by exact_mod_cast hj1
    have hjr2 : (j : ℝ) ≤ 5 := by exact_mod_cast hj2
    have hsr : ((shift : ℚ) : ℝ) = j / 100 := by rw [hj]; push_cast; rfl
    have hl : Within (1 / 2 ^ 24) ((f32 powf).lit shift) ((shift : ℚ) : ℝ) :=
      lit_unit (by rw [hsr, abs_le]; constructor <;> linarith)
    have up : ∀ {w : MasteryWindow}, WholePercent w →
        Within (5 / 2 ^ 24) ((f32 powf).clamp ((f32 powf).add ((f32 powf).lit w.percentage) ((f32 powf).lit shift))
          ((f32 powf).lit (1 / 20)) ((f32 powf).lit (1 / 2))) ((clampQ (w.percentage + shift) (1 / 20) (1 / 2) : ℚ) : ℝ) := by
      intro w hw
      have hr := percent_range hw
      refine clamp_units ?_
      have := add_units (powf := powf) (lit_share (powf := powf) hw) hl (by rw [hsr, abs_le]; constructor <;> linarith) (by norm_num)
      push_cast
      exact within_weaken this (by norm_num)
    have down : ∀ {w : MasteryWindow}, WholePercent w →
        Within (5 / 2 ^ 24) ((f32 powf).clamp ((f32 powf).sub ((f32 powf).lit w.percentage) ((f32 powf).lit shift))
          ((f32 powf).lit (1 / 20)) ((f32 powf).lit (1 / 2))) ((clampQ (w.percentage - shift) (1 / 20) (1 / 2) : ℚ) : ℝ) := by
      intro w hw
      have hr := percent_range hw
      refine clamp_units ?_
      have := sub_units (powf := powf) (lit_share (powf := powf) hw) hl (by rw [hsr, abs_le]; constructor <;> linarith) (by norm_num)
      push_cast
      exact within_weaken this (by norm_num)
    have kup : ∀ {w : MasteryWindow}, WholePercent w → ∃ K : ℕ, K ≤ 50 ∧ clampQ (w.percentage + shift) (1 / 20) (1 / 2) = K / 100 := by
      rintro w ⟨k, -, e⟩
      rw [e, hj]
      have := clamp_percent (k + j)
      push_cast at this
      rwa [add_div] at this
    have kdown : ∀ {w : MasteryWindow}, WholePercent w → ∃ K : ℕ, K ≤ 50 ∧ clampQ (w.percentage - shift) (1 / 20) (1 / 2) = K / 100 := by
      rintro w ⟨k, -, e⟩
      rw [e, hj]
      have := clamp_percent (k - j)
      push_cast at this
      rwa [sub_div] at this
    have hp : p = gAdjusted (f32 powf) (gConfigured (f32 powf) o) (gSuccessRate (f32 powf) passed failed) := rfl
    have ha : a = adjusted o (rateOf passed failed) := rfl
    unfold gAdjusted at hp
    rw [hg] at hp
    unfold adjusted at ha
    rw [hsh] at ha
    dsimp only [Option.map_some, gConfigured] at hp ha
    have u1 := up hw
    have u2 := up ht
    have u3 := down he
    have u4 := down hm
    have r1 := clampQ_range (o.newWindow.percentage + shift)
    have r2 := clampQ_range (o.targetWindow.percentage + shift)
    have r3 := clampQ_range (o.easyWindow.percentage - shift)
    have r4 := clampQ_range (o.masteredWindow.percentage - shift)
    obtain ⟨k1, hk1, e1⟩ := kup hw
    obtain ⟨k2, hk2, e2⟩ := kup ht
    obtain ⟨k3, hk3, e3⟩ := kdown he
    obtain ⟨k4, hk4, e4⟩ := kdown hm
    have s2 := add_units (powf := powf) u1 u2 (by rw [abs_le]; constructor <;> linarith) (by norm_num)
    have s3 := add_units (powf := powf) s2 u3 (by rw [abs_le]; constructor <;> linarith) (by norm_num)
    have s4 := add_units (powf := powf) s3 u4 (by rw [abs_le]; constructor <;> linarith) (by norm_num)
    have one : Within (0 / 2 ^ 24) ((f32 powf).lit 1) 1 := ⟨1, f1, by norm_num⟩
    have s5 := sub_units (powf := powf) one s4 (by rw [abs_le]; constructor <;> linarith) (by norm_num)
    have s6 := max_units (powf := powf) (within_weaken s5 (e' := 32 / 2 ^ 24) (by norm_num))
    rw [hp, ha]
    refine ⟨⟨within_weaken u4 (by norm_num), k4, by omega, e4⟩, ⟨within_weaken u3 (by norm_num), k3, by omega, e3⟩, ⟨?_, ?_⟩,
      ⟨within_weaken u2 (by norm_num), k2, by omega, e2⟩, ⟨within_weaken u1 (by norm_num), k1, by omega, e1⟩⟩
    · dsimp only
      push_cast
      exact s6
    · refine ⟨max (100 - (k1 + k2 + k3 + k4)) 5, by omega, ?_⟩
      dsimp only
      rw [e1, e2, e3, e4]
      by_cases hc : k1 + k2 + k3 + k4 ≤ 95
      · rw [Nat.max_eq_left (by omega), Nat.cast_sub (by omega), max_eq_left]
        · push_cast; ring
        · have : ((k1 + k2 + k3 + k4 : ℕ) : ℚ) ≤ 95 := by exact_mod_cast hc
          push_cast at this
          linarith
      · rw [Nat.max_eq_right (by omega), max_eq_right]
        · norm_num
        · have : (95 : ℚ) ≤ ((k1 + k2 + k3 + k4 : ℕ) : ℚ) := by exact_mod_cast (by omega)
          push_cast at this
          linarith

/-- **C128, sizes** With shares that are whole percentages, up to 2^20 graded exercises and batches of up to 4096
exercises, each window is given as many exercises as exact arithmetic gives it, or one fewer where its exact share is a
whole number. -/
theorem machine_percent_counts {o : SchedulerOptions} (ho : WholePercents o) {passed failed n : ℕ}
    (h : passed + failed ≤ 2 ^ 20) (hn : n ≤ 4096) :
    let k := gQuotas (f32 powf) F.toUsize n
      (gAdjusted (f32 powf) (gConfigured (f32 powf) o) (gSuccessRate (f32 powf) passed failed))
    let a := adjusted o (rateOf passed failed)
    RightOrOneFewer n a.masteredWindow k.mastered ∧ RightOrOneFewer n a.easyWindow k.easy ∧
      RightOrOneFewer n a.currentWindow k.current ∧ RightOrOneFewer n a.targetWindow k.target ∧
      RightOrOneFewer n a.newWindow k.new := by
  obtain ⟨h1, h2, h3, h4, h5⟩ := shares_near (powf := powf) ho h
  have := fun {x w} (hx : ShareNear x w) => hx.2.elim fun K hK => count_near (powf := powf) hn hK.1 hK.2 hx.1
  exact ⟨this h1, this h2, this h3, this h4, this h5⟩

theorem rightOrOneFewer_le {n c : ℕ} {w : MasteryWindow} (h : RightOrOneFewer n w c) : c ≤ quota n w := by
  have h1 : 1 ≤ quota n w := Nat.le_floor (by push_cast; exact le_max_right _ _)
  rcases h with h | ⟨-, h⟩ <;> omega

/-- **C128, batches** If the exact shares after the adjustment sum to the whole and each is worth at least one exercise,
the machine's batch is not larger than configured. -/
theorem machine_percent_batch (pick : Picks ι) (hp : IsSampler pick) {o : SchedulerOptions} (ho : WholePercents o)
    (hb : 0 < o.batchSize) (hb2 : o.batchSize ≤ 4096) {passed failed : ℕ} (h : passed + failed ≤ 2 ^ 20) (r : Result ι)
    (hsum : ((adjusted o (rateOf passed failed)).windows.map MasteryWindow.percentage).sum = 1)
    (hone : ∀ w ∈ (adjusted o (rateOf passed failed)).windows,
      1 ≤ (dynamicBatchSize o.batchSize r.candidates.length : ℚ) * w.percentage) :
    (gFilterCandidates (f32 powf) F.toUsize pick o (gConfigured (f32 powf) o) passed failed r).length ≤ o.batchSize := by
  obtain ⟨k, hk, _, hl⟩ := machine_filter (powf := powf) pick o hb (gConfigured (f32 powf) o) passed failed r hp
  refine hl.trans ?_
  set n := dynamicBatchSize o.batchSize r.candidates.length with hn
  have hn1 : n ≤ o.batchSize := by
    rw [hn]
    unfold dynamicBatchSize minDynamicBatchSize
    split
    · omega
    · split <;> omega
  obtain ⟨h1, h2, h3, h4, h5⟩ := machine_percent_counts (powf := powf) ho h (n := n) (by omega)
  rw [← hk] at h1 h2 h3 h4 h5
  have q : ∀ w ∈ (adjusted o (rateOf passed failed)).windows, ((quota n w : ℕ) : ℚ) ≤ n * w.percentage := by
    intro w hw
    unfold quota
    rw [max_eq_left (hone w hw)]
    exact Nat.floor_le (by linarith [hone w hw])
  simp only [SchedulerOptions.windows, List.map_cons, List.map_nil, List.sum_cons, List.sum_nil, List.mem_cons,
    List.not_mem_nil, or_false, forall_eq_or_imp, forall_eq] at hsum q
  obtain ⟨q1, q2, q3, q4, q5⟩ := q
  have b1 := rightOrOneFewer_le h1
  have b2 := rightOrOneFewer_le h2
  have b3 := rightOrOneFewer_le h3
  have b4 := rightOrOneFewer_le h4
  have b5 := rightOrOneFewer_le h5
  have hq : ((k.mastered + k.easy + k.current + k.target + k.new : ℕ) : ℚ) ≤ n := by
    have c1 : (k.mastered : ℚ) ≤ _ := Nat.cast_le.2 b1
    have c2 : (k.easy : ℚ) ≤ _ := Nat.cast_le.2 b2
    have c3 : (k.current : ℚ) ≤ _ := Nat.cast_le.2 b3
    have c4 : (k.target : ℚ) ≤ _ := Nat.cast_le.2 b4
    have c5 : (k.new : ℚ) ≤ _ := Nat.cast_le.2 b5
    push_cast
    have e : (n : ℚ) = n * 1 := by ring
    rw [e, ← hsum]
    simp only [mul_add]
    linarith
  have : k.mastered + k.easy + k.current + k.target + k.new ≤ n := by exact_mod_cast hq
  omega

/-- **C128, negative** The claim cannot leave out "one fewer": 21% of a batch of 300 are 63 exercises, and the machine
takes 62. -/
theorem machine_percent_fewer : gQuota (f32 powf) F.toUsize 300 ((f32 powf).lit (21 / 100)) = 62 := by
  have hl : (f32 powf).lit (21 / 100) = .num (14092861 / 2 ^ 26) := by
    have := round_val (x := ((21 / 100 : ℚ) : ℝ)) 14092861 26 (by norm_num) (by norm_num) (by norm_num)
      (by norm_num [abs_lt, abs_le])
    simpa [f32] using this
  have hr : F.round ((300 : ℕ) * (14092861 / 2 ^ 26) : ℝ) = .num (16515071 / 2 ^ 18) := by
    have := round_val (x := ((300 : ℕ) * (14092861 / 2 ^ 26) : ℝ)) 16515071 18 (by norm_num) (by norm_num) (by norm_num)
      (by norm_num [abs_lt, abs_le])
    rw [this]
    norm_num
  unfold gQuota
  rw [hl, ofNat_val (by norm_num), f1,
    show (f32 powf).mul (.num ((300 : ℕ) : ℝ)) (.num (14092861 / 2 ^ 26)) = .num (16515071 / 2 ^ 18) from hr, max_num]
  rw [toUsize_max (N := 62) (Or.inl (by norm_num)) (by norm_num) (by norm_num)]
  rfl

/-- Options with shares other than the default ones: 21% mastered, 14% new. -/
def unevenOptions : SchedulerOptions :=
  { SchedulerOptions.default with
    batchSize := 300
    masteredWindow := { SchedulerOptions.default.masteredWindow with percentage := 21 / 100 }
    easyWindow := { SchedulerOptions.default.easyWindow with percentage := 17 / 100 }
    currentWindow := { SchedulerOptions.default.currentWindow with percentage := 33 / 100 }
    targetWindow := { SchedulerOptions.default.targetWindow with percentage := 15 / 100 }
    newWindow := { SchedulerOptions.default.newWindow with percentage := 14 / 100 } }

theorem unevenOptions_whole : WholePercents unevenOptions :=
  ⟨⟨21, by norm_num, by norm_num [unevenOptions]⟩, ⟨17, by norm_num, by norm_num [unevenOptions]⟩,
    ⟨33, by norm_num, by norm_num [unevenOptions]⟩, ⟨15, by norm_num, by norm_num [unevenOptions]⟩,
    ⟨14, by norm_num, by norm_num [unevenOptions]⟩⟩

/-- The hypotheses are met: the uneven options, for a success rate of 4/5, which changes nothing, and of 1. -/
example (pick : Picks ι) (hp : IsSampler pick) (r : Result ι) (hr : 900 ≤ r.candidates.length) :
    (gFilterCandidates (f32 powf) F.toUsize pick unevenOptions (gConfigured (f32 powf) unevenOptions) 4 1 r).length ≤ 300 := by
  have hd : dynamicBatchSize unevenOptions.batchSize r.candidates.length = 300 := by
    unfold dynamicBatchSize minDynamicBatchSize
    rw [if_neg (by norm_num [unevenOptions]), if_neg (by simp only [unevenOptions]; omega)]
    rfl
  refine machine_percent_batch pick hp unevenOptions_whole (by norm_num [unevenOptions]) (by norm_num [unevenOptions])
    (by norm_num) r ?_ ?_
  · norm_num [adjusted, shiftOf, rateOf, SchedulerOptions.windows, unevenOptions]
  · rw [hd]
    norm_num [adjusted, shiftOf, rateOf, SchedulerOptions.windows, unevenOptions]

example : ((adjusted unevenOptions (rateOf 5 0)).windows.map MasteryWindow.percentage) =
    [19 / 100, 20 / 100, 33 / 100, 12 / 100, 16 / 100] := by
  norm_num [adjusted, shiftOf, rateOf, SchedulerOptions.windows, unevenOptions, clampQ]

end Trane.Float
