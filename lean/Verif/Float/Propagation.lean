import Verif.Float.RewardProps
import Verif.Sched.Propagator

/-!
# Reward propagation in machine arithmetic

The arithmetic of `/repo/src/scheduler/reward_propagator.rs` along one path of the propagation.  The
bookkeeping around it (stack, stronger paths) is modelled in `Verif.Sched.Propagator`.
-/

namespace Trane.Float

variable {α : Type} (A : Arith α)

/-- `initial_reward`, /repo/src/scheduler/reward_propagator.rs:64-72. -/
def gInitialReward : MasteryScore → α
  | .five => A.lit (8 / 10)
  | .four => A.lit (4 / 10)
  | .three => A.lit (-(3 / 10))
  | .two => A.lit (-(5 / 10))
  | .one => A.lit (-1)

/-- `stop_propagation`, /repo/src/scheduler/reward_propagator.rs:84-86; constants from lines 42 and 45. -/
def gStop (p : α × α) : Bool :=
  A.lt (A.abs p.1) (A.lit (2 / 10)) || A.lt p.2 (A.lit (2 / 10))

/-- Value and weight at the first unit, /repo/src/scheduler/reward_propagator.rs:117-118. -/
def gFirst (initial edge : α) : α × α := (A.mul edge initial, edge)

/-- Value and weight after one more edge, /repo/src/scheduler/reward_propagator.rs:146-147; constants from
lines 49 and 53. -/
def gNext (edge : α) (p : α × α) : α × α :=
  (A.mul (A.mul edge (A.lit (9 / 10))) p.1, A.mul (A.mul edge (A.lit (8 / 10))) p.2)

variable {powf : F → F → F}

/-- The pairs of value and weight that a grade gives to a unit `n + 1` edges away, along any path whose edges
have weights from 0 to 1, unless the propagation stopped before. -/
inductive Reaches (powf : F → F → F) (grade : MasteryScore) : ℕ → F × F → Prop
  | first {e : F} (he : In 0 1 e)
      (hs : gStop (f32 powf) (gFirst (f32 powf) (gInitialReward (f32 powf) grade) e) = false) :
      Reaches powf grade 0 (gFirst (f32 powf) (gInitialReward (f32 powf) grade) e)
  | next {n : ℕ} {p : F × F} {e : F} (hp : Reaches powf grade n p) (he : In 0 1 e)
      (hs : gStop (f32 powf) (gNext (f32 powf) e p) = false) :
      Reaches powf grade (n + 1) (gNext (f32 powf) e p)

theorem unit_mul_in {lo hi : ℤ} (h0 : lo ≤ 0) (h1 : 0 ≤ hi) (hl : |lo| ≤ 5) (hh : |hi| ≤ 5) {x y : F}
    (hx : In lo hi x) (hy : In 0 1 y) : In lo hi (F.mul y x) := by
  have := mul_unit_in h0 h1 hl hh hx hy
  obtain ⟨z, rfl, -⟩ := hx
  obtain ⟨w, rfl, -⟩ := hy
  simpa [F.mul, mul_comm] using this

/-- An upper bound of the weight after `n` edges, in units of 1/4096. -/
def weightBound : ℕ → ℕ
  | 0 => 4096
  | n + 1 => 13 * weightBound n / 16 + 1

theorem weightBound_le (n : ℕ) : weightBound n ≤ 4096 := by
  induction n with
  | zero => simp [weightBound]
  | succ n ih => simp only [weightBound]; omega

theorem bd_weight (n : ℕ) : Bd ((weightBound n : ℝ) / 4096) := by
  refine bd_div (weightBound n) 12 (by norm_num) ?_ (by norm_num)
  rw [Nat.abs_cast]
  have := weightBound_le n
  have h : (weightBound n : ℤ) ≤ 4096 := by exact_mod_cast this
  linarith [show (4096 : ℤ) ≤ 2 ^ 24 by norm_num]

theorem next_weight_in {n : ℕ} {p : F × F} {e : F} (hw : In 0 ((weightBound n : ℝ) / 4096) p.2)
    (he : In 0 1 e) : In 0 ((weightBound (n + 1) : ℝ) / 4096) (gNext (f32 powf) e p).2 := by
  have h8 : In 0 (13 / 16) ((f32 powf).lit (8 / 10)) :=
    lit_in powf bd_zero (bd_div 13 4 (by norm_num) (by norm_num) (by norm_num)) (by norm_num) (by norm_num)
  have h1 := In.mul_nonneg he h8 (b := 13 / 16) (bd_div 13 4 (by norm_num) (by norm_num) (by norm_num))
    le_rfl le_rfl (by norm_num)
  refine In.mul_nonneg h1 hw (bd_weight (n + 1)) le_rfl le_rfl ?_
  have h : 13 * weightBound n ≤ 16 * weightBound (n + 1) := by simp only [weightBound]; omega
  have h' : (13 : ℝ) * weightBound n ≤ 16 * weightBound (n + 1) := by exact_mod_cast h
  linarith

theorem lit02 : In (51 / 256) (1 / 4) ((f32 powf).lit (2 / 10)) :=
  lit_in powf (bd_div 51 8 (by norm_num) (by norm_num) (by norm_num))
    (bd_div 1 2 (by norm_num) (by norm_num) (by norm_num)) (by norm_num) (by norm_num)

/-- Grades that are rewarded. -/
def Good (grade : MasteryScore) : Prop := grade = .five ∨ grade = .four

instance (grade : MasteryScore) : Decidable (Good grade) := by unfold Good; infer_instance

/-- A lower bound of a grade's rewards. -/
def low (grade : MasteryScore) : ℤ := if Good grade then 0 else -1
/-- An upper bound of a grade's rewards. -/
def high (grade : MasteryScore) : ℤ := if Good grade then 1 else 0

theorem initial_in (grade : MasteryScore) :
    In (low grade) (high grade) (gInitialReward (f32 powf) grade) := by
  have m1 : Bd (-1 : ℝ) := bdi (-1)
  cases grade
  · simpa [low, high, Good, gInitialReward] using lit_in powf m1 bd_zero (q := -1) (by norm_num) (by norm_num)
  · simpa [low, high, Good, gInitialReward] using lit_in powf m1 bd_zero (q := -(5 / 10)) (by norm_num) (by norm_num)
  · simpa [low, high, Good, gInitialReward] using lit_in powf m1 bd_zero (q := -(3 / 10)) (by norm_num) (by norm_num)
  · simpa [low, high, Good, gInitialReward] using lit_in powf bd_zero bd_one (q := 4 / 10) (by norm_num) (by norm_num)
  · simpa [low, high, Good, gInitialReward] using lit_in powf bd_zero bd_one (q := 8 / 10) (by norm_num) (by norm_num)

theorem reaches_in {grade : MasteryScore} {n : ℕ} {p : F × F} (h : Reaches powf grade n p) :
    n ≤ 7 ∧ In (low grade) (high grade) p.1 ∧ In 0 ((weightBound n : ℝ) / 4096) p.2 ∧
      gStop (f32 powf) p = false := by
  have s1 : low grade ≤ 0 := by unfold low; split <;> norm_num
  have s2 : 0 ≤ high grade := by unfold high; split <;> norm_num
  have s3 : |low grade| ≤ 5 := by unfold low; split <;> norm_num
  have s4 : |high grade| ≤ 5 := by unfold high; split <;> norm_num
  induction h with
  | first he hs =>
    refine ⟨by omega, unit_mul_in s1 s2 s3 s4 (initial_in grade) he, ?_, hs⟩
    exact he.mono le_rfl (by norm_num [weightBound])
  | @next n p e hp he hs ih =>
    obtain ⟨h1, h2, h3, -⟩ := ih
    have hw := next_weight_in (powf := powf) h3 he
    have h9 : In 0 1 ((f32 powf).lit (9 / 10)) := lit_in powf bd_zero bd_one (by norm_num) (by norm_num)
    have he9 := In.mul_nonneg he h9 bd_one le_rfl le_rfl (by norm_num)
    refine ⟨?_, unit_mul_in s1 s2 s3 s4 h2 he9, hw, hs⟩
    by_contra hc
    obtain rfl : n = 7 := by omega
    obtain ⟨w, hw', -, -, hw1⟩ := hw
    obtain ⟨q, hq, -, hq1, -⟩ := lit02 (powf := powf)
    have hb' : (weightBound 8 : ℝ) ≤ 790 := by
      have : weightBound 8 ≤ 790 := by decide
      exact_mod_cast this
    have hlt : w < q := by
      have : (weightBound (7 + 1) : ℝ) = weightBound 8 := rfl
      rw [this] at hw1
      linarith
    unfold gStop at hs
    rw [hw', hq] at hs
    simp [f32, F.lt, hlt] at hs

/-- **C81.** Along every path, whatever the edges and whether or not the path runs in circles, the rewards of
a grade are numbers of at most 1 and at least the minimum in size, with the sign of the grade; their weights lie
between 0 and 1; and they reach units at most 8 edges away. -/
theorem machine_propagation {grade : MasteryScore} {n : ℕ} {p : F × F} (h : Reaches powf grade n p) :
    n ≤ 7 ∧ ∃ v w, p = (.num v, .num w) ∧ 0 < w ∧ w ≤ 1 ∧
      (Good grade → 0 < v ∧ v ≤ 1) ∧ (¬ Good grade → -1 ≤ v ∧ v < 0) := by
  obtain ⟨h1, ⟨v, hv, -, hv0, hv1⟩, ⟨w, hw, -, hw0, hw1⟩, hs⟩ := reaches_in h
  obtain ⟨q, hq, -, hq1, -⟩ := lit02 (powf := powf)
  obtain ⟨p1, p2⟩ := p
  simp only at hv hw
  subst hv hw
  unfold gStop at hs
  rw [hq] at hs
  simp [f32, F.lt, F.abs] at hs
  have hwb : (weightBound n : ℝ) ≤ 4096 := by exact_mod_cast weightBound_le n
  refine ⟨h1, v, w, rfl, by linarith [hs.2], by linarith, fun hg => ?_, fun hg => ?_⟩
  · simp [low, high, hg] at hv0 hv1
    have := hs.1
    rw [abs_of_nonneg hv0] at this
    exact ⟨by linarith, hv1⟩
  · simp [low, high, hg] at hv0 hv1
    have := hs.1
    rw [abs_of_nonpos hv1] at this
    exact ⟨hv0, by linarith⟩

/-- What is propagated meets what the theorems on rewards assume of stored rewards. -/
theorem propagated_stored {grade : MasteryScore} {n : ℕ} {p : F × F} (h : Reaches powf grade n p) :
    In (-5) 5 p.1 ∧ In 0 1 p.2 := by
  obtain ⟨-, h2, h3, -⟩ := reaches_in h
  have hwb : (weightBound n : ℝ) ≤ 4096 := by exact_mod_cast weightBound_le n
  refine ⟨h2.mono ?_ ?_, h3.mono le_rfl (by linarith)⟩
  · unfold low; split <;> norm_num
  · unfold high; split <;> norm_num

/-- A grade of 5 reaches the second unit along edges of weight 1. -/
example : ∃ p, Reaches nearestPow .five 1 p := by
  have lits : ∀ (q : ℚ) (a b : ℝ), Bd a → Bd b → a ≤ q → (q : ℝ) ≤ b → In a b ((f32 nearestPow).lit q) :=
    fun q a b ha hb h1 h2 => lit_in _ ha hb h1 h2
  have half : Bd (1 / 2 : ℝ) := bd_div 1 1 (by norm_num) (by norm_num) (by norm_num)
  have quarter : Bd (1 / 4 : ℝ) := bd_div 1 2 (by norm_num) (by norm_num) (by norm_num)
  have one : In 1 1 (.num 1) := num_in bd_one
  have stop : ∀ p : F × F, In (1 / 4) 1 p.1 → In (1 / 4) 1 p.2 → gStop (f32 nearestPow) p = false := by
    rintro ⟨a, b⟩ ⟨x, hx, -, hx1, -⟩ ⟨y, hy, -, hy1, -⟩
    obtain ⟨q, hq, -, -, hq2⟩ := lit02 (powf := nearestPow)
    simp only at hx hy
    subst hx hy
    unfold gStop
    rw [hq]
    simp [f32, F.lt, F.abs]
    exact ⟨le_trans (by linarith) (le_abs_self x), by linarith⟩
  have h8 := lits (8 / 10) (1 / 2) 1 half bd_one (by norm_num) (by norm_num)
  have h9 := lits (9 / 10) (1 / 2) 1 half bd_one (by norm_num) (by norm_num)
  have f1 : In (1 / 2) 1 (F.mul (.num 1) ((f32 nearestPow).lit (8 / 10))) :=
    In.mul one h8 half bd_one (fun z w a b c d => by constructor <;> nlinarith)
  have f9 : In (1 / 2) 1 (F.mul (.num 1) ((f32 nearestPow).lit (9 / 10))) :=
    In.mul one h9 half bd_one (fun z w a b c d => by constructor <;> nlinarith)
  have first := Reaches.first (powf := nearestPow) (grade := .five) (e := .num 1)
    (one.mono (by norm_num) le_rfl)
    (stop _ (f1.mono (by norm_num) le_rfl) (one.mono (by norm_num) le_rfl))
  refine ⟨_, Reaches.next first (e := .num 1) (one.mono (by norm_num) le_rfl) (stop _ ?_ ?_)⟩
  · exact In.mul f9 f1 quarter bd_one (fun z w a b c d => by constructor <;> nlinarith)
  · exact In.mul f1 one quarter bd_one (fun z w a b c d => by constructor <;> nlinarith)

end Trane.Float
