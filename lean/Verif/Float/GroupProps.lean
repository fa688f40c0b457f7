import Verif.Float.MeanProps
import Verif.Float.SharesProps

/-!
# Which groups of a batch count as new, in `f32`

C129.  The final shuffle draws the position of a group from one of two ranges, depending on whether the mean score of
its one to three exercises is at most 1.
-/

namespace Trane.Float

variable {α : Type}

/-- Whether a group counts as new, /repo/src/scheduler/shuffler.rs:33-35; `NEW_GROUP_THRESHOLD` is 1, line 13. -/
def gNewGroup (A : Arith α) (scores : List α) : Bool := A.le (gMean A scores) (A.lit 1)

variable {powf : F → F → F}

/-- Scores as the exercise scorer computes them, as real numbers: `f32` values from 0 to 5. -/
def GroupScores (g : List ℝ) : Prop := ∀ s ∈ g, Rep s ∧ 0 ≤ s ∧ s ≤ 5

/-- Below 4, rounding moves a number by at most half a unit of the last place. -/
theorem rnd_half {x : ℝ} (h0 : 0 ≤ x) (h : x < 4) : |rnd x - x| ≤ 1 / 2 ^ 23 := by
  rcases h0.eq_or_lt with rfl | hx
  · rw [rnd_zero]; norm_num
  have hr : rnd x = rndPos x := by unfold rnd; rw [if_neg (by linarith)]
  have h1 := roundEven_err (x / 2 ^ lastExp x)
  have h2 : |rndPos x - x| ≤ 1 / 2 * 2 ^ lastExp x := by
    have : rndPos x - x = ((roundEven (x / 2 ^ lastExp x) : ℝ) - x / 2 ^ lastExp x) *
        2 ^ lastExp x := by
      unfold rndPos
      rw [sub_mul, div_mul_cancel₀ _ (two_zpow_pos _).ne']
    rw [this, abs_mul, abs_of_pos (two_zpow_pos _)]
    exact mul_le_mul_of_nonneg_right h1 (two_zpow_pos _).le
  have h3 : lastExp x ≤ -22 := lastExp_le_of_lt hx (by norm_num) (by norm_num; exact h)
  have h4 : (2 : ℝ) ^ lastExp x ≤ 2 ^ (-22 : ℤ) := zpow_le_zpow_right₀ (by norm_num) h3
  have h5 : (2 : ℝ) ^ (-22 : ℤ) = 1 / 2 ^ 22 := by norm_num
  rw [h5] at h4
  generalize (2 : ℝ) ^ lastExp x = t at h2 h4
  rw [hr]
  linarith

theorem rnd_three : rnd (3 + 1 / 2 ^ 23) = 3 := by
  rw [rnd_val 12582912 22 (by norm_num) (by norm_num) (by norm_num) (Or.inr ⟨by norm_num, by norm_num [abs_le]⟩)]
  norm_num

theorem div_val {x : ℝ} {n : ℕ} (h0 : 0 ≤ x) (h : x ≤ 1000) (hn : 1 ≤ n) (hn2 : n ≤ 10) :
    (f32 powf).div (.num x) ((f32 powf).ofInt (n : ℤ)) = .num (rnd (x / n)) := by
  have hp : (1 : ℝ) ≤ n := by exact_mod_cast hn
  rw [ofNat_val (hn2.trans (by norm_num))]
  show (if (n : ℝ) = 0 then _ else F.round (x / n)) = _
  rw [if_neg (by linarith)]
  refine round_small (by positivity) ?_
  rw [div_le_iff₀ (by linarith)]
  nlinarith

theorem new1 {a : ℝ} (ha : Rep a ∧ 0 ≤ a ∧ a ≤ 5) : gNewGroup (f32 powf) [.num a] = decide (a ≤ 1) := by
  obtain ⟨r, h0, h5⟩ := ha
  unfold gNewGroup gMean
  have e : (f32 powf).add ((f32 powf).lit 0) (.num a) = .num a := by
    rw [lit0]
    show F.round (0 + a) = _
    rw [zero_add, round_small h0 (by linarith), rnd_fix r]
  show (f32 powf).le ((f32 powf).div ((f32 powf).add ((f32 powf).lit 0) (.num a)) ((f32 powf).ofInt ((1 : ℕ) : ℤ))) _ = _
  rw [e, div_val h0 (by linarith) (by norm_num) (by norm_num), f1, Nat.cast_one, div_one, rnd_fix r]
  rfl

theorem new2 {a b : ℝ} (ha : Rep a ∧ 0 ≤ a ∧ a ≤ 5) (hb : Rep b ∧ 0 ≤ b ∧ b ≤ 5) :
    gNewGroup (f32 powf) [.num a, .num b] = decide (rnd (rnd (a + b) / (2 : ℕ)) ≤ 1) := by
  obtain ⟨r, h0, h5⟩ := ha
  obtain ⟨r', h0', h5'⟩ := hb
  unfold gNewGroup gMean
  have e : (f32 powf).add ((f32 powf).lit 0) (.num a) = .num a := by
    rw [lit0]
    show F.round (0 + a) = _
    rw [zero_add, round_small h0 (by linarith), rnd_fix r]
  have e2 : (f32 powf).add (.num a) (.num b) = .num (rnd (a + b)) := round_small (by linarith) (by linarith)
  have l := rnd_err_le (x := a + b) (b := 20) (by norm_num) (by rw [abs_le]; constructor <;> linarith)
  rw [abs_le] at l
  show (f32 powf).le ((f32 powf).div ((f32 powf).add ((f32 powf).add ((f32 powf).lit 0) (.num a)) (.num b))
    ((f32 powf).ofInt ((2 : ℕ) : ℤ))) _ = _
  rw [e, e2, div_val (le_rnd rep_zero (by linarith)) (by linarith) (by norm_num) (by norm_num), f1]
  rfl

theorem new3 {a b c : ℝ} (ha : Rep a ∧ 0 ≤ a ∧ a ≤ 5) (hb : Rep b ∧ 0 ≤ b ∧ b ≤ 5) (hc : Rep c ∧ 0 ≤ c ∧ c ≤ 5) :
    gNewGroup (f32 powf) [.num a, .num b, .num c] = decide (rnd (rnd (rnd (a + b) + c) / (3 : ℕ)) ≤ 1) := by
  obtain ⟨r, h0, h5⟩ := ha
  obtain ⟨r', h0', h5'⟩ := hb
  obtain ⟨r'', h0'', h5''⟩ := hc
  unfold gNewGroup gMean
  have e : (f32 powf).add ((f32 powf).lit 0) (.num a) = .num a := by
    rw [lit0]
    show F.round (0 + a) = _
    rw [zero_add, round_small h0 (by linarith), rnd_fix r]
  have e2 : (f32 powf).add (.num a) (.num b) = .num (rnd (a + b)) := round_small (by linarith) (by linarith)
  have l := rnd_err_le (x := a + b) (b := 20) (by norm_num) (by rw [abs_le]; constructor <;> linarith)
  have z : 0 ≤ rnd (a + b) := le_rnd rep_zero (by linarith)
  rw [abs_le] at l
  have e3 : (f32 powf).add (.num (rnd (a + b))) (.num c) = .num (rnd (rnd (a + b) + c)) :=
    round_small (by linarith) (by linarith)
  have l' := rnd_err_le (x := rnd (a + b) + c) (b := 20) (by norm_num) (by rw [abs_le]; constructor <;> linarith)
  rw [abs_le] at l'
  show (f32 powf).le ((f32 powf).div ((f32 powf).add ((f32 powf).add ((f32 powf).add ((f32 powf).lit 0) (.num a)) (.num b))
    (.num c)) ((f32 powf).ofInt ((3 : ℕ) : ℤ))) _ = _
  rw [e, e2, e3, div_val (le_rnd rep_zero (by linarith)) (by linarith) (by norm_num) (by norm_num), f1]
  rfl

/-- **C129, new groups** A group of one to three exercises whose exact mean score is at most 1 counts as new. -/
theorem machine_group_new {g : List ℝ} (hg : GroupScores g) (hne : g ≠ []) (h3 : g.length ≤ 3)
    (h : g.sum / g.length ≤ 1) : gNewGroup (f32 powf) (g.map F.num) = true := by
  match g, hne, h3 with
  | [a], _, _ =>
    rw [List.map_cons, List.map_nil, new1 (hg a (by simp))]
    simpa using h
  | [a, b], _, _ =>
    rw [List.map_cons, List.map_cons, List.map_nil, new2 (hg a (by simp)) (hg b (by simp))]
    norm_num at h ⊢
    have : rnd (a + b) ≤ 2 := rnd_le (by simpa using rep_int (n := 2) (by norm_num)) (by linarith)
    exact rnd_le rep_one (by linarith)
  | [a, b, c], _, _ =>
    have ha := hg a (by simp)
    have hb := hg b (by simp)
    have hc := hg c (by simp)
    rw [List.map_cons, List.map_cons, List.map_cons, List.map_nil, new3 ha hb hc]
    norm_num at h ⊢
    have l := rnd_half (x := a + b) (by linarith [ha.2.1, hb.2.1]) (by linarith [hc.2.1])
    rw [abs_le] at l
    have m : rnd (rnd (a + b) + c) ≤ rnd (3 + 1 / 2 ^ 23) := rnd_mono (by linarith)
    rw [rnd_three] at m
    exact rnd_le rep_one (by linarith)

/-- **C129, other groups** A group that counts as new has an exact mean score of at most 1 + 2^-18. -/
theorem machine_group_other {g : List ℝ} (hg : GroupScores g) (hne : g ≠ []) (h3 : g.length ≤ 3)
    (h : gNewGroup (f32 powf) (g.map F.num) = true) : g.sum / g.length ≤ 1 + 1 / 2 ^ 18 := by
  have near : ∀ {x : ℝ}, 0 ≤ x → x ≤ 20 → -(20 / 2 ^ 24) ≤ rnd x - x ∧ rnd x - x ≤ 20 / 2 ^ 24 := by
    intro x h0 h1
    exact abs_le.1 (rnd_err_le (by norm_num) (by rw [abs_of_nonneg h0]; exact h1))
  match g, hne, h3 with
  | [a], _, _ =>
    rw [List.map_cons, List.map_nil, new1 (hg a (by simp))] at h
    have := of_decide_eq_true h
    norm_num
    linarith
  | [a, b], _, _ =>
    have ha := (hg a (by simp)).2
    have hb := (hg b (by simp)).2
    rw [List.map_cons, List.map_cons, List.map_nil, new2 (hg a (by simp)) (hg b (by simp))] at h
    have := of_decide_eq_true h
    push_cast at this
    have l := near (x := a + b) (by linarith) (by linarith)
    have z : 0 ≤ rnd (a + b) := le_rnd rep_zero (by linarith)
    have l' := near (x := rnd (a + b) / 2) (by linarith) (by linarith)
    have e : [a, b].sum / (([a, b] : List ℝ).length : ℝ) = (a + b) / 2 := by norm_num
    rw [e]
    linarith
  | [a, b, c], _, _ =>
    have ha := (hg a (by simp)).2
    have hb := (hg b (by simp)).2
    have hc := (hg c (by simp)).2
    rw [List.map_cons, List.map_cons, List.map_cons, List.map_nil,
      new3 (hg a (by simp)) (hg b (by simp)) (hg c (by simp))] at h
    have := of_decide_eq_true h
    push_cast at this
    have l := near (x := a + b) (by linarith) (by linarith)
    have z : 0 ≤ rnd (a + b) := le_rnd rep_zero (by linarith)
    have l' := near (x := rnd (a + b) + c) (by linarith) (by linarith)
    have z' : 0 ≤ rnd (rnd (a + b) + c) := le_rnd rep_zero (by linarith)
    have l'' := near (x := rnd (rnd (a + b) + c) / 3) (by linarith) (by linarith)
    have e : [a, b, c].sum / (([a, b, c] : List ℝ).length : ℝ) = (a + b + c) / 3 := by norm_num; ring
    rw [e]
    linarith

theorem rep_next : Rep (1 + 1 / 2 ^ 23) := by
  have := rep_div (m := 8388609) (k := 23) (by norm_num) (by norm_num)
  norm_num at this ⊢
  exact this

theorem nextScores : GroupScores [1, 1 + 1 / 2 ^ 23] := by
  intro s hs
  rcases List.mem_cons.1 hs with rfl | hs
  · exact ⟨rep_one, by norm_num, by norm_num⟩
  · rw [List.mem_singleton.1 hs]
    exact ⟨rep_next, by norm_num, by norm_num⟩

/-- **C129, negative** The slack is needed: scores 1 and 1 + 2^-23 have a mean above 1 and count as new. -/
theorem machine_group_slack : (1 : ℝ) < [1, 1 + 1 / 2 ^ 23].sum / ([1, 1 + 1 / 2 ^ 23] : List ℝ).length ∧
    gNewGroup (f32 powf) ([1, 1 + 1 / 2 ^ 23].map F.num) = true := by
  constructor
  · norm_num
  · rw [List.map_cons, List.map_cons, List.map_nil, new2 (nextScores _ (by simp)) (nextScores _ (by simp))]
    rw [rnd_val (x := 1 + (1 + 1 / 2 ^ 23)) 8388608 22 (by norm_num) (by norm_num) (by norm_num)
      (Or.inr ⟨by norm_num, by norm_num [abs_le]⟩)]
    norm_num
    exact rnd_le rep_one le_rfl

/-- The hypotheses are met, on both sides of the threshold. -/
example : gNewGroup (f32 powf) ([1 / 2, 1, 5 / 4].map F.num) = true := by
  refine machine_group_new ?_ (by simp) (by simp) (by norm_num)
  intro s hs
  simp only [List.mem_cons, List.not_mem_nil, or_false] at hs
  rcases hs with rfl | rfl | rfl
  · exact ⟨by simpa using rep_div (m := 1) (k := 1) (by norm_num) (by norm_num), by norm_num, by norm_num⟩
  · exact ⟨rep_one, by norm_num, by norm_num⟩
  · exact ⟨by have := rep_div (m := 5) (k := 2) (by norm_num) (by norm_num); norm_num at this; exact this, by norm_num, by norm_num⟩

example : gNewGroup (f32 powf) ([1, 3].map F.num) = false := by
  by_contra h
  have := machine_group_other (powf := powf) (g := [1, 3]) (by
    intro s hs
    simp only [List.mem_cons, List.not_mem_nil, or_false] at hs
    rcases hs with rfl | rfl
    · exact ⟨rep_one, by norm_num, by norm_num⟩
    · exact ⟨by simpa using rep_int (n := 3) (by norm_num), by norm_num, by norm_num⟩) (by simp) (by simp) (by simpa using h)
  norm_num at this

end Trane.Float
