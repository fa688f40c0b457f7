import Verif.Float.Rewards
import Verif.Float.SharesLemmas

/-!
# C104: averages in `f32` do depend on the order
-/

namespace Trane.Float

variable {powf : F → F → F}

theorem add_num {x y : ℝ} (z : ℝ) (e : x + y = z) (h : Bd z) : F.add (.num x) (.num y) = .num z := by
  change F.round (x + y) = _
  rw [e, round_bd h]

/-- A small score. -/
noncomputable def tiny : ℝ := 1 / 2 ^ 22

/-- The average of the same eight scores from 0 to 5, summed in two orders: 1, and the next `f32` number. -/
theorem mean_depends_on_order : ∃ xs ys : List F, xs.Perm ys ∧ (∀ x ∈ xs, ∃ v, x = .num v ∧ 0 ≤ v ∧ v ≤ 5 ∧ Bd v) ∧
    gMean (f32 powf) xs = .num 1 ∧ gMean (f32 powf) ys = .num (1 + 1 / 2 ^ 23) := by
  have b0 : Bd 0 := bd_zero
  have b4 : Bd 4 := bd_int 4 (by norm_num)
  have b8 : Bd 8 := bd_int 8 (by norm_num)
  have bt : Bd tiny := bd_div 1 22 (by unfold tiny; norm_num) (by norm_num) (by norm_num)
  refine ⟨[.num 4, .num 4, .num tiny, .num tiny, .num tiny, .num tiny, .num 0, .num 0],
    [.num tiny, .num tiny, .num tiny, .num tiny, .num 4, .num 4, .num 0, .num 0], ?_, ?_, ?_, ?_⟩
  · exact List.Perm.append_right [F.num 0, F.num 0] (List.perm_append_comm (l₁ := [F.num 4, F.num 4]) (l₂ := [F.num tiny, F.num tiny, F.num tiny, F.num tiny]))
  · have t1 : 0 ≤ tiny := by unfold tiny; norm_num
    have t2 : tiny ≤ 5 := by unfold tiny; norm_num
    simp only [List.mem_cons, List.not_mem_nil, or_false]
    rintro x (rfl | rfl | rfl | rfl | rfl | rfl | rfl | rfl)
    all_goals first
      | exact ⟨4, rfl, by norm_num, by norm_num, b4⟩
      | exact ⟨tiny, rfl, t1, t2, bt⟩
      | exact ⟨0, rfl, by norm_num, by norm_num, b0⟩
  · have e0 : F.round ((0 : ℚ) : ℝ) = .num 0 := by rw [Rat.cast_zero]; exact round_bd b0
    have e8 : F.round ((8 : ℤ) : ℝ) = .num 8 := by norm_num; exact round_bd b8
    have et : F.add (.num 8) (.num tiny) = .num 8 := by
      have := round_val (x := 8 + tiny) (2 ^ 23) 20 (by norm_num) (by unfold tiny; norm_num) (by unfold tiny; norm_num)
        (.inl (by unfold tiny; norm_num [abs_lt]))
      change F.round (8 + tiny) = _
      rw [this]; norm_num
    change F.div (F.add (F.add (F.add (F.add (F.add (F.add (F.add (F.add (F.round ((0 : ℚ) : ℝ)) (.num 4)) (.num 4)) (.num tiny))
      (.num tiny)) (.num tiny)) (.num tiny)) (.num 0)) (.num 0)) (F.round ((8 : ℤ) : ℝ)) = _
    rw [e0, add_num 4 (by norm_num) b4, add_num 8 (by norm_num) b8, et, et, et, et, add_num 8 (by norm_num) b8,
      add_num 8 (by norm_num) b8, e8]
    change (if (8 : ℝ) = 0 then _ else F.round (8 / 8)) = _
    rw [if_neg (by norm_num), div_self (by norm_num)]
    exact round_bd bd_one
  · have e0 : F.round ((0 : ℚ) : ℝ) = .num 0 := by rw [Rat.cast_zero]; exact round_bd b0
    have e8 : F.round ((8 : ℤ) : ℝ) = .num 8 := by norm_num; exact round_bd b8
    have c1 : Bd (8 + 1 / 2 ^ 20) := bd_div (2 ^ 23 + 1) 20 (by norm_num) (by norm_num) (by norm_num)
    change F.div (F.add (F.add (F.add (F.add (F.add (F.add (F.add (F.add (F.round ((0 : ℚ) : ℝ)) (.num tiny)) (.num tiny)) (.num tiny))
      (.num tiny)) (.num 4)) (.num 4)) (.num 0)) (.num 0)) (F.round ((8 : ℤ) : ℝ)) = _
    rw [e0, add_num (1 / 2 ^ 22) (by unfold tiny; norm_num) (bd_div 1 22 (by norm_num) (by norm_num) (by norm_num)),
      add_num (2 / 2 ^ 22) (by unfold tiny; norm_num) (bd_div 2 22 (by norm_num) (by norm_num) (by norm_num)),
      add_num (3 / 2 ^ 22) (by unfold tiny; norm_num) (bd_div 3 22 (by norm_num) (by norm_num) (by norm_num)),
      add_num (4 / 2 ^ 22) (by unfold tiny; norm_num) (bd_div 4 22 (by norm_num) (by norm_num) (by norm_num)),
      add_num (4 + 1 / 2 ^ 20) (by norm_num) (bd_div (2 ^ 22 + 1) 20 (by norm_num) (by norm_num) (by norm_num)),
      add_num (8 + 1 / 2 ^ 20) (by norm_num) c1, add_num (8 + 1 / 2 ^ 20) (by norm_num) c1,
      add_num (8 + 1 / 2 ^ 20) (by norm_num) c1, e8]
    change (if (8 : ℝ) = 0 then _ else F.round ((8 + 1 / 2 ^ 20) / 8)) = _
    rw [if_neg (by norm_num), show ((8 + 1 / 2 ^ 20) / 8 : ℝ) = 1 + 1 / 2 ^ 23 by norm_num]
    exact round_bd (bd_div (2 ^ 23 + 1) 23 (by norm_num) (by norm_num) (by norm_num))

end Trane.Float
