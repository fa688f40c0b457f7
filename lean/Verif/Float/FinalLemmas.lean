import Verif.Float.RewardNear
import Verif.Top.GradeFormula

/-! # When rewards count, and the score with them, in `f32` arithmetic -/

namespace Trane.Float

open Trane.Scorer (Kind Entry)

variable {powf : F → F → F}

theorem decay_left {inRange : ℤ → Bool} {now : ℤ} {r : GReward ℝ} (h : inRange r.time = true) :
    gDecay exact inRange r.time now = Formula.left now (toReward r) := by
  have h1 := gDecay_exact inRange now r
  have h2 := Formula.decay_eq now inRange (toReward r) h
  simp only [RewardScorer.decayed] at h2
  rw [h1]
  have h3 := Formula.decay_eq now inRange ⟨1, 1, r.time⟩ h
  simp only [RewardScorer.decayed, Prod.mk.injEq, one_mul] at h3
  exact h3.1

/-- A week: the machine takes it for passed exactly when it has. -/
theorem seven_days {now t : ℤ} (h1 : |now| ≤ 2 ^ 62) (h2 : |t| ≤ 2 ^ 62) :
    (f32 powf).lt ((f32 powf).div ((f32 powf).ofInt (now - t)) ((f32 powf).lit 86400)) ((f32 powf).lit 7) =
      decide ((now : ℝ) - (t : ℝ) < 7 * 86400) := by
  have hlt : ∀ x y : ℝ, (f32 powf).lt (.num x) (.num y) = decide (x < y) := fun _ _ => rfl
  have h86 : (f32 powf).lit 86400 = .num 86400 := litn (powf := powf) 86400 (by norm_num)
  have h7 : (f32 powf).lit 7 = .num 7 := litn (powf := powf) 7 (by norm_num)
  have hdiv : ∀ z : ℝ, (f32 powf).div (.num z) (.num 86400) = F.round (z / 86400) := by
    intro z
    show (if (86400 : ℝ) = 0 then _ else F.round (z / 86400)) = _
    rw [if_neg (by norm_num)]
  have a1 := abs_le.1 h1
  have a2 := abs_le.1 h2
  have ecast : (now : ℝ) - (t : ℝ) = ((now - t : ℤ) : ℝ) := by push_cast; ring
  rw [ecast]
  have hlo : -(2 : ℤ) ^ 63 ≤ now - t := by omega
  have hhi : now - t ≤ (2 : ℤ) ^ 63 := by omega
  generalize now - t = D at *
  rw [h86, h7]
  rcases le_or_gt 604800 D with h | h
  · obtain ⟨z, hz, -, hz1, hz2⟩ : In 604800 (2 ^ 63) ((f32 powf).ofInt D) :=
      ofInt_in powf (bd_int 604800 (by norm_num)) (bdp 63) (by exact_mod_cast h) (by exact_mod_cast hhi)
    obtain ⟨y, hy, -, hy1, -⟩ : In 7 (2 ^ 63) (F.round (z / 86400)) :=
      round_in (bdi 7) (bdp 63) (by rw [le_div_iff₀ (by norm_num)]; linarith)
        (by rw [div_le_iff₀ (by norm_num)]; linarith)
    have hr : (604800 : ℝ) ≤ D := by exact_mod_cast h
    rw [hz, hdiv, hy, hlt]
    have p1 : ¬ y < 7 := not_lt.2 hy1
    have p2 : ¬ (D : ℝ) < 7 * 86400 := by rw [not_lt]; linarith
    simp [p1, p2]
  · have hr : (D : ℝ) ≤ 604799 := by exact_mod_cast (by omega : D ≤ 604799)
    have p2 : (D : ℝ) < 7 * 86400 := by linarith
    obtain ⟨z, hz, -, hz1, hz2⟩ : In (-2 ^ 63) 604799 ((f32 powf).ofInt D) :=
      ofInt_in powf (Bd.neg (bdp 63)) (bd_int 604799 (by norm_num)) (by exact_mod_cast hlo) hr
    obtain ⟨y, hy, -, -, hy1⟩ : In (-2 ^ 63) (917503 / 2 ^ 17) (F.round (z / 86400)) :=
      round_in (Bd.neg (bdp 63)) (bd_div 917503 17 (by norm_num) (by norm_num) (by norm_num))
        (by rw [le_div_iff₀ (by norm_num)]; linarith)
        (by rw [div_le_iff₀ (by norm_num)]; norm_num; linarith)
    rw [hz, hdiv, hy, hlt]
    have p1 : y < 7 := lt_of_le_of_lt hy1 (by norm_num)
    simp [p1, p2]

/-- The average of the last three grades: on the same side of 3 and of 3.5. -/
theorem last_three {a b c : ℤ} (ha : 1 ≤ a ∧ a ≤ 5) (hb : 1 ≤ b ∧ b ≤ 5) (hc : 1 ≤ c ∧ c ≤ 5) :
    ∃ y, (f32 powf).div ((f32 powf).add ((f32 powf).add ((f32 powf).add ((f32 powf).lit 0) (.num a)) (.num b))
        (.num c)) ((f32 powf).lit 3) = .num y ∧
      (y < 3 ↔ ((a : ℝ) + b + c) / 3 < 3) ∧ (7 / 2 < y ↔ 7 / 2 < ((a : ℝ) + b + c) / 3) := by
  have hadd : ∀ m n : ℤ, 0 ≤ m → m ≤ 10 → 1 ≤ n → n ≤ 5 →
      (f32 powf).add (.num (m : ℝ)) (.num (n : ℝ)) = .num ((m + n : ℤ) : ℝ) := by
    intro m n h1 h2 h3 h4
    show F.round ((m : ℝ) + n) = _
    rw [← Int.cast_add]
    exact round_bd (bd_int (m + n) rfl (by rw [abs_of_nonneg (by omega)]; omega))
  have h0 : (f32 powf).lit 0 = .num ((0 : ℤ) : ℝ) := by rw [lit0]; simp
  have h3 : (f32 powf).lit 3 = .num 3 := litn (powf := powf) 3 (by norm_num)
  have hdiv : ∀ z : ℝ, (f32 powf).div (.num z) (.num 3) = F.round (z / 3) := by
    intro z
    show (if (3 : ℝ) = 0 then _ else F.round (z / 3)) = _
    rw [if_neg (by norm_num)]
  rw [h0, hadd 0 a (by omega) (by omega) ha.1 ha.2, hadd (0 + a) b (by omega) (by omega) hb.1 hb.2,
    hadd (0 + a + b) c (by omega) (by omega) hc.1 hc.2, h3, hdiv]
  have e : ((a : ℝ) + b + c) = ((0 + a + b + c : ℤ) : ℝ) := by push_cast; ring
  rw [e]
  have hS1 : 3 ≤ 0 + a + b + c := by omega
  have hS2 : 0 + a + b + c ≤ 15 := by omega
  generalize 0 + a + b + c = S at *
  have r1 : (3 : ℝ) ≤ S := by exact_mod_cast hS1
  have r2 : (S : ℝ) ≤ 15 := by exact_mod_cast hS2
  have hin : ∀ {l h : ℝ}, Bd l → Bd h → 3 * l ≤ S → (S : ℝ) ≤ 3 * h → In l h (F.round ((S : ℝ) / 3)) := by
    intro l h hl hh q1 q2
    exact round_in hl hh (by rw [le_div_iff₀ (by norm_num)]; linarith) (by rw [div_le_iff₀ (by norm_num)]; linarith)
  rcases (by omega : S ≤ 8 ∨ (9 ≤ S ∧ S ≤ 10) ∨ 11 ≤ S) with h | ⟨h, h'⟩ | h
  · have q : (S : ℝ) ≤ 8 := by exact_mod_cast h
    obtain ⟨y, hy, -, y1, y2⟩ := hin (l := 0) (h := 11 / 4) bd_zero
      (bd_div 11 2 (by norm_num) (by norm_num) (by norm_num)) (by linarith) (by linarith)
    refine ⟨y, hy, ⟨fun _ => ?_, fun _ => by linarith⟩, ⟨fun _ => by linarith, fun g => ?_⟩⟩
    · rw [div_lt_iff₀ (by norm_num)]; linarith
    · rw [lt_div_iff₀ (by norm_num)] at g; linarith
  · have q : (9 : ℝ) ≤ S := by exact_mod_cast h
    have q' : (S : ℝ) ≤ 10 := by exact_mod_cast h'
    obtain ⟨y, hy, -, y1, y2⟩ := hin (l := 3) (h := 7 / 2) (bdi 3)
      (bd_div 7 1 (by norm_num) (by norm_num) (by norm_num)) (by linarith) (by linarith)
    refine ⟨y, hy, ⟨fun _ => by linarith, fun g => ?_⟩, ⟨fun _ => by linarith, fun g => ?_⟩⟩
    · rw [div_lt_iff₀ (by norm_num)] at g; linarith
    · rw [lt_div_iff₀ (by norm_num)] at g; linarith
  · have q : (11 : ℝ) ≤ S := by exact_mod_cast h
    obtain ⟨y, hy, -, y1, y2⟩ := hin (l := 29 / 8) (h := 5)
      (bd_div 29 3 (by norm_num) (by norm_num) (by norm_num)) (bdi 5) (by linarith) (by linarith)
    refine ⟨y, hy, ⟨fun _ => by linarith, fun g => ?_⟩, ⟨fun _ => ?_, fun g => by linarith⟩⟩
    · rw [div_lt_iff₀ (by norm_num)] at g; linarith
    · rw [lt_div_iff₀ (by norm_num)]; linarith

/-- Grades that are whole numbers from 1 to 5. -/
def WholeGrades (trials : List (GEntry ℝ)) : Prop := ∀ e ∈ trials, ∃ n : ℤ, e.value = n ∧ 1 ≤ n ∧ n ≤ 5

/-- The machine applies the reward it computed exactly when the documented rule would apply that number. -/
theorem apply_counts {now : ℤ} (hn : |now| ≤ 2 ^ 62) (trials : List (GEntry ℝ)) (hg : WholeGrades trials)
    (ht : ∀ e ∈ trials, |e.time| ≤ 2 ^ 62) (r : ℝ) :
    gApplyReward (f32 powf) now (.num r) (stored trials) = true ↔ Formula.Counts now r (trials.map toEntry) := by
  have hlt : ∀ x y : ℝ, (f32 powf).lt (.num x) (.num y) = decide (x < y) := fun _ _ => rfl
  match trials with
  | [] => simp [gApplyReward, Formula.Counts, stored]
  | [_] => simp [gApplyReward, Formula.Counts, stored]
  | [_, _] => simp [gApplyReward, Formula.Counts, stored]
  | a :: b :: c :: ts =>
    obtain ⟨na, ea, ha⟩ := hg a (by simp)
    obtain ⟨nb, eb, hb⟩ := hg b (by simp)
    obtain ⟨nc, ec, hc⟩ := hg c (by simp)
    obtain ⟨y, hy, hy3, hy35⟩ := last_three (powf := powf) ha hb hc
    have h35 : (f32 powf).lit (7 / 2) = .num (7 / 2) := by
      have := lit_bd powf (q := 7 / 2) (bd_div 7 1 (by norm_num) (by norm_num) (by norm_num))
      simpa using this
    have h7 := seven_days (powf := powf) hn (ht a (by simp))
    unfold gApplyReward stored
    simp only [List.map_cons, List.length_cons, List.take_succ_cons, List.take_zero, List.foldl_cons, List.foldl_nil]
    rw [if_neg (by omega)]
    rw [ea, eb, ec, hy, h7, h35, litn 3 (by norm_num), lit0, hlt, hlt, hlt, hlt]
    simp only [Formula.Counts, toEntry, ea, eb, ec]
    have d3 : decide (y < 3) = decide (((na : ℝ) + nb + nc) / 3 < 3) := by simp only [hy3]
    have d35 : decide (7 / 2 < y) = decide (7 / 2 < ((na : ℝ) + nb + nc) / 3) := by simp only [hy35]
    rw [d3, d35]
    generalize ((na : ℝ) + nb + nc) / 3 = avg
    by_cases hw : (now : ℝ) - (a.time : ℝ) < 7 * 86400
    · simp only [hw, decide_true, Bool.and_true, forall_const, Bool.and_eq_true, decide_eq_true_eq]
      split_ifs with g1 g2
      · simp only [Bool.false_eq_true, false_iff, not_and]
        intro h; exact absurd (h g1.1) (not_le.2 g1.2)
      · simp only [Bool.false_eq_true, false_iff, not_and]
        intro _ h; exact absurd (h g2.1) (not_le.2 g2.2)
      · simp only [true_iff]
        exact ⟨fun h => not_lt.1 (fun h' => g1 ⟨h, h'⟩), fun h => not_lt.1 (fun h' => g2 ⟨h, h'⟩)⟩
    · simp [hw]

/-- The rule for two rewards that are close: it agrees, or both are next to 0. -/
theorem counts_close {now : ℤ} {r R c : ℝ} (h : |r - R| ≤ c) (trials : List Entry) :
    (Formula.Counts now r trials ↔ Formula.Counts now R trials) ∨ (|r| ≤ c ∧ |R| ≤ c) := by
  have hb := abs_le.1 h
  by_cases hr : |r| ≤ c ∧ |R| ≤ c
  · exact Or.inr hr
  left
  have hs : (0 < r ↔ 0 < R) ∧ (r < 0 ↔ R < 0) := by
    by_contra hc
    apply hr
    rcases lt_trichotomy r 0 with h1 | h1 | h1 <;> rcases lt_trichotomy R 0 with h2 | h2 | h2
    all_goals first
      | exact absurd ⟨⟨fun _ => by linarith, fun _ => by linarith⟩, ⟨fun _ => by linarith, fun _ => by linarith⟩⟩ hc
      | exact ⟨abs_le.2 ⟨by linarith, by linarith⟩, abs_le.2 ⟨by linarith, by linarith⟩⟩
  match trials with
  | [] => exact Iff.rfl
  | [_] => exact Iff.rfl
  | [_, _] => exact Iff.rfl
  | a :: b :: c :: ts => simp only [Formula.Counts, hs.1, hs.2]

open Classical in
/-- The score with the reward, from numbers that are close. -/
theorem final_near {now : ℤ} (hn : |now| ≤ 2 ^ 62) (trials : List (GEntry ℝ)) (hg : WholeGrades trials)
    (ht : ∀ e ∈ trials, |e.time| ≤ 2 ^ 62) {v V r R ε c : ℝ} (hv : |v - V| ≤ ε) (hε : ε ≤ 1) (hV : 0 ≤ V ∧ V ≤ 5)
    (hr : |r - R| ≤ c) (hc : c ≤ 1) (hR : |R| ≤ 5) :
    ∃ z, (if gApplyReward (f32 powf) now (.num r) (stored trials) = true
        then (f32 powf).clamp ((f32 powf).add (.num v) (.num r)) ((f32 powf).lit 0) ((f32 powf).lit 5)
        else .num v) = .num z ∧
      |z - (if Formula.Counts now R (trials.map toEntry) then Formula.within 0 5 (V + R) else V)| ≤
        ε + c + 12 / 2 ^ 24 := by
  have hε0 : 0 ≤ ε := (abs_nonneg _).trans hv
  have hc0 : 0 ≤ c := (abs_nonneg _).trans hr
  have bv := abs_le.1 hv
  have br := abs_le.1 hr
  have bR := abs_le.1 hR
  have h5 : (f32 powf).lit 5 = .num 5 := litn (powf := powf) 5 (by norm_num)
  have hw : ∀ x, Formula.within 0 5 x = Scorer.clamp x 0 5 := fun x => (Formula.clamp_within (by norm_num) x).symm
  have hself : Scorer.clamp V 0 5 = V := by
    unfold Scorer.clamp
    rw [if_neg (by linarith), if_neg (by linarith)]
  have hsum : |v + r| ≤ 12 := abs_le.2 ⟨by linarith, by linarith⟩
  obtain ⟨y, hy, hyn⟩ := round_near_abs hsum (by norm_num) (by norm_num)
  have hy' : (f32 powf).add (.num v) (.num r) = .num y := hy
  have byn := abs_le.1 hyn
  have hiff := apply_counts (powf := powf) hn trials hg ht r
  rw [lit0, h5, hy', clamp_num_val, hw]
  rcases counts_close (now := now) hr (trials.map toEntry) with hcc | ⟨hr0, hR0⟩
  · by_cases hC : Formula.Counts now R (trials.map toEntry)
    · rw [if_pos (hiff.2 (hcc.2 hC)), if_pos hC]
      refine ⟨_, rfl, (clamp_close _ _).trans (abs_le.2 ⟨by linarith, by linarith⟩)⟩
    · rw [if_neg (fun h => hC (hcc.1 (hiff.1 h))), if_neg hC]
      exact ⟨_, rfl, hv.trans (by norm_num; linarith)⟩
  · have b1 := abs_le.1 hr0
    have b2 := abs_le.1 hR0
    have hexact : |(if Formula.Counts now R (trials.map toEntry) then Scorer.clamp (V + R) 0 5 else V) - V| ≤ c ∧
        ((if Formula.Counts now R (trials.map toEntry) then Scorer.clamp (V + R) 0 5 else V) =
          Scorer.clamp (V + R) 0 5 ∨
         (if Formula.Counts now R (trials.map toEntry) then Scorer.clamp (V + R) 0 5 else V) = V) := by
      split
      · refine ⟨?_, Or.inl rfl⟩
        nth_rewrite 2 [← hself]
        refine (clamp_close _ _).trans ?_
        rw [add_sub_cancel_left]
        exact hR0
      · exact ⟨by simpa using hc0, Or.inr rfl⟩
    obtain ⟨hx, hcase⟩ := hexact
    generalize (if Formula.Counts now R (trials.map toEntry) then Scorer.clamp (V + R) 0 5 else V) = X at *
    have bx := abs_le.1 hx
    by_cases hm : gApplyReward (f32 powf) now (.num r) (stored trials) = true
    · rw [if_pos hm]
      refine ⟨_, rfl, ?_⟩
      rcases hcase with rfl | rfl
      · exact (clamp_close _ _).trans (abs_le.2 ⟨by linarith, by linarith⟩)
      · rw [← hself]
        exact (clamp_close _ _).trans (abs_le.2 ⟨by linarith, by linarith⟩)
    · rw [if_neg hm]
      have : (0 : ℝ) ≤ 12 / 2 ^ 24 := by norm_num
      exact ⟨_, rfl, abs_le.2 ⟨by linarith, by linarith⟩⟩

end Trane.Float
