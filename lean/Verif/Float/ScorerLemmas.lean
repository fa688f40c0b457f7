import Verif.Float.Interval
import Verif.Float.Scorer

/-! # Bounds of every quantity of the scorer in `f32` arithmetic -/

namespace Trane.Float

open Trane.Scorer (Kind satSub)

variable {powf : F → F → F}

/-- Solves `Bd` of an integer. -/
macro "bdi" m:term : term => `(bd_int $m (by norm_num))
/-- Solves `Bd` of `2^k` and its negation. -/
macro "bdp" k:term : term => `(bd_mul 1 $k (by norm_num) (by norm_num) (by norm_num))

theorem lit0 : (f32 powf).lit 0 = .num 0 := by
  rw [lit_bd powf (bd_int 0 (by norm_num))]; norm_num

theorem lit1 : (f32 powf).lit 1 = .num 1 := by
  rw [lit_bd powf (bd_int 1 (by norm_num))]; norm_num

theorem lit_nat (n : ℕ) [n.AtLeastTwo] (h : (OfNat.ofNat n : ℤ) ≤ 2 ^ 24) :
    (f32 powf).lit (OfNat.ofNat n) = .num (OfNat.ofNat n) := by
  rw [lit_bd powf (bd_int (OfNat.ofNat n) (by push_cast; rfl)
    (abs_le.2 ⟨le_trans (by norm_num) (Int.natCast_nonneg n), h⟩))]
  push_cast; rfl

theorem num_in {x : ℝ} (h : Bd x) : In x x (.num x) := in_num h.1 le_rfl le_rfl

theorem gDays_in (a b : ℤ) : In (-2 ^ 47) (2 ^ 47) (gDays (f32 powf) a b) := by
  have h : In (-2 ^ 63) (2 ^ 63) ((f32 powf).ofInt (satSub a b)) := by
    have h1 : -(2 : ℤ) ^ 63 ≤ satSub a b := by unfold satSub; omega
    have h2 : satSub a b ≤ (2 : ℤ) ^ 63 := by unfold satSub; omega
    exact ofInt_in powf (Bd.neg (bdp 63)) (bdp 63) (by exact_mod_cast h1) (by exact_mod_cast h2)
  have h2 : In 86400 86400 ((f32 powf).lit 86400) := by
    rw [lit_nat 86400 (by norm_num)]; exact num_in (bdi 86400)
  exact In.div_abs h h2 (bdp 47) (by norm_num) (by norm_num) (by norm_num)

theorem posDays_in (a b : ℤ) :
    In 0 (2 ^ 47) ((f32 powf).max (gDays (f32 powf) a b) ((f32 powf).lit 0)) := by
  rw [lit0]
  have := (gDays_in (powf := powf) a b).max (num_in bd_zero)
  exact this.mono (le_max_right _ _) (by norm_num)

theorem rpow_unit {z w : ℝ} (h0 : 0 < z) (h1 : z ≤ 1) (h2 : 0 ≤ w) : 0 ≤ z ^ w ∧ z ^ w ≤ 1 :=
  ⟨(Real.rpow_pos_of_pos h0 w).le, Real.rpow_le_one h0.le h1 h2⟩

theorem lit95 : In (1 / 2) 1 ((f32 powf).lit (95 / 100)) :=
  lit_in powf (bd_div 1 1 (by norm_num) (by norm_num) (by norm_num)) bd_one (by norm_num)
    (by norm_num)

theorem lit10 : In (1 / 16) (1 / 8) ((f32 powf).lit (1 / 10)) :=
  lit_in powf (bd_div 1 4 (by norm_num) (by norm_num) (by norm_num))
    (bd_div 1 3 (by norm_num) (by norm_num) (by norm_num)) (by norm_num) (by norm_num)

theorem weight_in (hp : Faithful powf) {y : F} {h : ℝ} (hy : In 0 h y) :
    In (1 / 16) 1 ((f32 powf).max ((f32 powf).powf ((f32 powf).lit (95 / 100)) y)
      ((f32 powf).lit (1 / 10))) := by
  have h1 : In 0 1 (powf ((f32 powf).lit (95 / 100)) y) :=
    powf_in hp lit95 hy bd_zero bd_one (by norm_num) (by norm_num)
      (fun z w h1 h2 h3 _ => rpow_unit (by linarith) h2 h3)
  exact (h1.max lit10).mono (by norm_num) (by norm_num)

theorem gTimeWeight_in (hp : Faithful powf) (a b : ℤ) :
    In (1 / 16) 1 (gTimeWeight (f32 powf) a b) := by
  unfold gTimeWeight
  refine weight_in hp (h := 2 ^ 47) ?_
  have h7 : In 7 7 ((f32 powf).lit 7) := by
    rw [lit_nat 7 (by norm_num)]; exact num_in (bdi 7)
  have h1 := In.div_abs (gDays_in (powf := powf) a b) h7 (b := 2 ^ 47) (bdp 47) (by norm_num) (by norm_num)
    (by norm_num)
  rw [lit0]
  exact (h1.max (num_in bd_zero)).mono (le_max_right _ _) (by norm_num)

theorem gPosWeight_in (hp : Faithful powf) (i : ℕ) (hi : i ≤ 2 ^ 24) :
    In (1 / 16) 1 (gPosWeight (f32 powf) i) := by
  unfold gPosWeight
  refine weight_in hp (h := 2 ^ 24) ?_
  exact ofInt_in powf bd_zero (bdp 24) (by positivity) (by exact_mod_cast hi)

/-! ## Averages -/

/-- The loops of `gAvg`. -/
noncomputable def sums (powf : F → F → F) (ps : List (F × F)) (s : F × F) : F × F :=
  ps.foldl (fun s p => ((f32 powf).add s.1 ((f32 powf).mul p.1 p.2), (f32 powf).add s.2 p.1)) s

theorem bd_scaled (i : ℕ) (k : ℕ) (hi : i ≤ 2 ^ 24) (hk : k ≤ 103) : Bd ((i : ℝ) * 2 ^ k) :=
  bd_mul i k (by push_cast; rfl) (by rw [abs_of_nonneg (by positivity)]; exact_mod_cast hi) hk

theorem sums_in (ps : List (F × F)) (hw : ∀ p ∈ ps, In (1 / 16) 1 p.1 ∧ In (-8) 8 p.2)
    (s : F × F) (i : ℕ) (hi : i + ps.length ≤ 2 ^ 24)
    (h1 : In (-((i : ℝ) * 2 ^ 3)) ((i : ℝ) * 2 ^ 3) s.1) {l : ℝ} (hlb : Bd l)
    (h2 : In l i s.2) :
    In (-(((i + ps.length : ℕ) : ℝ) * 2 ^ 3)) (((i + ps.length : ℕ) : ℝ) * 2 ^ 3)
      (sums powf ps s).1 ∧ In l ((i + ps.length : ℕ) : ℝ) (sums powf ps s).2 := by
  induction ps generalizing s i with
  | nil => exact ⟨h1, h2⟩
  | cons p ps ih =>
    obtain ⟨hp1, hp2⟩ := hw p (by simp)
    simp only [List.length_cons] at hi ⊢
    have e : i + (ps.length + 1) = (i + 1) + ps.length := by omega
    have hb : Bd (((i + 1 : ℕ) : ℝ) * 2 ^ 3) := bd_scaled (i + 1) 3 (by omega) (by norm_num)
    rw [e]
    refine ih (fun q hq => hw q (by simp [hq])) _ (i + 1) (by omega) ?_ ?_
    · have hm : In (-8) 8 ((f32 powf).mul p.1 p.2) :=
        In.mul_abs (hp1.mono (l' := -1) (by norm_num) le_rfl) hp2 (bdi 8) (by norm_num)
      refine In.add h1 hm hb.neg hb ?_ ?_ <;> push_cast <;> linarith
    · have hb1 : Bd ((i + 1 : ℕ) : ℝ) := by
        have := bd_scaled (i + 1) 0 (by omega) (by norm_num)
        simpa using this
      refine In.add h2 hp1 hlb hb1 ?_ ?_ <;> push_cast <;> linarith

theorem gAvg_in {ps : List (F × F)} (hw : ∀ p ∈ ps, In (1 / 16) 1 p.1 ∧ In (-8) 8 p.2)
    (hne : ps ≠ []) (hi : ps.length ≤ 2 ^ 24) : In (-2 ^ 31) (2 ^ 31) (gAvg (f32 powf) ps) := by
  have key : In (-((ps.length : ℝ) * 2 ^ 3)) ((ps.length : ℝ) * 2 ^ 3)
      (sums powf ps (.num 0, .num 0)).1 ∧ In (1 / 16) (ps.length : ℝ)
      (sums powf ps (.num 0, .num 0)).2 := by
    cases ps with
    | nil => exact absurd rfl hne
    | cons p ps =>
      obtain ⟨hp1, hp2⟩ := hw p (by simp)
      simp only [List.length_cons] at hi ⊢
      rw [show ps.length + 1 = 1 + ps.length by omega]
      refine sums_in ps (fun q hq => hw q (by simp [hq])) _ 1 (by omega) ?_
        (bd_div 1 4 (by norm_num) (by norm_num) (by norm_num)) ?_
      · have hm : In (-8) 8 ((f32 powf).mul p.1 p.2) :=
          In.mul_abs (hp1.mono (l' := -1) (by norm_num) le_rfl) hp2 (bdi 8) (by norm_num)
        have := In.add (num_in bd_zero) hm (a := -8) (b := 8) (bdi (-8)) (bdi 8) (by norm_num)
          (by norm_num)
        exact this.mono (by norm_num) (by norm_num)
      · have := In.add (num_in bd_zero) hp1 (a := 1 / 16) (b := 1)
          (bd_div 1 4 (by norm_num) (by norm_num) (by norm_num)) bd_one (by norm_num) (by norm_num)
        exact this.mono le_rfl (by norm_num)
  have hlen : (ps.length : ℝ) ≤ 2 ^ 24 := by exact_mod_cast hi
  show In _ _ (F.div (sums powf ps ((f32 powf).lit 0, (f32 powf).lit 0)).1
    (sums powf ps ((f32 powf).lit 0, (f32 powf).lit 0)).2)
  rw [lit0]
  exact In.div_abs key.1 key.2 (bdp 31) (by norm_num) (by norm_num; linarith) (by norm_num)

/-- With values from 1 on, the first sum is at least the second. -/
theorem sums_ge (ps : List (F × F)) (hw : ∀ p ∈ ps, In (1 / 16) 1 p.1 ∧ In 1 8 p.2)
    (s : F × F) (i : ℕ) (hi : i + ps.length ≤ 2 ^ 24)
    (h : ∃ x y, s = (.num x, .num y) ∧ 0 ≤ y ∧ y ≤ x ∧ x ≤ (i : ℝ) * 2 ^ 3) :
    ∃ x y, sums powf ps s = (.num x, .num y) ∧ y ≤ x := by
  induction ps generalizing s i with
  | nil =>
    obtain ⟨x, y, hs, -, hle, -⟩ := h
    exact ⟨x, y, hs, hle⟩
  | cons p ps ih =>
    obtain ⟨⟨w, hw1, hwr, hw2, hw3⟩, ⟨v, hv1, -, hv2, hv3⟩⟩ := hw p (by simp)
    obtain ⟨x, y, rfl, hy0, hle, hx⟩ := h
    simp only [List.length_cons] at hi
    refine ih (fun q hq => hw q (by simp [hq])) _ (i + 1) (by omega) ?_
    have hw0 : 0 < w := by linarith
    have hm1 : w ≤ w * v := by nlinarith
    have hm2 : w * v ≤ 8 := by nlinarith
    have hb8 : Bd 8 := bdi 8
    have em : (f32 powf).mul p.1 p.2 = .num (rnd (w * v)) := by
      rw [hw1, hv1]
      exact round_num (h := 8) (by norm_num) hb8.1 (abs_le.2 ⟨by linarith, hm2⟩)
    have hr1 : w ≤ rnd (w * v) := le_rnd hwr hm1
    have hr2 : rnd (w * v) ≤ 8 := rnd_le hb8.1 hm2
    have hb : Bd (((i + 1 : ℕ) : ℝ) * 2 ^ 3) := bd_scaled (i + 1) 3 (by omega) (by norm_num)
    have hle1 : x + rnd (w * v) ≤ ((i + 1 : ℕ) : ℝ) * 2 ^ 3 := by push_cast; linarith
    have hB : ((i + 1 : ℕ) : ℝ) * 2 ^ 3 ≤ 2 ^ 127 := (le_abs_self _).trans hb.2
    have e1 : (f32 powf).add (.num x) ((f32 powf).mul p.1 p.2) = .num (rnd (x + rnd (w * v))) := by
      rw [em]
      exact round_num hB hb.1 (abs_le.2 ⟨by linarith, hle1⟩)
    have e2 : (f32 powf).add (.num y) p.1 = .num (rnd (y + w)) := by
      rw [hw1]
      exact round_num hB hb.1 (abs_le.2 ⟨by linarith, by linarith⟩)
    refine ⟨rnd (x + rnd (w * v)), rnd (y + w), ?_, ?_, rnd_mono (by linarith), ?_⟩
    · simp only [e1, e2]
    · exact le_rnd rep_zero (by linarith)
    · exact rnd_le hb.1 hle1

theorem gAvg_ge {ps : List (F × F)} (hw : ∀ p ∈ ps, In (1 / 16) 1 p.1 ∧ In 1 8 p.2)
    (hne : ps ≠ []) (hi : ps.length ≤ 2 ^ 24) : In 1 (2 ^ 31) (gAvg (f32 powf) ps) := by
  have h1 := gAvg_in (powf := powf) (ps := ps)
    (fun p hp => ⟨(hw p hp).1, (hw p hp).2.mono (by norm_num) le_rfl⟩) hne hi
  obtain ⟨z, hz, hzr, hz1, hz2⟩ := h1
  refine ⟨z, hz, hzr, ?_, hz2⟩
  obtain ⟨x, y, hs, hle⟩ := sums_ge (powf := powf) ps hw (.num 0, .num 0) 0 (by simpa using hi)
    ⟨0, 0, rfl, le_rfl, le_rfl, by simp⟩
  have h2 : In (1 / 16) (ps.length : ℝ) (sums powf ps (.num 0, .num 0)).2 := by
    cases ps with
    | nil => exact absurd rfl hne
    | cons p ps =>
      obtain ⟨hp1, hp2⟩ := hw p (by simp)
      simp only [List.length_cons] at hi ⊢
      rw [show ps.length + 1 = 1 + ps.length by omega]
      refine (sums_in ps (fun q hq => ⟨(hw q (by simp [hq])).1,
        (hw q (by simp [hq])).2.mono (by norm_num) le_rfl⟩) _ 1 (by omega) ?_
        (bd_div 1 4 (by norm_num) (by norm_num) (by norm_num)) ?_).2
      · have hm : In (-8) 8 ((f32 powf).mul p.1 p.2) :=
          In.mul_abs (hp1.mono (l' := -1) (by norm_num) le_rfl)
            (hp2.mono (l' := -8) (by norm_num) le_rfl) (bdi 8) (by norm_num)
        have := In.add (num_in bd_zero) hm (a := -8) (b := 8) (bdi (-8)) (bdi 8) (by norm_num)
          (by norm_num)
        exact this.mono (by norm_num) (by norm_num)
      · have := In.add (num_in bd_zero) hp1 (a := 1 / 16) (b := 1)
          (bd_div 1 4 (by norm_num) (by norm_num) (by norm_num)) bd_one (by norm_num) (by norm_num)
        exact this.mono le_rfl (by norm_num)
  have hz' : F.div (sums powf ps ((f32 powf).lit 0, (f32 powf).lit 0)).1
    (sums powf ps ((f32 powf).lit 0, (f32 powf).lit 0)).2 = .num z := hz
  rw [lit0, hs] at hz'
  rw [hs] at h2
  obtain ⟨y', hy', -, hy1, hy2⟩ := h2
  cases hy'
  have hy0 : 0 < y := by linarith
  have hx0 : |x| ≤ (ps.length : ℝ) * 2 ^ 3 := by
    have := (sums_in (powf := powf) ps (fun q hq => ⟨(hw q hq).1,
        (hw q hq).2.mono (by norm_num) le_rfl⟩) (.num 0, .num 0) 0 (by simpa using hi)
        (by simpa using num_in bd_zero) (l := 0) bd_zero (by simpa using num_in bd_zero)).1
    rw [hs] at this
    obtain ⟨x', hx', -, h3, h4⟩ := this
    cases hx'
    simp only [Nat.zero_add] at h3 h4
    exact abs_le.2 ⟨h3, h4⟩
  have hd : F.div (.num x) (.num y) = F.round (x / y) := by
    show (if y = 0 then _ else F.round (x / y)) = _
    rw [if_neg hy0.ne']
  have hlen : (ps.length : ℝ) ≤ 2 ^ 24 := by exact_mod_cast hi
  have hq1 : 1 ≤ x / y := (one_le_div hy0).2 hle
  have hq2 : x / y ≤ 2 ^ 31 := by
    rw [div_le_iff₀ hy0]
    have := (abs_le.1 hx0).2
    nlinarith
  have hin : In 1 (2 ^ 31) (F.round (x / y)) := round_in bd_one (bdp 31) hq1 hq2
  rw [hd] at hz'
  rw [hz'] at hin
  obtain ⟨z', hz'', -, h5, -⟩ := hin
  cases hz''
  exact h5

theorem lit80 : In (3 / 4) 1 ((f32 powf).lit (8 / 10)) :=
  lit_in powf (bd_div 3 2 (by norm_num) (by norm_num) (by norm_num)) bd_one (by norm_num)
    (by norm_num)

theorem lit20 : In (1 / 8) (1 / 4) ((f32 powf).lit (2 / 10)) :=
  lit_in powf (bd_div 1 3 (by norm_num) (by norm_num) (by norm_num))
    (bd_div 1 2 (by norm_num) (by norm_num) (by norm_num)) (by norm_num) (by norm_num)

theorem pairs_in (hp : Faithful powf) {l u : ℝ} {es : List (GEntry F)} (hl : es.length ≤ 2 ^ 24)
    (h : ∀ e ∈ es, In l u e.value) (t : ℤ) :
    (∀ p ∈ es.map (fun x => (gTimeWeight (f32 powf) t x.time, x.value)),
      In (1 / 16) 1 p.1 ∧ In l u p.2) ∧
    (∀ p ∈ es.zipIdx.map (fun x => (gPosWeight (f32 powf) x.2, x.1.value)),
      In (1 / 16) 1 p.1 ∧ In l u p.2) := by
  constructor
  · intro p hp'
    obtain ⟨e, he, rfl⟩ := List.mem_map.1 hp'
    exact ⟨gTimeWeight_in hp _ _, h e he⟩
  · intro p hp'
    obtain ⟨⟨e, i⟩, he, rfl⟩ := List.mem_map.1 hp'
    have := List.mem_zipIdx he
    obtain ⟨h1, h2, h3⟩ := this
    refine ⟨gPosWeight_in hp _ (by simp at h2; omega), ?_⟩
    have hm : e ∈ es := by rw [h3]; exact List.getElem_mem _
    exact h e hm

theorem gWeightedAvg_in (hp : Faithful powf) {es : List (GEntry F)} (hl : es.length ≤ 2 ^ 24)
    (h : ∀ e ∈ es, In (-8) 8 e.value) : In (-2 ^ 32) (2 ^ 32) (gWeightedAvg (f32 powf) es) := by
  cases es with
  | nil =>
    show In _ _ ((f32 powf).lit 0)
    rw [lit0]
    exact (num_in bd_zero).mono (by norm_num) (by norm_num)
  | cons e es =>
    obtain ⟨hp1, hp2⟩ := pairs_in hp hl h e.time
    have h1 := gAvg_in (powf := powf) hp1 (by simp) (by simpa using hl)
    have h2 := gAvg_in (powf := powf) hp2 (by simp) (by simpa using hl)
    have h3 := In.mul_abs (lit80 (powf := powf) |>.mono (l' := -1) (by norm_num) le_rfl) h1
      (b := 2 ^ 31) (bdp 31) (by norm_num)
    have h4 := In.mul_abs (lit20 (powf := powf) |>.mono (l' := -1) (h' := 1) (by norm_num)
      (by norm_num)) h2 (b := 2 ^ 31) (bdp 31) (by norm_num)
    exact In.add h3 h4 (Bd.neg (bdp 32)) (bdp 32) (by norm_num) (by norm_num)

theorem gWeightedAvg_ge (hp : Faithful powf) {es : List (GEntry F)} (hl : es.length ≤ 2 ^ 24)
    (hne : es ≠ []) (h : ∀ e ∈ es, In 1 8 e.value) :
    In (7 / 8) (2 ^ 32) (gWeightedAvg (f32 powf) es) := by
  cases es with
  | nil => exact absurd rfl hne
  | cons e es =>
    obtain ⟨hp1, hp2⟩ := pairs_in hp hl h e.time
    have h1 := gAvg_ge (powf := powf) hp1 (by simp) (by simpa using hl)
    have h2 := gAvg_ge (powf := powf) hp2 (by simp) (by simpa using hl)
    have h3 : In (3 / 4) (2 ^ 31) _ := In.mul (lit80 (powf := powf)) h1
      (bd_div 3 2 (by norm_num) (by norm_num) (by norm_num)) (bdp 31)
      (fun z w a b c d => ⟨by nlinarith, by nlinarith⟩)
    have h4 : In (1 / 8) (2 ^ 31) _ := In.mul (lit20 (powf := powf)) h2
      (bd_div 1 3 (by norm_num) (by norm_num) (by norm_num)) (bdp 31)
      (fun z w a b c d => ⟨by nlinarith, by nlinarith⟩)
    exact In.add h3 h4 (bd_div 7 3 (by norm_num) (by norm_num) (by norm_num)) (bdp 32)
      (by norm_num) (by norm_num)

/-! ## Recall -/

theorem gCurveDecay_in (k : Kind) : In (-(1 / 2)) (-(1 / 8)) (gCurveDecay (f32 powf) k) := by
  cases k
  · exact lit_in powf (bd_div (-1) 1 (by norm_num) (by norm_num) (by norm_num))
      (bd_div (-1) 3 (by norm_num) (by norm_num) (by norm_num)) (by norm_num) (by norm_num)
  · exact lit_in powf (bd_div (-1) 1 (by norm_num) (by norm_num) (by norm_num))
      (bd_div (-1) 3 (by norm_num) (by norm_num) (by norm_num)) (by norm_num) (by norm_num)

theorem abs_neg_in {l h : ℝ} {x : F} (hx : In l h x) (h0 : h ≤ 0) : In (-h) (-l) (F.abs x) := by
  obtain ⟨z, rfl, hz, h3, h4⟩ := hx
  refine ⟨|z|, rfl, ?_, ?_, ?_⟩ <;> rw [abs_of_nonpos (by linarith)]
  · exact hz.neg
  · linarith
  · linarith

theorem gCurveFactor_in (hp : Faithful powf) (k : Kind) :
    In 0 255 (gCurveFactor (f32 powf) k) := by
  have h1 : In (1 / 8) (1 / 2) ((f32 powf).max ((f32 powf).abs (gCurveDecay (f32 powf) k))
      ((f32 powf).lit (1 / 2 ^ 23))) := by
    have ha := abs_neg_in (gCurveDecay_in (powf := powf) k) (by norm_num)
    have hb : In (1 / 2 ^ 23) (1 / 2 ^ 23) ((f32 powf).lit (1 / 2 ^ 23)) :=
      lit_in powf (bd_div 1 23 (by norm_num) (by norm_num) (by norm_num))
        (bd_div 1 23 (by norm_num) (by norm_num) (by norm_num)) (by norm_num) (by norm_num)
    exact (ha.max hb).mono (by norm_num) (by norm_num)
  have hm1 : In (-1) (-1) ((f32 powf).lit (-1)) :=
    lit_in powf (bdi (-1)) (bdi (-1)) (by norm_num) (by norm_num)
  have h2 : In (-8) (-2) ((f32 powf).div ((f32 powf).lit (-1)) _) :=
    In.div hm1 h1 (bdi (-8)) (bdi (-2)) (by norm_num)
      (fun z w a b c d => ⟨by linarith, by linarith⟩)
  have h9 : In (1 / 2) 1 ((f32 powf).lit (9 / 10)) :=
    lit_in powf (bd_div 1 1 (by norm_num) (by norm_num) (by norm_num)) bd_one (by norm_num)
      (by norm_num)
  have h3 : In 1 256 (powf ((f32 powf).lit (9 / 10)) _) :=
    powf_in hp h9 h2 bd_one (bdi 256) (by norm_num) (by norm_num) (fun z w a b c d => by
      have hz : 0 < z := by linarith
      refine ⟨Real.one_le_rpow_of_pos_of_le_one_of_nonpos hz b (by linarith), ?_⟩
      refine (Real.rpow_le_rpow_of_exponent_ge hz b c).trans ?_
      rw [Real.rpow_neg hz.le]
      have e : z ^ (8 : ℝ) = z ^ (8 : ℕ) := by exact_mod_cast Real.rpow_natCast z 8
      rw [e]
      have h8 : (1 / 2 : ℝ) ^ 8 ≤ z ^ 8 := pow_le_pow_left₀ (by norm_num) a 8
      calc (z ^ 8)⁻¹ ≤ ((1 / 2 : ℝ) ^ 8)⁻¹ := inv_anti₀ (by norm_num) h8
        _ = 256 := by norm_num)
  unfold gCurveFactor
  rw [lit1]
  exact In.sub h3 (num_in bd_one) bd_zero (bdi 255) (by norm_num) (by norm_num)

/-- Recall is at least this much, whatever the times. -/
theorem gRetrievability_in (hp : Faithful powf) (k : Kind) {days stability : F}
    (hd : In 0 (2 ^ 47) days) (hs : In (1 / 2) 730 stability) :
    In (1 / 2 ^ 57) 1 (gRetrievability (f32 powf) k days stability) := by
  have hs57 : Bd (1 / 2 ^ 57 : ℝ) := bd_div 1 57 (by norm_num) (by norm_num) (by norm_num)
  have h1 := In.mul_nonneg (gCurveFactor_in hp k) hd (b := 2 ^ 55) (bdp 55) le_rfl le_rfl
    (by norm_num)
  have h2 := In.div_nonneg h1 hs (b := 2 ^ 56) (bdp 56) le_rfl (by norm_num) (by norm_num)
  have h3 := In.add (num_in bd_one) h2 (a := 1) (b := 2 ^ 57) bd_one (bdp 57) (by norm_num)
    (by norm_num)
  have h4 : In (1 / 2 ^ 57) 1 (powf _ (gCurveDecay (f32 powf) k)) :=
    powf_in hp h3 (gCurveDecay_in k) hs57 bd_one (by norm_num) (by norm_num)
      (fun z w a b c d => by
        refine ⟨?_, Real.rpow_le_one_of_one_le_of_nonpos a (by linarith)⟩
        have h5 : z ^ (-1 : ℝ) ≤ z ^ w := Real.rpow_le_rpow_of_exponent_le a (by linarith)
        refine le_trans ?_ h5
        rw [Real.rpow_neg_one, one_div]
        exact inv_anti₀ (by linarith) b)
  unfold gRetrievability
  rw [lit0, lit1]
  exact In.clamp_low powf h4 rep_zero rep_one (by norm_num) (by norm_num)

/-! ## Difficulty and stability -/

theorem gSpacingGain_in (hp : Faithful powf) (k : Kind) {days stability p : F}
    (hd : In 0 (2 ^ 47) days) (hs : In (1 / 2) 730 stability) :
    In 1 2 (gSpacingGain (f32 powf) k days stability p) := by
  unfold gSpacingGain
  split
  · rw [lit1]; exact (num_in bd_one).mono le_rfl (by norm_num)
  · have hr := gRetrievability_in hp k hd hs
    have h65 : In (1 / 2) 1 ((f32 powf).lit (65 / 100)) :=
      lit_in powf (bd_div 1 1 (by norm_num) (by norm_num) (by norm_num)) bd_one (by norm_num)
        (by norm_num)
    rw [lit1]
    have h1 := In.sub (num_in bd_one) hr (a := 0) (b := 1) bd_zero bd_one (by norm_num)
      (by norm_num)
    have h2 := In.mul_nonneg h65 h1 (b := 1) bd_one (by norm_num) le_rfl (by norm_num)
    have h3 := In.add (num_in bd_one) h2 (a := 1) (b := 2) bd_one (bdi 2) (by norm_num)
      (by norm_num)
    have h4 := In.add (num_in bd_one) h65 (a := 1) (b := 2) bd_one (bdi 2) (by norm_num)
      (by norm_num)
    obtain ⟨u, hu, hur, hu1, hu2⟩ := h4
    have hu' : (f32 powf).add (.num 1) ((f32 powf).lit (65 / 100)) = .num u := hu
    rw [hu']
    exact (In.clamp powf h3 rep_one hur hu1).mono le_rfl hu2

theorem lit_clampD {x : F} {l h : ℝ} (hx : In l h x) :
    In 1 10 ((f32 powf).clamp x ((f32 powf).lit 1) ((f32 powf).lit 10)) := by
  rw [lit1, lit_nat 10 (by norm_num)]
  exact In.clamp powf hx rep_one (bd_int (x := 10) 10 (by norm_num)).1 (by norm_num)

theorem gUpdateDifficulty_in {d b s : F} (hd : In 1 10 d) (hb : In 1 10 b) (hs : In 1 5 s) :
    In 1 10 (gUpdateDifficulty (f32 powf) d b s) := by
  unfold gUpdateDifficulty
  have h3 : In 3 3 ((f32 powf).lit 3) := by rw [lit_nat 3 (by norm_num)]; exact num_in (bdi 3)
  have h4 : In 4 4 ((f32 powf).lit 4) := by rw [lit_nat 4 (by norm_num)]; exact num_in (bdi 4)
  have h105 : In (-2) 2 ((f32 powf).lit (105 / 100)) :=
    lit_in powf (bdi (-2)) (bdi 2) (by norm_num) (by norm_num)
  have h16 : In 0 1 ((f32 powf).lit (16 / 100)) :=
    lit_in powf bd_zero bd_one (by norm_num) (by norm_num)
  have e1 := In.sub h3 hs (a := -2) (b := 2) (bdi (-2)) (bdi 2) (by norm_num) (by norm_num)
  have e2 := In.div_abs e1 h4 (b := 1) bd_one (by norm_num) (by norm_num) (by norm_num)
  have e3 := In.mul_abs e2 h105 (b := 2) (bdi 2) (by norm_num)
  have e4 := In.add hd e3 (a := -2) (b := 12) (bdi (-2)) (bdi 12) (by norm_num) (by norm_num)
  have e5 := lit_clampD (powf := powf) e4
  have e6 := In.mul_nonneg h16 hb (b := 10) (bdi 10) le_rfl (by norm_num) (by norm_num)
  have h1 : In 1 1 ((f32 powf).lit 1) := by rw [lit1]; exact num_in bd_one
  have e7 := In.sub h1 h16 (a := 0) (b := 1) bd_zero bd_one (by norm_num) (by norm_num)
  have e8 := In.mul_nonneg e7 e5 (b := 10) (bdi 10) le_rfl (by norm_num) (by norm_num)
  have e9 := In.add e6 e8 (a := 0) (b := 20) bd_zero (bdi 20) (by norm_num) (by norm_num)
  exact lit_clampD e9

theorem gStabilityStep_in (hp : Faithful powf) (k : Kind) {st d s days : F}
    (hst : In (1 / 2) 730 st) (hd : In 1 10 d) (hs : In 1 5 s) (hdays : In 0 (2 ^ 47) days) :
    In (1 / 2) 730 (gStabilityStep (f32 powf) k st d s days) := by
  unfold gStabilityStep
  have h1 : In 1 1 ((f32 powf).lit 1) := by rw [lit1]; exact num_in bd_one
  have h4 : In 4 4 ((f32 powf).lit 4) := by rw [lit_nat 4 (by norm_num)]; exact num_in (bdi 4)
  have h5 : In 5 5 ((f32 powf).lit 5) := by rw [lit_nat 5 (by norm_num)]; exact num_in (bdi 5)
  have h11 : In 11 11 ((f32 powf).lit 11) := by
    rw [lit_nat 11 (by norm_num)]; exact num_in (bdi 11)
  have hhb : Bd (1 / 2 : ℝ) := bd_div 1 1 (by norm_num) (by norm_num) (by norm_num)
  have hh : In (1 / 2) (1 / 2) ((f32 powf).lit (1 / 2)) :=
    lit_in powf hhb hhb (by norm_num) (by norm_num)
  have h25 : In (-4) 4 ((f32 powf).lit (5 / 2)) :=
    lit_in powf (bdi (-4)) (bdi 4) (by norm_num) (by norm_num)
  have e1 := In.sub hs h1 (a := -4) (b := 4) (bdi (-4)) (bdi 4) (by norm_num) (by norm_num)
  have e2 := In.div_abs e1 h4 (b := 1) bd_one (by norm_num) (by norm_num) (by norm_num)
  have e3 := In.sub e2 hh (a := -2) (b := 2) (bdi (-2)) (bdi 2) (by norm_num) (by norm_num)
  have e4 := In.sub h11 hd (a := -16) (b := 16) (bdi (-16)) (bdi 16) (by norm_num) (by norm_num)
  have e5 := In.div_abs e4 h5 (b := 4) (bdi 4) (by norm_num) (by norm_num) (by norm_num)
  have e6 := gSpacingGain_in hp k (p := (f32 powf).sub ((f32 powf).div ((f32 powf).sub s
    ((f32 powf).lit 1)) ((f32 powf).lit 4)) ((f32 powf).lit (1 / 2))) hdays hst
  have e7 := (In.min hdays h1).mono (l' := -1) (h' := 1) (by norm_num) (by norm_num)
  have e8 := In.mul_abs h25 e3 (b := 8) (bdi 8) (by norm_num)
  have e9 := In.mul_abs e8 e5 (b := 32) (bdi 32) (by norm_num)
  have e10 := In.mul_abs e9 (e6.mono (l' := -2) (by norm_num) le_rfl) (b := 64) (bdi 64)
    (by norm_num)
  have e11 := In.mul_abs e10 e7 (b := 64) (bdi 64) (by norm_num)
  have e12 := In.add h1 e11 (a := -128) (b := 128) (bdi (-128)) (bdi 128) (by norm_num)
    (by norm_num)
  have e13 := In.mul_abs (hst.mono (l' := -730) (by norm_num) le_rfl) e12 (b := 2 ^ 20) (bdp 20)
    (by norm_num)
  have eh : (f32 powf).lit (1 / 2) = .num (1 / 2) := by
    have := lit_bd powf (q := 1 / 2) (by push_cast; exact hhb)
    rw [this]; push_cast; rfl
  rw [eh, lit_nat 730 (by norm_num)]
  rw [eh] at e13
  exact In.clamp powf e13 hhb.1 (bd_int (x := 730) 730 (by norm_num)).1 (by norm_num)

theorem gEstimateDifficulty_in {trials : List (GEntry F)} (hl : trials.length ≤ 2 ^ 24) :
    In 1 10 (gEstimateDifficulty (f32 powf) trials) := by
  unfold gEstimateDifficulty
  split
  · rw [lit_nat 5 (by norm_num)]
    exact (num_in (bdi 5)).mono (by norm_num) (by norm_num)
  · rename_i hne
    have hpos : 0 < trials.length := by
      cases trials with
      | nil => simp at hne
      | cons _ _ => simp
    set n := trials.length
    set f := (trials.filter (fun t => (f32 powf).lt t.value ((f32 powf).lit 3))).length
    have hf : f ≤ n := List.length_filter_le _ _
    have hbn : Bd (n : ℝ) := by simpa using bd_scaled n 0 hl (by norm_num)
    have hn : In n n ((f32 powf).ofInt n) := ofInt_in powf hbn hbn (by simp) (by simp)
    have hfi : In 0 n ((f32 powf).ofInt f) :=
      ofInt_in powf bd_zero hbn (by positivity) (by exact_mod_cast hf)
    have hn0 : (0 : ℝ) < n := by exact_mod_cast hpos
    have e1 := In.div_nonneg hfi hn (b := 1) bd_one le_rfl hn0 (by linarith)
    have h9 : In 9 9 ((f32 powf).lit 9) := by rw [lit_nat 9 (by norm_num)]; exact num_in (bdi 9)
    have e2 := In.mul_nonneg e1 h9 (b := 9) (bdi 9) le_rfl (by norm_num) (by norm_num)
    have h1 : In 1 1 ((f32 powf).lit 1) := by rw [lit1]; exact num_in bd_one
    have e3 := In.add h1 e2 (a := 1) (b := 10) bd_one (bdi 10) (by norm_num) (by norm_num)
    exact lit_clampD e3

theorem gReplay_in (hp : Faithful powf) (k : Kind) (l : List (GEntry F))
    (h : ∀ t ∈ l, In 1 5 t.value) (r : GReplay F) (h1 : In (1 / 2) 730 r.stability)
    (h2 : In 1 10 r.difficulty) :
    In (1 / 2) 730 (l.foldl (gReplayStep (f32 powf) k) r).stability := by
  induction l generalizing r with
  | nil => exact h1
  | cons t l ih =>
    refine ih (fun u hu => h u (by simp [hu])) _ ?_ ?_
    · unfold gReplayStep
      cases r.previous with
      | none => exact h1
      | some p => exact gStabilityStep_in hp k h1 h2 (h t (by simp)) (posDays_in _ _)
    · unfold gReplayStep
      cases r.previous with
      | none => exact h2
      | some p =>
        refine gUpdateDifficulty_in h2 ?_ (h t (by simp))
        rw [lit_nat 5 (by norm_num)]
        exact (num_in (bdi 5)).mono (by norm_num) (by norm_num)

theorem gComputeStability_in (hp : Faithful powf) (k : Kind) (l : List (GEntry F))
    (h : ∀ t ∈ l, In 1 5 t.value) {base : F} (hb : In 1 10 base) :
    In (1 / 2) 730 (gComputeStability (f32 powf) k l base) := by
  refine gReplay_in hp k _ (fun t ht => h t (List.mem_reverse.1 ht)) _ ?_ hb
  rw [lit1]
  exact (num_in bd_one).mono (by norm_num) (by norm_num)

theorem gOldGoodFloor_in {r w d : F} {n : ℕ} {l : ℝ} (hr : In l 1 r) :
    In l 1 (gOldGoodFloor (f32 powf) r w d n) := by
  unfold gOldGoodFloor
  split
  · have hb : Bd (3 / 4 : ℝ) := bd_div 3 2 (by norm_num) (by norm_num) (by norm_num)
    have h34 : In (3 / 4) (3 / 4) ((f32 powf).lit (3 / 4)) :=
      lit_in powf hb hb (by norm_num) (by norm_num)
    exact (hr.max h34).mono (le_max_left _ _) (by norm_num)
  · exact hr

theorem gComputeDelta_in (hp : Faithful powf) {ds : List (GEntry F)} (hl : ds.length ≤ 2 ^ 24)
    (h : ∀ e ∈ ds, In (-8) 8 e.value) {r : F} (hr : In 0 1 r) :
    In (-2 ^ 32) (2 ^ 32) (gComputeDelta (f32 powf) ds r) := by
  unfold gComputeDelta
  split
  · rw [lit0]; exact (num_in bd_zero).mono (by norm_num) (by norm_num)
  · have h4 : In 4 4 ((f32 powf).lit 4) := by rw [lit_nat 4 (by norm_num)]; exact num_in (bdi 4)
    have e1 := In.mul_abs (gWeightedAvg_in hp hl h) (hr.mono (l' := -1) (by norm_num) le_rfl)
      (b := 2 ^ 32) (bdp 32) (by norm_num)
    exact In.div_abs e1 h4 (bdp 32) (by norm_num) (by norm_num) (by norm_num)

/-! ## Velocity -/

theorem gVelocitySums_in (o : ℤ) (l : List (GEntry F)) (h : ∀ t ∈ l, In (-8) 8 t.value)
    (i : ℕ) (hi : i + l.length ≤ 2 ^ 24) (a : GSums F)
    (h1 : In (-((i : ℝ) * 2 ^ 47)) ((i : ℝ) * 2 ^ 47) a.t)
    (h2 : In (-((i : ℝ) * 2 ^ 3)) ((i : ℝ) * 2 ^ 3) a.s)
    (h3 : In (-((i : ℝ) * 2 ^ 50)) ((i : ℝ) * 2 ^ 50) a.ts)
    (h4 : In (-((i : ℝ) * 2 ^ 94)) ((i : ℝ) * 2 ^ 94) a.tt) :
    let b := l.foldl (gVelocityStep (f32 powf) o) a
    let n : ℝ := ((i + l.length : ℕ) : ℝ)
    In (-(n * 2 ^ 47)) (n * 2 ^ 47) b.t ∧ In (-(n * 2 ^ 3)) (n * 2 ^ 3) b.s ∧
      In (-(n * 2 ^ 50)) (n * 2 ^ 50) b.ts ∧ In (-(n * 2 ^ 94)) (n * 2 ^ 94) b.tt := by
  induction l generalizing i a with
  | nil => exact ⟨h1, h2, h3, h4⟩
  | cons x l ih =>
    simp only [List.length_cons] at hi ⊢
    rw [show i + (l.length + 1) = (i + 1) + l.length by omega]
    have hb : ∀ k, k ≤ 103 → Bd (((i + 1 : ℕ) : ℝ) * 2 ^ k) :=
      fun k hk => bd_scaled (i + 1) k (by omega) hk
    have ht := gDays_in (powf := powf) x.time o
    have hv := h x (by simp)
    refine ih (fun u hu => h u (by simp [hu])) (i + 1) (by omega) _ ?_ ?_ ?_ ?_
    · refine In.add h1 ht (hb 47 (by norm_num)).neg (hb 47 (by norm_num)) ?_ ?_ <;>
        push_cast <;> linarith
    · refine In.add h2 hv (hb 3 (by norm_num)).neg (hb 3 (by norm_num)) ?_ ?_ <;>
        push_cast <;> linarith
    · have hm := In.mul_abs ht hv (b := 2 ^ 50) (bdp 50) (by norm_num)
      refine In.add h3 hm (hb 50 (by norm_num)).neg (hb 50 (by norm_num)) ?_ ?_ <;>
        push_cast <;> linarith
    · have hm := In.mul_abs ht ht (b := 2 ^ 94) (bdp 94) (by norm_num)
      refine In.add h4 hm (hb 94 (by norm_num)).neg (hb 94 (by norm_num)) ?_ ?_ <;>
        push_cast <;> linarith

theorem div_far {x y : F} {c : ℝ} (hx : In (-c) c x) {l h : ℝ} (hy : In l h y)
    (hfar : ∀ w, y = .num w → 1 / 2 ^ 23 ≤ |w|) {b : ℝ} (hb : Bd b) (h2 : c ≤ b * (1 / 2 ^ 23))
    (hb0 : 0 ≤ b) : In (-b) b (F.div x y) := by
  obtain ⟨z, rfl, -, h3, h4⟩ := hx
  obtain ⟨w, rfl, -, -, -⟩ := hy
  have hw := hfar w rfl
  have hw0 : 0 < |w| := lt_of_lt_of_le (by norm_num) hw
  have hd : F.div (.num z) (.num w) = F.round (z / w) := by
    show (if w = 0 then _ else F.round (z / w)) = _
    rw [if_neg (abs_pos.1 hw0)]
  rw [hd]
  have : |z / w| ≤ b := by
    rw [abs_div, div_le_iff₀ hw0]
    have hz : |z| ≤ c := abs_le.2 ⟨h3, h4⟩
    calc |z| ≤ c := hz
      _ ≤ b * (1 / 2 ^ 23) := h2
      _ ≤ b * |w| := by gcongr
  exact round_in hb.neg hb (abs_le.1 this).1 (abs_le.1 this).2

theorem gVelocity_in {l : List (GEntry F)} (h : ∀ t ∈ l, In (-8) 8 t.value)
    (hl : l.length ≤ 2 ^ 12) {v : F} (hv : gVelocity (f32 powf) l = some v) :
    In (-2 ^ 100) (2 ^ 100) v := by
  unfold gVelocity at hv
  split at hv
  · cases hv
  · split at hv
    · cases hv
    · rename_i o ho
      obtain ⟨h1, h2, h3, h4⟩ := gVelocitySums_in (powf := powf) o.time l h 0 (by omega)
        ⟨(f32 powf).lit 0, (f32 powf).lit 0, (f32 powf).lit 0, (f32 powf).lit 0⟩
        (by rw [lit0]; simpa using num_in bd_zero) (by rw [lit0]; simpa using num_in bd_zero)
        (by rw [lit0]; simpa using num_in bd_zero) (by rw [lit0]; simpa using num_in bd_zero)
      simp only [Nat.zero_add] at h1 h2 h3 h4
      have hn : (l.length : ℝ) ≤ 2 ^ 12 := by exact_mod_cast hl
      have h1 := h1.mono (l' := -2 ^ 59) (h' := 2 ^ 59) (by linarith) (by linarith)
      have h2 := h2.mono (l' := -2 ^ 15) (h' := 2 ^ 15) (by linarith) (by linarith)
      have h3 := h3.mono (l' := -2 ^ 62) (h' := 2 ^ 62) (by linarith) (by linarith)
      have h4 := h4.mono (l' := -2 ^ 106) (h' := 2 ^ 106) (by linarith) (by linarith)
      have b118 : Bd ((2 : ℝ) ^ 118) := bd_mul (2 ^ 15) 103 (by norm_num) (by norm_num) (by norm_num)
      have b119 : Bd ((2 : ℝ) ^ 119) := bd_mul (2 ^ 16) 103 (by norm_num) (by norm_num) (by norm_num)
      have hN : In (-2 ^ 12) (2 ^ 12) ((f32 powf).ofInt l.length) :=
        ofInt_in powf (Bd.neg (bdp 12)) (bdp 12)
          (by have : (0 : ℝ) ≤ ((l.length : ℤ) : ℝ) := by positivity
              linarith) (by exact_mod_cast hl)
      have d1 := In.mul_abs hN h4 b118 (by norm_num)
      have d2 := In.mul_abs h1 h1 b118 (by norm_num)
      have d3 := In.sub d1 d2 b119.neg b119 (by norm_num) (by norm_num)
      have n1 := In.mul_abs hN h3 (b := 2 ^ 74) (bdp 74) (by norm_num)
      have n2 := In.mul_abs h1 h2 (b := 2 ^ 74) (bdp 74) (by norm_num)
      have n3 := In.sub n1 n2 (a := -2 ^ 75) (b := 2 ^ 75) (Bd.neg (bdp 75)) (bdp 75) (by norm_num)
        (by norm_num)
      dsimp only at hv
      split at hv
      · cases hv
        rw [lit0]
        exact (num_in bd_zero).mono (by norm_num) (by norm_num)
      · rename_i hc
        cases hv
        refine div_far n3 d3 ?_ (bdp 100) (by norm_num) (by norm_num)
        intro w hw
        have hw' : (f32 powf).sub ((f32 powf).mul ((f32 powf).ofInt l.length)
          (l.foldl (gVelocityStep (f32 powf) o.time) ⟨(f32 powf).lit 0, (f32 powf).lit 0,
            (f32 powf).lit 0, (f32 powf).lit 0⟩).tt)
          ((f32 powf).mul (l.foldl (gVelocityStep (f32 powf) o.time) ⟨(f32 powf).lit 0,
            (f32 powf).lit 0, (f32 powf).lit 0, (f32 powf).lit 0⟩).t
            (l.foldl (gVelocityStep (f32 powf) o.time) ⟨(f32 powf).lit 0, (f32 powf).lit 0,
            (f32 powf).lit 0, (f32 powf).lit 0⟩).t) = .num w := hw
        rw [hw'] at hc
        have he : (f32 powf).lit (1 / 2 ^ 23) = .num (1 / 2 ^ 23) := by
          have := lit_bd powf (q := 1 / 2 ^ 23)
            (bd_div 1 23 (by norm_num) (by norm_num) (by norm_num))
          rw [this]; push_cast; rfl
        rw [he] at hc
        have hc' : ¬ (decide (|w| < 1 / 2 ^ 23) = true) := hc
        simpa using hc'

end Trane.Float
