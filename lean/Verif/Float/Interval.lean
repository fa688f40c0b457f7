import Verif.Float.F32

/-!
# Bounds of `f32` computations

As rounding keeps the order and leaves `f32` numbers alone, bounds by `f32` numbers that hold of the exact result
hold of the computed one.
-/

namespace Trane.Float

/-- The value is a number, not NaN and not infinite, and lies between the bounds. -/
def In (lo hi : ℝ) (a : F) : Prop := ∃ z, a = .num z ∧ Rep z ∧ lo ≤ z ∧ z ≤ hi

/-- A bound: an `f32` number that is not too large. -/
def Bd (x : ℝ) : Prop := Rep x ∧ |x| ≤ 2 ^ 127

theorem bd_div {x : ℝ} (m : ℤ) (k : ℕ) (h : x = m / 2 ^ k) (hm : |m| ≤ 2 ^ 24) (hk : k ≤ 149) :
    Bd x := by
  subst h
  refine ⟨rep_div hm hk, ?_⟩
  rw [abs_div, abs_of_pos (by positivity : (0:ℝ) < 2 ^ k), div_le_iff₀ (by positivity)]
  have h1 : |(m : ℝ)| ≤ 2 ^ 24 := by exact_mod_cast hm
  have h2 : (1 : ℝ) ≤ 2 ^ k := one_le_pow₀ (by norm_num)
  calc |(m : ℝ)| ≤ 2 ^ 24 := h1
    _ ≤ 2 ^ 127 * 1 := by norm_num
    _ ≤ 2 ^ 127 * 2 ^ k := by gcongr

theorem bd_mul {x : ℝ} (m : ℤ) (k : ℕ) (h : x = m * 2 ^ k) (hm : |m| ≤ 2 ^ 24) (hk : k ≤ 103) :
    Bd x := by
  subst h
  refine ⟨rep_mul hm, ?_⟩
  rw [abs_mul, abs_of_pos (by positivity : (0:ℝ) < 2 ^ k)]
  have h1 : |(m : ℝ)| ≤ 2 ^ 24 := by exact_mod_cast hm
  calc |(m : ℝ)| * 2 ^ k ≤ 2 ^ 24 * 2 ^ 103 := by gcongr; norm_num
    _ = 2 ^ 127 := by norm_num

theorem bd_int {x : ℝ} (m : ℤ) (h : x = m) (hm : |m| ≤ 2 ^ 24 := by norm_num) : Bd x :=
  bd_div m 0 (by rw [h]; simp) hm (by norm_num)

theorem Bd.neg {x : ℝ} (h : Bd x) : Bd (-x) := ⟨h.1.neg, by rw [abs_neg]; exact h.2⟩

theorem bd_zero : Bd 0 := bd_int 0 (by simp)
theorem bd_one : Bd 1 := bd_int 1 (by simp)

theorem In.mono {l h l' h' : ℝ} {a : F} (H : In l h a) (h1 : l' ≤ l) (h2 : h ≤ h') : In l' h' a := by
  obtain ⟨z, rfl, hz, h3, h4⟩ := H
  exact ⟨z, rfl, hz, h1.trans h3, h4.trans h2⟩

theorem In.and {l h l' h' : ℝ} {a : F} (H : In l h a) (H' : In l' h' a) :
    In (max l l') (min h h') a := by
  obtain ⟨z, rfl, hz, h3, h4⟩ := H
  obtain ⟨w, hw, -, h5, h6⟩ := H'
  cases hw
  exact ⟨z, rfl, hz, max_le h3 h5, le_min h4 h6⟩

theorem round_num {x : ℝ} {h : ℝ} (hh : h ≤ 2 ^ 127) (hr : Rep h) (h1 : |x| ≤ h) :
    F.round x = .num (rnd x) := by
  have h2 := abs_le.1 h1
  have h3 := rnd_le hr h2.2
  have h4 := le_rnd hr.neg h2.1
  have h5 : (2 : ℝ) ^ 127 < 2 ^ 128 := by norm_num
  unfold F.round
  rw [if_neg (by linarith), if_neg (by linarith)]

theorem round_in {x l h : ℝ} (hl : Bd l) (hh : Bd h) (h1 : l ≤ x) (h2 : x ≤ h) :
    In l h (F.round x) := by
  have ha : |x| ≤ 2 ^ 127 := by
    have := abs_le.1 hl.2
    have := abs_le.1 hh.2
    rw [abs_le]
    constructor <;> linarith
  have h127 : Rep ((2 : ℝ) ^ 127) := by
    have := rep_mul (m := 1) (k := 127) (by norm_num)
    simpa using this
  rw [round_num (le_refl _) h127 ha]
  exact ⟨_, rfl, rnd_rep x, le_rnd hl.1 h1, rnd_le hh.1 h2⟩

theorem in_num {x l h : ℝ} (hx : Rep x) (h1 : l ≤ x) (h2 : x ≤ h) : In l h (.num x) :=
  ⟨x, rfl, hx, h1, h2⟩

theorem round_bd {x : ℝ} (h : Bd x) : F.round x = .num x := by
  rw [round_num h.2 (by
    have := h.1
    rcases abs_choice x with h' | h' <;> rw [h']
    · exact this
    · exact this.neg) (le_refl _), rnd_fix h.1]

section ops
variable {l h l' h' a b : ℝ} {x y : F}

theorem In.add (hx : In l h x) (hy : In l' h' y) (ha : Bd a) (hb : Bd b) (h1 : a ≤ l + l')
    (h2 : h + h' ≤ b) : In a b (F.add x y) := by
  obtain ⟨z, rfl, -, h3, h4⟩ := hx
  obtain ⟨w, rfl, -, h5, h6⟩ := hy
  exact round_in ha hb (by linarith) (by linarith)

theorem In.neg (hx : In l h x) : In (-h) (-l) (F.neg x) := by
  obtain ⟨z, rfl, hz, h3, h4⟩ := hx
  exact ⟨-z, rfl, hz.neg, by linarith, by linarith⟩

theorem In.sub (hx : In l h x) (hy : In l' h' y) (ha : Bd a) (hb : Bd b) (h1 : a ≤ l - h')
    (h2 : h - l' ≤ b) : In a b (F.sub x y) :=
  In.add hx hy.neg ha hb (by linarith) (by linarith)

/-- The product, given bounds of the exact product. -/
theorem In.mul (hx : In l h x) (hy : In l' h' y) (ha : Bd a) (hb : Bd b)
    (H : ∀ z w, l ≤ z → z ≤ h → l' ≤ w → w ≤ h' → a ≤ z * w ∧ z * w ≤ b) : In a b (F.mul x y) := by
  obtain ⟨z, rfl, -, h3, h4⟩ := hx
  obtain ⟨w, rfl, -, h5, h6⟩ := hy
  obtain ⟨h7, h8⟩ := H z w h3 h4 h5 h6
  exact round_in ha hb h7 h8

/-- The product of numbers that are not negative. -/
theorem In.mul_nonneg (hx : In l h x) (hy : In l' h' y) (hb : Bd b) (hl : 0 ≤ l) (hl' : 0 ≤ l')
    (h2 : h * h' ≤ b) : In 0 b (F.mul x y) := by
  refine In.mul hx hy bd_zero hb (fun z w h3 h4 h5 h6 => ⟨?_, ?_⟩)
  · exact _root_.mul_nonneg (hl.trans h3) (hl'.trans h5)
  · exact (mul_le_mul h4 h6 (hl'.trans h5) ((hl.trans h3).trans h4)).trans h2

/-- The product of numbers bounded in absolute value. -/
theorem In.mul_abs {c d : ℝ} (hx : In (-c) c x) (hy : In (-d) d y) (hb : Bd b) (h2 : c * d ≤ b) :
    In (-b) b (F.mul x y) := by
  refine In.mul hx hy hb.neg hb (fun z w h3 h4 h5 h6 => abs_le.1 ?_)
  rw [abs_mul]
  have h7 : |z| ≤ c := abs_le.2 ⟨h3, h4⟩
  have h8 : |w| ≤ d := abs_le.2 ⟨h5, h6⟩
  exact (mul_le_mul h7 h8 (abs_nonneg _) ((abs_nonneg _).trans h7)).trans h2

/-- The quotient by a positive number, given bounds of the exact quotient. -/
theorem In.div (hx : In l h x) (hy : In l' h' y) (ha : Bd a) (hb : Bd b) (hp : 0 < l')
    (H : ∀ z w, l ≤ z → z ≤ h → l' ≤ w → w ≤ h' → a * w ≤ z ∧ z ≤ b * w) : In a b (F.div x y) := by
  obtain ⟨z, rfl, -, h3, h4⟩ := hx
  obtain ⟨w, rfl, -, h5, h6⟩ := hy
  obtain ⟨h7, h8⟩ := H z w h3 h4 h5 h6
  have hw : 0 < w := by linarith
  have hd : F.div (.num z) (.num w) = F.round (z / w) := by
    show (if w = 0 then _ else F.round (z / w)) = _
    rw [if_neg hw.ne']
  rw [hd]
  exact round_in ha hb ((le_div_iff₀ hw).2 h7) ((div_le_iff₀ hw).2 h8)

theorem In.div_nonneg (hx : In l h x) (hy : In l' h' y) (hb : Bd b) (hl : 0 ≤ l) (hp : 0 < l')
    (h2 : h ≤ b * l') : In 0 b (F.div x y) := by
  refine In.div hx hy bd_zero hb hp (fun z w h3 h4 h5 h6 => ⟨?_, ?_⟩)
  · linarith
  · have hb0 : 0 ≤ b := by
      by_contra hc
      push Not at hc
      nlinarith
    nlinarith

theorem In.div_abs {c : ℝ} (hx : In (-c) c x) (hy : In l' h' y) (hb : Bd b) (hp : 0 < l')
    (h2 : c ≤ b * l') (hb0 : 0 ≤ b) : In (-b) b (F.div x y) := by
  refine In.div hx hy hb.neg hb hp (fun z w h3 h4 h5 h6 => ⟨?_, ?_⟩) <;> nlinarith

theorem In.max (hx : In l h x) (hy : In l' h' y) :
    In (Max.max l l') (Max.max h h') (F.max x y) := by
  obtain ⟨z, rfl, hz, h3, h4⟩ := hx
  obtain ⟨w, rfl, hw, h5, h6⟩ := hy
  by_cases hc : z < w
  · have : F.max (.num z) (.num w) = .num w := by simp [F.max, F.lt, hc]
    rw [this]
    exact ⟨w, rfl, hw, max_le (by linarith) h5, h6.trans (le_max_right _ _)⟩
  · have : F.max (.num z) (.num w) = .num z := by simp [F.max, F.lt, hc]
    rw [this]
    exact ⟨z, rfl, hz, max_le h3 (by linarith), h4.trans (le_max_left _ _)⟩

theorem In.min (hx : In l h x) (hy : In l' h' y) :
    In (Min.min l l') (Min.min h h') (F.min x y) := by
  obtain ⟨z, rfl, hz, h3, h4⟩ := hx
  obtain ⟨w, rfl, hw, h5, h6⟩ := hy
  by_cases hc : w < z
  · have : F.min (.num z) (.num w) = .num w := by simp [F.min, F.lt, hc]
    rw [this]
    exact ⟨w, rfl, hw, (min_le_right _ _).trans h5, le_min (by linarith) h6⟩
  · have : F.min (.num z) (.num w) = .num z := by simp [F.min, F.lt, hc]
    rw [this]
    exact ⟨z, rfl, hz, (min_le_left _ _).trans h3, le_min h4 (by linarith)⟩

theorem In.abs (hx : In l h x) (hb1 : h ≤ b) (hb2 : -b ≤ l) : In 0 b (F.abs x) := by
  obtain ⟨z, rfl, hz, h3, h4⟩ := hx
  refine ⟨|z|, rfl, ?_, abs_nonneg _, abs_le.2 ⟨by linarith, by linarith⟩⟩
  rcases abs_choice z with h' | h' <;> rw [h']
  · exact hz
  · exact hz.neg

variable (powf : F → F → F)

theorem In.clamp (hx : In l h x) {lo hi : ℝ} (h1 : Rep lo) (h2 : Rep hi) (h3 : lo ≤ hi) :
    In lo hi ((f32 powf).clamp x (.num lo) (.num hi)) := by
  obtain ⟨z, rfl, hz, -, -⟩ := hx
  by_cases hc : z < lo
  · have : (f32 powf).clamp (.num z) (.num lo) (.num hi) = .num lo := by
      simp [Arith.clamp, f32, F.lt, hc]
    rw [this]
    exact ⟨lo, rfl, h1, le_refl _, h3⟩
  · by_cases hd : hi < z
    · have : (f32 powf).clamp (.num z) (.num lo) (.num hi) = .num hi := by
        simp [Arith.clamp, f32, F.lt, hc, hd]
      rw [this]
      exact ⟨hi, rfl, h2, h3, le_refl _⟩
    · have : (f32 powf).clamp (.num z) (.num lo) (.num hi) = .num z := by
        simp [Arith.clamp, f32, F.lt, hc, hd]
      rw [this]
      exact ⟨z, rfl, hz, by linarith, by linarith⟩

/-- A lower bound that lies between the clamping bounds is kept. -/
theorem In.clamp_low (hx : In l h x) {lo hi : ℝ} (h1 : Rep lo) (h2 : Rep hi) (h3 : lo ≤ l)
    (h4 : l ≤ hi) : In l hi ((f32 powf).clamp x (.num lo) (.num hi)) := by
  obtain ⟨z, rfl, hz, h5, -⟩ := hx
  have hc : ¬ z < lo := by linarith
  by_cases hd : hi < z
  · have : (f32 powf).clamp (.num z) (.num lo) (.num hi) = .num hi := by
      simp [Arith.clamp, f32, F.lt, hc, hd]
    rw [this]
    exact ⟨hi, rfl, h2, h4, le_refl _⟩
  · have : (f32 powf).clamp (.num z) (.num lo) (.num hi) = .num z := by
      simp [Arith.clamp, f32, F.lt, hc, hd]
    rw [this]
    exact ⟨z, rfl, hz, h5, by linarith⟩

/-- A literal that is an `f32` number. -/
theorem lit_bd {q : ℚ} (h : Bd (q : ℝ)) : (f32 powf).lit q = .num q := round_bd h

/-- A literal between bounds. -/
theorem lit_in {q : ℚ} (ha : Bd a) (hb : Bd b) (h1 : a ≤ q) (h2 : (q : ℝ) ≤ b) :
    In a b ((f32 powf).lit q) := round_in ha hb h1 h2

theorem ofInt_in {n : ℤ} (ha : Bd a) (hb : Bd b) (h1 : a ≤ n) (h2 : (n : ℝ) ≤ b) :
    In a b ((f32 powf).ofInt n) := round_in ha hb h1 h2

variable {powf}

/-- `powf`, given bounds of the exact power. -/
theorem powf_in (hp : Faithful powf) (hx : In l h x) (hy : In l' h' y) (ha : Bd a) (hb : Bd b)
    (hl : 0 < l) (hb' : b < 2 ^ 127)
    (H : ∀ z w : ℝ, l ≤ z → z ≤ h → l' ≤ w → w ≤ h' → a ≤ z ^ w ∧ z ^ w ≤ b) :
    In a b (powf x y) := by
  obtain ⟨z, rfl, -, h3, h4⟩ := hx
  obtain ⟨w, rfl, -, h5, h6⟩ := hy
  obtain ⟨h7, h8⟩ := H z w h3 h4 h5 h6
  obtain ⟨v, hv, hrep, hbd⟩ := hp z w (by linarith) (by linarith)
  exact ⟨v, hv, hrep, (hbd a ha.1).1 h7, (hbd b hb.1).2 h8⟩

end ops

end Trane.Float
