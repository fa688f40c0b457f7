import Verif.Numeric.Interval
import Verif.Scorer.Model

/-!
# Computing the scores of the exercise scorer

The formulas of `Verif/Scorer/Model.lean` on intervals with rational ends, for grades that are rational numbers.  `score_computed` says
that the score of the model lies in the interval computed.  These are not models of code.
-/

namespace Trane.Numeric
open Trane.Scorer

/-- A grade or delta with a rational value. -/
abbrev QEntry := ℚ × ℤ

def toEntry (e : QEntry) : Entry := ⟨(e.1 : ℝ), e.2⟩
def toEntries (l : List QEntry) : List Entry := l.map toEntry

def clampQ (x lo hi : ℚ) : ℚ := if x < lo then lo else if x > hi then hi else x

theorem clampQ_cast (x lo hi : ℚ) : ((clampQ x lo hi : ℚ) : ℝ) = clamp x lo hi := by
  unfold clampQ clamp
  simp only [gt_iff_lt, Rat.cast_lt]
  split_ifs <;> rfl

theorem clamp_mono {lo hi : ℝ} (h : lo ≤ hi) : Monotone (fun x => clamp x lo hi) := by
  intro x y hxy
  simp only [clamp]
  split_ifs <;> linarith

def Iv.clamp (I : Iv) (lo hi : ℚ) : Iv := I.map (fun x => clampQ x lo hi)

theorem has_clamp {I : Iv} {x : ℝ} {lo hi : ℚ} (h : lo ≤ hi) (hx : I.Has x) : (I.clamp lo hi).Has (Scorer.clamp x lo hi) :=
  has_map (g := fun x => Scorer.clamp x lo hi) (fun q => clampQ_cast q lo hi) (clamp_mono (by exact_mod_cast h)) hx

theorem clampQ_ge {x lo hi : ℚ} (h : lo ≤ hi) : lo ≤ clampQ x lo hi := by
  unfold clampQ; split_ifs <;> linarith

/-! ### Days, weights and averages -/

def daysQ (a b : ℤ) : ℚ := (satSub a b : ℚ) / 86400

theorem daysQ_cast (a b : ℤ) : ((daysQ a b : ℚ) : ℝ) = daysBetween a b := by
  unfold daysQ daysBetween; push_cast; rfl

/-- The time-based weight. -/
def timeWeightI (newest t : ℤ) : Iv :=
  let s := (satSub newest t).toNat
  if 350 ≤ s / 86400 then pt (1 / 10)
  else ⟨max (powI (95 / 100) ((s + 86399) / 86400) 7).lo (1 / 10), max (powI (95 / 100) (s / 86400) 7).hi (1 / 10)⟩

theorem has_timeWeight (newest t : ℤ) : (timeWeightI newest t).Has (timeWeight newest t) := by
  unfold timeWeightI timeWeight
  set s := (satSub newest t).toNat with hs
  have he : max (daysBetween newest t / 7) 0 = (s : ℝ) / 86400 / 7 := by
    unfold daysBetween
    rcases le_total 0 (satSub newest t) with h | h
    · have : ((s : ℤ) : ℝ) = ((satSub newest t : ℤ) : ℝ) := by rw [hs, Int.toNat_of_nonneg h]
      rw [← this]
      rw [max_eq_left (by positivity)]
      simp
    · have h0 : s = 0 := by rw [hs]; exact Int.toNat_of_nonpos h
      have h1 : ((satSub newest t : ℤ) : ℝ) ≤ 0 := by exact_mod_cast h
      rw [h0, max_eq_right (by
        have : ((satSub newest t : ℤ) : ℝ) / 86400 ≤ 0 := div_nonpos_of_nonpos_of_nonneg h1 (by norm_num)
        linarith)]
      simp
  rw [he]
  have hlo : ((s / 86400 : ℕ) : ℝ) / (7 : ℕ) ≤ (s : ℝ) / 86400 / 7 := by
    have : ((s / 86400 : ℕ) : ℝ) ≤ (s : ℝ) / 86400 := by exact_mod_cast Nat.cast_div_le (α := ℝ) (m := s) (n := 86400)
    push_cast
    linarith
  have hhi : (s : ℝ) / 86400 / 7 ≤ (((s + 86399) / 86400 : ℕ) : ℝ) / (7 : ℕ) := by
    have h1 : s ≤ (s + 86399) / 86400 * 86400 := by omega
    have h2 : (s : ℝ) ≤ (((s + 86399) / 86400 : ℕ) : ℝ) * 86400 := by exact_mod_cast h1
    push_cast at h2 ⊢
    linarith
  have hb : (0 : ℝ) < 95 / 100 := by norm_num
  have hb1 : (95 / 100 : ℝ) ≤ 1 := by norm_num
  dsimp only
  split
  · rename_i h
    have h50 : (95 / 100 : ℝ) ^ ((s : ℝ) / 86400 / 7) ≤ 1 / 10 := by
      have h1 : (50 : ℝ) ≤ (s : ℝ) / 86400 / 7 := by
        refine le_trans ?_ hlo
        have : (350 : ℝ) ≤ ((s / 86400 : ℕ) : ℝ) := by exact_mod_cast h
        push_cast at this ⊢
        linarith
      refine (Real.rpow_le_rpow_of_exponent_ge hb hb1 h1).trans ?_
      rw [show (50 : ℝ) = ((50 : ℕ) : ℝ) by norm_num, Real.rpow_natCast]
      norm_num
    rw [max_eq_right h50]
    have := has_pt (1 / 10)
    push_cast at this
    exact this
  · have hq : ((95 / 100 : ℚ) : ℝ) = 95 / 100 := by norm_num
    have a := has_powI (b := 95 / 100) (by norm_num) (by norm_num) ((s + 86399) / 86400) (q := 7) (by norm_num)
    have b := has_powI (b := 95 / 100) (by norm_num) (by norm_num) (s / 86400) (q := 7) (by norm_num)
    rw [hq] at a b
    constructor
    · show ((max (powI (95 / 100) ((s + 86399) / 86400) 7).lo (1 / 10) : ℚ) : ℝ) ≤ _
      push_cast
      exact max_le_max (a.1.trans (Real.rpow_le_rpow_of_exponent_ge hb hb1 hhi)) (by norm_num)
    · show _ ≤ ((max (powI (95 / 100) (s / 86400) 7).hi (1 / 10) : ℚ) : ℝ)
      push_cast
      exact max_le_max ((Real.rpow_le_rpow_of_exponent_ge hb hb1 hlo).trans b.2) (by norm_num)

theorem timeWeightI_pos (newest t : ℤ) : 1 / 10 ≤ (timeWeightI newest t).lo := by
  unfold timeWeightI
  dsimp only
  split
  · exact le_rfl
  · exact le_max_right _ _

/-- The position-based weight. -/
def posWeightQ (i : ℕ) : ℚ := max ((95 / 100 : ℚ) ^ i) (1 / 10)

theorem posWeightQ_cast (i : ℕ) : ((posWeightQ i : ℚ) : ℝ) = posWeight i := by
  unfold posWeightQ posWeight
  rw [Real.rpow_natCast]
  push_cast
  norm_num

/-- The sum of intervals. -/
def sumI (l : List Iv) : Iv := l.foldr (fun I J => (I.add J).round) (pt 0)

theorem has_sum {α : Type} (l : List α) (f : α → Iv) (g : α → ℝ) (h : ∀ a ∈ l, (f a).Has (g a)) : (sumI (l.map f)).Has (l.map g).sum := by
  induction l with
  | nil => have := has_pt 0; push_cast at this; exact this
  | cons a l ih =>
    simp only [List.map_cons, List.sum_cons]
    exact has_round (has_add (h a (by simp)) (ih (fun b hb => h b (by simp [hb]))))

theorem sumI_pos : ∀ (l : List Iv), l ≠ [] → (∀ I ∈ l, 1 / 10 ≤ I.lo) → 1 / 10 ≤ (sumI l).lo := by
  have hr : ∀ x : ℚ, 1 / 10 ≤ x → 1 / 10 ≤ (⌊x * 1000000000⌋ : ℚ) / 1000000000 := by
    intro x hx
    rw [le_div_iff₀ (by norm_num)]
    have : (100000000 : ℤ) ≤ ⌊x * 1000000000⌋ := Int.le_floor.2 (by push_cast; linarith)
    have : ((100000000 : ℤ) : ℚ) ≤ (⌊x * 1000000000⌋ : ℚ) := by exact_mod_cast this
    push_cast at this
    linarith
  intro l
  induction l with
  | nil => intro h; exact absurd rfl h
  | cons I l ih =>
    intro _ h
    show 1 / 10 ≤ (⌊(I.lo + (sumI l).lo) * 1000000000⌋ : ℚ) / 1000000000
    have h1 := h I (by simp)
    refine hr _ ?_
    by_cases hl : l = []
    · subst hl
      show 1 / 10 ≤ I.lo + 0
      linarith
    · have := ih hl (fun J hJ => h J (by simp [hJ]))
      linarith

/-- A weighted average. -/
def wavgI (ps : List (Iv × ℚ)) : Iv :=
  ((sumI (ps.map (fun p => p.1.mul (pt p.2)))).div (sumI (ps.map Prod.fst))).round

theorem has_wavg {α : Type} (l : List α) (hl : l ≠ []) (W : α → Iv) (w : α → ℝ) (v : α → ℚ) (h : ∀ a ∈ l, (W a).Has (w a))
    (hp : ∀ a ∈ l, 1 / 10 ≤ (W a).lo) : (wavgI (l.map (fun a => (W a, v a)))).Has (wavg (l.map (fun a => (w a, (v a : ℝ))))) := by
  unfold wavgI wavg
  simp only [List.map_map]
  refine has_round (has_div ?_ ?_ ?_)
  · exact has_sum l _ _ (fun a ha => has_mul (h a ha) (has_pt _))
  · exact has_sum l _ _ (fun a ha => h a ha)
  · refine lt_of_lt_of_le (by norm_num : (0 : ℚ) < 1 / 10) (sumI_pos _ ?_ ?_)
    · intro h0; exact hl (List.map_eq_nil_iff.1 h0)
    · intro I hI
      obtain ⟨a, ha, rfl⟩ := List.mem_map.1 hI
      exact hp a ha

/-- The weighted average of grades or deltas. -/
def weightedI (l : List QEntry) : Iv :=
  match l with
  | [] => pt 0
  | e :: _ => (((pt (8 / 10)).mul (wavgI (l.map (fun x => (timeWeightI e.2 x.2, x.1))))).add
      ((pt (2 / 10)).mul (wavgI (l.zipIdx.map (fun x => (pt (posWeightQ x.2), x.1.1)))))).round

theorem has_weighted (l : List QEntry) : (weightedI l).Has (weightedAvg (toEntries l)) := by
  cases l with
  | nil => have := has_pt 0; push_cast at this; exact this
  | cons e l =>
    unfold weightedI weightedAvg toEntries
    simp only [List.map_cons]
    refine has_round (has_add (has_mul ?_ ?_) (has_mul ?_ ?_))
    · have := has_pt (8 / 10); push_cast at this; exact this
    · have := has_wavg (e :: l) (by simp) (fun x => timeWeightI e.2 x.2) (fun x => timeWeight e.2 x.2) Prod.fst
        (fun a _ => has_timeWeight _ _) (fun a _ => timeWeightI_pos _ _)
      simp only [List.map_cons, List.map_map] at this ⊢
      exact this
    · have := has_pt (2 / 10); push_cast at this; exact this
    · have := has_wavg (e :: l).zipIdx (by simp) (fun x => pt (posWeightQ x.2)) (fun x => posWeight x.2) (fun x => x.1.1)
        (fun a _ => by rw [← posWeightQ_cast]; exact has_pt _) (fun a _ => le_max_right _ _)
      rw [← List.map_cons (f := toEntry), List.zipIdx_map, List.map_map]
      exact this

/-! ### Difficulty and stability -/

def difficultyQ (l : List QEntry) : ℚ :=
  if l = [] then 5
  else clampQ (1 + ((l.filter (fun t => decide (t.1 < 3))).length : ℚ) / (l.length : ℚ) * 9) 1 10

theorem difficultyQ_cast (l : List QEntry) : ((difficultyQ l : ℚ) : ℝ) = estimateDifficulty (toEntries l) := by
  unfold difficultyQ estimateDifficulty toEntries
  by_cases h : l = []
  · subst h; simp
  · rw [if_neg h, if_neg (by simpa using h), clampQ_cast]
    have : ((l.map toEntry).filter (fun t => decide (t.value < 3))).length = (l.filter (fun t => decide (t.1 < 3))).length := by
      rw [List.filter_map, List.length_map]
      congr 1
      refine List.filter_congr (fun t _ => ?_)
      simp only [Function.comp, toEntry]
      have : ((t.1 : ℝ) < 3) ↔ t.1 < 3 := by exact_mod_cast Rat.cast_lt (K := ℝ) (p := t.1) (q := 3)
      simp [this]
    simp only [this, List.length_map]
    push_cast
    rfl

def updateDifficultyQ (difficulty base score : ℚ) : ℚ :=
  clampQ (16 / 100 * base + (1 - 16 / 100) * clampQ (difficulty + (3 - score) / 4 * (105 / 100)) 1 10) 1 10

theorem updateDifficultyQ_cast (d b s : ℚ) : ((updateDifficultyQ d b s : ℚ) : ℝ) = updateDifficulty d b s := by
  unfold updateDifficultyQ updateDifficulty
  rw [clampQ_cast]
  push_cast
  rw [clampQ_cast]
  push_cast
  rfl

/-- The factor of the forgetting curve. -/
def factorI : Kind → Iv
  | .declarative => ⟨301348831 / 1000000000, 301348832 / 1000000000⟩
  | .procedural => pt ((10 / 9) ^ 5 - 1)

theorem has_factor (k : Kind) : (factorI k).Has (curveFactor k) := by
  cases k with
  | declarative =>
    have h : curveFactor .declarative = ((100000 / 59049 : ℝ)) ^ ((1 : ℝ) / 2) - 1 := by
      unfold curveFactor curveDecay
      rw [show (-1 / max |(-(4 / 10) : ℝ)| (1 / 2 ^ 23)) = -(((5 : ℕ) : ℝ) * (1 / 2)) by
        rw [abs_neg, abs_of_pos (by norm_num), max_eq_left (by norm_num)]; norm_num]
      rw [Real.rpow_neg (by norm_num), ← Real.inv_rpow (by norm_num), Real.rpow_mul (by norm_num), Real.rpow_natCast]
      norm_num
    rw [h, ← Real.sqrt_eq_rpow]
    constructor
    · show ((301348831 / 1000000000 : ℚ) : ℝ) ≤ _
      have : (1301348831 / 1000000000 : ℝ) ≤ Real.sqrt (100000 / 59049) := Real.le_sqrt_of_sq_le (by norm_num)
      push_cast; linarith
    · show _ ≤ ((301348832 / 1000000000 : ℚ) : ℝ)
      have : Real.sqrt (100000 / 59049) ≤ (1301348832 / 1000000000 : ℝ) := Real.sqrt_le_iff.2 ⟨by norm_num, by norm_num⟩
      push_cast; linarith
  | procedural =>
    have h : curveFactor .procedural = (((10 / 9) ^ 5 - 1 : ℚ) : ℝ) := by
      unfold curveFactor curveDecay
      rw [show (-1 / max |(-(2 / 10) : ℝ)| (1 / 2 ^ 23)) = -((5 : ℕ) : ℝ) by
        rw [abs_neg, abs_of_pos (by norm_num), max_eq_left (by norm_num)]; norm_num]
      rw [Real.rpow_neg (by norm_num), Real.rpow_natCast]
      norm_num
    rw [h]
    exact has_pt _

theorem factorI_pos (k : Kind) : 0 < (factorI k).lo := by cases k <;> norm_num [factorI, pt]

/-- The exponent of the forgetting curve is minus one fifth of this. -/
def fifths : Kind → ℕ
  | .declarative => 2
  | .procedural => 1

/-- The retrievability, for days that are not negative and a positive stability. -/
def retI (k : Kind) (days : ℚ) (st : Iv) : Iv :=
  let lo := 1 + (factorI k).lo * days / st.hi
  let hi := 1 + (factorI k).hi * days / st.lo
  (Iv.clamp ⟨rootLo ((1 / hi) ^ fifths k) 5, rootHi ((1 / lo) ^ fifths k) 5⟩ 0 1)

theorem has_ret (k : Kind) {days : ℚ} (hd : 0 ≤ days) {I : Iv} {st : ℝ} (hI : I.Has st) (hp : 0 < I.lo) :
    (retI k days I).Has (retrievability k days st) := by
  unfold retI retrievability
  have hp' : (0 : ℝ) < (I.lo : ℝ) := by exact_mod_cast hp
  have hst : 0 < st := lt_of_lt_of_le hp' hI.1
  have hhi : (0 : ℝ) < (I.hi : ℝ) := lt_of_lt_of_le hst hI.2
  have hf := has_factor k
  have hf0 : (0 : ℝ) < ((factorI k).lo : ℝ) := by exact_mod_cast factorI_pos k
  have hd' : (0 : ℝ) ≤ (days : ℝ) := by exact_mod_cast hd
  have hfc : 0 < curveFactor k := lt_of_lt_of_le hf0 hf.1
  set x := 1 + curveFactor k * (days : ℝ) / st with hx
  set lo := 1 + (factorI k).lo * days / I.hi with hlo
  set hi := 1 + (factorI k).hi * days / I.lo with hhi'
  have hlox : ((lo : ℚ) : ℝ) ≤ x := by
    rw [hlo, hx]; push_cast
    have : ((factorI k).lo : ℝ) * (days : ℝ) / (I.hi : ℝ) ≤ curveFactor k * (days : ℝ) / st :=
      div_le_div₀ (by positivity) (mul_le_mul_of_nonneg_right hf.1 hd') hst hI.2
    linarith
  have hxhi : x ≤ ((hi : ℚ) : ℝ) := by
    rw [hhi', hx]; push_cast
    have : curveFactor k * (days : ℝ) / st ≤ ((factorI k).hi : ℝ) * (days : ℝ) / (I.lo : ℝ) :=
      div_le_div₀ (mul_nonneg (hfc.le.trans hf.2) hd') (mul_le_mul_of_nonneg_right hf.2 hd') hp' hI.1
    linarith
  have hlo1 : 1 ≤ lo := by
    have hhiq : 0 < I.hi := by exact_mod_cast hhi
    have : 0 ≤ (factorI k).lo * days / I.hi := div_nonneg (mul_nonneg (factorI_pos k).le hd) hhiq.le
    rw [hlo]; linarith
  have hlo1' : (1 : ℝ) ≤ (lo : ℝ) := by exact_mod_cast hlo1
  have hx1 : 1 ≤ x := hlo1'.trans hlox
  have hhi1 : 1 ≤ hi := by
    have : (1 : ℝ) ≤ (hi : ℝ) := hx1.trans hxhi
    exact_mod_cast this
  have hpow : x ^ curveDecay k = ((1 / x) ^ fifths k) ^ ((1 : ℝ) / (5 : ℕ)) := by
    have hx0 : 0 ≤ x := by linarith
    rw [← Real.rpow_natCast (1 / x) (fifths k), ← Real.rpow_mul (by positivity), one_div, Real.inv_rpow hx0, ← Real.rpow_neg hx0]
    congr 1
    cases k <;> norm_num [curveDecay, fifths]
  have hmem : (Iv.mk (rootLo ((1 / hi) ^ fifths k) 5) (rootHi ((1 / lo) ^ fifths k) 5)).Has (x ^ curveDecay k) := by
    rw [hpow]
    have hlo0 : (0 : ℚ) < lo := by linarith
    have hhi0 : (0 : ℚ) < hi := by linarith
    constructor
    · refine (rootLo_le (y := (1 / hi) ^ fifths k) (by positivity) (by norm_num)).trans ?_
      refine Real.rpow_le_rpow (by push_cast; positivity) ?_ (by positivity)
      push_cast
      exact pow_le_pow_left₀ (by positivity) (one_div_le_one_div_of_le (by linarith) hxhi) _
    · refine le_trans ?_ (le_rootHi (y := (1 / lo) ^ fifths k) (by positivity)
        (pow_le_one₀ (by positivity) (by rw [div_le_one hlo0]; exact hlo1)) (by norm_num))
      refine Real.rpow_le_rpow (by positivity) ?_ (by positivity)
      push_cast
      exact pow_le_pow_left₀ (by positivity) (one_div_le_one_div_of_le (by linarith) hlox) _
  have := has_clamp (lo := 0) (hi := 1) (by norm_num) hmem
  push_cast at this
  exact this

/-- The gain by spacing. -/
def gainI (k : Kind) (days : ℚ) (st : Iv) (p : ℚ) : Iv :=
  if p ≤ 0 then pt 1 else ((pt 1).add ((pt (65 / 100)).mul ((pt 1).sub (retI k days st)))).clamp 1 (1 + 65 / 100)

theorem has_gain (k : Kind) {days : ℚ} (hd : 0 ≤ days) {I : Iv} {st : ℝ} (hI : I.Has st) (hp : 0 < I.lo) (p : ℚ) :
    (gainI k days I p).Has (spacingGain k days st p) := by
  unfold gainI spacingGain
  have hpp : ((p : ℝ) ≤ 0) ↔ p ≤ 0 := by exact_mod_cast Rat.cast_le (K := ℝ) (p := p) (q := 0)
  simp only [hpp]
  have h1 := has_pt 1
  have h65 := has_pt (65 / 100)
  push_cast at h1 h65
  split
  · exact h1
  · have := has_clamp (lo := 1) (hi := 1 + 65 / 100) (by norm_num) (has_add h1 (has_mul h65 (has_sub h1 (has_ret k hd hI hp))))
    push_cast at this
    exact this

/-- One step of the stability. -/
def stabI (k : Kind) (st : Iv) (difficulty score days : ℚ) : Iv :=
  let p := (score - 1) / 4 - 1 / 2
  let e := (11 - difficulty) / 5
  ((st.mul ((pt 1).add (((pt (5 / 2 * p * e)).mul (gainI k days st p)).mul (pt (min days 1))))).round).clamp (1 / 2) 730

theorem has_stab (k : Kind) {days : ℚ} (hd : 0 ≤ days) {I : Iv} {st : ℝ} (hI : I.Has st) (hp : 0 < I.lo) (d s : ℚ) :
    (stabI k I d s days).Has (stabilityStep k st d s days) ∧ 0 < (stabI k I d s days).lo := by
  refine ⟨?_, lt_of_lt_of_le (by norm_num : (0 : ℚ) < 1 / 2) (clampQ_ge (by norm_num))⟩
  unfold stabI stabilityStep
  have h1 := has_pt 1
  push_cast at h1
  have hg := has_gain k hd hI hp ((s - 1) / 4 - 1 / 2)
  have := has_clamp (lo := 1 / 2) (hi := 730) (by norm_num) (has_round (has_mul hI (has_add h1 (has_mul (has_mul
    (has_pt (5 / 2 * ((s - 1) / 4 - 1 / 2) * ((11 - d) / 5))) hg) (has_pt (min days 1))))))
  push_cast at this ⊢
  exact this

/-- The variables of the loop. -/
structure ReplayI where
  stability : Iv
  difficulty : ℚ
  previous : Option ℤ

def replayStepI (k : Kind) (r : ReplayI) (t : QEntry) : ReplayI :=
  match r.previous with
  | none => { r with previous := some t.2 }
  | some prev =>
    { stability := stabI k r.stability r.difficulty t.1 (max (daysQ t.2 prev) 0)
      difficulty := updateDifficultyQ r.difficulty 5 t.1
      previous := some t.2 }

def ReplayI.Has (r : ReplayI) (s : Replay) : Prop :=
  r.stability.Has s.stability ∧ 0 < r.stability.lo ∧ (r.difficulty : ℝ) = s.difficulty ∧ r.previous = s.previous

theorem has_replayStep (k : Kind) {r : ReplayI} {s : Replay} (h : r.Has s) (t : QEntry) :
    (replayStepI k r t).Has (replayStep k s (toEntry t)) := by
  obtain ⟨h1, h2, h3, h4⟩ := h
  unfold replayStepI replayStep
  rw [← h4]
  cases r.previous with
  | none => exact ⟨h1, h2, h3, rfl⟩
  | some prev =>
    have hd : (0 : ℚ) ≤ max (daysQ t.2 prev) 0 := le_max_right _ _
    obtain ⟨a, b⟩ := has_stab k hd h1 h2 r.difficulty t.1
    refine ⟨?_, b, ?_, rfl⟩
    · show (stabI k r.stability r.difficulty t.1 (max (daysQ t.2 prev) 0)).Has
        (stabilityStep k s.stability s.difficulty (t.1 : ℝ) (max (daysBetween t.2 prev) 0))
      rw [← h3, ← daysQ_cast]
      have : (((max (daysQ t.2 prev) 0 : ℚ)) : ℝ) = max ((daysQ t.2 prev : ℚ) : ℝ) 0 := by push_cast; rfl
      rw [← this]
      exact a
    · show ((updateDifficultyQ r.difficulty 5 t.1 : ℚ) : ℝ) = updateDifficulty s.difficulty 5 (t.1 : ℝ)
      rw [updateDifficultyQ_cast, h3]
      norm_num

def stabilityI (k : Kind) (l : List QEntry) (base : ℚ) : Iv :=
  (l.reverse.foldl (replayStepI k) ⟨pt 1, base, none⟩).stability

theorem has_stability (k : Kind) (l : List QEntry) (base : ℚ) :
    (stabilityI k l base).Has (computeStability k (toEntries l) base) ∧ 0 < (stabilityI k l base).lo := by
  have key : ∀ (l : List QEntry) (r : ReplayI) (s : Replay), r.Has s →
      (l.foldl (replayStepI k) r).Has ((l.map toEntry).foldl (replayStep k) s) := by
    intro l
    induction l with
    | nil => exact fun r s h => h
    | cons t l ih => exact fun r s h => ih _ _ (has_replayStep k h t)
  have h0 : (ReplayI.mk (pt 1) base none).Has { stability := 1, difficulty := base, previous := none } := by
    have := has_pt 1
    push_cast at this
    exact ⟨this, one_pos, rfl, rfl⟩
  have := key l.reverse _ _ h0
  unfold stabilityI computeStability replay toEntries
  rw [← List.map_reverse]
  exact ⟨this.1, this.2.1⟩

/-! ### The score -/

/-- The floor for old good grades; the interval of the average may leave the case open. -/
def floorI (r weighted : Iv) (days : ℚ) (n : ℕ) : Iv :=
  let high := r.map (fun x => max x (3 / 4))
  if 2 ≤ n ∧ 50 ≤ days then
    if 4 ≤ weighted.lo then high else if weighted.hi < 4 then r else r.hull high
  else r

theorem has_floor {R W : Iv} {r w : ℝ} (hr : R.Has r) (hw : W.Has w) (days : ℚ) (n : ℕ) :
    (floorI R W days n).Has (oldGoodFloor r w days n) := by
  unfold floorI oldGoodFloor
  have hd : ((50 : ℝ) ≤ (days : ℝ)) ↔ 50 ≤ days := by exact_mod_cast Rat.cast_le (K := ℝ) (p := 50) (q := days)
  have hh : (R.map (fun x => max x (3 / 4))).Has (max r (3 / 4)) :=
    has_map (g := fun x => max x (3 / 4)) (fun q => by push_cast; rfl) (fun a b hab => max_le_max hab le_rfl) hr
  simp only [hd]
  by_cases h : 2 ≤ n ∧ 50 ≤ days
  · simp only [h, and_self, if_true, true_and, and_true]
    by_cases h4 : 4 ≤ W.lo
    · rw [if_pos h4, if_pos (le_trans (by exact_mod_cast h4) hw.1)]
      exact hh
    · rw [if_neg h4]
      by_cases h5 : W.hi < 4
      · rw [if_pos h5, if_neg (not_le.2 (lt_of_le_of_lt hw.2 (by exact_mod_cast h5)))]
        exact hr
      · rw [if_neg h5]
        split
        · exact has_hull_right hh
        · exact has_hull_left hr
  · rw [if_neg h, if_neg (fun h' => h ⟨h'.1, h'.2.2⟩)]
    exact hr

def deltaI (ds : List QEntry) (r : Iv) : Iv := if ds.length < 2 then pt 0 else ((weightedI ds).mul r).mul (pt (1 / 4))

theorem has_delta (ds : List QEntry) {R : Iv} {r : ℝ} (hr : R.Has r) : (deltaI ds R).Has (computeDelta (toEntries ds) r) := by
  unfold deltaI computeDelta
  rw [show (toEntries ds).length = ds.length from List.length_map _]
  split
  · have := has_pt 0; push_cast at this; exact this
  · have := has_mul (has_mul (has_weighted ds) hr) (has_pt (1 / 4))
    rw [div_eq_mul_one_div _ (4 : ℝ)]
    push_cast at this ⊢
    exact this

def velocityQ (l : List QEntry) : Option ℚ :=
  if l.length < 2 then none
  else
    match l.getLast? with
    | none => none
    | some oldest =>
      let n : ℚ := (l.length : ℚ)
      let sumT := (l.map (fun x => daysQ x.2 oldest.2)).sum
      let sumS := (l.map (fun x => x.1)).sum
      let sumTS := (l.map (fun x => daysQ x.2 oldest.2 * x.1)).sum
      let sumTT := (l.map (fun x => daysQ x.2 oldest.2 * daysQ x.2 oldest.2)).sum
      let denominator := n * sumTT - sumT * sumT
      if |denominator| < 1 / 2 ^ 23 then some 0
      else some ((n * sumTS - sumT * sumS) / denominator)

theorem cast_sum {α : Type} (l : List α) (f : α → ℚ) (g : α → ℝ) (h : ∀ a, ((f a : ℚ) : ℝ) = g a) :
    (((l.map f).sum : ℚ) : ℝ) = (l.map g).sum := by
  induction l with
  | nil => simp
  | cons a l ih => simp [ih, h]

theorem velocityQ_cast (l : List QEntry) : velocity (toEntries l) = (velocityQ l).map (fun q => ((q : ℚ) : ℝ)) := by
  unfold velocity velocityQ toEntries
  rw [List.length_map]
  split
  · rfl
  · rw [List.getLast?_map]
    cases l.getLast? with
    | none => rfl
    | some o =>
      simp only [Option.map_some, List.map_map]
      have e1 := cast_sum l (fun x => daysQ x.2 o.2) ((fun x => daysBetween x.time (toEntry o).time) ∘ toEntry) 
        (fun a => by simp only [Function.comp, toEntry]; exact daysQ_cast _ _)
      have e2 := cast_sum l (fun x => x.1) ((fun x => x.value) ∘ toEntry) (fun a => rfl)
      have e3 := cast_sum l (fun x => daysQ x.2 o.2 * x.1) ((fun x => daysBetween x.time (toEntry o).time * x.value) ∘ toEntry)
        (fun a => by simp only [Function.comp, toEntry]; push_cast; rw [daysQ_cast])
      have e4 := cast_sum l (fun x => daysQ x.2 o.2 * daysQ x.2 o.2)
        ((fun x => daysBetween x.time (toEntry o).time * daysBetween x.time (toEntry o).time) ∘ toEntry)
        (fun a => by simp only [Function.comp, toEntry]; push_cast; rw [daysQ_cast])
      rw [← e1, ← e2, ← e3, ← e4]
      generalize (l.map (fun x => daysQ x.2 o.2)).sum = a
      generalize (l.map (fun x => x.1)).sum = b
      generalize (l.map (fun x => daysQ x.2 o.2 * x.1)).sum = c
      generalize (l.map (fun x => daysQ x.2 o.2 * daysQ x.2 o.2)).sum = d
      have hc : (|(l.length : ℝ) * (d : ℝ) - (a : ℝ) * (a : ℝ)| < 1 / 2 ^ 23) ↔ |(l.length : ℚ) * d - a * a| < 1 / 2 ^ 23 := by
        have := Rat.cast_lt (K := ℝ) (p := |(l.length : ℚ) * d - a * a|) (q := 1 / 2 ^ 23)
        push_cast at this
        exact this
      simp only [hc]
      split
      · simp
      · simp

def unsortedQ : List QEntry → Bool
  | a :: b :: l => decide (a.2 < b.2) || unsortedQ (b :: l)
  | _ => false

theorem unsortedQ_eq (l : List QEntry) : unsorted (toEntries l) = unsortedQ l := by
  induction l with
  | nil => rfl
  | cons a l ih =>
    cases l with
    | nil => rfl
    | cons b l => 
      simp only [toEntries, List.map_cons, unsorted, unsortedQ] at ih ⊢
      rw [ih]
      rfl

/-- Value, urgency and velocity. -/
def scoreI (k : Kind) (trials deltas : List QEntry) (now : ℤ) : Option (Iv × Iv × Option ℚ) :=
  match trials with
  | [] => some (pt 0, pt 1, none)
  | last :: _ =>
    if unsortedQ trials then none
    else
      let stability := stabilityI k trials (difficultyQ trials)
      let days := max (daysQ now last.2) 0
      let r := retI k days stability
      let weighted := weightedI trials
      let effective := floorI r weighted days trials.length
      some (((effective.mul weighted).add (deltaI deltas effective)).clamp 0 5, (pt 1).sub r, velocityQ trials)

/-- What is computed contains the score of the model, and is refused when the model refuses. -/
theorem score_computed (k : Kind) (trials deltas : List QEntry) (now : ℤ) :
    match scoreI k trials deltas now with
    | none => score k (toEntries trials) (toEntries deltas) now = none
    | some (v, u, w) => ∃ s, score k (toEntries trials) (toEntries deltas) now = some s ∧ v.Has s.value ∧ u.Has s.urgency ∧
        s.velocity = w.map (fun q => ((q : ℚ) : ℝ)) := by
  have h1 := has_pt 1
  have h0 := has_pt 0
  push_cast at h1 h0
  cases trials with
  | nil => exact ⟨_, rfl, h0, h1, rfl⟩
  | cons last l =>
    have hu := unsortedQ_eq (last :: l)
    cases hq : unsortedQ (last :: l) with
    | true =>
      rw [hq] at hu
      simp only [scoreI, hq, if_true]
      show (if unsorted (toEntries (last :: l)) then none else _) = none
      rw [if_pos hu]
    | false =>
      rw [hq] at hu
      simp only [scoreI, hq, Bool.false_eq_true, if_false]
      obtain ⟨hs, hs0⟩ := has_stability k (last :: l) (difficultyQ (last :: l))
      rw [difficultyQ_cast] at hs
      have hd : (0 : ℚ) ≤ max (daysQ now last.2) 0 := le_max_right _ _
      have hr := has_ret k hd hs hs0
      have hw := has_weighted (last :: l)
      have heff := has_floor hr hw (max (daysQ now last.2) 0) (last :: l).length
      have hc : ((max (daysQ now last.2) 0 : ℚ) : ℝ) = max (daysBetween now last.2) 0 := by push_cast; rw [daysQ_cast]
      have hlen : (last :: l).length = (toEntries (last :: l)).length := (List.length_map _).symm
      rw [hc] at hr
      rw [hc] at heff
      have heff' : (floorI (retI k (max (daysQ now last.2) 0) (stabilityI k (last :: l) (difficultyQ (last :: l))))
          (weightedI (last :: l)) (max (daysQ now last.2) 0) (last :: l).length).Has
          (oldGoodFloor (retrievability k (max (daysBetween now last.2) 0)
            (computeStability k (toEntries (last :: l)) (estimateDifficulty (toEntries (last :: l)))))
          (weightedAvg (toEntries (last :: l))) (max (daysBetween now last.2) 0) (toEntries (last :: l)).length) := by
        rw [← hlen]; exact heff
      refine ⟨_, show (if unsorted (toEntries (last :: l)) then none else _) = _ by rw [if_neg (by rw [hu]; simp)], ?_, ?_, ?_⟩
      all_goals dsimp only
      · have := has_clamp (lo := 0) (hi := 5) (by norm_num) (has_add (has_mul heff' hw) (has_delta deltas heff'))
        push_cast at this
        exact this
      · exact has_sub h1 hr
      · exact velocityQ_cast _

end Trane.Numeric
