import Verif.Float.Approx
import Verif.Float.Slope
import Verif.Float.Props

/-! # The sums of the velocity in `f32` arithmetic -/

namespace Trane.Float

open Trane.Scorer (satSub daysBetween)

variable {powf : F → F → F}

/-- Zero or not very small. -/
def Lo (b x : ℝ) : Prop := x = 0 ∨ b ≤ x

theorem Lo.nonneg {b x : ℝ} (h : Lo b x) (hb : 0 ≤ b) : 0 ≤ x := by
  rcases h with rfl | h
  · exact le_rfl
  · exact hb.trans h

theorem Lo.add {b x y : ℝ} (hb : 0 ≤ b) (hx : Lo b x) (hy : Lo b y) : Lo b (x + y) := by
  have h1 := hx.nonneg hb
  have h2 := hy.nonneg hb
  rcases hx with rfl | hx
  · rw [zero_add]; exact hy
  · exact Or.inr (by linarith)

theorem Lo.mul {b c x y : ℝ} (hb : 0 ≤ b) (hc : 0 ≤ c) (hx : Lo b x) (hy : Lo c y) : Lo (b * c) (x * y) := by
  rcases hx with rfl | hx
  · exact Or.inl (zero_mul _)
  · rcases hy with rfl | hy
    · exact Or.inl (mul_zero _)
    · exact Or.inr (mul_le_mul hx hy hc (hb.trans hx))

theorem Lo.fine {b x : ℝ} (h : Lo b x) (hb : 1 / 2 ^ 40 ≤ b) (hx : x ≤ 2 ^ 110) : Fine x := by
  rcases h with h | h
  · exact Or.inl h
  · exact Or.inr ⟨hb.trans h, hx⟩

/-- The days since the oldest trial: two roundings. -/
theorem gDays_app {a b : ℤ} (h : b ≤ a) : App 2 (daysBetween a b) (gDays (f32 powf) a b) ∧
    Lo (1 / 2 ^ 17) (daysBetween a b) ∧ daysBetween a b ≤ 2 ^ 47 := by
  have h0 : 0 ≤ satSub a b := by unfold satSub; omega
  have h1 : satSub a b ≤ 2 ^ 63 := by unfold satSub; omega
  have h1r : (satSub a b : ℝ) ≤ 2 ^ 63 := by exact_mod_cast h1
  have hlo : Lo 1 (satSub a b : ℝ) := by
    rcases h0.eq_or_lt with h | h
    · exact Or.inl (by rw [← h]; simp)
    · exact Or.inr (by exact_mod_cast h)
  have hlo2 : Lo (1 / 2 ^ 17) (daysBetween a b) := by
    unfold daysBetween
    rcases hlo with h | h
    · exact Or.inl (by rw [h]; simp)
    · refine Or.inr ?_
      rw [le_div_iff₀ (by norm_num)]
      refine le_trans ?_ h
      norm_num
  have hup : daysBetween a b ≤ 2 ^ 47 := by
    unfold daysBetween
    rw [div_le_iff₀ (by norm_num)]
    exact h1r.trans (by norm_num)
  refine ⟨?_, hlo2, hup⟩
  have h2 : (f32 powf).lit 86400 = .num 86400 := by
    have := lit_nat (powf := powf) 86400 (by norm_num)
    simpa using this
  have h3 : App 1 (satSub a b : ℝ) ((f32 powf).ofInt (satSub a b)) :=
    app_round (k := 0) (by norm_num) (hlo.fine (by norm_num) (h1r.trans (by norm_num))) (by simp) (by simp)
  have h4 := App.div_num (k := 1) (by norm_num) h3 (c := 86400) (by norm_num)
    (hlo2.fine (by norm_num) (hup.trans (by norm_num)))
  unfold gDays
  rw [h2]
  exact h4

/-- The machine's sums after `i` trials, against the exact ones. -/
structure SumsNear (i : ℕ) (a : GSums F) (P S X Q : ℝ) : Prop where
  t : App (5 + i) P a.t
  s : App (5 + i) S a.s
  ts : App (5 + i) X a.ts
  tt : App (5 + i) Q a.tt
  lP : Lo (1 / 2 ^ 17) P
  lS : Lo 1 S
  lX : Lo (1 / 2 ^ 17) X
  lQ : Lo (1 / 2 ^ 34) Q
  uP : P ≤ i * 2 ^ 47
  uS : S ≤ i * 5
  uX : X ≤ i * 2 ^ 50
  uQ : Q ≤ i * 2 ^ 94

theorem sumsNear_zero : SumsNear 0 ⟨(f32 powf).lit 0, (f32 powf).lit 0, (f32 powf).lit 0, (f32 powf).lit 0⟩
    0 0 0 0 := by
  have h : App 5 0 ((f32 powf).lit 0) := by
    rw [lit0]; exact (app_num 0).mono le_rfl (by norm_num)
  exact ⟨h, h, h, h, Or.inl rfl, Or.inl rfl, Or.inl rfl, Or.inl rfl, by simp, by simp, by simp, by simp⟩

theorem sumsNear_step {i : ℕ} (hi : i < 64) {a : GSums F} {P S X Q : ℝ} (h : SumsNear i a P S X Q)
    {o : ℤ} {e : GEntry ℝ} (ho : o ≤ e.time) (hv : 1 ≤ e.value ∧ e.value ≤ 5) :
    SumsNear (i + 1) (gVelocityStep (f32 powf) o a ⟨.num e.value, e.time⟩)
      (P + daysBetween e.time o) (S + e.value) (X + daysBetween e.time o * e.value)
      (Q + daysBetween e.time o * daysBetween e.time o) := by
  obtain ⟨ht, hl, hu⟩ := gDays_app (powf := powf) ho
  generalize hd : daysBetween e.time o = d at *
  have hd0 : 0 ≤ d := hl.nonneg (by norm_num)
  have hir : (i : ℝ) + 1 ≤ 64 := by exact_mod_cast hi
  have hv0 : 0 ≤ e.value := by linarith
  have lv : Lo 1 e.value := Or.inr hv.1
  have lX' := hl.mul (by norm_num) (by norm_num) lv
  have lQ' := hl.mul (by norm_num) (by norm_num) hl
  rw [mul_one] at lX'
  norm_num only at lQ'
  have uX' : d * e.value ≤ 2 ^ 50 :=
    (mul_le_mul hu hv.2 hv0 (by positivity)).trans (by norm_num)
  have uQ' : d * d ≤ 2 ^ 94 := (mul_le_mul hu hu hd0 (by positivity)).trans (by norm_num)
  have lP := h.lP.add (by norm_num) hl
  have lS := h.lS.add (by norm_num) lv
  have lX := h.lX.add (by norm_num) lX'
  have lQ : Lo (1 / 2 ^ 34) (Q + d * d) := h.lQ.add (by norm_num) (by norm_num; exact lQ')
  have uP : P + d ≤ ((i + 1 : ℕ) : ℝ) * 2 ^ 47 := by push_cast; linarith [h.uP]
  have uS : S + e.value ≤ ((i + 1 : ℕ) : ℝ) * 5 := by push_cast; linarith [h.uS]
  have uX : X + d * e.value ≤ ((i + 1 : ℕ) : ℝ) * 2 ^ 50 := by push_cast; linarith [h.uX]
  have uQ : Q + d * d ≤ ((i + 1 : ℕ) : ℝ) * 2 ^ 94 := by push_cast; linarith [h.uQ]
  have fP : Fine (P + d) := lP.fine (by norm_num) (uP.trans (by push_cast; linarith))
  have fS : Fine (S + e.value) := lS.fine (by norm_num) (uS.trans (by push_cast; linarith))
  have fX : Fine (X + d * e.value) := lX.fine (by norm_num) (uX.trans (by push_cast; linarith))
  have fQ : Fine (Q + d * d) := lQ.fine (by norm_num) (uQ.trans (by push_cast; linarith))
  have aX : App 3 (d * e.value) (F.mul (gDays (f32 powf) e.time o) (.num e.value)) :=
    App.mul (k := 2) (k' := 0) (by norm_num) ht (app_num _) hd0 hv0
      (lX'.fine (by norm_num) (uX'.trans (by norm_num)))
  have aQ : App 5 (d * d) (F.mul (gDays (f32 powf) e.time o) (gDays (f32 powf) e.time o)) :=
    App.mul (k := 2) (k' := 2) (by norm_num) ht ht hd0 hd0
      ((show Lo (1 / 2 ^ 34) (d * d) by norm_num; exact lQ').fine (by norm_num) (uQ'.trans (by norm_num)))
  have hk : 5 + i ≤ 1024 := by omega
  exact ⟨h.t.add hk (ht.mono hd0 (by omega)) fP, h.s.add hk ((app_num _).mono hv0 (by omega)) fS,
    h.ts.add hk (aX.mono (by positivity) (by omega)) fX,
    h.tt.add hk (aQ.mono (by positivity) (by omega)) fQ, lP, lS, lX, lQ, uP, uS, uX, uQ⟩

/-- The grades as the machine holds them. -/
def stored (l : List (GEntry ℝ)) : List (GEntry F) := l.map (fun e => ⟨.num e.value, e.time⟩)

theorem sumsNear_fold (o : ℤ) (l : List (GEntry ℝ)) (ho : ∀ e ∈ l, o ≤ e.time)
    (hv : ∀ e ∈ l, 1 ≤ e.value ∧ e.value ≤ 5) {i : ℕ} (hi : i + l.length ≤ 64) {a : GSums F} {P S X Q : ℝ}
    (h : SumsNear i a P S X Q) :
    SumsNear (i + l.length) ((stored l).foldl (gVelocityStep (f32 powf) o) a)
      (P + (l.map (fun x => daysBetween x.time o)).sum) (S + (l.map (fun x => x.value)).sum)
      (X + (l.map (fun x => daysBetween x.time o * x.value)).sum)
      (Q + (l.map (fun x => daysBetween x.time o * daysBetween x.time o)).sum) := by
  induction l generalizing i a P S X Q with
  | nil => simpa [stored] using h
  | cons e l ih =>
    simp only [List.length_cons] at hi
    have h1 := sumsNear_step (powf := powf) (by omega) h (ho e (by simp)) (hv e (by simp))
    have h2 := ih (fun x hx => ho x (by simp [hx])) (fun x hx => hv x (by simp [hx])) (by omega) h1
    simp only [List.map_cons, List.sum_cons, List.length_cons, stored, List.foldl_cons]
    rw [show i + (l.length + 1) = i + 1 + l.length by omega, ← add_assoc, ← add_assoc, ← add_assoc,
      ← add_assoc]
    exact h2

/-- The difference of two products, against the exact one. -/
theorem sub_near {k : ℕ} (hk : k ≤ 51) {A B : ℝ} {a b : F} (ha : App k A a) (hb : App k B b) (hA : 0 ≤ A)
    (hB : 0 ≤ B) (hAB : 1 / 2 ^ 40 ≤ A + B) (hbig : A + B ≤ 2 ^ 110) :
    ∃ z, F.sub a b = .num z ∧ |z - (A - B)| ≤ (k + 5) / 2 ^ 24 * (A + B) := by
  obtain ⟨x, rfl, hx⟩ := ha.abs_le (by omega) hA
  obtain ⟨y, rfl, hy⟩ := hb.abs_le (by omega) hB
  have hkr : (k : ℝ) ≤ 51 := by exact_mod_cast hk
  have hk0 : (0 : ℝ) ≤ k := Nat.cast_nonneg k
  set ε : ℝ := 101 / 100 * k / 2 ^ 24 with hε
  have hε0 : 0 ≤ ε := by positivity
  have hε1 : ε ≤ 1 / 100 := by rw [hε]; norm_num; linarith
  have h1 : |x - y - (A - B)| ≤ ε * (A + B) := by
    have e : x - y - (A - B) = (x - A) - (y - B) := by ring
    rw [e]
    refine (abs_sub _ _).trans ?_
    linarith
  have h2 : |x - y| ≤ 101 / 100 * (A + B) := by
    have e : x - y = (x - y - (A - B)) + (A - B) := by ring
    have h3 : |A - B| ≤ A + B := (abs_sub _ _).trans (by rw [abs_of_nonneg hA, abs_of_nonneg hB])
    rw [e]
    refine (abs_add_le _ _).trans ?_
    have := mul_le_mul_of_nonneg_right hε1 (by linarith : 0 ≤ A + B)
    linarith
  have h127 : Rep ((2 : ℝ) ^ 127) := by
    have := rep_mul (m := 1) (k := 127) (by norm_num)
    simpa using this
  have hs : F.sub (.num x) (.num y) = F.round (x - y) := by
    show F.round (x + -y) = _
    rw [sub_eq_add_neg]
  rw [hs, round_num (le_refl _) h127 (h2.trans (by linarith))]
  refine ⟨_, rfl, ?_⟩
  have h4 : |rnd (x - y) - (x - y)| ≤ 2 / 2 ^ 24 * (A + B) := by
    refine (rnd_err _).trans (max_le ?_ ?_)
    · rw [div_le_iff₀ (by positivity)]
      norm_num
      linarith
    · have : (2 : ℝ) ^ (-150 : ℤ) ≤ 2 / 2 ^ 24 * (1 / 2 ^ 40) := by norm_num
      exact this.trans (mul_le_mul_of_nonneg_left hAB (by norm_num))
  have e : rnd (x - y) - (A - B) = (rnd (x - y) - (x - y)) + (x - y - (A - B)) := by ring
  rw [e]
  refine (abs_add_le _ _).trans ((add_le_add h4 h1).trans ?_)
  rw [← add_mul]
  refine mul_le_mul_of_nonneg_right ?_ (by linarith)
  rw [hε]
  norm_num
  linarith

theorem daysBetween_le {a b c : ℤ} (h : a ≤ b) : daysBetween a c ≤ daysBetween b c := by
  have : satSub a c ≤ satSub b c := by unfold satSub; omega
  unfold daysBetween
  gcongr

/-- The quotient of the sums, in `f32` and exactly. -/
theorem quotient_near {n : ℕ} {a : GSums F} {P S X Q W T : ℝ} (key : SumsNear n a P S X Q)
    (hnn : n ≤ 20) (hn2 : (2 : ℝ) ≤ n) (hT60 : 1 / 1440 ≤ T) (hT47 : T ≤ 2 ^ 47)
    (hDs : n * T ^ 2 / 2 ≤ n * Q - P * P) (hP0 : T ≤ P) (hPn : P ≤ n * T) (hSn : S ≤ n * 5)
    (hSl : n * 1 ≤ S) (hXn : X ≤ 5 * P) (hQn : Q ≤ n * (T * T))
    (hCS : (n * X - P * S) ^ 2 ≤ (n * Q - P * P) * (n * W - S * S))
    (hGs : n * W - S * S ≤ 4 * (n : ℝ) ^ 2) :
    1 / 2 ^ 23 ≤ n * Q - P * P ∧ ∃ z,
      (if F.lt (F.abs (F.sub (F.mul (.num n) a.tt) (F.mul a.t a.t))) ((f32 powf).lit (1 / 2 ^ 23))
        then some ((f32 powf).lit 0)
        else some (F.div (F.sub (F.mul (.num n) a.ts) (F.mul a.t a.s))
          (F.sub (F.mul (.num n) a.tt) (F.mul a.t a.t)))) = some (.num z) ∧
      |z - (n * X - P * S) / (n * Q - P * P)| * T ≤ 1 / 200 := by
  have hTpos : 0 < T := lt_of_lt_of_le (by norm_num) hT60
  have hn20 : (n : ℝ) ≤ 20 := by exact_mod_cast hnn
  have hX0 : 0 ≤ X := key.lX.nonneg (by norm_num)
  have hQ0 : 0 ≤ Q := key.lQ.nonneg (by norm_num)
  have hS0 : 0 ≤ S := key.lS.nonneg (by norm_num)
  have hPpos : 0 ≤ P := key.lP.nonneg (by norm_num)
  have hn0 : (0 : ℝ) ≤ n := by linarith
  have uP : P ≤ 20 * 2 ^ 47 := key.uP.trans (by linarith)
  have uX : X ≤ 20 * 2 ^ 50 := key.uX.trans (by linarith)
  have uQ : Q ≤ 20 * 2 ^ 94 := key.uQ.trans (by linarith)
  have uS : S ≤ 100 := hSn.trans (by linarith)
  have unX : n * X ≤ 20 * (20 * 2 ^ 50) := mul_le_mul hn20 uX hX0 (by norm_num)
  have unQ : n * Q ≤ 20 * (20 * 2 ^ 94) := mul_le_mul hn20 uQ hQ0 (by norm_num)
  have uPS : P * S ≤ 20 * 2 ^ 47 * 100 := mul_le_mul uP uS hS0 (by norm_num)
  have uPP : P * P ≤ 20 * 2 ^ 47 * (20 * 2 ^ 47) := mul_le_mul uP uP hPpos (by norm_num)
  have lon : Lo 1 (n : ℝ) := Or.inr (by linarith)
  have l1 := (lon.mul (by norm_num) (by norm_num) key.lX).fine (by norm_num) (unX.trans (by norm_num))
  have l2 := (lon.mul (by norm_num) (by norm_num) key.lQ).fine (by norm_num) (unQ.trans (by norm_num))
  have l3 := (key.lP.mul (by norm_num) (by norm_num) key.lS).fine (by norm_num) (uPS.trans (by norm_num))
  have l4 := (key.lP.mul (by norm_num) (by norm_num) key.lP).fine (by norm_num) (uPP.trans (by norm_num))
  have a1 := (App.mul (by omega) (app_num (n : ℝ)) key.ts hn0 hX0 l1).mono (k' := 51) (by positivity) (by omega)
  have a2 := (App.mul (by omega) (app_num (n : ℝ)) key.tt hn0 hQ0 l2).mono (k' := 51) (by positivity) (by omega)
  have a3 := (App.mul (by omega) key.t key.s hPpos hS0 l3).mono (k' := 51) (by positivity) (by omega)
  have a4 := (App.mul (by omega) key.t key.t hPpos hPpos l4).mono (k' := 51) (by positivity) (by omega)
  have hTT : (1 : ℝ) / 1440 * (1 / 1440) ≤ T * T := mul_le_mul hT60 hT60 (by norm_num) hTpos.le
  have hDT : T * T ≤ n * T ^ 2 / 2 := by
    have := mul_le_mul_of_nonneg_right hn2 (mul_nonneg hTpos.le hTpos.le)
    rw [pow_two]
    linarith
  have hPS1 : 1 / 1440 * 2 ≤ P * S :=
    mul_le_mul (hT60.trans hP0) (by linarith) (by norm_num) hPpos
  obtain ⟨Nc, hNc, eN⟩ := sub_near (le_refl 51) a1 a3 (by positivity) (by positivity)
    (le_trans (by norm_num) (hPS1.trans (le_add_of_nonneg_left (mul_nonneg hn0 hX0)))) (by linarith)
  obtain ⟨Dc, hDc, eD⟩ := sub_near (le_refl 51) a2 a4 (by positivity) (by positivity)
    (le_trans (by norm_num) (hTT.trans (by linarith [mul_nonneg hPpos hPpos]))) (by linarith)
  have hnP : n * P ≤ n * (n * T) := mul_le_mul_of_nonneg_left hPn hn0
  have hA : n * X + P * S ≤ 10 * (n : ℝ) ^ 2 * T := by
    have h1 : n * X ≤ n * (5 * P) := mul_le_mul_of_nonneg_left hXn hn0
    have h2 : P * S ≤ P * (n * 5) := mul_le_mul_of_nonneg_left hSn hPpos
    have e : 10 * (n : ℝ) ^ 2 * T = 10 * (n * (n * T)) := by ring
    rw [e]
    linarith
  have hB : n * Q + P * P ≤ 2 * (n : ℝ) ^ 2 * T ^ 2 := by
    have h1 : n * Q ≤ n * (n * (T * T)) := mul_le_mul_of_nonneg_left hQn hn0
    have h2 : P * P ≤ (n * T) * (n * T) := mul_le_mul hPn hPn hPpos (by positivity)
    have e : 2 * (n : ℝ) ^ 2 * T ^ 2 = n * (n * (T * T)) + (n * T) * (n * T) := by ring
    rw [e]
    linarith
  have hD0 : 0 < n * Q - P * P := lt_of_lt_of_le (by positivity) (hTT.trans (hDT.trans hDs))
  obtain ⟨q1, q2, q3⟩ := Slope.quotient_err (by linarith) hn20 hTpos (by norm_num)
    (by norm_num) hDs (hCS.trans (mul_le_mul_of_nonneg_left hGs hD0.le)) hA hB eN eD
  have hDbig : 1 / 1440 * (1 / 1440) ≤ n * Q - P * P := hTT.trans (hDT.trans hDs)
  have hDcbig : 1 / 2 ^ 23 ≤ Dc := le_trans (by norm_num; linarith) q1
  have hDcpos : 0 < Dc := lt_of_lt_of_le (by norm_num) hDcbig
  have hEps : (f32 powf).lit (1 / 2 ^ 23) = .num (1 / 2 ^ 23) := by
    have := lit_bd powf (q := 1 / 2 ^ 23) (bd_div 1 23 (by norm_num) (by norm_num) (by norm_num))
    rw [this]; push_cast; rfl
  have hlt : ¬ F.lt (F.abs (.num Dc)) (.num (1 / 2 ^ 23)) = true := by
    show ¬ decide (|Dc| < 1 / 2 ^ 23) = true
    rw [abs_of_pos hDcpos]
    simpa using hDcbig
  have hdiv : F.div (.num Nc) (.num Dc) = F.round (Nc / Dc) := by
    show (if Dc = 0 then _ else F.round (Nc / Dc)) = _
    rw [if_neg hDcpos.ne']
  have hq : |Nc / Dc| * T ≤ 14 := by
    have e : Nc / Dc = (Nc / Dc - (n * X - P * S) / (n * Q - P * P))
      + (n * X - P * S) / (n * Q - P * P) := by ring
    have := mul_le_mul_of_nonneg_right (abs_add_le (Nc / Dc - (n * X - P * S) / (n * Q - P * P))
      ((n * X - P * S) / (n * Q - P * P))) hTpos.le
    rw [← e] at this
    linarith
  have hq2 : |Nc / Dc| ≤ 14 * 1440 := by
    have := mul_le_mul_of_nonneg_left hT60 (abs_nonneg (Nc / Dc))
    linarith
  have h127 : Rep ((2 : ℝ) ^ 127) := by
    have := rep_mul (m := 1) (k := 127) (by norm_num)
    simpa using this
  refine ⟨le_trans (by norm_num) hDbig, rnd (Nc / Dc), ?_, ?_⟩
  · rw [hDc, hNc, hEps, if_neg hlt, hdiv, round_num (le_refl _) h127 (hq2.trans (by norm_num))]
  · have hr : |rnd (Nc / Dc) - Nc / Dc| * T ≤ 1 / 10000 := by
      have h1 := mul_le_mul_of_nonneg_right (rnd_err (Nc / Dc)) hTpos.le
      refine h1.trans ?_
      rcases max_cases (|Nc / Dc| / 2 ^ 24) ((2 : ℝ) ^ (-150 : ℤ)) with ⟨h, -⟩ | ⟨h, -⟩ <;> rw [h]
      · have : |Nc / Dc| / 2 ^ 24 * T = |Nc / Dc| * T / 2 ^ 24 := by ring
        rw [this]
        norm_num
        linarith
      · have : (2 : ℝ) ^ (-150 : ℤ) * T ≤ 2 ^ (-150 : ℤ) * 2 ^ 47 :=
          mul_le_mul_of_nonneg_left hT47 (by positivity)
        exact this.trans (by norm_num)
    have e : rnd (Nc / Dc) - (n * X - P * S) / (n * Q - P * P) = (rnd (Nc / Dc) - Nc / Dc)
      + (Nc / Dc - (n * X - P * S) / (n * Q - P * P)) := by ring
    rw [e]
    have := mul_le_mul_of_nonneg_right (abs_add_le (rnd (Nc / Dc) - Nc / Dc)
      (Nc / Dc - (n * X - P * S) / (n * Q - P * P))) hTpos.le
    linarith

theorem list_ends {trials : List (GEntry ℝ)} {newest oldest : GEntry ℝ} (hnew : trials.head? = some newest)
    (hold : trials.getLast? = some oldest) (hT : 60 ≤ newest.time - oldest.time) :
    ∃ m, trials = newest :: (m ++ [oldest]) := by
  cases trials with
  | nil => simp at hnew
  | cons a r =>
    simp only [List.head?_cons, Option.some.injEq] at hnew
    subst hnew
    cases hr : r.getLast? with
    | none =>
      rw [List.getLast?_eq_none_iff] at hr
      subst hr
      simp only [List.getLast?_singleton, Option.some.injEq] at hold
      subst hold
      omega
    | some b =>
      have hb : b = oldest := by
        rw [List.getLast?_cons, hr] at hold
        simpa using hold
      subst hb
      obtain ⟨m, rfl⟩ := List.getLast?_eq_some_iff.1 hr
      exact ⟨m, rfl⟩

theorem minute_days {a b : ℤ} (hT : 60 ≤ a - b) : 1 / 1440 ≤ daysBetween a b := by
  have : 60 ≤ satSub a b := by unfold satSub; omega
  have h : (60 : ℝ) ≤ (satSub a b : ℝ) := by exact_mod_cast this
  unfold daysBetween
  rw [le_div_iff₀ (by norm_num)]
  linarith

/-- Trials that are a minute apart are spread enough for a velocity. -/
theorem velocity_spread {trials : List (GEntry ℝ)} {newest oldest : GEntry ℝ}
    (hnew : trials.head? = some newest) (hold : trials.getLast? = some oldest)
    (hT : 60 ≤ newest.time - oldest.time) :
    1 / 2 ^ 23 ≤ trials.length *
        (trials.map (fun x => daysBetween x.time oldest.time * daysBetween x.time oldest.time)).sum
      - (trials.map (fun x => daysBetween x.time oldest.time)).sum
        * (trials.map (fun x => daysBetween x.time oldest.time)).sum := by
  obtain ⟨m, hm⟩ := list_ends hnew hold hT
  have h1 := Slope.days_spread (fun x : GEntry ℝ => daysBetween x.time oldest.time) trials newest oldest m
    (daysBetween newest.time oldest.time) rfl (by simp [daysBetween, satSub]) hm
  refine le_trans ?_ h1
  have h2 := minute_days hT
  have hn : (2 : ℝ) ≤ trials.length := by
    have : 2 ≤ trials.length := by rw [hm]; simp
    exact_mod_cast this
  generalize daysBetween newest.time oldest.time = T at *
  have h3 : (1 : ℝ) / 1440 * (1 / 1440) ≤ T * T := mul_le_mul h2 h2 (by norm_num) (by linarith)
  have h4 := mul_le_mul_of_nonneg_right hn (by positivity : 0 ≤ T ^ 2)
  norm_num
  nlinarith

end Trane.Float
