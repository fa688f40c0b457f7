import Verif.Float.VelocityLemmas

/-!
# C120: the velocity computed in `f32` is the slope of the trials
-/

namespace Trane.Float

open Trane.Scorer (satSub daysBetween Entry)

variable {powf : F → F → F}

/-! ## Specification -/

/-- The sum of the squared distances of the grades from the line `a + b * days`, where days are counted from
the oldest trial. -/
noncomputable def misfit (oldest : ℤ) (l : List (GEntry ℝ)) (a b : ℝ) : ℝ :=
  (l.map (fun e => (e.value - (a + b * (((e.time - oldest : ℤ) : ℝ) / 86400))) ^ 2)).sum

/-- The first line fits no worse than the second, and better if the slopes differ. -/
def BestLine (oldest : ℤ) (l : List (GEntry ℝ)) (a b a' b' : ℝ) : Prop :=
  misfit oldest l a b ≤ misfit oldest l a' b' ∧ (b' ≠ b → misfit oldest l a b < misfit oldest l a' b')

/-! ## Properties -/

/-- **C120, machine against model.**  For at most twenty trials, newest first, with grades from 1 to 5 and
with a minute or more between the newest and the oldest, the velocity computed in `f32` is a number and
differs from the exact one by at most a two-hundredth of a grade over the whole time between the two. -/
theorem machine_velocity_close (trials : List (GEntry ℝ)) (newest oldest : GEntry ℝ)
    (hnew : trials.head? = some newest) (hold : trials.getLast? = some oldest) (hs : Sorted trials)
    (hv : ∀ e ∈ trials, 1 ≤ e.value ∧ e.value ≤ 5) (hl : trials.length ≤ 20)
    (hT : 60 ≤ newest.time - oldest.time) :
    ∃ z v, gVelocity (f32 powf) (stored trials) = some (.num z) ∧
      Scorer.velocity (trials.map toEntry) = some v ∧
      |z - v| * daysBetween newest.time oldest.time ≤ 1 / 200 := by
  -- the list
  obtain ⟨m, hm⟩ := list_ends hnew hold hT
  have hlen2 : 2 ≤ trials.length := by rw [hm]; simp
  have hne : trials ≠ [] := by rw [hm]; simp
  have hord : ∀ e ∈ trials, oldest.time ≤ e.time ∧ e.time ≤ newest.time := by
    intro e he
    have hs' := hs
    unfold Sorted at hs'
    rw [hm, List.pairwise_cons, List.pairwise_append] at hs'
    obtain ⟨h1, -, -, h3⟩ := hs'
    rw [hm] at he
    simp only [List.mem_cons, List.mem_append, List.not_mem_nil, or_false] at he
    rcases he with rfl | he | rfl
    · exact ⟨by omega, le_rfl⟩
    · exact ⟨h3 e he oldest (by simp), h1 e (by simp [he])⟩
    · exact ⟨le_rfl, by omega⟩
  -- the sums
  have key := sumsNear_fold (powf := powf) oldest.time trials (fun e he => (hord e he).1) hv (i := 0)
    (by omega) (sumsNear_zero (powf := powf))
  set f : GEntry ℝ → ℝ := fun x => daysBetween x.time oldest.time with hf
  set g : GEntry ℝ → ℝ := fun x => x.value with hg
  set T : ℝ := daysBetween newest.time oldest.time with hTd
  have hT60 : 1 / 1440 ≤ T := by
    have : 60 ≤ satSub newest.time oldest.time := by unfold satSub; omega
    have h : (60 : ℝ) ≤ (satSub newest.time oldest.time : ℝ) := by exact_mod_cast this
    rw [hTd]
    unfold daysBetween
    rw [le_div_iff₀ (by norm_num)]
    linarith
  have hTpos : 0 < T := lt_of_lt_of_le (by norm_num) hT60
  have hT47 : T ≤ 2 ^ 47 := (gDays_app (powf := powf) (by omega : oldest.time ≤ newest.time)).2.2
  have hf0 : ∀ e ∈ trials, 0 ≤ f e ∧ f e ≤ T := fun e he =>
    ⟨(gDays_app (powf := powf) (hord e he).1).2.1.nonneg (by norm_num), daysBetween_le (hord e he).2⟩
  have hold0 : f oldest = 0 := by simp [hf, daysBetween, satSub]
  have hnewT : f newest = T := rfl
  simp only [zero_add] at key
  change SumsNear trials.length _ (trials.map f).sum (trials.map g).sum
    (trials.map (fun x => f x * g x)).sum (trials.map (fun x => f x * f x)).sum at key
  have hDs := Slope.days_spread f trials newest oldest m T hnewT hold0 hm
  have hP0 : T ≤ (trials.map f).sum := by
    rw [hm, List.map_cons, List.sum_cons, hnewT]
    have : 0 ≤ ((m ++ [oldest]).map f).sum := by
      apply List.sum_nonneg
      intro y hy
      obtain ⟨x, hx, rfl⟩ := List.mem_map.1 hy
      exact (hf0 x (by rw [hm]; simp only [List.mem_cons]; exact Or.inr hx)).1
    linarith
  have hPn : (trials.map f).sum ≤ trials.length * T := by
    rw [← Slope.sum_const]
    exact Slope.sum_mono trials (fun x hx => (hf0 x hx).2)
  have hSn : (trials.map g).sum ≤ trials.length * 5 := by
    rw [← Slope.sum_const]
    exact Slope.sum_mono trials (fun x hx => (hv x hx).2)
  have hSl : trials.length * 1 ≤ (trials.map g).sum := by
    rw [← Slope.sum_const]
    exact Slope.sum_mono trials (fun x hx => (hv x hx).1)
  have hXn : (trials.map (fun x => f x * g x)).sum ≤ 5 * (trials.map f).sum := by
    rw [← Slope.sum_const_mul]
    exact Slope.sum_mono trials (fun x hx => by
      have := mul_le_mul_of_nonneg_left (hv x hx).2 (hf0 x hx).1
      show f x * x.value ≤ _
      linarith)
  have hQn : (trials.map (fun x => f x * f x)).sum ≤ trials.length * (T * T) := by
    rw [← Slope.sum_const]
    exact Slope.sum_mono trials (fun x hx => mul_le_mul (hf0 x hx).2 (hf0 x hx).2 (hf0 x hx).1 hTpos.le)
  have hCS := Slope.numerator_sq f g trials hne rfl rfl rfl (lt_of_lt_of_le (by
    have : (0 : ℝ) < trials.length := by exact_mod_cast (by omega : 0 < trials.length)
    positivity) hDs)
  have hGs := Slope.grades_spread g trials hv
  -- both velocities
  have hlast : (stored trials).getLast? = some ⟨.num oldest.value, oldest.time⟩ := by
    unfold stored; rw [List.getLast?_map, hold]; rfl
  have hnF : (f32 powf).ofInt ((trials.length : ℕ) : ℤ) = .num (trials.length : ℝ) := by
    show F.round _ = _
    rw [round_bd (bd_int (trials.length : ℤ) rfl (by rw [abs_of_nonneg (by omega)]; omega))]
    simp
  have hvel : Scorer.velocity (trials.map toEntry) =
      if |trials.length * (trials.map (fun x => f x * f x)).sum - (trials.map f).sum * (trials.map f).sum|
          < 1 / 2 ^ 23 then some 0 else
        some ((trials.length * (trials.map (fun x => f x * g x)).sum
          - (trials.map f).sum * (trials.map g).sum) /
          (trials.length * (trials.map (fun x => f x * f x)).sum - (trials.map f).sum * (trials.map f).sum)) := by
    rw [← velocity_exact]
    unfold gVelocity
    rw [if_neg (by omega), hold]
    simp only [velocitySums_exact]
    simp [exact, hf, hg]
  have hmach : gVelocity (f32 powf) (stored trials) =
      let a := (stored trials).foldl (gVelocityStep (f32 powf) oldest.time)
        ⟨(f32 powf).lit 0, (f32 powf).lit 0, (f32 powf).lit 0, (f32 powf).lit 0⟩
      let d := F.sub (F.mul (.num trials.length) a.tt) (F.mul a.t a.t)
      if F.lt (F.abs d) ((f32 powf).lit (1 / 2 ^ 23)) then some ((f32 powf).lit 0)
      else some (F.div (F.sub (F.mul (.num trials.length) a.ts) (F.mul a.t a.s)) d) := by
    unfold gVelocity
    have hlen : (stored trials).length = trials.length := by unfold stored; simp
    rw [if_neg (by omega), hlast, hlen, hnF]
    rfl
  rw [hmach]
  obtain ⟨h1, z, h2, h3⟩ := quotient_near (powf := powf) key hl (by exact_mod_cast hlen2) hT60 hT47 hDs hP0 hPn
    hSn hSl hXn hQn hCS hGs
  refine ⟨z, _, h2, ?_, h3⟩
  rw [hvel, if_neg]
  rw [abs_of_pos (lt_of_lt_of_le (by norm_num) h1), not_lt]
  exact h1

/-- **C120.**  The velocity in the score that the machine computes, for at most twenty trials with grades from
1 to 5 and a minute or more between the newest and the oldest: it is a number, and it differs from the slope
of the line that fits the grades best by at most a two-hundredth of a grade, divided by the days between the
newest and the oldest trial. -/
theorem machine_velocity_slope (k : Scorer.Kind) (trials : List (GEntry ℝ)) (deltas : List (GEntry F)) (now : ℤ)
    (newest oldest : GEntry ℝ) (hnew : trials.head? = some newest) (hold : trials.getLast? = some oldest)
    (hs : Sorted trials) (hv : ∀ e ∈ trials, 1 ≤ e.value ∧ e.value ≤ 5) (hl : trials.length ≤ 20)
    (htime : ∀ e ∈ trials, -(2 ^ 62) ≤ e.time ∧ e.time < 2 ^ 62)
    (hT : 60 ≤ newest.time - oldest.time) :
    ∃ s z v a, gScore (f32 powf) k (stored trials) deltas now = some s ∧ s.velocity = some (.num z) ∧
      |z - v| ≤ 1 / 200 / (((newest.time - oldest.time : ℤ) : ℝ) / 86400) ∧
      ∀ a' b', BestLine oldest.time trials a v a' b' := by
  obtain ⟨z, v, h1, h2, h3⟩ := machine_velocity_close (powf := powf) trials newest oldest hnew hold hs hv hl hT
  have hsafe : Scorer.SafeTimes (trials.map toEntry) := by
    intro e he
    obtain ⟨x, hx, rfl⟩ := List.mem_map.1 he
    exact htime x hx
  have hnm : newest ∈ trials := List.mem_of_mem_head? (by rw [hnew]; rfl)
  have hom : oldest ∈ trials := List.mem_of_getLast? hold
  have hlast : (trials.map toEntry).getLast? = some (toEntry oldest) := by rw [List.getLast?_map, hold]; rfl
  have hd : daysBetween newest.time oldest.time = ((newest.time - oldest.time : ℤ) : ℝ) / 86400 :=
    Scorer.daysBetween_eq (e := toEntry newest) (o := toEntry oldest) hsafe (List.mem_map_of_mem hnm)
      (List.mem_map_of_mem hom)
  obtain ⟨last, rest, rfl⟩ : ∃ a r, trials = a :: r := by
    cases trials with
    | nil => simp at hnew
    | cons a r => exact ⟨a, r, rfl⟩
  have hun : gUnsorted (stored (last :: rest)) = false := by
    rw [gUnsorted_iff]
    unfold Sorted stored
    rw [List.pairwise_map]
    exact hs
  have h2' : 2 ≤ ((last :: rest).map toEntry).length := by
    by_contra hc
    have := (Scorer.velocity_absent_iff ((last :: rest).map toEntry)).2 (by omega)
    rw [h2] at this
    cases this
  have hD : 1 / 2 ^ 23 ≤ Scorer.spread (toEntry oldest) ((last :: rest).map toEntry) := by
    have hsp := velocity_spread hnew hold hT
    refine hsp.trans (le_of_eq ?_)
    have e1 : ∀ x ∈ (last :: rest), daysBetween x.time oldest.time = Scorer.daysFrom (toEntry oldest) (toEntry x) :=
      fun x hx => Scorer.daysBetween_eq (e := toEntry x) (o := toEntry oldest) hsafe (List.mem_map_of_mem hx)
        (List.mem_map_of_mem hom)
    unfold Scorer.spread
    rw [List.length_map, List.map_map, List.map_map]
    rw [List.map_congr_left (g := Scorer.daysFrom (toEntry oldest) ∘ toEntry) e1,
      List.map_congr_left (g := (fun e => Scorer.daysFrom (toEntry oldest) e * Scorer.daysFrom (toEntry oldest) e)
        ∘ toEntry) (fun x hx => by rw [e1 x hx]; rfl)]
  obtain ⟨v', a, e1, e2⟩ := Scorer.velocity_least_squares_partial _ hsafe h2' _ hlast hD
  rw [h2] at e1
  cases e1
  obtain ⟨s, hs1, hs2⟩ : ∃ s, gScore (f32 powf) k (stored (last :: rest)) deltas now = some s ∧
      s.velocity = gVelocity (f32 powf) (stored (last :: rest)) := by
    unfold gScore
    refine ⟨_, if_neg (by
      show ¬ gUnsorted (stored (last :: rest)) = true
      rw [hun]; simp), ?_⟩
    rfl
  refine ⟨s, z, v, a, hs1, hs2.trans h1, ?_, ?_⟩
  · rw [← hd, le_div_iff₀ (by
      rw [hd]
      have : (60 : ℝ) ≤ ((newest.time - oldest.time : ℤ) : ℝ) := by exact_mod_cast hT
      positivity)]
    exact h3
  · intro a' b'
    have := e2 a' b'
    unfold Scorer.residuals at this
    simp only [List.map_map, Function.comp_def] at this
    exact this

/-- **C120, direction.**  If the best line gains more than a two-hundredth of a grade from the oldest trial to
the newest, the machine reports a positive velocity, and if it loses as much, a negative one. -/
theorem machine_velocity_sign (trials : List (GEntry ℝ)) (newest oldest : GEntry ℝ)
    (hnew : trials.head? = some newest) (hold : trials.getLast? = some oldest) (hs : Sorted trials)
    (hv : ∀ e ∈ trials, 1 ≤ e.value ∧ e.value ≤ 5) (hl : trials.length ≤ 20)
    (hT : 60 ≤ newest.time - oldest.time) {v : ℝ} (hvel : Scorer.velocity (trials.map toEntry) = some v) :
    ∃ z, gVelocity (f32 powf) (stored trials) = some (.num z) ∧
      (1 / 200 < v * daysBetween newest.time oldest.time → 0 < z) ∧
      (v * daysBetween newest.time oldest.time < -(1 / 200) → z < 0) := by
  obtain ⟨z, w, h1, h2, h3⟩ := machine_velocity_close (powf := powf) trials newest oldest hnew hold hs hv hl hT
  rw [hvel] at h2
  cases h2
  have hp : 0 < daysBetween newest.time oldest.time := lt_of_lt_of_le (by norm_num) (minute_days hT)
  rw [← abs_of_pos hp, ← abs_mul, abs_le, sub_mul] at h3
  refine ⟨z, h1, fun h => ?_, fun h => ?_⟩
  · by_contra hc
    have := mul_nonpos_of_nonpos_of_nonneg (not_lt.1 hc) hp.le
    linarith
  · by_contra hc
    have := mul_nonneg (not_lt.1 hc) hp.le
    linarith

/-! ## A history -/

/-- Grades 1, 3, 2 and 5, ten days apart, newest first. -/
def climbing : List (GEntry ℝ) :=
  [⟨5, 1700000000 + 2592000⟩, ⟨2, 1700000000 + 1728000⟩, ⟨3, 1700000000 + 864000⟩, ⟨1, 1700000000⟩]

/-- It meets the conditions: the machine's velocity is a number within a six-thousandth of 11/100. -/
example (k : Scorer.Kind) (now : ℤ) : ∃ s z, gScore (f32 powf) k (stored climbing) [] now = some s ∧
    s.velocity = some (.num z) ∧ |z - 11 / 100| ≤ 1 / 6000 := by
  obtain ⟨s, z, v, a, h1, h2, h3, h4⟩ := machine_velocity_slope (powf := powf) k climbing [] now
    ⟨5, 1700000000 + 2592000⟩ ⟨1, 1700000000⟩ rfl rfl
    (by unfold Sorted climbing; simp) (by unfold climbing; simp; norm_num) (by unfold climbing; simp)
    (by unfold climbing; simp) (by norm_num)
  refine ⟨s, z, h1, h2, ?_⟩
  have hv : v = 11 / 100 := by
    by_contra hc
    have hlt := (h4 (11 / 10) (11 / 100)).2 (fun e => hc e.symm)
    unfold misfit climbing at hlt
    norm_num at hlt
    nlinarith [sq_nonneg (a + 15 * v - 11 / 4), sq_nonneg (v - 11 / 100)]
  rw [hv] at h3
  norm_num at h3 ⊢
  exact h3

/-- The machine reports that the grades rise. -/
example : ∃ z, gVelocity (f32 powf) (stored climbing) = some (.num z) ∧ 0 < z := by
  have hvel : Scorer.velocity (climbing.map toEntry) = some (11 / 100) := by
    simp [Scorer.velocity, climbing, toEntry, daysBetween, satSub]
    norm_num
  obtain ⟨z, h1, h2, -⟩ := machine_velocity_sign (powf := powf) climbing
    ⟨5, 1700000000 + 2592000⟩ ⟨1, 1700000000⟩ rfl rfl
    (by unfold Sorted climbing; simp) (by unfold climbing; simp; norm_num) (by unfold climbing; simp)
    (by norm_num) hvel
  refine ⟨z, h1, h2 ?_⟩
  simp [daysBetween, satSub]
  norm_num

end Trane.Float
