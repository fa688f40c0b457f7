import Verif.Numeric.Interval
import Verif.Scorer.RewardModel

/-!
# Computing the averages of the reward scorer

The formulas of `Verif/Scorer/RewardModel.lean` on intervals with rational ends, for rewards with rational values and weights.
`rewards_computed` says that the score of the model lies in the interval computed, if one is.  These are not models of code.
-/

namespace Trane.Numeric
open Trane.RewardScorer

/-- A reward with rational value and weight. -/
structure QReward where
  value : ℚ
  weight : ℚ
  time : ℤ

noncomputable def toReward (r : QReward) : Reward := ⟨(r.value : ℝ), (r.weight : ℝ), r.time⟩
noncomputable def toRewards (l : List QReward) : List Reward := l.map toReward

def daysN (r : QReward) (now : ℤ) : ℕ := ((now - r.time).tdiv 86400).toNat

theorem daysN_cast {inRange : ℤ → Bool} {r : QReward} (h : inRange r.time = true) (now : ℤ) :
    daysSince inRange (toReward r) now = (daysN r now : ℤ) := by
  unfold daysSince daysN instant toReward
  simp only [h, if_true]
  rw [Int.toNat_eq_max]

def decayI (days : ℕ) : Iv := powI (1 / 2) days 14

theorem has_decay (days : ℕ) : (decayI days).Has (decayFactor (days : ℝ)) := by
  have := has_powI (b := 1 / 2) (by norm_num) (by norm_num) days (q := 14) (by norm_num)
  unfold decayFactor decayI
  push_cast at this
  exact this

def decayedI (now : ℤ) (r : QReward) : Iv × Iv :=
  ((pt r.value).mul (decayI (daysN r now)), (pt r.weight).mul (decayI (daysN r now)))

theorem has_decayed {inRange : ℤ → Bool} {r : QReward} (h : inRange r.time = true) (now : ℤ) :
    (decayedI now r).1.Has (decayed inRange now (toReward r)).1 ∧ (decayedI now r).2.Has (decayed inRange now (toReward r)).2 := by
  unfold decayed decayedI
  rw [daysN_cast h]
  have := has_decay (daysN r now)
  refine ⟨has_mul (has_pt _) ?_, has_mul (has_pt _) ?_⟩ <;> simpa using this

/-- The accumulators; `none` if the intervals leave open whether a reward counts. -/
def accumulateI (now : ℤ) : Iv × Iv → List QReward → Option (Iv × Iv)
  | acc, [] => some acc
  | acc, r :: rs =>
    let e := decayedI now r
    if e.2.hi < 5 / 100 then accumulateI now acc rs
    else if 5 / 100 ≤ e.2.lo then accumulateI now (acc.1.add (e.1.mul e.2), acc.2.add e.2) rs
    else none

theorem has_accumulate {inRange : ℤ → Bool} (now : ℤ) : ∀ (l : List QReward), (∀ r ∈ l, inRange r.time = true) → ∀ (A : Iv × Iv) (a : ℝ × ℝ),
    A.1.Has a.1 → A.2.Has a.2 → ∀ B, accumulateI now A l = some B →
    B.1.Has (accumulate inRange now a (toRewards l)).1 ∧ B.2.Has (accumulate inRange now a (toRewards l)).2 := by
  intro l
  induction l with
  | nil =>
    intro _ A a h1 h2 B hB
    simp only [accumulateI, Option.some.injEq] at hB
    subst hB
    exact ⟨h1, h2⟩
  | cons r l ih =>
    intro hl A a h1 h2 B hB
    obtain ⟨d1, d2⟩ := has_decayed (hl r (by simp)) now
    have hl' : ∀ r ∈ l, inRange r.time = true := fun x hx => hl x (by simp [hx])
    simp only [accumulateI] at hB
    simp only [toRewards, List.map_cons, accumulate]
    by_cases hlow : (decayedI now r).2.hi < 5 / 100
    · rw [if_pos hlow] at hB
      have : (decayed inRange now (toReward r)).2 < 5 / 100 := by
        refine lt_of_le_of_lt d2.2 ?_
        have := Rat.cast_lt (K := ℝ).2 hlow
        push_cast at this
        exact this
      rw [if_pos this]
      exact ih hl' A a h1 h2 B hB
    · rw [if_neg hlow] at hB
      by_cases hhigh : 5 / 100 ≤ (decayedI now r).2.lo
      · rw [if_pos hhigh] at hB
        have : ¬ (decayed inRange now (toReward r)).2 < 5 / 100 := by
          rw [not_lt]
          refine le_trans ?_ d2.1
          have := Rat.cast_le (K := ℝ).2 hhigh
          push_cast at this
          exact this
        rw [if_neg this]
        exact ih hl' _ (a.1 + (decayed inRange now (toReward r)).1 * (decayed inRange now (toReward r)).2, a.2 + (decayed inRange now (toReward r)).2)
          (has_add h1 (has_mul d1 d2)) (has_add h2 d2) B hB
      · rw [if_neg hhigh] at hB
        exact absurd hB (by simp)

/-- The weighted average. -/
def averageI (now : ℤ) (l : List QReward) : Option Iv :=
  match accumulateI now (pt 0, pt 0) l with
  | none => none
  | some B => if 0 < B.2.lo then some (B.1.div B.2) else if B.2.lo = 0 ∧ B.2.hi = 0 then some (pt 0) else none

theorem has_average {inRange : ℤ → Bool} {now : ℤ} {l : List QReward} (hl : ∀ r ∈ l, inRange r.time = true) {I : Iv} (h : averageI now l = some I) :
    I.Has (average inRange now (toRewards l)) := by
  unfold averageI at h
  have h0 := has_pt 0
  push_cast at h0
  cases hB : accumulateI now (pt 0, pt 0) l with
  | none => rw [hB] at h; exact absurd h (by simp)
  | some B =>
    rw [hB] at h
    obtain ⟨b1, b2⟩ := has_accumulate now l hl (pt 0, pt 0) (0, 0) h0 h0 B hB
    unfold average
    dsimp only at h ⊢
    by_cases hp : 0 < B.2.lo
    · rw [if_pos hp] at h
      have : (accumulate inRange now (0, 0) (toRewards l)).2 ≠ 0 := by
        have := lt_of_lt_of_le (show (0 : ℝ) < (B.2.lo : ℝ) by exact_mod_cast hp) b2.1
        exact this.ne'
      rw [if_neg this]
      cases h
      exact has_div b1 b2 hp
    · rw [if_neg hp] at h
      by_cases hz : B.2.lo = 0 ∧ B.2.hi = 0
      · rw [if_pos hz] at h
        have : (accumulate inRange now (0, 0) (toRewards l)).2 = 0 := by
          have a := b2.1
          have b := b2.2
          rw [hz.1] at a
          rw [hz.2] at b
          push_cast at a b
          exact le_antisymm b a
        rw [if_pos this]
        cases h
        exact h0
      · rw [if_neg hz] at h
        exact absurd h (by simp)

/-- The score of the rewards of a lesson and its course. -/
def scoreRewardsI (now : ℤ) (course lesson : List QReward) : Option Iv :=
  if course = [] ∧ lesson = [] then some (pt 0)
  else if course = [] then averageI now lesson
  else if lesson = [] then averageI now course
  else
    match averageI now course, averageI now lesson with
    | some C, some L => some ((C.mul (pt (3 / 10))).add (L.mul (pt (7 / 10))))
    | _, _ => none

instance : DecidableEq QReward := fun a b =>
  decidable_of_iff (a.value = b.value ∧ a.weight = b.weight ∧ a.time = b.time)
    (by cases a; cases b; simp)

theorem rewards_computed {inRange : ℤ → Bool} {now : ℤ} {course lesson : List QReward} (hc : ∀ r ∈ course, inRange r.time = true)
    (hl : ∀ r ∈ lesson, inRange r.time = true) {I : Iv} (h : scoreRewardsI now course lesson = some I) :
    I.Has (scoreRewards inRange now (toRewards course) (toRewards lesson)) := by
  have e : ∀ l : List QReward, toRewards l = [] ↔ l = [] := fun l => List.map_eq_nil_iff
  unfold scoreRewardsI at h
  unfold scoreRewards
  simp only [e]
  by_cases h1 : course = [] ∧ lesson = []
  · rw [if_pos h1] at h ⊢
    cases h
    have h0 := has_pt 0
    push_cast at h0
    exact h0
  rw [if_neg h1] at h ⊢
  by_cases h2 : course = []
  · rw [if_pos h2] at h ⊢
    exact has_average hl h
  rw [if_neg h2] at h ⊢
  by_cases h3 : lesson = []
  · rw [if_pos h3] at h ⊢
    exact has_average hc h
  rw [if_neg h3] at h ⊢
  cases hC : averageI now course with
  | none => rw [hC] at h; exact absurd h (by simp)
  | some C =>
    cases hL : averageI now lesson with
    | none => rw [hC, hL] at h; exact absurd h (by simp)
    | some L =>
      rw [hC, hL] at h
      cases h
      have a := has_average hc hC
      have b := has_average hl hL
      rw [show (3 / 10 + 7 / 10 : ℝ) = 1 by norm_num, div_one]
      have := has_add (has_mul a (has_pt (3 / 10))) (has_mul b (has_pt (7 / 10)))
      push_cast at this ⊢
      exact this

end Trane.Numeric
