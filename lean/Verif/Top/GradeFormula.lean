import Verif.Top.AppProps
import Verif.Top.AppSample
import Verif.Scorer.Formula

/-!
# C96: the score that is answered after a grade
-/

namespace Trane.TopLevel
open Trane.Store
open Trane.Store.Table (IsNewest get_newest)
open Trane.UnitScorer (Caches invalidate survives_invalidate)
open Trane.Scorer (Kind Entry)
open Trane.RewardScorer (scoreRewards applyReward)
open Trane.Formula (Safe)

/-! ### Rewards -/

theorem scoreRewards_eq (inRange : ℤ → Bool) (now : ℤ) (course lesson : List RewardScorer.Reward)
    (hc : ∀ r ∈ course, inRange r.time = true) (hl : ∀ r ∈ lesson, inRange r.time = true) :
    scoreRewards inRange now course lesson = Formula.reward now course lesson := by
  unfold scoreRewards
  simp only [Formula.reward_formula inRange now _ hc, Formula.reward_formula inRange now _ hl]
  cases course with
  | nil =>
    cases lesson with
    | nil => simp [Formula.reward, Formula.rewardAverage]
    | cons r rs => simp [Formula.reward]
  | cons r rs =>
    cases lesson with
    | nil => simp [Formula.reward]
    | cons r' rs' =>
      simp only [Formula.reward, reduceCtorEq, and_self, if_false]
      ring

theorem applyReward_iff (now : ℤ) (reward : ℝ) (trials : List Entry) :
    applyReward now reward trials = true ↔ Formula.Counts now reward trials := by
  match trials with
  | [] => simp [applyReward, Formula.Counts]
  | [_] => simp [applyReward, Formula.Counts]
  | [_, _] => simp [applyReward, Formula.Counts]
  | a :: b :: c :: ts =>
    have hd : ((now - a.time : ℤ) : ℝ) / 86400 < 7 ↔ (now : ℝ) - (a.time : ℝ) < 7 * 86400 := by
      rw [div_lt_iff₀ (by norm_num)]
      push_cast
      rfl
    have hs : (((a :: b :: c :: ts).take 3).map (fun t => t.value)).sum / 3 = (a.value + b.value + c.value) / 3 := by
      simp [add_assoc]
    unfold applyReward
    rw [if_neg (by simp)]
    simp only [hs, hd, Formula.Counts]
    generalize (a.value + b.value + c.value) / 3 = avg
    by_cases hw : (now : ℝ) - (a.time : ℝ) < 7 * 86400
    · simp only [hw, and_true, forall_const]
      split_ifs with h1 h2
      · simp only [Bool.false_eq_true, false_iff, not_and]
        intro h; exact absurd (h h1.1) (not_le.2 h1.2)
      · simp only [Bool.false_eq_true, false_iff, not_and]
        intro _ h; exact absurd (h h2.1) (not_le.2 h2.2)
      · simp only [true_iff]
        constructor
        · intro h; by_contra hh; exact h1 ⟨h, not_le.1 hh⟩
        · intro h; by_contra hh; exact h2 ⟨h, not_le.1 hh⟩
    · simp [hw]

/-! ### Scores -/

variable (kind : Str → Kind) (inRange : ℤ → Bool) (sortV : SortDesc ℝ) (sortW : SortDesc (ℚ × ℚ))

/-- The times in the records of an exercise, and of the rewards of its lesson and course, are times that the code can
handle. -/
structure Usable (inRange : ℤ → Bool) (t : Top ℝ) (x l c : Str) : Prop where
  now : Safe (t.override.getD t.clock)
  trials : ∀ p ∈ t.trials.history x, Safe p.2
  deltas : ∀ p ∈ t.deltas.history x, Safe p.2
  lesson : ∀ p ∈ t.rewards.table.history l, inRange p.2 = true
  course : ∀ p ∈ t.rewards.table.history c, inRange p.2 = true

theorem newest_mem {α : Type} {n : Nat} {log ans : List (α × Int)} (h : IsNewest n log ans) {p : α × Int} (hp : p ∈ ans) :
    p ∈ log := by
  obtain ⟨-, -, rest, hperm, -⟩ := h
  exact hperm.subset (List.mem_append_left _ hp)

theorem uncached_score_formula (t : Top ℝ) {x l c : Str} (n : Nat)
    (hx : t.graph.getUnitType x = some .exercise) (hl : t.graph.getExerciseLesson x = some l)
    (hc : t.graph.getLessonCourse l = some c) (hu : t.caches.ex.find x = none)
    (hs : Usable inRange t x l c) (hne : t.trials.history x ≠ []) (hn : 0 < t.options.made.numTrials) :
    ∃ trials deltas lesson course,
      IsNewest t.options.made.numTrials (t.trials.history x) trials ∧
      IsNewest t.options.made.numTrials (t.deltas.history x) deltas ∧
      IsNewest t.options.made.numRewards (t.rewards.table.history l) lesson ∧
      IsNewest t.options.made.numRewards (t.rewards.table.history c) course ∧
      answer (appBase kind inRange sortV sortW) t x (n + 1) = some (some (Formula.final (kind x)
        (t.override.getD t.clock) t.clock (entries trials) (entries deltas) (rewardsOf course) (rewardsOf lesson))) := by
  have h1 := get_newest sortV t.trials x t.options.made.numTrials
  have h2 := get_newest sortV t.deltas x t.options.made.numTrials
  have h3 := get_newest sortW t.rewards.table l t.options.made.numRewards
  have h4 := get_newest sortW t.rewards.table c t.options.made.numRewards
  refine ⟨_, _, _, _, h1, h2, h3, h4, ?_⟩
  rw [answer_uncached (appBase kind inRange sortV sortW) t n hx hl hc hu]
  congr 2
  show (UnitScorer.appScore kind inRange t.clock x (t.override.getD t.clock) ⟨entries (t.trials.get sortV x t.options.made.numTrials),
      entries (t.deltas.get sortV x t.options.made.numTrials)⟩
    (rewardsOf (t.rewards.table.get sortW l t.options.made.numRewards))
    (rewardsOf (t.rewards.table.get sortW c t.options.made.numRewards))).score = _
  have hsorted := get_newestFirst sortV t.trials x t.options.made.numTrials
  have hT : ∀ e ∈ entries (t.trials.get sortV x t.options.made.numTrials), Safe e.time := by
    intro e he
    obtain ⟨p, hp, rfl⟩ := List.mem_map.1 he
    exact hs.trials p (newest_mem h1 hp)
  have hD : ∀ e ∈ entries (t.deltas.get sortV x t.options.made.numTrials), Safe e.time := by
    intro e he
    obtain ⟨p, hp, rfl⟩ := List.mem_map.1 he
    exact hs.deltas p (newest_mem h2 hp)
  have hL : ∀ r ∈ rewardsOf (t.rewards.table.get sortW l t.options.made.numRewards), inRange r.time = true := by
    intro e he
    obtain ⟨p, hp, rfl⟩ := List.mem_map.1 he
    exact hs.lesson p (newest_mem h3 hp)
  have hC : ∀ r ∈ rewardsOf (t.rewards.table.get sortW c t.options.made.numRewards), inRange r.time = true := by
    intro e he
    obtain ⟨p, hp, rfl⟩ := List.mem_map.1 he
    exact hs.course p (newest_mem h4 hp)
  have hlen : (entries (t.trials.get sortV x t.options.made.numTrials)) ≠ [] := by
    intro e
    have := h1.1
    have e' : t.trials.get sortV x t.options.made.numTrials = [] := List.map_eq_nil_iff.1 e
    rw [e'] at this
    have hl : 0 < (t.trials.history x).length := List.length_pos_iff.2 hne
    simp only [List.length_nil] at this
    omega
  generalize entries (t.trials.get sortV x t.options.made.numTrials) = T at *
  generalize entries (t.deltas.get sortV x t.options.made.numTrials) = D at *
  generalize rewardsOf (t.rewards.table.get sortW l t.options.made.numRewards) = L at *
  generalize rewardsOf (t.rewards.table.get sortW c t.options.made.numRewards) = C at *
  cases T with
  | nil => exact absurd rfl hlen
  | cons last older =>
    obtain ⟨s, hs', hv, -⟩ := Formula.score_formula (kind x) last older D _ hsorted hT hD hs.now
    have hcl : ∀ y : ℝ, Scorer.clamp y 0 5 = Formula.within 0 5 y := by
      intro y
      unfold Scorer.clamp Formula.within
      split
      · rename_i h
        rw [min_eq_right (by linarith), max_eq_left h.le]
      · rename_i h
        split
        · rename_i h'
          rw [min_eq_left h'.le, max_eq_right (by norm_num)]
        · rename_i h'
          rw [min_eq_right (not_lt.1 h'), max_eq_right (not_lt.1 h)]
    unfold UnitScorer.appScore
    dsimp only
    rw [hs']
    dsimp only
    rw [scoreRewards_eq inRange t.clock C L hC hL, hcl, hv]
    unfold Formula.final
    dsimp only
    by_cases ha : Formula.Counts t.clock (Formula.reward t.clock C L) (last :: older)
    · rw [if_pos ha, if_pos ((applyReward_iff _ _ _).2 ha)]
    · rw [if_neg ha, if_neg (fun h => ha ((applyReward_iff _ _ _).1 h))]

theorem uncached_fold (g : Graph Str) {x : Str} (ids : List Str) {c : Caches Str ℝ} (h : c.ex.find x = none) :
    (ids.foldl (fun c u => invalidate g c u) c).ex.find x = none := by
  induction ids generalizing c with
  | nil => exact h
  | cons u us ih =>
    refine ih ?_
    cases e : (invalidate g c u).ex.find x with
    | none => rfl
    | some r =>
      rw [((survives_invalidate g c u).ex x r e).1] at h
      cases h

/-- **C96, after a grade**: after any history, the score that is answered for an exercise that was just graded is the
documented formula of the newest of its trials, with the new grade, of its deltas and of the rewards of its lesson and
course. -/
theorem graded_score_formula (g0 : Graph Str) (clock : Int) (h : List (Call ℝ)) {x l c : Str} {g : MasteryScore} {τ : Int}
    {fuel : Nat} {order : List Reward → List Reward} {t₀ t : Top ℝ}
    (h₀ : t₀ = runs (appBase kind inRange sortV sortW) (fresh g0 clock) h)
    (ht : step (appBase kind inRange sortV sortW) t₀ (.scoreExercise x g τ fuel order {}) = (t, true))
    (hx : t₀.graph.getUnitType x = some .exercise) (hl : t₀.graph.getExerciseLesson x = some l)
    (hc : t₀.graph.getLessonCourse l = some c) (hs : Usable inRange t x l c) (hn : 0 < t₀.options.made.numTrials)
    (n : Nat) :
    ∃ trials deltas lesson course,
      IsNewest t₀.options.made.numTrials (t₀.trials.history x ++ [((g.toFloat : ℝ), τ)]) trials ∧
      IsNewest t₀.options.made.numTrials (t.deltas.history x) deltas ∧
      IsNewest t₀.options.made.numRewards (t.rewards.table.history l) lesson ∧
      IsNewest t₀.options.made.numRewards (t.rewards.table.history c) course ∧
      answer (appBase kind inRange sortV sortW) t x (n + 1) = some (some (Formula.final (kind x)
        (t₀.override.getD t₀.clock) t₀.clock (entries trials) (entries deltas) (rewardsOf course) (rewardsOf lesson))) := by
  have hsound : Sound (appBase kind inRange sortV sortW) t₀ := by
    rw [h₀]
    exact sound_runs _ _ _ (sound_fresh _ _ _)
  rcases step_score (appBase kind inRange sortV sortW) t₀ x g τ fuel order {} with ⟨-, e⟩ | ⟨s, ok, e0, e⟩
  · rw [e] at ht; cases ht
  rw [e] at ht
  cases ht
  obtain ⟨v, c1, r, c', -, -, he⟩ := System.ends_of_score (tables_of_sound hsound) e0
  have hT := (System.newTrials_spec (tables_of_sound hsound) x g τ).1 x
  cases he with
  | done rs ids =>
    refine Exists.imp (fun trials => Exists.imp fun deltas => Exists.imp fun lesson => Exists.imp fun course => ?_)
      (uncached_score_formula kind inRange sortV sortW (t₀.putSys _) n hx hl hc
        (show (t₀.putSys { System.afterTrial (t₀.config (appBase kind inRange sortV sortW)) t₀.sys x g τ v r c' with
            rewards := _
            caches := ids.foldl (fun c u => invalidate t₀.sys.graph c u) (invalidate t₀.sys.graph c' x) }).caches.ex.find x
            = none from uncached_fold t₀.sys.graph ids (ex_not_cached t₀.sys.graph c' x hx)) hs ?_ hn)
    · rintro ⟨h1, h2⟩
      refine ⟨?_, h2⟩
      have e1 := hT
      rw [if_pos rfl] at e1
      exact e1 ▸ h1
    · intro e2
      have e1 := hT
      rw [if_pos rfl] at e1
      exact absurd (e1.symm.trans e2) (by simp)

/-- The hypotheses hold of an exercise with three trials and a rewarded lesson that is graded on day 10. -/
example : ∃ t, step caseBase (runs caseBase (fresh sampleGraph 10) byWaiting) (.scoreExercise ['e'] .four 864000 9 id {})
      = (t, true) ∧ Usable (fun _ => true) t ['e'] ['l'] ['c'] ∧ (t.trials.history ['e']).length = 4 ∧
    (t.rewards.table.history ['l']).length = 1 ∧ o2.graph.getUnitType ['e'] = some .exercise ∧
    o2.graph.getExerciseLesson ['e'] = some ['l'] ∧ o2.graph.getLessonCourse ['l'] = some ['c'] ∧
    0 < o2.options.made.numTrials := by
  refine ⟨(step caseBase o2 (.scoreExercise ['e'] .four 864000 9 id {})).1, Prod.ext rfl (by decide +kernel),
    ⟨by unfold Safe; decide +kernel, ?_, ?_, fun _ _ => rfl, fun _ _ => rfl⟩, by decide +kernel, by decide +kernel, by decide +kernel,
    by decide +kernel, by decide +kernel, by decide +kernel⟩
  · have h : ∀ z ∈ ((step caseBase o2 (.scoreExercise ['e'] .four 864000 9 id {})).1.trials.history ['e']).map Prod.snd,
        -(2 ^ 62) ≤ z ∧ z < 2 ^ 62 := by decide +kernel
    exact fun p hp => h p.2 (List.mem_map_of_mem hp)
  · have h : ∀ z ∈ ((step caseBase o2 (.scoreExercise ['e'] .four 864000 9 id {})).1.deltas.history ['e']).map Prod.snd,
        -(2 ^ 62) ≤ z ∧ z < 2 ^ 62 := by decide +kernel
    exact fun p hp => h p.2 (List.mem_map_of_mem hp)

end Trane.TopLevel
