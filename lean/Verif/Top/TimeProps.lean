import Verif.Top.SessionProps

/-!
# The time at which scores are computed (C82)
-/

namespace Trane.TopLevel
open Trane.Store
open Trane.UnitScorer (Caches scoreC invalidate after)

variable {R : Type} [Field R] [LinearOrder R]

/-! ### Specification -/

/-- What the clock of the computer shows after the calls, given what it showed before. -/
def clockAfter (clock : Int) : List (Call R) → Int
  | [] => clock
  | .wait c :: h => clockAfter c h
  | _ :: h => clockAfter clock h

/-- The call sets or forgets the time override. -/
def TouchesOverride : Call R → Prop
  | .overrideTime _ => True
  | .restart _ => True
  | _ => False

/-- The answer of `get_unit_score`. -/
def answer (b : Base R) (t : Top R) (u : Str) (n : Nat) : Option (Option R) :=
  (scoreC (t.sys.world (t.config b)) n u t.caches).map (fun r => r.1)

/-! ### Proofs -/

theorem clockAfter_append (clock : Int) (h h' : List (Call R)) :
    clockAfter clock (h ++ h') = clockAfter (clockAfter clock h) h' := by
  induction h generalizing clock with
  | nil => rfl
  | cons c h ih => cases c <;> exact ih _

theorem clock_step (b : Base R) (t : Top R) (c : Call R) :
    (step b t c).1.clock = clockAfter t.clock [c] := by
  cases c with
  | scoreExercise x g ts fuel order f =>
    rcases step_score b t x g ts fuel order f with ⟨-, e⟩ | ⟨s, ok, -, e⟩ <;> rw [e] <;> rfl
  | getBatch q => rcases step_batch b t q with ⟨-, e⟩ | ⟨s, r, -, e⟩ <;> rw [e] <;> rfl
  | setPreferences p f => cases f <;> rfl
  | restart g => rcases step_restart b t g with e | ⟨-, e⟩ <;> rw [e] <;> rfl
  | _ => rfl

theorem clock_runs (b : Base R) (t : Top R) (h : List (Call R)) :
    (runs b t h).clock = clockAfter t.clock h := by
  induction h using List.reverseRecOn with
  | nil => rfl
  | append_singleton h c ih => rw [runs_snoc, clock_step, ih, clockAfter_append]

theorem override_step (b : Base R) (t : Top R) (c : Call R) (hc : ¬ TouchesOverride c) :
    (step b t c).1.override = t.override := by
  cases c with
  | scoreExercise x g ts fuel order f =>
    rcases step_score b t x g ts fuel order f with ⟨-, e⟩ | ⟨s, ok, -, e⟩ <;> rw [e] <;> rfl
  | getBatch q => rcases step_batch b t q with ⟨-, e⟩ | ⟨s, r, -, e⟩ <;> rw [e] <;> rfl
  | setPreferences p f => cases f <;> rfl
  | restart g => exact absurd trivial hc
  | overrideTime o => exact absurd trivial hc
  | _ => rfl

theorem override_runs (b : Base R) (t : Top R) (h : List (Call R)) (hc : ∀ c ∈ h, ¬ TouchesOverride c) :
    (runs b t h).override = t.override := by
  induction h using List.reverseRecOn with
  | nil => rfl
  | append_singleton h c ih =>
    rw [runs_snoc, override_step b _ c (hc c (by simp)), ih (fun c' h' => hc c' (by simp [h']))]

theorem ex_not_cached (g : Graph Str) (c : Caches Str R) (x : Str) (hx : g.getUnitType x = some .exercise) :
    (invalidate g c x).ex.find x = none := by
  unfold invalidate
  rw [hx]
  have : (c.ex.del x).find x = none := by rw [AMap.find_del]; simp
  cases hl : g.getExerciseLesson x with
  | none => exact this
  | some l =>
    dsimp only
    cases g.getLessonCourse l <;> exact this

theorem answer_uncached (b : Base R) (t : Top R) {x l c : Str} (n : Nat)
    (hx : t.graph.getUnitType x = some .exercise) (hl : t.graph.getExerciseLesson x = some l)
    (hc : t.graph.getLessonCourse l = some c) (hu : t.caches.ex.find x = none) :
    answer b t x (n + 1) = some (some (b.scorer t.clock x (t.override.getD t.clock)
      (t.trials.get b.sortV x t.options.made.numTrials, t.deltas.get b.sortV x t.options.made.numTrials)
      (t.rewards.table.get b.sortW l t.options.made.numRewards)
      (t.rewards.table.get b.sortW c t.options.made.numRewards)).1) := by
  have e : (t.sys.world (t.config b)).graph.getUnitType x = some .exercise := hx
  have el : (t.sys.world (t.config b)).graph.getExerciseLesson x = some l := hl
  have ec : (t.sys.world (t.config b)).graph.getLessonCourse l = some c := hc
  unfold answer
  rw [scoreC, e]
  simp only [UnitScorer.exC, bind, StateT.bind, hu, Option.bind_some, pure, StateT.pure, Option.map_some,
    UnitScorer.World.exRec, el, ec, Option.getD_some]
  rfl

/-- An exercise's score is the cached one, or else the computed one, and is cached afterwards. -/
theorem scoreC_exercise {T W : Type} (w : UnitScorer.World Str R T W) (n : Nat) (x : Str) (c : Caches Str R)
    (hx : w.graph.getUnitType x = some .exercise) :
    ∃ r c', scoreC w (n + 1) x c = some (some r.score, c') ∧ c'.ex.find x = some r := by
  rw [scoreC, hx]
  simp only [UnitScorer.exC, bind, StateT.bind]
  cases hu : c.ex.find x with
  | some r => exact ⟨r, c, rfl, hu⟩
  | none => exact ⟨w.exRec x, _, rfl, AMap.find_put_self _ _ _⟩

theorem scoreC_cached {T W : Type} (w : UnitScorer.World Str R T W) (n : Nat) (x : Str) (c : Caches Str R)
    (hx : w.graph.getUnitType x = some .exercise) {r : UnitScorer.ExRec R} (hr : c.ex.find x = some r) :
    scoreC w (n + 1) x c = some (some r.score, c) := by
  rw [scoreC, hx]
  simp only [UnitScorer.exC, bind, StateT.bind, hr]
  rfl

/-! ### The properties -/

/-- **C82.** The time given to `override_current_timestamp` is the time at which scores are computed, until it is
overridden again or the object is closed; without an override it is the time of the computer.  Here the cached
score of the exercise is dropped first. -/
theorem score_at_time_in_force_partial (b : Base R) (g0 : Graph Str) (clock : Int) (h h' : List (Call R))
    (o : Option Int) (hc' : ∀ c ∈ h', ¬ TouchesOverride c) {x l c : Str} (n : Nat) :
    let calls := h ++ .overrideTime o :: h' ++ [.invalidate x]
    let t := runs b (fresh g0 clock) calls
    t.graph.getUnitType x = some .exercise → t.graph.getExerciseLesson x = some l →
    t.graph.getLessonCourse l = some c →
    answer b t x (n + 1) = some (some (b.scorer (clockAfter clock calls) x (o.getD (clockAfter clock calls))
      (t.trials.get b.sortV x t.options.made.numTrials, t.deltas.get b.sortV x t.options.made.numTrials)
      (t.rewards.table.get b.sortW l t.options.made.numRewards)
      (t.rewards.table.get b.sortW c t.options.made.numRewards)).1) := by
  intro calls t hx hl hc
  have eo : t.override = o := by
    have e : t = runs b (step b (runs b (fresh g0 clock) h) (.overrideTime o)).1 (h' ++ [.invalidate x]) := by
      change runs b _ _ = _
      rw [show calls = (h ++ [Call.overrideTime o]) ++ (h' ++ [.invalidate x]) by simp [calls],
        runs_append b _ (h ++ [Call.overrideTime o]), runs_snoc b _ h]
    rw [e, override_runs]
    · rfl
    · intro c hm
      rcases List.mem_append.1 hm with hm | hm
      · exact hc' c hm
      · rw [List.mem_singleton.1 hm]; exact id
  have ec : t.clock = clockAfter clock calls := clock_runs b _ _
  have eu : t.caches.ex.find x = none := by
    have e : t = (step b (runs b (fresh g0 clock) (h ++ .overrideTime o :: h')) (.invalidate x)).1 := by
      rw [← runs_snoc]
    have hx' := hx
    rw [e] at hx' ⊢
    exact ex_not_cached _ _ _ hx'
  rw [answer_uncached b t n hx hl hc eu, eo, ec]

/-- **C82.** Without an override since the object was made, scores are computed at the time of the computer. -/
theorem score_at_clock_partial (b : Base R) (g0 : Graph Str) (clock : Int) (h : List (Call R))
    (hc' : ∀ c ∈ h, ¬ TouchesOverride c) {x l c : Str} (n : Nat) :
    let calls := h ++ [.invalidate x]
    let t := runs b (fresh g0 clock) calls
    t.graph.getUnitType x = some .exercise → t.graph.getExerciseLesson x = some l →
    t.graph.getLessonCourse l = some c →
    answer b t x (n + 1) = some (some (b.scorer (clockAfter clock calls) x (clockAfter clock calls)
      (t.trials.get b.sortV x t.options.made.numTrials, t.deltas.get b.sortV x t.options.made.numTrials)
      (t.rewards.table.get b.sortW l t.options.made.numRewards)
      (t.rewards.table.get b.sortW c t.options.made.numRewards)).1) := by
  intro calls t hx hl hc
  have eo : t.override = none := by
    refine override_runs b _ _ (fun c hm => ?_)
    rcases List.mem_append.1 hm with hm | hm
    · exact hc' c hm
    · rw [List.mem_singleton.1 hm]; exact id
  have ec : t.clock = clockAfter clock calls := clock_runs b _ _
  have eu : t.caches.ex.find x = none := by
    have e : t = (step b (runs b (fresh g0 clock) h) (.invalidate x)).1 := by rw [← runs_snoc]
    have hx' := hx
    rw [e] at hx' ⊢
    exact ex_not_cached _ _ _ hx'
  rw [answer_uncached b t n hx hl hc eu, eo, ec]
  rfl

/-- **C82** without dropping the cached score is false of the code: an exercise whose score was asked for before
keeps that score, whatever time is set afterwards and however much time passes. -/
theorem cached_score_ignores_time (b : Base R) (t : Top R) (x : Str) (n : Nat) (o : Option Int) (now : Int)
    (hx : t.graph.getUnitType x = some .exercise) :
    answer b (runs b t [.getUnitScore x (n + 1), .overrideTime o, .wait now]) x (n + 1) =
      answer b t x (n + 1) := by
  have e0 : (t.sys.world (t.config b)).graph.getUnitType x = some .exercise := hx
  obtain ⟨r, c', e, hr⟩ := scoreC_exercise (t.sys.world (t.config b)) n x t.caches e0
  set t' := runs b t [.getUnitScore x (n + 1), .overrideTime o, .wait now] with ht'
  have ec : t'.caches = c' := by
    change after t.caches (scoreC (t.sys.world (t.config b)) (n + 1) x t.caches) = c'
    rw [e]; rfl
  have hx' : (t'.sys.world (t'.config b)).graph.getUnitType x = some .exercise := hx
  unfold answer
  rw [e, scoreC_cached _ n x t'.caches hx' (by rw [ec]; exact hr)]
  rfl

end Trane.TopLevel
