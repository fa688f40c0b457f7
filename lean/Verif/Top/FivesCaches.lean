import Verif.Top.FivesLemmas

/-! For C110: with any fair scorer the cached records of exercises are at most five. -/

namespace Trane.TopLevel
open Trane.Store
open Trane.UnitScorer (Caches scoreC exC lessonTrialsC courseTrialsC invalidate invalidatePrefix after Bounded Keeps OkScore ExRec World
  keeps_score keeps_ex keeps_lessonTrials keeps_courseTrials bounded_invalidate bounded_invalidatePrefix bounded_empty)

variable {R : Type} [Field R] [LinearOrder R] [IsStrictOrderedRing R]

/-- The cached records of exercises are at most five. -/
abbrev AtMost5 (c : Caches Str R) : Prop := Bounded (fun r : ExRec R => r.score ≤ 5) (fun _ => True) c

variable {b : Base R} {θ : R} (hb : Fair b θ)
include hb

theorem fair_world (t : Top R) (e : Str) : ((t.sys.world (t.config b)).exRec e).score ≤ 5 :=
  hb.le _ _ _ _ _ _ (get_pairwise _ _ _ _)

theorem atMost5_ask (t : Top R) (c : Caches Str R) (hc : AtMost5 c) (a : Ask) : AtMost5 (t.ask b c a) := by
  have aft : ∀ {α : Type} {Q : α → Prop} {m : UnitScorer.M Str R α}, Keeps (fun r : ExRec R => r.score ≤ 5) (fun _ => True) Q m →
      AtMost5 (after c (m c)) := by
    intro α Q m hm
    cases h : m c with
    | none => exact hc
    | some r => exact (hm c r.1 r.2 hc (by rw [h])).2
  cases a with
  | score u n => exact aft (keeps_score _ (fair_world hb t) (fun _ _ => trivial) (fun _ _ _ => trivial) n u)
  | lessonTrials u => exact aft (keeps_lessonTrials _ (fair_world hb t) u)
  | courseTrials u n => exact aft (keeps_courseTrials _ (fair_world hb t) (fun _ _ => trivial) (fun _ _ _ => trivial) n u)

theorem atMost5_step (t : Top R) (hs : Sound b t) (h : AtMost5 t.caches) (c : Call R) : AtMost5 (step b t c).1.caches := by
  cases c with
  | addToBlacklist u f => exact bounded_invalidate _ _ h
  | removeFromBlacklist u f => exact bounded_invalidate _ _ h
  | removePrefixFromBlacklist p f => exact bounded_invalidatePrefix _ h
  | scoreExercise x g ts fuel order f =>
    rcases step_score b t x g ts fuel order f with ⟨-, e⟩ | ⟨s, ok, he, e⟩
    · rw [e]; exact h
    · rw [e]
      obtain ⟨v, c1, r, c, h1, h2, hend⟩ := System.ends_of_score (tables_of_sound hs) he
      have hc1 := (keeps_score (S := fun r : ExRec R => r.score ≤ 5) (V := fun _ => True) _ (fair_world hb t)
        (fun _ _ => trivial) (fun _ _ _ => trivial) fuel x _ _ _ h h1).2
      have hc : AtMost5 c := (keeps_ex _ (fair_world hb t) x _ _ _ hc1 h2).2
      have hfold : ∀ (us : List Str) (c : Caches Str R), AtMost5 c → AtMost5 (us.foldl (fun c u => invalidate t.sys.graph c u) c) := by
        intro us
        induction us with
        | nil => exact fun c h => h
        | cons u us ih => exact fun c h => ih _ (bounded_invalidate _ _ h)
      cases hend with
      | deltaFailed => exact hc
      | trialFailed => exact hc
      | rewardFailed => exact bounded_invalidate _ _ hc
      | done rs ids => exact hfold ids _ (bounded_invalidate _ _ hc)
  | getUnitScore u n => exact atMost5_ask hb t _ h (.score u n)
  | getBatch q =>
    rcases step_batch b t q with ⟨-, e⟩ | ⟨s, r, -, e⟩
    · rw [e]; exact h
    · rw [e]
      have : ∀ (l : List Ask) (c : Caches Str R), AtMost5 c → AtMost5 (l.foldl (t.ask b) c) := by
        intro l
        induction l with
        | nil => exact fun c hc => hc
        | cons a l ih => exact fun c hc => ih _ (atMost5_ask hb t c hc a)
      exact this _ _ h
  | invalidate u => exact bounded_invalidate _ _ h
  | invalidatePrefix p => exact bounded_invalidatePrefix _ h
  | setPreferences p f => cases f <;> exact h
  | restart g =>
    rcases step_restart b t g with e | ⟨-, e⟩
    · rw [e]; exact h
    · rw [e]; exact bounded_empty
  | _ => exact h

theorem atMost5_runs (g : Graph Str) (clock : Int) (h : List (Call R)) : AtMost5 (runs b (fresh g clock) h).caches := by
  induction h using List.reverseRecOn with
  | nil => exact bounded_empty
  | append_singleton h c ih => rw [runs_snoc]; exact atMost5_step hb _ (sound_runs b _ h (sound_fresh b g clock)) ih c

end Trane.TopLevel
