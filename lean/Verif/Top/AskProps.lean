import Verif.Sched.OverlayProps
import Verif.Top.Sample

/-!
# C84 for the `Trane` object: asking changes no answer
-/

namespace Trane.TopLevel
open Trane.Store
open Trane.UnitScorer (Caches Asked SameAnswers Answers grown_asked same_of_grown after)

variable {R : Type} [Field R] [LinearOrder R]

/-- The calls that ask, and the calls that write neither practice data, nor the blacklist, nor the library, nor the
caches directly. -/
def Asks : Call R → Prop
  | .blacklisted _ | .getUnitScore _ _ | .getBatch _ | .addToReviewList _ _ | .removeFromReviewList _ _
  | .setPreferences _ _ | .options _ => True
  | _ => False

theorem asked_trans {ι W T : Type} [DecidableEq ι] {w : UnitScorer.World ι R T W} {a b c : UnitScorer.Caches ι R}
    (h : Asked w a b) (h' : Asked w b c) : Asked w a c := by
  induction h' with
  | start => exact h
  | score n u _ ih => exact ih.score n u
  | lessonTrials u _ ih => exact ih.lessonTrials u
  | courseTrials n u _ ih => exact ih.courseTrials n u
  | superseded n u _ ih => exact ih.superseded n u
  | exercise e _ ih => exact ih.exercise e

theorem asked_ask (b : Base R) (t : Top R) (c : Caches Str R) (a : Ask) :
    Asked (t.sys.world (t.config b)) c (t.ask b c a) := by
  cases a with
  | score u n => exact .score n u .start
  | lessonTrials u => exact .lessonTrials u .start
  | courseTrials u n => exact .courseTrials n u .start

theorem asked_asks (b : Base R) (t : Top R) (as : List Ask) (c : Caches Str R) :
    Asked (t.sys.world (t.config b)) c (as.foldl (t.ask b) c) := by
  induction as generalizing c with
  | nil => exact .start
  | cons a as ih => exact asked_trans (asked_ask b t c a) (ih _)

theorem asking_step {b : Base R} {t : Top R} (hs : Sound b t) {c : Call R} (hc : Asks c) :
    (step b t c).1.sys.world ((step b t c).1.config b) = t.sys.world (t.config b) ∧
      Asked (t.sys.world (t.config b)) t.caches (step b t c).1.caches := by
  have hi := hs.inv
  have hso := sound_step b t c hs
  cases c with
  | blacklisted u =>
    have e : (step b t (.blacklisted u)).1.blacklist.blacklisted = t.blacklist.blacklisted := by
      funext y
      exact (same_blacklist hi hso.inv (Blacklist.hasEntry_eq _ u hi).2.1).2 y
    refine ⟨?_, .start⟩
    unfold System.State.world Top.sys
    rw [e]
    rfl
  | getUnitScore u n => exact ⟨rfl, .score n u .start⟩
  | getBatch q =>
    rcases step_batch b t q with ⟨-, e⟩ | ⟨s, r, -, e⟩
    · rw [e]; exact ⟨rfl, .start⟩
    · rw [e]; exact ⟨rfl, asked_asks b t q.asks _⟩
  | addToReviewList u f => exact ⟨rfl, .start⟩
  | removeFromReviewList u f => exact ⟨rfl, .start⟩
  | setPreferences p f => cases f <;> exact ⟨rfl, .start⟩
  | options o => cases o <;> exact ⟨rfl, .start⟩
  | _ => exact absurd hc id

theorem asking_runs {b : Base R} {t : Top R} (hs : Sound b t) (h : List (Call R)) (hc : ∀ c ∈ h, Asks c) :
    (runs b t h).sys.world ((runs b t h).config b) = t.sys.world (t.config b) ∧
      Asked (t.sys.world (t.config b)) t.caches (runs b t h).caches := by
  induction h using List.reverseRecOn with
  | nil => exact ⟨rfl, .start⟩
  | append_singleton h c ih =>
    obtain ⟨h1, h2⟩ := ih (fun c hc' => hc c (List.mem_append_left _ hc'))
    obtain ⟨h3, h4⟩ := asking_step (sound_runs b t h hs) (hc c (by simp))
    rw [runs_snoc]
    refine ⟨h3.trans h1, asked_trans h2 ?_⟩
    rw [h1] at h4
    exact h4

/-- Asked for the score of `u`, the object answers `v`. -/
def GetsScore (b : Base R) (t : Top R) (u : Str) (v : Option R) : Prop :=
  Answers (t.sys.world (t.config b)) t.caches u v

/-- **C84.** Open an object, make any calls, and then make calls that only ask (scores, batches, blacklist) or that
change the review list, the preferences or the options: every unit's score is what it would have been without them. -/
theorem asking_keeps_scores (b : Base R) (g : Graph Str) (clock : Int) (h h' : List (Call R)) (hc : ∀ c ∈ h', Asks c)
    (u : Str) (v : Option R) :
    GetsScore b (runs b (fresh g clock) (h ++ h')) u v ↔ GetsScore b (runs b (fresh g clock) h) u v := by
  obtain ⟨h1, h2⟩ := asking_runs (sound_runs b _ h (sound_fresh b g clock)) h' hc
  rw [runs_append]
  unfold GetsScore
  rw [h1]
  exact ((same_of_grown (grown_asked h2)).score u v).symm

/-- **C84.** There is at most one answer. -/
theorem score_unique (b : Base R) (t : Top R) (u : Str) {v v' : Option R} (h : GetsScore b t u v)
    (h' : GetsScore b t u v') : v = v' := UnitScorer.answer_unique _ _ u h h'

/-- The calls of the sample: the scores of two units, a batch and an edit of the review list. -/
def questions : List (Call ℚ) := [.getUnitScore ['c'] 9, .getBatch sampleRequest, .addToReviewList ['e'] false,
  .getUnitScore ['l'] 9]

/-- The score of `e` is asked for and a trial is then written past the caches: they are no longer up to date. -/
def stale : List (Call ℚ) := [.scoreExercise ['e'] .three 10 9 id {}, .getUnitScore ['e'] 9,
  .recordScores [⟨['e'], 1, 30⟩] false]

/-- The hypotheses hold of the sample: the score of `e` answered is the old one, before and after the questions, though
the data give another one. -/
example : (∀ c ∈ questions, Asks c) ∧
    GetsScore sampleBase (runs sampleBase (fresh sampleGraph 0) (stale ++ questions)) ['e'] (some 3) ∧
    GetsScore sampleBase (runs sampleBase (fresh sampleGraph 0) (stale ++ [.invalidate ['e']])) ['e'] (some 1) ∧
    GetsScore sampleBase (runs sampleBase (fresh sampleGraph 0) stale) ['c'] (some (3 / 4)) := by
  have key : ∀ (h : List (Call ℚ)) u v, (UnitScorer.scoreC ((runs sampleBase (fresh sampleGraph 0) h).sys.world
      ((runs sampleBase (fresh sampleGraph 0) h).config sampleBase)) 9 u
      (runs sampleBase (fresh sampleGraph 0) h).caches).map Prod.fst = some v →
      GetsScore sampleBase (runs sampleBase (fresh sampleGraph 0) h) u v := by
    intro h u v e
    rw [Option.map_eq_some_iff] at e
    obtain ⟨⟨v', c'⟩, h1, h2⟩ := e
    exact ⟨9, c', by rw [h1, ← h2]⟩
  have hq : ∀ c ∈ questions, Asks c := by simp [questions, Asks]
  refine ⟨hq, (asking_keeps_scores _ _ _ _ _ hq _ _).2 (key _ _ _ ?_), key _ _ _ ?_, key _ _ _ ?_⟩ <;>
    decide +kernel

end Trane.TopLevel
