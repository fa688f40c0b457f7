import Verif.Top.AskProps

/-!
# C85: batches and score queries agree

The environment of a batch request carries the scores, the numbers of trials and the superseded units.  `Reads` says
that they are what the unit scorer answers; by C84 it does not matter at which point of the search they are read.
Scores are rational numbers here, the scorer of exercises is any function.
-/

namespace Trane.TopLevel
open Trane.Store
open Trane.UnitScorer (Answers AnswersLessonTrials AnswersCourseTrials AnswersSuperseded Asked SameAnswers
  grown_asked same_of_grown)
open Trane.Graph

/-- Asked for the average number of trials of `u`, the unit scorer answers `v`,
/repo/src/scheduler/unit_scorer.rs:631-638. -/
def GetsTrials {R : Type} [Field R] [LinearOrder R] (b : Base R) (t : Top R) (u : Str) (v : Option R) : Prop :=
  match t.graph.getUnitType u with
  | some .course => AnswersCourseTrials (t.sys.world (t.config b)) t.caches u v
  | some .lesson => AnswersLessonTrials (t.sys.world (t.config b)) t.caches u v
  | _ => v = none

/-- Asked whether `u` is superseded, the unit scorer answers `v`. -/
def GetsSuperseded {R : Type} [Field R] [LinearOrder R] (b : Base R) (t : Top R) (u : Str) (v : Bool) : Prop :=
  AnswersSuperseded (t.sys.world (t.config b)) t.caches u v

/-- The search of the request reads the scores, the trials and the superseded units from the unit scorer; an error is
answered for unknown units only. -/
structure Reads (b : Base ℚ) (t : Top ℚ) (q : Request) : Prop where
  score : ∀ u v, q.env.score u = some v → GetsScore b t u v
  known : ∀ u, t.graph.getUnitType u ≠ none → q.env.score u ≠ none
  trials : ∀ u, GetsTrials b t u (q.env.trials u)
  superseded : ∀ u, GetsSuperseded b t u (q.env.superseded u)

/-- The dependency `d` does not hold back what depends on it, by the answers of the object: it or its course is
blacklisted, it is superseded, it has no score or no number of trials, or both reach the passing values. -/
def MetNow (b : Base ℚ) (t : Top ℚ) (d : Str) : Prop :=
  t.blacklist.blacklisted d = true ∨
  (∃ c, t.graph.getLessonCourse d = some c ∧ t.blacklist.blacklisted c = true) ∨
  GetsSuperseded b t d true ∨ GetsScore b t d none ∨ GetsTrials b t d none ∨
  ∃ v n, GetsScore b t d (some v) ∧ GetsTrials b t d (some n) ∧
    t.options.current.passing.minScore ≤ v ∧ t.options.current.passing.minAvgTrials ≤ n

theorem trials_unique {b : Base ℚ} {t : Top ℚ} {u : Str} {v v' : Option ℚ} (h : GetsTrials b t u v)
    (h' : GetsTrials b t u v') : v = v' := by
  unfold GetsTrials at h h'
  cases ht : t.graph.getUnitType u with
  | none => rw [ht] at h h'; exact h.trans h'.symm
  | some k =>
    rw [ht] at h h'
    cases k with
    | course => exact UnitScorer.courseTrials_unique _ _ _ h h'
    | lesson => exact UnitScorer.lessonTrials_unique _ _ _ h h'
    | exercise => exact h.trans h'.symm

theorem met_of_satisfied {b : Base ℚ} {t : Top ℚ} {q : Request} (hr : Reads b t q) {d : Str}
    (h : Search.Satisfied (t.env q) d) : MetNow b t d := by
  rcases h with h | h | h | h | h | h | ⟨s, n, h1, h2, h3, h4⟩
  · exact .inl h
  · exact .inr (.inl h)
  · refine .inr (.inr (.inl ?_))
    have := hr.superseded d
    rwa [show q.env.superseded d = true from h] at this
  · refine .inr (.inr (.inr (.inr (.inl ?_))))
    by_contra hn
    refine hr.known d ?_ h
    intro ht
    apply hn
    unfold GetsTrials
    rw [ht]
  · exact .inr (.inr (.inr (.inl (hr.score d _ h))))
  · refine .inr (.inr (.inr (.inr (.inl ?_))))
    have := hr.trials d
    rwa [show q.env.trials d = none from h] at this
  · refine .inr (.inr (.inr (.inr (.inr ⟨s, n, hr.score d _ h1, ?_, h3, h4⟩))))
    have := hr.trials d
    rwa [show q.env.trials d = some n from h2] at this

/-- **C85.** Whatever the calls before: every exercise of a batch without filter is being relearned or belongs to a
lesson all of whose dependencies are met by the scores that `get_unit_score` answers. -/
theorem batch_follows_scores (b : Base ℚ) (t : Top ℚ) (q : Request) (hr : Reads b t q) (he : Search.Sane (t.env q))
    (hch : Batch.IsChoices q.choices) (hf : q.filter = none) {s : Batch.Session Str} {xs : List Str}
    (hb : t.batch q = some (s, some xs)) (x : Str) (hx : x ∈ xs) :
    x ∈ t.session.pile ∨ ∃ l, LessonHasExercise t.graph l x ∧ ∀ d, DependsOn t.graph l d → MetNow b t d := by
  unfold Top.batch at hb
  rw [hf] at hb
  rcases Batch.batch_unlocked he hch none hb x hx with ⟨l, h1, h2⟩ | h
  · exact .inr ⟨l, h1, fun d hd => met_of_satisfied hr (h2 d hd d (.self trivial))⟩
  · exact .inl h

/-- The answers after a batch are those before. -/
theorem after_batch (b : Base ℚ) (t : Top ℚ) (hs : Sound b t) (q : Request) (d : Str) :
    (∀ v, GetsScore b (step b t (.getBatch q)).1 d v ↔ GetsScore b t d v) ∧
    (∀ v, GetsTrials b (step b t (.getBatch q)).1 d v ↔ GetsTrials b t d v) ∧
    (∀ v, GetsSuperseded b (step b t (.getBatch q)).1 d v ↔ GetsSuperseded b t d v) := by
  obtain ⟨h1, h2⟩ := asking_step (b := b) hs (c := .getBatch q) trivial
  have h := same_of_grown (grown_asked h2)
  have hg : (step b t (.getBatch q)).1.graph = t.graph := by
    rcases step_batch b t q with ⟨-, e⟩ | ⟨s, r, -, e⟩ <;> rw [e]
  refine ⟨fun v => ?_, fun v => ?_, fun v => ?_⟩
  · unfold GetsScore; rw [h1]; exact (h.score d v).symm
  · unfold GetsTrials
    rw [h1, hg]
    cases t.graph.getUnitType d with
    | none => exact Iff.rfl
    | some k =>
      cases k with
      | course => exact (h.courseTrials d v).symm
      | lesson => exact (h.lessonTrials d v).symm
      | exercise => exact Iff.rfl
  · unfold GetsSuperseded; rw [h1]; exact (h.superseded d v).symm

/-- **C85.** Whatever the calls before: if, after a batch without filter, the object answers for a dependency of a
lesson a score below the passing score, and the dependency is neither blacklisted nor superseded and has been tried,
then no exercise of that lesson is in the batch, except those being relearned. -/
theorem low_score_holds_back (b : Base ℚ) (g : Graph Str) (clock : Int) (h : List (Call ℚ)) (q : Request) {t t' : Top ℚ}
    (ht : t = runs b (fresh g clock) h) (ht' : t' = (step b t (.getBatch q)).1) (hr : Reads b t q)
    (he : Search.Sane (t.env q)) (hch : Batch.IsChoices q.choices) (hf : q.filter = none) {s : Batch.Session Str}
    {xs : List Str} (hb : t.batch q = some (s, some xs)) {l d : Str} (hd : DependsOn t.graph l d)
    (hbl : t.blacklist.blacklisted d = false)
    (hbc : ∀ c, t.graph.getLessonCourse d = some c → t.blacklist.blacklisted c = false)
    (hsup : GetsSuperseded b t' d false) {v n : ℚ} (hn : GetsTrials b t' d (some n)) (hv : GetsScore b t' d (some v))
    (hlow : v < t.options.current.passing.minScore) (x : Str) (hx : LessonHasExercise t.graph l x)
    (hp : x ∉ t.session.pile) : x ∉ xs := by
  intro hxs
  have hs : Sound b t := by rw [ht]; exact sound_runs b _ h (sound_fresh b g clock)
  obtain ⟨a1, a2, a3⟩ := after_batch b t hs q d
  rw [ht', a1] at hv
  rw [ht', a2] at hn
  rw [ht', a3] at hsup
  rcases batch_follows_scores b t q hr he hch hf hb x hxs with hm | ⟨l', h1, h2⟩
  · exact hp hm
  · have e : l' = l := by
      have w := he.wf
      have e1 := (w.exercise _ _).1 h1
      have e2 := (w.exercise _ _).1 hx
      rw [e1] at e2
      exact Option.some.inj e2
    subst e
    rcases h2 d hd with k | ⟨c, k1, k2⟩ | k | k | k | ⟨v', n', k1, k2, k3, k4⟩
    · rw [hbl] at k; cases k
    · rw [hbc c k1] at k2; cases k2
    · cases UnitScorer.superseded_unique _ _ _ k hsup
    · cases score_unique b t d k hv
    · cases trials_unique k hn
    · cases score_unique b t d k1 hv
      exact absurd k3 (not_le.2 hlow)

end Trane.TopLevel
