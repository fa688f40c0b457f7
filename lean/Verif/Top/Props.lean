import Verif.Top.Spec

/-!
# The `Trane` object as a whole (C56, C27, C32, C71, C72)
-/

namespace Trane.TopLevel
open Trane.Store
open Trane.UnitScorer (Caches scoreC lessonTrialsC courseTrialsC invalidate invalidatePrefix after Coh Plain
  Scratch Differ coh_write coh_step coh_empty answers_of_coh)
open Trane.System (Stored Tables Fresh NoEmpty)

variable {R : Type} [Field R] [LinearOrder R]

/-! ### Grading -/

theorem tables_of_sound {b : Base R} {t : Top R} (h : Sound b t) : Tables (t.config b) t.sys :=
  ⟨h.trials, h.deltas, h.rewards⟩

theorem step_score (b : Base R) (t : Top R) (x : Str) (g : MasteryScore) (ts : Int) (fuel : Nat)
    (order : List Reward → List Reward) (f : System.Faults) :
    (System.scoreExercise (t.config b) order fuel t.sys x g ts f = none ∧
      step b t (.scoreExercise x g ts fuel order f) = (t, false)) ∨
    ∃ s ok, System.scoreExercise (t.config b) order fuel t.sys x g ts f = some (s, ok) ∧
      step b t (.scoreExercise x g ts fuel order f) = (t.putSys s, ok) := by
  cases h : System.scoreExercise (t.config b) order fuel t.sys x g ts f with
  | none => left; exact ⟨rfl, by simp only [step, h]⟩
  | some o => right; obtain ⟨s, ok⟩ := o; exact ⟨s, ok, rfl, by simp only [step, h]⟩

theorem step_batch (b : Base R) (t : Top R) (q : Request) :
    (t.batch q = none ∧ step b t (.getBatch q) = (t, false)) ∨
    ∃ s r, t.batch q = some (s, r) ∧ step b t (.getBatch q) =
      ({ t with session := s, caches := q.asks.foldl (t.ask b) t.caches }, r.isSome) := by
  cases h : t.batch q with
  | none => left; exact ⟨rfl, by simp only [step, h]⟩
  | some o => right; obtain ⟨s, r⟩ := o; exact ⟨s, r, rfl, by simp only [step, h]⟩

theorem step_restart (b : Base R) (t : Top R) (g : Graph Str) :
    step b t (.restart g) = (t, false) ∨
    ((schedulerOptions t.prefs).verify = true ∧ step b t (.restart g) = (
      { blacklist := Blacklist.openDb t.blacklist.db
        review := t.review
        trials := t.trials
        deltas := t.deltas
        rewards := { t.rewards with cache := [] }
        prefs := t.prefs
        graph := g
        options := OptionsApi.create (schedulerOptions t.prefs)
        clock := t.clock }, true)) := by
  by_cases h : (schedulerOptions t.prefs).verify
  · right; exact ⟨h, by simp only [step, if_pos h]; rfl⟩
  · left; simp only [step, if_neg h]

/-! ### The stored data -/

/-- Every call keeps the databases in states reachable through the API of the components. -/
theorem sound_step (b : Base R) (t : Top R) (c : Call R) (h : Sound b t) : Sound b (step b t c).1 := by
  obtain ⟨⟨bo, hb⟩, ⟨ro, hr⟩, ⟨tl, ht⟩, ⟨dl, hd⟩, ⟨wo, hw⟩⟩ := h
  have hB : ∀ o, ∃ ops, (t.blacklist.step o).1 = Blacklist.run ops := fun o =>
    ⟨bo ++ [o], by rw [Blacklist.run_snoc, ← hb]⟩
  have hR : ∀ o, ∃ ops, (ReviewList.step t.review o).1 = ReviewList.run ops := fun o =>
    ⟨ro ++ [o], by rw [ReviewList.run_snoc, ← hr]⟩
  have hT : ∀ o, ∃ ops, (t.trials.step b.sortV o).1 = Table.run b.sortV ops := fun o =>
    ⟨tl ++ [o], by rw [Table.run_snoc, ← ht]⟩
  have hD : ∀ o, ∃ ops, (t.deltas.step b.sortV o).1 = Table.run b.sortV ops := fun o =>
    ⟨dl ++ [o], by rw [Table.run_snoc, ← hd]⟩
  have hW : ∀ o, ∃ ops, (t.rewards.step b.sortW o).1 = Rewards.run b.sortW ops := fun o =>
    ⟨wo ++ [o], by rw [Rewards.run_snoc, ← hw]⟩
  have hB0 : ∃ ops, t.blacklist = Blacklist.run ops := ⟨bo, hb⟩
  have hR0 : ∃ ops, t.review = ReviewList.run ops := ⟨ro, hr⟩
  have hT0 : ∃ ops, t.trials = Table.run b.sortV ops := ⟨tl, ht⟩
  have hD0 : ∃ ops, t.deltas = Table.run b.sortV ops := ⟨dl, hd⟩
  have hW0 : ∃ ops, t.rewards = Rewards.run b.sortW ops := ⟨wo, hw⟩
  have h0 : Sound b t := ⟨hB0, hR0, hT0, hD0, hW0⟩
  cases c with
  | scoreExercise x g ts fuel order f =>
    rcases step_score b t x g ts fuel order f with ⟨-, e⟩ | ⟨s, ok, h, e⟩
    · rw [e]; exact h0
    · rw [e]
      have := System.tables_score (tables_of_sound h0) h
      exact ⟨hB0, hR0, this.trials, this.deltas, this.rewards⟩
  | getBatch q =>
    rcases step_batch b t q with ⟨-, e⟩ | ⟨s, r, -, e⟩
    · rw [e]; exact h0
    · rw [e]; exact ⟨hB0, hR0, hT0, hD0, hW0⟩
  | restart g =>
    rcases step_restart b t g with e | ⟨-, e⟩
    · rw [e]; exact h0
    · rw [e]
      exact ⟨hB .reopen, hR .reopen, hT .reopen, hD .reopen, hW .reopen⟩
  | setPreferences p f => cases f <;> exact ⟨hB0, hR0, hT0, hD0, hW0⟩
  | addToBlacklist u f => exact ⟨hB _, hR0, hT0, hD0, hW0⟩
  | removeFromBlacklist u f => exact ⟨hB _, hR0, hT0, hD0, hW0⟩
  | removePrefixFromBlacklist u f => exact ⟨hB _, hR0, hT0, hD0, hW0⟩
  | blacklisted u => exact ⟨hB _, hR0, hT0, hD0, hW0⟩
  | addToReviewList u f => exact ⟨hB0, hR _, hT0, hD0, hW0⟩
  | removeFromReviewList u f => exact ⟨hB0, hR _, hT0, hD0, hW0⟩
  | recordScores es f => exact ⟨hB0, hR0, hT _, hD0, hW0⟩
  | trimScores es f => exact ⟨hB0, hR0, hT _, hD0, hW0⟩
  | removeScores es f => exact ⟨hB0, hR0, hT _, hD0, hW0⟩
  | recordDeltas es f => exact ⟨hB0, hR0, hT0, hD _, hW0⟩
  | trimDeltas es f => exact ⟨hB0, hR0, hT0, hD _, hW0⟩
  | removeDeltas es f => exact ⟨hB0, hR0, hT0, hD _, hW0⟩
  | recordRewards es f => exact ⟨hB0, hR0, hT0, hD0, hW _⟩
  | trimRewards es f => exact ⟨hB0, hR0, hT0, hD0, hW _⟩
  | removeRewards es f => exact ⟨hB0, hR0, hT0, hD0, hW _⟩
  | _ => exact ⟨hB0, hR0, hT0, hD0, hW0⟩

theorem sound_runs (b : Base R) (t : Top R) (h : List (Call R)) (hs : Sound b t) : Sound b (runs b t h) := by
  induction h using List.reverseRecOn with
  | nil => exact hs
  | append_singleton h c ih => rw [runs_snoc]; exact sound_step b _ c ih

theorem sound_fresh (b : Base R) (g : Graph Str) (clock : Int) : Sound b (fresh g clock : Top R) :=
  ⟨⟨[], rfl⟩, ⟨[], rfl⟩, ⟨[], rfl⟩, ⟨[], rfl⟩, ⟨[], rfl⟩⟩

theorem Sound.inv {b : Base R} {t : Top R} (h : Sound b t) : t.blacklist.Inv := by
  obtain ⟨ops, e⟩ := h.blacklist
  rw [e]
  exact Blacklist.inv_run ops

/-- The answers of the blacklist follow from its table. -/
theorem blacklisted_eq {bl : Blacklist} (h : bl.Inv) (u : Str) : bl.blacklisted u = decide (u ∈ bl.db) :=
  (Blacklist.hasEntry_eq bl u h).1

theorem same_blacklist {bl bl' : Blacklist} (h : bl.Inv) (h' : bl'.Inv) (e : bl'.db = bl.db) :
    bl'.entries = bl.entries ∧ ∀ u, bl'.blacklisted u = bl.blacklisted u :=
  ⟨e, fun u => by rw [blacklisted_eq h, blacklisted_eq h', e]⟩

/-! ### A call changes only what it is about -/

/-- C56: after any history, a call leaves every part of the object it is not about as it was. -/
theorem others_unchanged (b : Base R) (g : Graph Str) (clock : Int) (h : List (Call R)) (c : Call R)
    (p : Part) (hp : p ∉ concerns c) :
    Same (runs b (fresh g clock) h) (runs b (fresh g clock) (h ++ [c])) p := by
  rw [runs_snoc]
  have hs := sound_runs b _ h (sound_fresh b g clock)
  generalize runs b (fresh g clock) h = t at hs
  have hi := hs.inv
  have hi' := (sound_step b t c hs).inv
  have same : ∀ p, Same t t p := by intro p; cases p <;> simp [Same]
  cases c with
  | scoreExercise x g ts fuel order f =>
    rcases step_score b t x g ts fuel order f with ⟨-, e⟩ | ⟨s, ok, h, e⟩
    · rw [e]; exact same p
    · rw [e]; cases p <;> simp_all [concerns, Same, Top.putSys]
  | getBatch q =>
    rcases step_batch b t q with ⟨-, e⟩ | ⟨s, r, -, e⟩
    · rw [e]; exact same p
    · rw [e]; cases p <;> simp_all [concerns, Same]
  | restart g =>
    rcases step_restart b t g with e | ⟨-, e⟩
    · rw [e]; exact same p
    · rw [e] at hi' ⊢
      cases p with
      | blacklist => exact same_blacklist hi hi' rfl
      | _ => simp_all [concerns, Same]
  | blacklisted u =>
    cases p with
    | blacklist => exact same_blacklist hi hi' (Blacklist.hasEntry_eq _ u hi).2.1
    | _ => simp_all [concerns, Same, step]
  | setPreferences q f => cases f <;> cases p <;> simp_all [concerns, Same, step]
  | _ => cases p <;> simp_all [concerns, Same, step]

/-! ### Each component sees its own calls -/

/-- The calls of a history of the blacklist, without the reopenings. -/
def blacklistCalls (ops : List Blacklist.Op) : List Blacklist.Op :=
  ops.filterMap fun o => match o with
    | .reopen => none
    | o => some o

/-- The calls of a history of the review list, without the reopenings. -/
def reviewCalls (ops : List ReviewList.Op) : List ReviewList.Op :=
  ops.filterMap fun o => match o with
    | .reopen => none
    | o => some o

/-- The calls of a history of a table, without the reopenings. -/
def tableCalls {R : Type} (ops : List (LogOp R)) : List (LogOp R) :=
  ops.filterMap fun o => match o with
    | .reopen => none
    | o => some o

/-- Every grading in the history returned `Ok`. -/
def GradingsOk (b : Base R) : Top R → List (Call R) → Prop
  | _, [] => True
  | t, c :: h => (Grades c → (step b t c).2 = true) ∧ GradingsOk b (step b t c).1 h

theorem gradingsOk_append {b : Base R} {t : Top R} {h h' : List (Call R)} :
    GradingsOk b t (h ++ h') ↔ GradingsOk b t h ∧ GradingsOk b (runs b t h) h' := by
  induction h generalizing t with
  | nil => simp [GradingsOk, runs]
  | cons o h ih =>
    simp only [List.cons_append, GradingsOk, ih, and_assoc]
    rfl

theorem blacklist_step (b : Base R) (t : Top R) (c : Call R) :
    ∃ os, (step b t c).1.blacklist = os.foldl (fun l o => (l.step o).1) t.blacklist ∧
      blacklistCalls os = [c].filterMap toBlacklist := by
  cases c with
  | addToBlacklist u f => exact ⟨[.add u f], rfl, rfl⟩
  | removeFromBlacklist u f => exact ⟨[.remove u f], rfl, rfl⟩
  | removePrefixFromBlacklist p f => exact ⟨[.removePrefix p f], rfl, rfl⟩
  | blacklisted u => exact ⟨[.query u], rfl, rfl⟩
  | scoreExercise x g ts fuel order f =>
    rcases step_score b t x g ts fuel order f with ⟨-, e⟩ | ⟨s, ok, -, e⟩ <;> rw [e] <;>
      exact ⟨[], rfl, rfl⟩
  | getBatch q =>
    rcases step_batch b t q with ⟨-, e⟩ | ⟨s, r, -, e⟩ <;> rw [e] <;> exact ⟨[], rfl, rfl⟩
  | restart g =>
    rcases step_restart b t g with e | ⟨-, e⟩ <;> rw [e]
    · exact ⟨[], rfl, rfl⟩
    · exact ⟨[.reopen], rfl, rfl⟩
  | setPreferences p f => cases f <;> exact ⟨[], rfl, rfl⟩
  | _ => exact ⟨[], rfl, rfl⟩

/-- C56: after any history the blacklist is in the state it would be in after the blacklist calls of the
history alone, with some reopenings in between, so that C10 and C11 describe it. -/
theorem blacklist_of_history (b : Base R) (g : Graph Str) (clock : Int) (h : List (Call R)) :
    ∃ ops, (runs b (fresh g clock) h).blacklist = Blacklist.run ops ∧
      blacklistCalls ops = h.filterMap toBlacklist := by
  induction h using List.reverseRecOn with
  | nil => exact ⟨[], rfl, rfl⟩
  | append_singleton h c ih =>
    obtain ⟨ops, e1, e2⟩ := ih
    obtain ⟨os, e3, e4⟩ := blacklist_step b (runs b (fresh g clock) h) c
    refine ⟨ops ++ os, ?_, ?_⟩
    · rw [runs_snoc, e3, e1]; simp [Blacklist.run]
    · rw [List.filterMap_append, ← e2, ← e4]; simp [blacklistCalls]

theorem review_step (b : Base R) (t : Top R) (c : Call R) :
    ∃ os, (step b t c).1.review = os.foldl (fun l o => (ReviewList.step l o).1) t.review ∧
      reviewCalls os = [c].filterMap toReviewList := by
  cases c with
  | addToReviewList u f => exact ⟨[.add u f], rfl, rfl⟩
  | removeFromReviewList u f => exact ⟨[.remove u f], rfl, rfl⟩
  | scoreExercise x g ts fuel order f =>
    rcases step_score b t x g ts fuel order f with ⟨-, e⟩ | ⟨s, ok, -, e⟩ <;> rw [e] <;>
      exact ⟨[], rfl, rfl⟩
  | getBatch q =>
    rcases step_batch b t q with ⟨-, e⟩ | ⟨s, r, -, e⟩ <;> rw [e] <;> exact ⟨[], rfl, rfl⟩
  | restart g =>
    rcases step_restart b t g with e | ⟨-, e⟩ <;> rw [e]
    · exact ⟨[], rfl, rfl⟩
    · exact ⟨[.reopen], rfl, rfl⟩
  | setPreferences p f => cases f <;> exact ⟨[], rfl, rfl⟩
  | _ => exact ⟨[], rfl, rfl⟩

/-- C56: the same for the review list, so that C12 describes it. -/
theorem review_of_history (b : Base R) (g : Graph Str) (clock : Int) (h : List (Call R)) :
    ∃ ops, (runs b (fresh g clock) h).review = ReviewList.run ops ∧
      reviewCalls ops = h.filterMap toReviewList := by
  induction h using List.reverseRecOn with
  | nil => exact ⟨[], rfl, rfl⟩
  | append_singleton h c ih =>
    obtain ⟨ops, e1, e2⟩ := ih
    obtain ⟨os, e3, e4⟩ := review_step b (runs b (fresh g clock) h) c
    refine ⟨ops ++ os, ?_, ?_⟩
    · rw [runs_snoc, e3, e1]; simp [ReviewList.run]
    · rw [List.filterMap_append, ← e2, ← e4]; simp [reviewCalls]

theorem trials_step (b : Base R) (t : Top R) (c : Call R) (hs : Sound b t)
    (hok : Grades c → (step b t c).2 = true) :
    ∃ os, (step b t c).1.trials = os.foldl (fun l o => (l.step b.sortV o).1) t.trials ∧
      tableCalls os = [c].filterMap toTrials := by
  cases c with
  | recordScores es f => exact ⟨[.record es f], rfl, rfl⟩
  | trimScores n s => exact ⟨[.trim n s], rfl, rfl⟩
  | removeScores p s => exact ⟨[.removePrefix p s], rfl, rfl⟩
  | scoreExercise x g ts fuel order f =>
    rcases step_score b t x g ts fuel order f with ⟨-, e⟩ | ⟨s, ok, h, e⟩
    · have := hok trivial
      rw [e] at this
      cases this
    · have hok := hok trivial
      rw [e] at hok ⊢
      have hok : ok = true := hok
      subst hok
      obtain ⟨v, c1, r, c, -, -, he⟩ := System.ends_of_score (tables_of_sound hs) h
      cases he
      exact ⟨[.record [⟨x, System.gradeVal R g, ts⟩] false], rfl, rfl⟩
  | getBatch q =>
    rcases step_batch b t q with ⟨-, e⟩ | ⟨s, r, -, e⟩ <;> rw [e] <;> exact ⟨[], rfl, rfl⟩
  | restart g =>
    rcases step_restart b t g with e | ⟨-, e⟩ <;> rw [e]
    · exact ⟨[], rfl, rfl⟩
    · exact ⟨[.reopen], rfl, rfl⟩
  | setPreferences p f => cases f <;> exact ⟨[], rfl, rfl⟩
  | _ => exact ⟨[], rfl, rfl⟩

/-- C56: the same for the stored trials when every grading returned `Ok`; each grading stores one trial.  So
C13, C14 and C15 describe the table. -/
theorem trials_of_history (b : Base R) (g : Graph Str) (clock : Int) (h : List (Call R))
    (hok : GradingsOk b (fresh g clock) h) :
    ∃ ops, (runs b (fresh g clock) h).trials = Table.run b.sortV ops ∧
      tableCalls ops = h.filterMap toTrials := by
  induction h using List.reverseRecOn with
  | nil => exact ⟨[], rfl, rfl⟩
  | append_singleton h c ih =>
    rw [gradingsOk_append] at hok
    obtain ⟨ops, e1, e2⟩ := ih hok.1
    obtain ⟨os, e3, e4⟩ := trials_step b (runs b (fresh g clock) h) c
      (sound_runs b _ h (sound_fresh b g clock)) hok.2.1
    refine ⟨ops ++ os, ?_, ?_⟩
    · rw [runs_snoc, e3, e1]; simp [Table.run]
    · rw [List.filterMap_append, ← e2, ← e4]; simp [tableCalls]

theorem lastPreferences_append (p : Preferences) (h h' : List (Call R)) :
    lastPreferences p (h ++ h') = lastPreferences (lastPreferences p h) h' := by
  induction h generalizing p with
  | nil => rfl
  | cons c h ih =>
    cases c with
    | setPreferences q f => cases f <;> exact ih _
    | _ => exact ih _

/-- C72: after any history the preferences are those of the last successful `set_user_preferences`. -/
theorem preferences_of_history (b : Base R) (g : Graph Str) (clock : Int) (h : List (Call R)) :
    (runs b (fresh g clock) h).prefs = lastPreferences {} h := by
  induction h using List.reverseRecOn with
  | nil => rfl
  | append_singleton h c ih =>
    rw [runs_snoc, lastPreferences_append, ← ih]
    generalize runs b (fresh g clock) h = t
    cases c with
    | scoreExercise x g ts fuel order f =>
      rcases step_score b t x g ts fuel order f with ⟨-, e⟩ | ⟨s, ok, -, e⟩ <;> rw [e] <;> rfl
    | getBatch q => rcases step_batch b t q with ⟨-, e⟩ | ⟨s, r, -, e⟩ <;> rw [e] <;> rfl
    | restart g => rcases step_restart b t g with e | ⟨-, e⟩ <;> rw [e] <;> rfl
    | setPreferences p f => cases f <;> rfl
    | _ => rfl

/-- C56: between restarts the options are those after the option calls of the history, so that C55 describes
them. -/
theorem options_of_history (b : Base R) (t : Top R) (h : List (Call R)) (hr : ∀ c ∈ h, ¬ Restarts c) :
    (runs b t h).options = t.options.calls (h.filterMap toOptions) := by
  induction h using List.reverseRecOn with
  | nil => rfl
  | append_singleton h c ih =>
    rw [runs_snoc, List.filterMap_append, OptionsApi.Scheduler.calls, List.foldl_append]
    rw [OptionsApi.Scheduler.calls] at ih
    rw [← ih (fun c hc => hr c (List.mem_append_left _ hc))]
    generalize runs b t h = t
    cases c with
    | scoreExercise x g ts fuel order f =>
      rcases step_score b t x g ts fuel order f with ⟨-, e⟩ | ⟨s, ok, -, e⟩ <;> rw [e] <;> rfl
    | getBatch q => rcases step_batch b t q with ⟨-, e⟩ | ⟨s, r, -, e⟩ <;> rw [e] <;> rfl
    | restart g => exact absurd trivial (hr (.restart g) (by simp))
    | setPreferences p f => cases f <;> rfl
    | _ => rfl

/-- C56 (partial): between restarts the library is the one after the library edits of the history, so that
C01–C09 describe it.  Missing: `set_encompasing_equals_dependency`, which is not passed on
(`encompassing_setter_ignored`). -/
theorem library_of_history_partial (b : Base R) (t : Top R) (h : List (Call R))
    (hr : ∀ c ∈ h, ¬ Restarts c) (he : .setEncompassingEqualsDependency ∉ h.filterMap toGraph) :
    (runs b t h).graph = (h.filterMap toGraph).foldl (fun g o => (g.step o).1) t.graph := by
  induction h using List.reverseRecOn with
  | nil => rfl
  | append_singleton h c ih =>
    rw [List.filterMap_append, List.mem_append, not_or] at he
    rw [runs_snoc, List.filterMap_append, List.foldl_append,
      ← ih (fun c hc => hr c (List.mem_append_left _ hc)) he.1]
    replace he := he.2
    generalize runs b t h = t
    cases c with
    | scoreExercise x g ts fuel order f =>
      rcases step_score b t x g ts fuel order f with ⟨-, e⟩ | ⟨s, ok, -, e⟩ <;> rw [e] <;> rfl
    | getBatch q => rcases step_batch b t q with ⟨-, e⟩ | ⟨s, r, -, e⟩ <;> rw [e] <;> rfl
    | restart g => exact absurd trivial (hr (.restart g) (by simp))
    | setPreferences p f => cases f <;> rfl
    | editGraph o =>
      cases o with
      | setEncompassingEqualsDependency => exact absurd (by simp [toGraph]) he
      | _ => rfl
    | _ => rfl

/-- C56: every call returns what the call on the component returns. -/
theorem results_of_components (b : Base R) (t : Top R) (c : Call R) :
    (∀ o, toBlacklist c = some o → (step b t c).2 = (t.blacklist.step o).2) ∧
    (∀ o, toReviewList c = some o → (step b t c).2 = (ReviewList.step t.review o).2) ∧
    (∀ o, toTrials c = some o → ¬ Grades c → (step b t c).2 = (t.trials.step b.sortV o).2) ∧
    (∀ o, toDeltas c = some o → (step b t c).2 = (t.deltas.step b.sortV o).2) ∧
    (∀ o, toRewards c = some o → (step b t c).2 = (t.rewards.step b.sortW o).2.isSome) ∧
    (∀ o, toGraph c = some o → o ≠ .setEncompassingEqualsDependency →
      (step b t c).2 = (t.graph.step o).2) := by
  refine ⟨?_, ?_, ?_, ?_, ?_, ?_⟩
  · intro o h; cases c <;> cases h <;> rfl
  · intro o h; cases c <;> cases h <;> rfl
  · intro o h hg; cases c <;> cases h <;> first | rfl | exact absurd trivial hg
  · intro o h; cases c <;> cases h <;> rfl
  · intro o h; cases c <;> cases h <;> rfl
  · intro o h hne
    cases c <;> cases h
    cases o <;> first | rfl | exact absurd rfl hne

/-- C56 is false of `set_encompasing_equals_dependency`: called on the component it changes what
`encompasing_equals_dependency` answers, called on the `Trane` object it changes nothing. -/
theorem encompassing_setter_ignored :
    (∀ (b : Base R) (t : Top R), step b t (.editGraph .setEncompassingEqualsDependency) = (t, true)) ∧
    ∃ g : Graph Str, (∃ ops, g = Graph.run ops) ∧
      (g.step .setEncompassingEqualsDependency).1.encompassingEqualsDependency ≠
        g.encompassingEqualsDependency :=
  ⟨fun _ _ => rfl, Graph.run System.sampleOps, ⟨_, rfl⟩, by decide +kernel⟩

end Trane.TopLevel
