import Verif.Top.SiteLemmas
import Verif.Top.SiteSpec
import Verif.Top.Sample

/-!
# C119: several objects on one library

Grades, rewards, the review list and the preferences are read from the files at every call, so that no object loses what another one
stored.  The blacklist and the scores are kept in memory: an object does not see what another one did to them until it is opened again, and
edits of the blacklist get lost.
-/

namespace Trane.TopLevel
open Trane.Store
open Trane.UnitScorer (scoreC)

variable {R : Type} [Field R] [LinearOrder R]

/-! ### What is stored by one is seen by all -/

/-- **C119**: after every history of calls on any number of objects, every object answers `get_scores` alike, with the newest of the grades
in store. -/
theorem same_grades_everywhere (b : Base R) (g : Graph Str) (clock : Int) (h : List (Nat × Call R)) (i j : Nat) (u : Str) (n : Nat) :
    let s := (newSite g clock).runs b h
    (s.sees i).trials.get b.sortV u n = (s.sees j).trials.get b.sortV u n ∧
    Table.IsNewest n ((s.sees j).trials.history u) ((s.sees i).trials.get b.sortV u n) :=
  ⟨rfl, Table.get_newest _ _ u n⟩

theorem absStep_of_trials {b : Base R} {t : Top R} (ht : ∃ ops, t.trials = Table.run b.sortV ops) (c : Call R) :
    (∀ o, toTrials c = some o → Table.AbsStep t.trials.history (step b t c).1.trials.history o (step b t c).2 ∨
      Grades c ∧ (step b t c).2 = false ∧ Table.AbsStep t.trials.history (step b t c).1.trials.history o true) ∧
    (toTrials c = none → (step b t c).1.trials = t.trials) := by
  obtain ⟨ops, ht⟩ := ht
  have hr : ∀ o, Table.AbsStep t.trials.history (t.trials.step b.sortV o).1.history o (t.trials.step b.sortV o).2 := by
    intro o
    have := (Table.log_refines b.sortV ops o).1
    rw [Table.run_snoc, ← ht] at this
    exact this
  refine ⟨fun o ho => ?_, fun ho => ?_⟩
  · cases c <;> cases ho
    case recordScores.refl es f => exact Or.inl (hr _)
    case trimScores.refl n s => exact Or.inl (hr _)
    case removeScores.refl p s => exact Or.inl (hr _)
    case scoreExercise.refl x g ts fuel order f =>
      rcases step_score b t x g ts fuel order f with ⟨-, e⟩ | ⟨s, ok, h, e⟩
      · rw [e]; exact Or.inl (fun u => rfl)
      · rw [e]
        have h1 := (score_tables h).1
        have hr := hr (.record [⟨x, System.gradeVal R g, ts⟩] false)
        rcases h1 with ⟨h1, h2⟩ | ⟨h1, h2⟩
        · have h2 : ok = false := h2
          subst h2
          refine Or.inl ?_
          intro u
          exact congrArg (fun x : Table R => x.history u) h1
        · have h1 : (t.putSys s).trials = (t.trials.step b.sortV (.record [⟨x, System.gradeVal R g, ts⟩] false)).1 := h1
          have h2 : (t.trials.step b.sortV (.record [⟨x, System.gradeVal R g, ts⟩] false)).2 = true := h2
          rw [h2, ← h1] at hr
          cases ok with
          | true => exact Or.inl hr
          | false => exact Or.inr ⟨trivial, rfl, hr⟩
  · cases c <;> first | cases ho | skip
    case getBatch.refl q => rcases step_batch b t q with ⟨-, e⟩ | ⟨s, r, -, e⟩ <;> rw [e]
    case restart.refl g => rcases step_restart b t g with e | ⟨-, e⟩ <;> rw [e]
    case setPreferences.refl p f => cases f <;> rfl
    all_goals rfl

/-- **C119**: whichever object makes a call, the grades that every object answers afterwards are those every object answered before, changed
by that call as by a call on the only object.  A grading that fails stores its grade or not. -/
theorem grades_of_a_call (b : Base R) (g : Graph Str) (clock : Int) (h : List (Nat × Call R)) (i : Nat) (c : Call R) (j k : Nat) :
    let s := (newSite g clock).runs b h
    let r := s.step b (i, c)
    (∀ o, toTrials c = some o → Table.AbsStep (s.sees j).trials.history (r.1.sees k).trials.history o r.2 ∨
      Grades c ∧ r.2 = false ∧ Table.AbsStep (s.sees j).trials.history (r.1.sees k).trials.history o true) ∧
    (toTrials c = none → (r.1.sees k).trials = (s.sees j).trials) :=
  absStep_of_trials (t := ((newSite g clock).runs b h).sees i) (orderly_runs (orderly_new b g clock) h).trials c

/-- **C119**, no grade is lost: after every history in which nothing is trimmed or removed and every grading returned `Ok`, every object holds for
every unit exactly the grades that were given, through whichever object. -/
theorem no_grade_lost (b : Base R) (g : Graph Str) (clock : Int) (h : List (Nat × Call R)) (hk : ∀ k ∈ h, Keeps k.2)
    (hok : (newSite g clock).GradingsOk b h) (j : Nat) (u : Str) :
    (((newSite g clock).runs b h).sees j).trials.history u = h.flatMap (fun k => gradesIn u k.2) := by
  induction h using List.reverseRecOn with
  | nil => rfl
  | append_singleton h k ih =>
    have ih := ih (fun k hm => hk k (by simp [hm])) (fun h1 k' h2 e hg => hok h1 k' (h2 ++ [k]) (by simp [e]) hg)
    rw [List.flatMap_append, ← ih]
    obtain ⟨i, c⟩ := k
    have hc := hk (i, c) (by simp)
    have ho := hok h (i, c) [] (by simp)
    obtain ⟨h1, h2⟩ := grades_of_a_call b g clock h i c j j
    rw [Site.runs_snoc]
    cases c with
    | scoreExercise x gr ts fuel order f =>
      have ho := ho trivial
      rw [ho] at h1
      rcases h1 _ rfl with h1 | ⟨-, h1, -⟩
      · refine (h1 u).trans ?_
        simp only [Table.entriesOf, List.filter_cons, List.filter_nil, List.flatMap_cons, List.flatMap_nil, gradesIn, List.append_nil]
        by_cases hx : x = u <;> simp [hx]
      · cases h1
    | recordScores es f =>
      rcases h1 _ rfl with h1 | ⟨h1, -⟩
      · obtain ⟨ops, e⟩ := (orderly_runs (orderly_new b g clock) h).trials
        cases f with
        | false =>
          have : (((newSite g clock).runs b h).step b (i, .recordScores es false)).2 = true := by
            have := Table.record_succeeds b.sortV ops es
            rw [← e] at this
            exact this
          rw [this] at h1
          simpa [gradesIn] using h1 u
        | true =>
          have : (((newSite g clock).runs b h).step b (i, .recordScores es true)).2 = false := by
            change (Table.step b.sortV _ _).2 = false
            simp only [Table.step]
            split <;> rfl
          rw [this] at h1
          simpa [gradesIn] using h1 u
      · cases h1
    | trimScores n s => exact absurd hc (by simp [Keeps])
    | removeScores p s => exact absurd hc (by simp [Keeps])
    | _ =>
      have := congrArg (fun t : Table R => t.history u) (h2 rfl)
      simpa [gradesIn] using this

/-- **C119**: the same for the review list and for the preferences, and no unit has more than 20 rewards. -/
theorem same_lists_everywhere (b : Base R) (g : Graph Str) (clock : Int) (h : List (Nat × Call R)) :
    (∃ ops, (∀ j, (((newSite g clock).runs b h).sees j).review = ReviewList.run ops) ∧
      reviewCalls ops = (h.map Prod.snd).filterMap toReviewList) ∧
    (∀ j, (((newSite g clock).runs b h).sees j).prefs = lastPreferences {} (h.map Prod.snd)) ∧
    (∀ j u, ((((newSite g clock).runs b h).sees j).rewards.table.history u).length ≤ 20) := by
  refine ⟨?_, ?_, fun j => (orderly_runs (orderly_new b g clock) h).bound⟩
  · induction h using List.reverseRecOn with
    | nil => exact ⟨[], fun j => rfl, rfl⟩
    | append_singleton h k ih =>
      obtain ⟨ops, e1, e2⟩ := ih
      obtain ⟨os, e3, e4⟩ := review_step b (((newSite g clock).runs b h).sees k.1) k.2
      refine ⟨ops ++ os, fun j => ?_, ?_⟩
      · rw [Site.runs_snoc]
        refine e3.trans ?_
        rw [e1 k.1]; simp [ReviewList.run]
      · rw [List.map_append, List.filterMap_append, ← e2, List.map_singleton, ← e4]; simp [reviewCalls]
  · intro j
    induction h using List.reverseRecOn generalizing j with
    | nil => rfl
    | append_singleton h k ih =>
      obtain ⟨i, c⟩ := k
      rw [Site.runs_snoc, List.map_append, lastPreferences_append, ← ih i]
      change (step b (((newSite g clock).runs b h).sees i) c).1.prefs = _
      generalize ((newSite g clock).runs b h).sees i = t
      cases c with
      | scoreExercise x g ts fuel order f =>
        rcases step_score b t x g ts fuel order f with ⟨-, e⟩ | ⟨s, ok, -, e⟩ <;> rw [e] <;> rfl
      | getBatch q => rcases step_batch b t q with ⟨-, e⟩ | ⟨s, r, -, e⟩ <;> rw [e] <;> rfl
      | restart g => rcases step_restart b t g with e | ⟨-, e⟩ <;> rw [e] <;> rfl
      | setPreferences p f => cases f <;> rfl
      | _ => rfl

/-! ### What is kept in memory -/

theorem black_of_others (b : Base R) (t : Top R) (c : Call R) (hc : Blacklists c = false) :
    (step b t c).1.blacklist.db = t.blacklist.db := by
  cases c with
  | addToBlacklist u f => cases hc
  | removeFromBlacklist u f => cases hc
  | removePrefixFromBlacklist u f => cases hc
  | blacklisted u => exact Blacklist.db_hasEntry _ u
  | scoreExercise x g ts fuel order f =>
    rcases step_score b t x g ts fuel order f with ⟨-, e⟩ | ⟨s, ok, -, e⟩ <;> rw [e] <;> rfl
  | getBatch q => rcases step_batch b t q with ⟨-, e⟩ | ⟨s, r, -, e⟩ <;> rw [e]
  | restart g => rcases step_restart b t g with e | ⟨-, e⟩ <;> rw [e] <;> rfl
  | setPreferences p f => cases f <;> rfl
  | _ => rfl

/-- **C119**: an object that was opened after everything the others did to the blacklist answers `blacklisted` right: with what every object
lists, each id once. -/
theorem blacklist_of_last_opened (b : Base R) (g g' : Graph Str) (clock : Int) (h h' : List (Nat × Call R)) (i : Nat)
    (hok : (((newSite g clock).runs b h).step b (i, .restart g')).2 = true) (he : ∀ k ∈ h', OnlyEditor i k) (j : Nat) (u : Str) :
    let s := (newSite g clock).runs b (h ++ (i, .restart g') :: h')
    ((s.sees i).blacklist.blacklisted u = true ↔ u ∈ (s.sees j).blacklist.entries) ∧ (s.sees j).blacklist.entries.Nodup := by
  have key : (((newSite g clock).runs b (h ++ (i, .restart g') :: h')).sees i).blacklist.Inv := by
    induction h' using List.reverseRecOn with
    | nil =>
      rw [Site.runs_snoc]
      have ho := orderly_runs (orderly_new b g clock) h
      generalize (newSite g clock).runs b h = s at *
      have e : (((s.step b (i, .restart g')).1).sees i).blacklist = (step b (s.sees i) (.restart g')).1.blacklist := by
        simp [Site.sees, Site.step, Top.facing, Top.common]
      rw [e]
      rcases step_restart b (s.sees i) g' with e | ⟨-, e⟩
      · have : (step b (s.sees i) (.restart g')).2 = true := hok
        rw [e] at this
        cases this
      · rw [e]
        exact Blacklist.inv_open _ ho.black
    | append_singleton h' k ih =>
      have ih := ih (fun k hm => he k (by simp [hm]))
      have hk := he k (by simp)
      rw [show h ++ (i, Call.restart g') :: (h' ++ [k]) = (h ++ (i, .restart g') :: h') ++ [k] by simp, Site.runs_snoc]
      generalize (newSite g clock).runs b (h ++ (i, .restart g') :: h') = s at *
      obtain ⟨j, c⟩ := k
      by_cases hj : j = i
      · subst hj
        have e : (((s.step b (j, c)).1).sees j).blacklist = (step b (s.sees j) c).1.blacklist := by
          simp [Site.sees, Site.step, Top.facing, Top.common]
        rw [e]
        rcases (moved_step b (s.sees j) c).blacklist with e | ⟨o, e⟩ <;> rw [e]
        · exact ih
        · exact Blacklist.inv_step _ o ih
      · have e : (((s.step b (j, c)).1).sees i).blacklist = (s.sees i).blacklist := by
          have := black_of_others b (s.sees j) c (hk hj)
          simp only [Site.sees, Site.step, Top.facing, Top.common, Function.update_of_ne (Ne.symm hj)]
          congr 1
        rw [e]
        exact ih
  refine ⟨?_, key.nodup⟩
  rw [blacklisted_eq key, decide_eq_true_iff]
  rfl

/-- **C119**: whichever object is opened again, it finds the same: nothing depends on what it had in memory before. -/
theorem opened_again (b : Base R) (s : Site R) (g : Graph Str) (i j : Nat) (hok : (s.step b (i, .restart g)).2 = true) :
    (s.step b (j, .restart g)).2 = true ∧ (s.step b (i, .restart g)).1.sees i = (s.step b (j, .restart g)).1.sees j := by
  have hv : (schedulerOptions s.common.prefs).verify = true := by
    by_contra hv
    have : (s.step b (i, .restart g)).2 = false := by
      simp only [Site.step, step]
      exact congrArg Prod.snd (if_neg hv)
    rw [this] at hok
    cases hok
  have key : ∀ k, step b (s.sees k) (.restart g) =
      ({ blacklist := Blacklist.openDb s.common.black
         review := s.common.review
         trials := s.common.trials
         deltas := s.common.deltas
         rewards := { table := s.common.rewards, cache := [] }
         prefs := s.common.prefs
         graph := g
         options := OptionsApi.create (schedulerOptions s.common.prefs)
         clock := s.common.clock }, true) := by
    intro k
    simp only [step]
    exact (if_pos hv).trans rfl
  refine ⟨?_, ?_⟩
  · simp only [Site.step, key]
  · have e : ∀ k, (s.step b (k, .restart g)).1.sees k =
        (step b (s.sees k) (.restart g)).1.facing (step b (s.sees k) (.restart g)).1.common := by
      intro k
      simp [Site.sees, Site.step]
    rw [e, e, key, key]

end Trane.TopLevel
