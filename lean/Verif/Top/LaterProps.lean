import Verif.Sched.Later
import Verif.Scorer.LaterProps
import Verif.Top.App
import Verif.Top.AppSample
import Verif.Top.ScoreProps

/-!
# The calendar does not matter (C109)

Two objects live the same life, one of them `δ` seconds later than the other: every call is made `δ` seconds later, the
timestamps passed to calls are `δ` seconds later, and so is the clock of the computer.  `δ` may be negative.  The theorems
say that the two objects give the same answers to every call, hand out the same batches and answer the same scores, and
that what they store is the same but for the moved timestamps.

What is asked of the parts: SQLite orders rows of equal timestamp without looking at the timestamps of other rows
(`SortDesc.Steady`, which holds of a stable sort), and the timestamps of the rewards are among those that `chrono` can
represent, before and after the move.  Timestamps are integers here: that the moved ones fit in `i64` is not part of the
model.
-/

namespace Trane.TopLevel
open Trane.Store
open Trane.UnitScorer (Caches scoreC lessonTrialsC courseTrialsC invalidate invalidatePrefix after Alike)
open Trane.Scorer (Kind)

variable {R : Type} [Field R] [LinearOrder R]

/-! ### Specification -/

/-- The object that lives `δ` seconds later. -/
def Top.later (δ : Int) (t : Top R) : Top R :=
  { t with
    trials := t.trials.later δ
    deltas := t.deltas.later δ
    rewards := t.rewards.later δ
    override := t.override.map (· + δ)
    clock := t.clock + δ }

/-- The call made `δ` seconds later.  The rewards of a grade are listed in the same order. -/
def Call.later (δ : Int) : Call R → Call R
  | .recordScores es f => .recordScores (es.map (Entry.later δ)) f
  | .recordDeltas es f => .recordDeltas (es.map (Entry.later δ)) f
  | .recordRewards rs f => .recordRewards (rs.map (Reward.later δ)) f
  | .scoreExercise x g ts fuel order f => .scoreExercise x g (ts + δ) fuel (System.laterOrder δ order) f
  | .overrideTime o => .overrideTime (o.map (· + δ))
  | .wait c => .wait (c + δ)
  | c => c

/-- The timestamps of the rewards that the call may store satisfy `Q`; the rewards of a grade are listed in some order. -/
def RewardTimes (Q : Int → Prop) : Call R → Prop
  | .recordRewards rs _ => ∀ r ∈ rs, Q r.ts
  | .scoreExercise _ _ ts _ order _ => Q ts ∧ ∀ l, (order l).Perm l
  | _ => True

/-- The parts of the application do not look at the calendar, as far as timestamps of rewards in `Q` are concerned. -/
structure CalendarFree (δ : Int) (Q : Int → Prop) (b : Base R) : Prop where
  sortV : b.sortV.Steady δ
  sortW : b.sortW.Steady δ
  scorer : ∀ clock x now st (l c : System.Rews), (∀ p ∈ l, Q p.2) → (∀ p ∈ c, Q p.2) →
    b.scorer (clock + δ) x (now + δ) (System.Stats.later δ st) (System.Rews.later δ l) (System.Rews.later δ c) =
      b.scorer clock x now st l c

/-- The results of a history, call by call. -/
def resultsOf (b : Base R) : Top R → List (Call R) → List Bool
  | _, [] => []
  | t, c :: h => (step b t c).2 :: resultsOf b (step b t c).1 h

/-! ### Proofs -/

variable {δ : Int} {Q : Int → Prop} {b : Base R}

theorem later_follows (hb : CalendarFree δ Q b) (t : Top R) : System.Follows δ Q (t.config b) ((t.later δ).config b) where
  sortV := rfl
  sortW := rfl
  scorer := fun x now st l c hl hc => hb.scorer t.clock x now st l c hl hc
  supScore := rfl
  numTrials := rfl
  numRewards := rfl
  steadyV := hb.sortV
  steadyW := hb.sortW

theorem later_sys (t : Top R) : (t.later δ).sys = t.sys.later δ := by
  have : (t.override.map (· + δ)).getD (t.clock + δ) = t.override.getD t.clock + δ := by cases t.override <;> rfl
  simp only [Top.sys, Top.later, System.State.later, this]

/-- The timestamps of the stored rewards satisfy `Q`. -/
def Kept (Q : Int → Prop) (t : Top R) : Prop := ∀ r ∈ t.rewards.table.rows, Q r.ts

theorem later_alike (hb : CalendarFree δ Q b) {t : Top R} (ht : Kept Q t) :
    Alike (t.sys.world (t.config b)) ((t.later δ).sys.world ((t.later δ).config b)) := by
  rw [later_sys]
  exact System.later_world (later_follows hb t) t.sys ht

theorem later_step (hb : CalendarFree δ Q b) {t : Top R} (ht : Kept Q t) (c : Call R) :
    step b (t.later δ) (c.later δ) = ((step b t c).1.later δ, (step b t c).2) := by
  have hw := later_alike hb ht
  have hv := fun o => Table.later_step hb.sortV t.trials o
  have hd := fun o => Table.later_step hb.sortV t.deltas o
  have hr := fun o => Rewards.later_step hb.sortW t.rewards o
  cases c with
  | recordScores es f =>
    have := hv (.record es f)
    simp only [LogOp.later] at this
    simp only [Call.later, step, Top.later, this]
  | trimScores n s =>
    have := hv (.trim n s)
    simp only [LogOp.later] at this
    simp only [Call.later, step, Top.later, this]
  | removeScores p s =>
    have := hv (.removePrefix p s)
    simp only [LogOp.later] at this
    simp only [Call.later, step, Top.later, this]
  | recordDeltas es f =>
    have := hd (.record es f)
    simp only [LogOp.later] at this
    simp only [Call.later, step, Top.later, this]
  | trimDeltas n s =>
    have := hd (.trim n s)
    simp only [LogOp.later] at this
    simp only [Call.later, step, Top.later, this]
  | removeDeltas p s =>
    have := hd (.removePrefix p s)
    simp only [LogOp.later] at this
    simp only [Call.later, step, Top.later, this]
  | recordRewards rs f =>
    have := hr (.record rs f)
    simp only [Rewards.Op.later] at this
    simp only [Call.later, step, Top.later, this]
  | trimRewards n s =>
    have := hr (.trim n s)
    simp only [Rewards.Op.later] at this
    simp only [Call.later, step, Top.later, this]
  | removeRewards p s =>
    have := hr (.removePrefix p s)
    simp only [Rewards.Op.later] at this
    simp only [Call.later, step, Top.later, this]
  | setPreferences p f => cases f <;> rfl
  | scoreExercise x g ts fuel order f =>
    have := System.later_scoreExercise (later_follows hb t) order fuel t.sys ht x g ts f
    simp only [Call.later, step, later_sys, this]
    cases System.scoreExercise (t.config b) order fuel t.sys x g ts f with
    | none => rfl
    | some r => rfl
  | getUnitScore u n =>
    have hc : (t.later δ).caches = t.caches := rfl
    simp only [Call.later, step, hw.scoreC, hc]
    rfl
  | getBatch q =>
    have hq : (t.later δ).batch q = t.batch q := rfl
    have ha : (t.later δ).ask b = t.ask b := by
      funext c a
      cases a with
      | score u n => simp only [Top.ask, hw.scoreC]
      | lessonTrials u => simp only [Top.ask, hw.lessonTrialsC]
      | courseTrials u n => simp only [Top.ask, hw.courseTrialsC]
    simp only [Call.later, step, hq, ha]
    cases t.batch q with
    | none => rfl
    | some r => rfl
  | restart g =>
    have hp : (t.later δ).prefs = t.prefs := rfl
    simp only [Call.later, step, hp]
    split
    · rfl
    · rfl
  | _ => rfl

theorem kept_step (b : Base R) {t : Top R} (ht : Kept Q t) (c : Call R) (hc : RewardTimes Q c) : Kept Q (step b t c).1 := by
  cases c with
  | recordRewards rs f =>
    exact System.step_rows b.sortW t.rewards (.record rs f) ht (by
      rintro rs' f' e
      cases e
      exact hc)
  | trimRewards n s => exact System.step_rows b.sortW t.rewards (.trim n s) ht (by simp)
  | removeRewards p s => exact System.step_rows b.sortW t.rewards (.removePrefix p s) ht (by simp)
  | setPreferences p f => cases f <;> exact ht
  | scoreExercise x g ts fuel order f =>
    simp only [step]
    cases h : System.scoreExercise (t.config b) order fuel t.sys x g ts f with
    | none => exact ht
    | some r => exact System.scoreExercise_rows (t.config b) order hc.2 fuel t.sys x g ts f ht hc.1 h
  | getBatch q =>
    simp only [step]
    cases t.batch q with
    | none => exact ht
    | some r => exact ht
  | restart g =>
    simp only [step]
    split
    · exact System.step_rows b.sortW t.rewards .reopen ht (by simp)
    · exact ht
  | _ => exact ht

theorem kept_runs (b : Base R) (h : List (Call R)) : ∀ {t : Top R}, Kept Q t → (∀ c ∈ h, RewardTimes Q c) → Kept Q (runs b t h) := by
  induction h with
  | nil => exact fun ht _ => ht
  | cons c h ih =>
    intro t ht hc
    rw [List.forall_mem_cons] at hc
    exact ih (kept_step b ht c hc.1) hc.2

theorem later_runs (hb : CalendarFree δ Q b) (h : List (Call R)) : ∀ {t : Top R}, Kept Q t → (∀ c ∈ h, RewardTimes Q c) →
    runs b (t.later δ) (h.map (Call.later δ)) = (runs b t h).later δ ∧
      resultsOf b (t.later δ) (h.map (Call.later δ)) = resultsOf b t h := by
  induction h with
  | nil => exact fun _ _ => ⟨rfl, rfl⟩
  | cons c h ih =>
    intro t ht hc
    rw [List.forall_mem_cons] at hc
    have := ih (kept_step b ht c hc.1) hc.2
    have hs := later_step hb ht c
    simp only [List.map_cons, resultsOf, hs]
    refine ⟨?_, ?_⟩
    · have e : ∀ (t : Top R) (c : Call R) (h : List (Call R)), runs b t (c :: h) = runs b (step b t c).1 h := fun _ _ _ => rfl
      rw [e, e, hs]
      exact this.1
    · rw [this.2]

/-! ### The theorems -/

/-- **C109.** An object on a new library and the one that lives the same life `δ` seconds later: after any history of
calls they hold the same but for the moved timestamps, and every call succeeded on the one exactly if it succeeded on
the other. -/
theorem same_life_later (hb : CalendarFree δ Q b) (g : Graph Str) (clock : Int) (h : List (Call R))
    (hc : ∀ c ∈ h, RewardTimes Q c) :
    runs b (fresh g (clock + δ)) (h.map (Call.later δ)) = (runs b (fresh g clock) h).later δ ∧
      resultsOf b (fresh g (clock + δ)) (h.map (Call.later δ)) = resultsOf b (fresh g clock) h :=
  later_runs hb h (t := fresh g clock) (fun r hr => absurd hr (List.not_mem_nil)) hc

/-- **C109.** And whatever is asked then is answered the same: the score of every unit, the batch for every request, the
trials and deltas of every exercise (with their moved timestamps). -/
theorem same_answers_later (hb : CalendarFree δ Q b) (g : Graph Str) (clock : Int) (h : List (Call R))
    (hc : ∀ c ∈ h, RewardTimes Q c) {t t' : Top R} (ht : t = runs b (fresh g clock) h)
    (ht' : t' = runs b (fresh g (clock + δ)) (h.map (Call.later δ))) :
    (∀ u n, answer b t' u n = answer b t u n) ∧
    (∀ q, t'.batch q = t.batch q) ∧
    (∀ u n, t'.trials.get b.sortV u n = (t.trials.get b.sortV u n).map (fun p => (p.1, p.2 + δ))) ∧
    (∀ u n, t'.deltas.get b.sortV u n = (t.deltas.get b.sortV u n).map (fun p => (p.1, p.2 + δ))) ∧
    (∀ u n, t'.rewards.table.get b.sortW u n = (t.rewards.table.get b.sortW u n).map (fun p => (p.1, p.2 + δ))) := by
  have hk : Kept Q t := by
    rw [ht]
    exact kept_runs b h (fun r hr => absurd hr (List.not_mem_nil)) hc
  rw [(same_life_later hb g clock h hc).1, ← ht] at ht'
  subst ht'
  refine ⟨fun u n => ?_, fun q => rfl, fun u n => Table.later_get hb.sortV _ u n, fun u n => Table.later_get hb.sortV _ u n,
    fun u n => Table.later_get hb.sortW _ u n⟩
  unfold answer
  rw [(later_alike hb hk).scoreC]
  rfl

/-- **C109.** What a batch goes by is the same too: the scores, the numbers of trials, the superseded units, the urgency and
the velocity of every exercise.  So a batch request that reads them from the one object reads what the other would have
given it, and the two objects hand out the same batch for it. -/
theorem same_batches_later (hb : CalendarFree δ Q b) (g : Graph Str) (clock : Int) (h : List (Call R))
    (hc : ∀ c ∈ h, RewardTimes Q c) {t t' : Top R} (ht : t = runs b (fresh g clock) h)
    (ht' : t' = runs b (fresh g (clock + δ)) (h.map (Call.later δ))) :
    (∀ u v, GetsScore b t' u v ↔ GetsScore b t u v) ∧ (∀ u v, GetsTrials b t' u v ↔ GetsTrials b t u v) ∧
    (∀ u v, GetsSuperseded b t' u v ↔ GetsSuperseded b t u v) ∧
    (∀ x, UnitScorer.exC (t'.sys.world (t'.config b)) x t'.caches = UnitScorer.exC (t.sys.world (t.config b)) x t.caches) ∧
    ∀ q, t'.batch q = t.batch q ∧ (step b t' (.getBatch q)).2 = (step b t (.getBatch q)).2 := by
  have hk : Kept Q t := by
    rw [ht]
    exact kept_runs b h (fun r hr => absurd hr (List.not_mem_nil)) hc
  rw [(same_life_later hb g clock h hc).1, ← ht] at ht'
  subst ht'
  have hw := later_alike hb hk
  refine ⟨fun u v => ?_, fun u v => ?_, fun u v => ?_, fun x => ?_, fun q => ⟨rfl, ?_⟩⟩
  · unfold GetsScore UnitScorer.Answers
    simp only [hw.scoreC]
    rfl
  · unfold GetsTrials UnitScorer.AnswersCourseTrials UnitScorer.AnswersLessonTrials
    simp only [hw.courseTrialsC, hw.lessonTrialsC]
    rfl
  · unfold GetsSuperseded UnitScorer.AnswersSuperseded
    simp only [hw.scoreC, hw.checkC]
    rfl
  · rw [hw.exC]
    rfl
  · have := later_step hb hk (.getBatch q)
    simp only [Call.later] at this
    rw [this]

/-- **C109.** The application does not look at the calendar: its scorers only use how long ago things were, as long as
`chrono` can represent the timestamps of the rewards before and after the move. -/
theorem app_calendarFree (kind : Str → Kind) (inRange : ℤ → Bool) {sortV : SortDesc ℝ} {sortW : SortDesc (ℚ × ℚ)}
    (hv : sortV.Steady δ) (hw : sortW.Steady δ) :
    CalendarFree δ (fun ts => inRange ts = true ∧ inRange (ts + δ) = true) (appBase kind inRange sortV sortW) where
  sortV := hv
  sortW := hw
  scorer := by
    intro clock x now st l c hl hc
    have he : ∀ l : List (ℝ × Int), entries (l.map (fun p => (p.1, p.2 + δ))) = (entries l).map (Scorer.Entry.later δ) := by
      intro l
      unfold entries
      rw [List.map_map, List.map_map]
      rfl
    have hr : ∀ l : System.Rews, rewardsOf (System.Rews.later δ l) = (rewardsOf l).map (RewardScorer.Reward.later δ) := by
      intro l
      unfold rewardsOf System.Rews.later
      rw [List.map_map, List.map_map]
      rfl
    have hq : ∀ l : System.Rews, (∀ p ∈ l, inRange p.2 = true ∧ inRange (p.2 + δ) = true) →
        ∀ r ∈ rewardsOf l, inRange r.time = true ∧ inRange (r.time + δ) = true := by
      intro l hl r hr
      obtain ⟨p, hp, rfl⟩ := List.mem_map.1 hr
      exact hl p hp
    simp only [appBase, System.Stats.later, he, hr, UnitScorer.appScore, Scorer.score_later,
      RewardScorer.scoreRewards_later (hq c hc) (hq l hl), RewardScorer.applyReward_later]
    cases Scorer.score (kind x) (entries st.1) (entries st.2) now with
    | none => rfl
    | some s => rfl

/-- **C109, for the application.** The scores and batches after any history of calls, made `δ` seconds later, with the
scorers of the application. -/
theorem app_same_answers_later (kind : Str → Kind) (inRange : ℤ → Bool) {sortV : SortDesc ℝ} {sortW : SortDesc (ℚ × ℚ)}
    (hv : sortV.Steady δ) (hw : sortW.Steady δ) (g : Graph Str) (clock : Int) (h : List (Call ℝ))
    (hc : ∀ c ∈ h, RewardTimes (fun ts => inRange ts = true ∧ inRange (ts + δ) = true) c) {t t' : Top ℝ}
    (ht : t = runs (appBase kind inRange sortV sortW) (fresh g clock) h)
    (ht' : t' = runs (appBase kind inRange sortV sortW) (fresh g (clock + δ)) (h.map (Call.later δ))) :
    (∀ u n, answer (appBase kind inRange sortV sortW) t' u n = answer (appBase kind inRange sortV sortW) t u n) ∧
    (∀ q, t'.batch q = t.batch q) :=
  ⟨(same_answers_later (app_calendarFree kind inRange hv hw) g clock h hc ht ht').1,
   (same_answers_later (app_calendarFree kind inRange hv hw) g clock h hc ht ht').2.1⟩

/-- A history with grades, trials, rewards, an override and the passing of time meets the hypotheses. -/
example : ∀ c ∈ rewarded ++ [.scoreExercise ['e'] .five 864100 9 id {}, .overrideTime (some 5), .wait 9],
    RewardTimes (fun ts => (fun _ => true) ts = true ∧ (fun _ => true) (ts + 1000) = true) (c : Call ℝ) := by
  intro c hc
  simp only [rewarded, List.cons_append, List.nil_append, List.mem_cons, List.not_mem_nil, or_false] at hc
  rcases hc with rfl | rfl | rfl | rfl | rfl <;> simp [RewardTimes]

/-- And insertion sort, which is stable, orders rows without looking at the calendar. -/
example : CalendarFree 1000 (fun ts => (fun _ => true) ts = true ∧ (fun _ => true) (ts + 1000) = true) caseBase :=
  app_calendarFree _ _ (insSort_steady _) (insSort_steady _)

/-- A year later: the object of the case `o2`, whose rewards matter, answers the same. -/
example : (runs caseBase (fresh sampleGraph (10 + 31536000)) (byWaiting.map (Call.later 31536000))) = o2.later 31536000 :=
  (same_life_later (Q := fun ts => (fun _ => true) ts = true ∧ (fun _ => true) (ts + 31536000) = true)
    (app_calendarFree _ _ (insSort_steady _) (insSort_steady _)) sampleGraph 10 byWaiting (by
      intro c hc
      simp only [byWaiting, rewarded, List.cons_append, List.nil_append, List.mem_cons, List.not_mem_nil, or_false] at hc
      rcases hc with rfl | rfl | rfl | rfl | rfl <;> simp [RewardTimes])).1

end Trane.TopLevel
