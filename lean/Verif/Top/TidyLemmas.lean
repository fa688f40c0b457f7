import Verif.Store.Prune
import Verif.Top.ScoreProps
import Verif.Top.TidySpec

/-!
# C112: lemmas
-/

namespace Trane.TopLevel
open Trane.Store
open Trane.UnitScorer (after scoreC exC)

variable {R : Type} [Field R] [LinearOrder R]

/-- Two objects that differ in old grades and changes of scores only. -/
structure Shorter (b : Base R) (st sd : List (Str × Int)) (t t' : Top R) : Prop where
  rest : t' = { t with trials := t'.trials, deltas := t'.deltas }
  trials : Table.Agree 20 st t.trials t'.trials
  deltas : Table.Agree 20 sd t.deltas t'.deltas
  made : t.options.made.numTrials = 20
  sound : Sound b t

theorem shorter_world {b : Base R} {st sd : List (Str × Int)} {t t' : Top R} (h : Shorter b st sd t t') :
    t'.sys.world (t'.config b) = t.sys.world (t.config b) := by
  have hm := h.made
  rw [h.rest]
  unfold System.State.world Top.sys Top.config
  simp only [hm, h.trials.get, h.deltas.get]

/-- Trimming rewards to 20 or more does nothing. -/
theorem trimRewards_nothing {b : Base R} {t : Top R} (hs : Sound b t) {n : Nat} (hn : 20 ≤ n) (stop : Option Nat) :
    t.rewards.table.trimById b.sortW n stop = t.rewards.table := by
  obtain ⟨ops, e⟩ := hs.rewards
  have hb : ∀ u, (t.rewards.table.history u).length ≤ 20 := fun u => by rw [e]; exact Rewards.rewards_bounded b.sortW ops u
  have hw : Table.Wf t.rewards.table := by rw [e]; exact (Rewards.good_run b.sortW ops).wf
  have key : ∀ k ∈ t.rewards.table.uids.map Prod.fst, Table.trimUidById b.sortW n k t.rewards.table.rows = t.rewards.table.rows := by
    intro k hk
    obtain ⟨⟨k', u⟩, hm, rfl⟩ := List.mem_map.1 hk
    have hu : t.rewards.table.uidOf u = some k' := (Table.uidOf_some hw).2 hm
    have hl : (t.rewards.table.rows.filter (fun r => r.uid = k')).length ≤ 20 := by
      have := hb u
      unfold Table.history Table.rowsOf at this
      rw [hu] at this
      simpa using this
    unfold Table.trimUidById
    have hd : (b.sortW.sort (t.rewards.table.rows.filter (fun r => r.uid = k'))).drop n = [] := by
      rw [List.drop_eq_nil_iff, (b.sortW.perm _).length_eq]
      omega
    dsimp only
    rw [hd]
    simp
  have fold : ∀ ks : List Nat, (∀ k ∈ ks, k ∈ t.rewards.table.uids.map Prod.fst) →
      ks.foldl (fun rows k => Table.trimUidById b.sortW n k rows) t.rewards.table.rows = t.rewards.table.rows := by
    intro ks
    induction ks with
    | nil => intro _; rfl
    | cons k ks ih =>
      intro hk
      rw [List.foldl_cons, key k (hk k (by simp))]
      exact ih (fun j hj => hk j (by simp [hj]))
  unfold Table.trimById
  dsimp only
  rw [fold]
  intro k hk
  split at hk
  · exact hk
  · exact List.mem_of_mem_take hk

theorem shorter_same {b : Base R} {st sd st1 sd1 : List (Str × Int)} {t t' : Top R} (h : Shorter b st sd t t') (c : Call R)
    (e1 : st1 = st ++ gradeDates c) (e2 : sd1 = sd ++ changeDates c) (h1 : st1.Nodup) (h2 : sd1.Nodup) :
    Shorter b st1 sd1 (step b t c).1 (step b t' c).1 ∧ (step b t' c).2 = (step b t c).2 := by
  have hw := shorter_world h
  have hs := sound_step b t c h.sound
  obtain ⟨T', hT⟩ : ∃ x, x = t'.trials := ⟨_, rfl⟩
  obtain ⟨D', hD⟩ : ∃ x, x = t'.deltas := ⟨_, rfl⟩
  have hr := h.rest
  have a := h.trials
  have d := h.deltas
  have m := h.made
  rw [← hT, ← hD] at hr
  rw [← hT] at a
  rw [← hD] at d
  subst hr
  clear hT hD
  have plain : gradeDates c = [] → changeDates c = [] → ∀ {x : Top R},
      (step b t c).1 = x → x.trials = t.trials → x.deltas = t.deltas → x.options.made.numTrials = 20 →
      (step b { t with trials := T', deltas := D' } c).1 = { x with trials := T', deltas := D' } →
      Shorter b st1 sd1 (step b t c).1 (step b { t with trials := T', deltas := D' } c).1 := by
    intro g1 g2 x hx hxt hxd hxm he
    rw [g1, List.append_nil] at e1
    rw [g2, List.append_nil] at e2
    subst e1 e2
    rw [he]
    rw [hx] at hs ⊢
    exact ⟨rfl, by rw [hxt]; exact a, by rw [hxd]; exact d, hxm, hs⟩
  cases c with
  | addToBlacklist u f => exact ⟨plain rfl rfl rfl rfl rfl m rfl, rfl⟩
  | removeFromBlacklist u f => exact ⟨plain rfl rfl rfl rfl rfl m rfl, rfl⟩
  | removePrefixFromBlacklist p f => exact ⟨plain rfl rfl rfl rfl rfl m rfl, rfl⟩
  | blacklisted u => exact ⟨plain rfl rfl rfl rfl rfl m rfl, rfl⟩
  | addToReviewList u f => exact ⟨plain rfl rfl rfl rfl rfl m rfl, rfl⟩
  | removeFromReviewList u f => exact ⟨plain rfl rfl rfl rfl rfl m rfl, rfl⟩
  | recordScores es f =>
    subst e1 e2
    have := a.record b.sortV es f h1
    refine ⟨⟨rfl, this.1, ?_, m, hs⟩, this.2⟩
    exact d.more h2
  | trimScores n s =>
    rw [show gradeDates (Call.trimScores n s : Call R) = [] from rfl, List.append_nil] at e1
    rw [show changeDates (Call.trimScores n s : Call R) = [] from rfl, List.append_nil] at e2
    subst e1 e2
    exact ⟨⟨rfl, a.trim b.sortV n s, d, m, hs⟩, rfl⟩
  | removeScores p s =>
    rw [show gradeDates (Call.removeScores p s : Call R) = [] from rfl, List.append_nil] at e1
    rw [show changeDates (Call.removeScores p s : Call R) = [] from rfl, List.append_nil] at e2
    subst e1 e2
    exact ⟨⟨rfl, a.remove b.sortV p s, d, m, hs⟩, rfl⟩
  | recordDeltas es f =>
    subst e1 e2
    have := d.record b.sortV es f h2
    refine ⟨⟨rfl, a.more h1, this.1, m, hs⟩, this.2⟩
  | trimDeltas n s =>
    rw [show gradeDates (Call.trimDeltas n s : Call R) = [] from rfl, List.append_nil] at e1
    rw [show changeDates (Call.trimDeltas n s : Call R) = [] from rfl, List.append_nil] at e2
    subst e1 e2
    exact ⟨⟨rfl, a, d.trim b.sortV n s, m, hs⟩, rfl⟩
  | removeDeltas p s =>
    rw [show gradeDates (Call.removeDeltas p s : Call R) = [] from rfl, List.append_nil] at e1
    rw [show changeDates (Call.removeDeltas p s : Call R) = [] from rfl, List.append_nil] at e2
    subst e1 e2
    exact ⟨⟨rfl, a, d.remove b.sortV p s, m, hs⟩, rfl⟩
  | recordRewards rs f => exact ⟨plain rfl rfl rfl rfl rfl m rfl, rfl⟩
  | trimRewards n s => exact ⟨plain rfl rfl rfl rfl rfl m rfl, rfl⟩
  | removeRewards p s => exact ⟨plain rfl rfl rfl rfl rfl m rfl, rfl⟩
  | setPreferences p f => cases f <;> exact ⟨plain rfl rfl rfl rfl rfl m rfl, rfl⟩
  | editGraph o => exact ⟨plain rfl rfl rfl rfl rfl m rfl, rfl⟩
  | getUnitScore u n =>
    refine ⟨plain rfl rfl rfl rfl rfl m ?_, ?_⟩
    · simp only [step]
      rw [hw]
    · simp only [step]
      rw [hw]
  | getBatch q =>
    have hb : Top.batch { t with trials := T', deltas := D' } q = t.batch q := rfl
    have ha : Top.ask b { t with trials := T', deltas := D' } = t.ask b := by
      funext c x
      cases x <;> simp only [Top.ask] <;> rw [hw]
    rcases hq : t.batch q with _ | ⟨s, r⟩
    · have x1 : step b t (.getBatch q) = (t, false) := by simp only [step, hq]
      have x2 : step b { t with trials := T', deltas := D' } (.getBatch q) = ({ t with trials := T', deltas := D' }, false) := by
        simp only [step, hb, hq]
      refine ⟨plain rfl rfl (x := t) (by rw [x1]) rfl rfl m (by rw [x2]), by rw [x1, x2]⟩
    · have x1 : step b t (.getBatch q) = ({ t with session := s, caches := q.asks.foldl (t.ask b) t.caches }, r.isSome) := by
        simp only [step, hq]
      have x2 : step b { t with trials := T', deltas := D' } (.getBatch q) =
          ({ t with trials := T', deltas := D', session := s, caches := q.asks.foldl (t.ask b) t.caches }, r.isSome) := by
        simp only [step, hb, hq, ha]
      refine ⟨plain rfl rfl (x := { t with session := s, caches := q.asks.foldl (t.ask b) t.caches }) (by rw [x1]) rfl rfl m (by rw [x2]),
        by rw [x1, x2]⟩
  | invalidate u => exact ⟨plain rfl rfl rfl rfl rfl m rfl, rfl⟩
  | invalidatePrefix p => exact ⟨plain rfl rfl rfl rfl rfl m rfl, rfl⟩
  | options o => cases o <;> exact ⟨plain rfl rfl rfl rfl rfl m rfl, rfl⟩
  | overrideTime o => exact ⟨plain rfl rfl rfl rfl rfl m rfl, rfl⟩
  | wait t => exact ⟨plain rfl rfl rfl rfl rfl m rfl, rfl⟩
  | restart g =>
    by_cases hv : (schedulerOptions t.prefs).verify = true
    · have x1 : step b t (.restart g) = ({
          blacklist := (t.blacklist.step .reopen).1, review := (ReviewList.step t.review .reopen).1,
          trials := t.trials, deltas := t.deltas, rewards := (t.rewards.step b.sortW .reopen).1, prefs := t.prefs, graph := g,
          options := OptionsApi.create (schedulerOptions t.prefs), clock := t.clock }, true) := by
        simp only [step, if_pos hv]; rfl
      have x2 : step b { t with trials := T', deltas := D' } (.restart g) = ({
          blacklist := (t.blacklist.step .reopen).1,
          review := (ReviewList.step t.review .reopen).1, trials := T', deltas := D', rewards := (t.rewards.step b.sortW .reopen).1,
          prefs := t.prefs, graph := g, options := OptionsApi.create (schedulerOptions t.prefs), clock := t.clock }, true) := by
        simp only [step, if_pos hv]; rfl
      refine ⟨plain rfl rfl (x := (step b t (.restart g)).1) rfl (by rw [x1]) (by rw [x1]) ?_ (by rw [x1, x2]), by rw [x1, x2]⟩
      rw [x1]
      show (OptionsApi.create (schedulerOptions t.prefs)).made.numTrials = 20
      unfold schedulerOptions
      split <;> rfl
    · have x1 : step b t (.restart g) = (t, false) := by simp only [step, if_neg hv]
      have x2 : step b { t with trials := T', deltas := D' } (.restart g) = ({ t with trials := T', deltas := D' }, false) := by
        simp only [step, if_neg hv]
      refine ⟨plain rfl rfl (x := t) (by rw [x1]) rfl rfl m (by rw [x2]), by rw [x1, x2]⟩
  | scoreExercise x g ts fuel order f =>
    have ht : st1 = st ++ Table.stampsOf [(⟨x, System.gradeVal R g, ts⟩ : Entry R)] := e1
    have hd2 : ∀ v : R, sd1 = sd ++ Table.stampsOf [(⟨x, v, ts⟩ : Entry R)] := fun _ => e2
    have stay : (step b t (.scoreExercise x g ts fuel order f)) = (t, false) →
        step b { t with trials := T', deltas := D' } (.scoreExercise x g ts fuel order f) = ({ t with trials := T', deltas := D' }, false) →
        Shorter b st1 sd1 (step b t (.scoreExercise x g ts fuel order f)).1
          (step b { t with trials := T', deltas := D' } (.scoreExercise x g ts fuel order f)).1 ∧
        (step b { t with trials := T', deltas := D' } (.scoreExercise x g ts fuel order f)).2 = (step b t (.scoreExercise x g ts fuel order f)).2 := by
      intro y1 y2
      rw [y1] at hs ⊢
      rw [y2]
      subst e1 e2
      exact ⟨⟨rfl, a.more h1, d.more h2, m, hs⟩, rfl⟩
    rcases he : scoreC (t.sys.world (t.config b)) fuel x t.sys.caches with _ | ⟨ex, c⟩
    · exact stay (by simp only [step, System.scoreExercise, he]) (by
        simp only [step, System.scoreExercise]
        rw [hw, show (Top.sys { t with trials := T', deltas := D' }).caches = t.sys.caches from rfl, he])
    rcases hx : exC (t.sys.world (t.config b)) x c with _ | ⟨r, c'⟩
    · exact stay (by simp only [step, System.scoreExercise, he, hx]) (by
        simp only [step, System.scoreExercise]
        rw [hw, show (Top.sys { t with trials := T', deltas := D' }).caches = t.sys.caches from rfl, he]
        simp only [hx])
    -- the two tables after the call, and whether recording went well
    obtain ⟨v, hv⟩ : ∃ v, v = System.gradeVal R g - ex.getD 0 := ⟨_, rfl⟩
    have dd : ∃ X X' ok, (if 0 < r.trials then t.deltas.step b.sortV (.record [⟨x, v, ts⟩] f.delta) else (t.deltas, true)) = (X, ok) ∧
        (if 0 < r.trials then D'.step b.sortV (.record [⟨x, v, ts⟩] f.delta) else (D', true)) = (X', ok) ∧
        Table.Agree 20 sd1 X X' := by
      by_cases hr : 0 < r.trials
      · have := d.record b.sortV [⟨x, v, ts⟩] f.delta (by rw [← hd2]; exact h2)
        refine ⟨_, (D'.step b.sortV (.record [⟨x, v, ts⟩] f.delta)).1, _, if_pos hr, ?_, ?_⟩
        · rw [if_pos hr]
          exact Prod.ext rfl this.2
        · rw [hd2 v]
          exact this.1
      · refine ⟨_, _, _, if_neg hr, if_neg hr, ?_⟩
        subst e2
        exact d.more h2
    obtain ⟨X, X', ok, q1, q2, hX⟩ := dd
    have tt : ∃ Y Y' ok, t.trials.step b.sortV (.record [⟨x, System.gradeVal R g, ts⟩] f.trial) = (Y, ok) ∧
        T'.step b.sortV (.record [⟨x, System.gradeVal R g, ts⟩] f.trial) = (Y', ok) ∧ Table.Agree 20 st1 Y Y' := by
      have := a.record b.sortV [⟨x, System.gradeVal R g, ts⟩] f.trial (by rw [← ht]; exact h1)
      refine ⟨_, (T'.step b.sortV (.record [⟨x, System.gradeVal R g, ts⟩] f.trial)).1, _, rfl, Prod.ext rfl this.2, ?_⟩
      rw [ht]
      exact this.1
    obtain ⟨Y, Y', ok', p1, p2, hY⟩ := tt
    revert hs
    simp only [step, System.scoreExercise]
    rw [hw]
    simp only [show (Top.sys { t with trials := T', deltas := D' }).caches = t.sys.caches from rfl, he, hx]
    simp only [Top.sys, Top.config, ← hv, q1, q2, p1, p2]
    have hM : Table.Agree 20 st1 t.trials T' := by subst e1; exact a.more h1
    cases ok with
    | false =>
      simp only [if_true]
      intro hs
      exact ⟨⟨rfl, hM, hX, m, hs⟩, trivial⟩
    | true =>
      cases ok' with
      | false =>
        simp only [Bool.true_eq_false, if_false, if_true]
        intro hs
        exact ⟨⟨rfl, hY, hX, m, hs⟩, trivial⟩
      | true =>
        simp only [Bool.true_eq_false, if_false]
        rcases Propagator.propagate t.graph [] fuel x g ts with _ | rs
        · intro hs
          subst e2
          exact ⟨⟨rfl, hM, d.more h2, m, hs⟩, rfl⟩
        · dsimp only
          rcases t.rewards.record b.sortW (order (rs.map System.toStore)) f.reward with ⟨rew, _ | ids⟩
          · intro hs
            exact ⟨⟨rfl, hY, hX, m, hs⟩, rfl⟩
          · intro hs
            exact ⟨⟨rfl, hY, hX, m, hs⟩, rfl⟩

theorem shorter_trims {b : Base R} {st sd : List (Str × Int)} {t t' : Top R} (h : Shorter b st sd t t') {c : Call R}
    (hc : Trims c) : Shorter b st sd t (step b t' c).1 := by
  have hr := h.rest
  cases c <;> try exact hc.elim
  case trimScores n s =>
    refine ⟨?_, h.trials.trim_right b.sortV hc s, h.deltas, h.made, h.sound⟩
    generalize ht : t'.trials = T at *
    generalize hd : t'.deltas = D at *
    subst hr
    rfl
  case trimDeltas n s =>
    refine ⟨?_, h.trials, h.deltas.trim_right b.sortV hc s, h.made, h.sound⟩
    generalize ht : t'.trials = T at *
    generalize hd : t'.deltas = D at *
    subst hr
    rfl
  case trimRewards n s =>
    have hn : (step b t' (.trimRewards n s)).1 = t' := by
      have e : t'.rewards = t.rewards := by rw [hr]
      have := trimRewards_nothing h.sound (show 20 ≤ n from hc) s
      show ({ t' with rewards := { t'.rewards with table := t'.rewards.table.trimById b.sortW n s } } : Top R) = t'
      rw [e, this, ← e]
    rw [hn]
    exact h

theorem shorter_runs {b : Base R} {h h' : List (Call R)} (ht : Tidied h h') : ∀ {st sd : List (Str × Int)} {t t' : Top R},
    Shorter b st sd t t' → (st ++ h.flatMap gradeDates).Nodup → (sd ++ h.flatMap changeDates).Nodup →
    Shorter b (st ++ h.flatMap gradeDates) (sd ++ h.flatMap changeDates) (runs b t h) (runs b t' h') := by
  induction ht with
  | nil => intro st sd t t' hs _ _; simpa [runs] using hs
  | same c _ ih =>
    intro st sd t t' hs h1 h2
    simp only [List.flatMap_cons, ← List.append_assoc] at h1 h2 ⊢
    exact ih (shorter_same hs c rfl rfl h1.of_append_left h2.of_append_left).1 h1 h2
  | trims c hc _ ih =>
    intro st sd t t' hs h1 h2
    exact ih (shorter_trims hs hc) h1 h2

theorem shorter_fresh (b : Base R) (g : Graph Str) (clock : Int) : Shorter b [] [] (fresh g clock) (fresh g clock) :=
  have hw : Table.Wf ({} : Table R) := Table.wf_run b.sortV []
  ⟨rfl, Table.Agree.refl hw List.nodup_nil (fun _ => List.nil_sublist _),
    Table.Agree.refl hw List.nodup_nil (fun _ => List.nil_sublist _), rfl, sound_fresh b g clock⟩

end Trane.TopLevel
