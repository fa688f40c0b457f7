import Verif.Top.Props
import Verif.Sched.BatchProps

/-!
# Restarts, freshness and blacklisting for the object as a whole (C71, C27, C32)
-/

namespace Trane.TopLevel
open Trane.Store
open Trane.UnitScorer (Caches scoreC lessonTrialsC courseTrialsC invalidate invalidatePrefix after Coh Plain
  Scratch Differ coh_write coh_step coh_empty answers_of_coh)
open Trane.System (Stored Tables Fresh NoEmpty)

variable {R : Type} [Field R] [LinearOrder R]

/-! ### Restarts -/

/-- The library opens again: it does not if the batch size in the preferences is zero. -/
theorem restart_ok_iff (b : Base R) (t : Top R) (g : Graph Str) :
    (step b t (.restart g)).2 = true ↔ t.prefs.batchSize ≠ some 0 := by
  have hv : (schedulerOptions t.prefs).verify = true ↔ t.prefs.batchSize ≠ some 0 := by
    unfold schedulerOptions
    cases hb : t.prefs.batchSize with
    | none => simp only [ne_eq, reduceCtorEq, not_false_eq_true, iff_true]; decide +kernel
    | some n =>
      have key : ∀ n, ({ SchedulerOptions.default with batchSize := n } : SchedulerOptions).verify =
          (if n = 0 then false else SchedulerOptions.default.verify) := by
        intro n
        by_cases hn : n = 0
        · simp [SchedulerOptions.verify, hn]
        · simp only [SchedulerOptions.verify, hn, if_false]
          rw [if_neg (show ¬ SchedulerOptions.default.batchSize = 0 by decide)]
      dsimp only
      rw [key]
      have : SchedulerOptions.default.verify = true := by decide +kernel
      by_cases hn : n = 0 <;> simp [hn, this]
  rw [← hv]
  by_cases h : (schedulerOptions t.prefs).verify
  · simp [step, h]
  · simp [step, h]

/-- C71: closing and reopening after any history keeps the blacklist, the review list, the stored trials,
deltas and rewards and the preferences, and starts a new session with default options and the batch size of
the preferences; a time override is forgotten. -/
theorem restart_keeps (b : Base R) (g0 g : Graph Str) (clock : Int) (h : List (Call R)) :
    let t := runs b (fresh g0 clock) h
    let t' := runs b (fresh g0 clock) (h ++ [.restart g])
    (step b t (.restart g)).2 = true →
    (∀ p ∈ [Part.blacklist, .reviewList, .trials, .deltas, .rewards, .preferences], Same t t' p) ∧
    t'.graph = g ∧ t'.session = {} ∧ t'.override = none ∧ t'.clock = t.clock ∧
    t'.options.get = { SchedulerOptions.default with
      batchSize := t.prefs.batchSize.getD SchedulerOptions.default.batchSize } ∧
    OptionsApi.Follows t'.options t'.options.get := by
  intro t t' hok
  refine ⟨?_, ?_⟩
  · intro p hp
    refine others_unchanged b g0 clock h (.restart g) p ?_
    revert hp
    cases p <;> simp [concerns]
  · have e : t' = (step b t (.restart g)).1 := runs_snoc _ _ _ _
    rcases step_restart b t g with e' | ⟨-, e'⟩
    · rw [e'] at hok; cases hok
    · rw [e, e']
      have eo : schedulerOptions t.prefs = { SchedulerOptions.default with
          batchSize := t.prefs.batchSize.getD SchedulerOptions.default.batchSize } := by
        unfold schedulerOptions
        cases t.prefs.batchSize <;> rfl
      exact ⟨rfl, rfl, rfl, rfl, eo, fun _ _ _ _ _ _ _ _ => rfl⟩

/-- C72: a batch size set in the preferences has no effect on the options until the object is closed and
opened again, and from then on it is the batch size in force. -/
theorem preferred_batch_size (b : Base R) (g0 g : Graph Str) (clock : Int) (h : List (Call R)) (n : Nat)
    (hn : 0 < n) :
    let t := runs b (fresh g0 clock) h
    (runs b (fresh g0 clock) (h ++ [.setPreferences ⟨some n⟩ false])).options = t.options ∧
    (runs b (fresh g0 clock) (h ++ [.setPreferences ⟨some n⟩ false, .restart g])).options.get.batchSize = n := by
  intro t
  constructor
  · rw [runs_snoc]; rfl
  · have e : h ++ [.setPreferences ⟨some n⟩ false, .restart g] =
        (h ++ [.setPreferences ⟨some n⟩ false]) ++ [Call.restart g] := by simp
    rw [e]
    have hp : (runs b (fresh g0 clock) (h ++ [.setPreferences ⟨some n⟩ false])).prefs = ⟨some n⟩ := by
      rw [runs_snoc]; rfl
    obtain ⟨-, -, -, -, -, h5, -⟩ := restart_keeps b g0 g clock (h ++ [.setPreferences ⟨some n⟩ false])
      ((restart_ok_iff _ _ _).2 (by rw [hp]; simp; omega))
    rw [h5, hp]
    rfl

/-- C72, a hazard: a batch size of zero is stored without complaint, and the library cannot be opened any
more until the preferences file is changed by hand. -/
theorem zero_batch_size_locks (b : Base R) (g0 : Graph Str) (clock : Int) (h : List (Call R)) :
    (step b (runs b (fresh g0 clock) h) (.setPreferences ⟨some 0⟩ false)).2 = true ∧
    ∀ g, (step b (runs b (fresh g0 clock) (h ++ [.setPreferences ⟨some 0⟩ false])) (.restart g)).2 = false := by
  refine ⟨rfl, fun g => ?_⟩
  have hp : (runs b (fresh g0 clock) (h ++ [.setPreferences ⟨some 0⟩ false])).prefs = ⟨some 0⟩ := by
    rw [runs_snoc]; rfl
  have := (restart_ok_iff b (runs b (fresh g0 clock) (h ++ [.setPreferences ⟨some 0⟩ false])) g)
  rw [hp] at this
  simpa using this

/-! ### Freshness of scores -/

/-- The calls after which scores are still fresh: no direct write to the stored tables, no removal of a
blacklist prefix, no library edit, no change of time; no unit with the empty name is touched and the write of
a trial does not fail. -/
def Clean : Call R → Prop
  | .addToBlacklist u _ => u ≠ []
  | .removeFromBlacklist u _ => u ≠ []
  | .removePrefixFromBlacklist .. => False
  | .recordScores .. => False
  | .trimScores .. => False
  | .removeScores .. => False
  | .recordDeltas .. => False
  | .trimDeltas .. => False
  | .removeDeltas .. => False
  | .recordRewards .. => False
  | .trimRewards .. => False
  | .removeRewards .. => False
  | .editGraph .. => False
  | .scoreExercise x _ _ _ order f => x ≠ [] ∧ f.trial = false ∧ ∀ l, (order l).Perm l
  | .invalidate u => u ≠ []
  | .overrideTime .. => False
  | .wait .. => False
  | .restart .. => False
  | _ => True

/-- The scores cached by the object are those of its data. -/
structure Good (b : Base R) (ops : List (Graph.Op Str)) (t : Top R) : Prop where
  sound : Sound b t
  graph : t.graph = Graph.run ops
  fresh : Fresh (t.config b) t.sys

theorem Good.stored {b : Base R} {ops : List (Graph.Op Str)} {t : Top R} (h : Good b ops t)
    (he : (Graph.run ops).getUnitType [] = none) : Stored (t.config b) t.sys :=
  ⟨⟨ops, h.graph⟩, by change t.graph.getUnitType [] = none; rw [h.graph]; exact he, h.sound.trials,
    h.sound.deltas, h.sound.rewards⟩

theorem coh_filter {ok : Str → Prop} {T W : Type} {w : UnitScorer.World Str R T W} {c : Caches Str R}
    (p : Str → Bool) (h : Coh ok w c) : Coh ok w (invalidatePrefix p c) := by
  have key : ∀ {β : Type} (m : AMap Str β) (k : Str) (v : β),
      AMap.find (m.filter (fun e => !p e.1)) k = some v → AMap.find m k = some v := by
    intro β m k v
    induction m with
    | nil => intro h; exact h
    | cons a m ih =>
      intro h
      obtain ⟨a1, a2⟩ := a
      by_cases hp : p a1 = true
      · rw [List.filter_cons_of_neg (by simp [hp])] at h
        have := ih h
        have hk : a1 ≠ k := by
          rintro rfl
          have hm := AMap.mem_of_find h
          have := (List.mem_filter.1 hm).2
          simp [hp] at this
        rw [AMap.find] at *
        simp [hk, this]
      · rw [List.filter_cons_of_pos (by simp [hp])] at h
        rw [AMap.find] at *
        by_cases hk : a1 = k
        · simp [hk] at h ⊢; exact h
        · simp [hk] at h ⊢; exact ih h
  exact ⟨fun e r hf => h.ex e r (key _ _ _ hf), fun l v ho hf => h.les l v ho (key _ _ _ hf),
    fun l v ho hf => h.cou l v ho (key _ _ _ hf), fun l v hf => h.lesT l v (key _ _ _ hf),
    fun l v ho hf => h.couT l v ho (key _ _ _ hf)⟩

/-- Reading scores leaves the caches coherent. -/
theorem coh_asks (b : Base R) (t : Top R)
    (hg : UnitScorer.Contained (t.sys.world (t.config b)).graph (t.sys.world (t.config b)).dflt) (l : List Ask)
    (c : Caches Str R) (h : Coh (Plain t.graph) (t.sys.world (t.config b)) c) :
    Coh (Plain t.graph) (t.sys.world (t.config b)) (l.foldl (t.ask b) c) := by
  induction l generalizing c with
  | nil => exact h
  | cons a l ih =>
    refine ih _ ?_
    cases a with
    | score u n => exact (coh_step (t.sys.world (t.config b), c) (.score u n) hg trivial h).1
    | lessonTrials u => exact (coh_step (t.sys.world (t.config b), c) (.lessonTrials u) hg trivial h).1
    | courseTrials u n => exact (coh_step (t.sys.world (t.config b), c) (.courseTrials u n) hg trivial h).1

/-- Adding or removing `u` changes no other answer of the blacklist. -/
theorem black_other {bl : Blacklist} (h : bl.Inv) (u : Str) (f : Bool) (y : Str) (hy : y ≠ u) :
    (bl.step (.add u f)).1.blacklisted y = bl.blacklisted y ∧
    (bl.step (.remove u f)).1.blacklisted y = bl.blacklisted y := by
  have h1 := Blacklist.inv_step bl (.add u f) h
  have h2 := Blacklist.inv_step bl (.remove u f) h
  rw [blacklisted_eq h, blacklisted_eq h1, blacklisted_eq h2]
  constructor
  · obtain ⟨-, e, -⟩ := Blacklist.hasEntry_eq bl u h
    have key : y ∈ (bl.step (.add u f)).1.db ↔ y ∈ bl.db := by
      change y ∈ (bl.add u f).1.db ↔ _
      unfold Blacklist.add
      split
      · rename_i b' hb
        rw [hb] at e
        exact iff_of_eq (by rw [show b'.db = bl.db from e])
      · rename_i b' hb
        rw [hb] at e
        have e : b'.db = bl.db := e
        split
        · rw [e]
        · simp [e, hy]
    exact decide_eq_decide.2 key
  · apply decide_eq_decide.2
    change y ∈ (bl.remove u f).1.db ↔ _
    unfold Blacklist.remove
    split
    · rfl
    · simp [hy]

theorem good_step {b : Base R} {ops : List (Graph.Op Str)} {t : Top R} (hg : Good b ops t)
    (he : (Graph.run ops).getUnitType [] = none) (hn : NoEmpty (Graph.run ops)) (c : Call R) (hc : Clean c) :
    Good b ops (step b t c).1 := by
  have hs := hg.stored he
  have hcon := System.contained_of_stored hs
  have hso := sound_step b t c hg.sound
  have hi := hg.sound.inv
  have hf : Coh (Plain t.graph) (t.sys.world (t.config b)) t.caches := hg.fresh
  cases c with
  | addToBlacklist u f =>
    refine ⟨hso, hg.graph, ?_⟩
    exact coh_write (u := u) (w := t.sys.world (t.config b))
      (w' := (step b t (.addToBlacklist u f)).1.sys.world ((step b t (.addToBlacklist u f)).1.config b)) ⟨rfl, rfl, rfl, rfl, fun _ _ => rfl,
      fun _ _ => rfl, fun x hx => (black_other hi u f x hx).1⟩ hcon hc hf
  | removeFromBlacklist u f =>
    refine ⟨hso, hg.graph, ?_⟩
    exact coh_write (u := u) (w := t.sys.world (t.config b))
      (w' := (step b t (.removeFromBlacklist u f)).1.sys.world ((step b t (.removeFromBlacklist u f)).1.config b)) ⟨rfl, rfl, rfl, rfl, fun _ _ => rfl,
      fun _ _ => rfl, fun x hx => (black_other hi u f x hx).2⟩ hcon hc hf
  | blacklisted u =>
    refine ⟨hso, hg.graph, ?_⟩
    have e : (step b t (.blacklisted u)).1.blacklist.blacklisted = t.blacklist.blacklisted := by
      funext y
      exact (same_blacklist hi hso.inv (Blacklist.hasEntry_eq _ u hi).2.1).2 y
    have : (step b t (.blacklisted u)).1.sys.world ((step b t (.blacklisted u)).1.config b) =
        t.sys.world (t.config b) := by
      unfold System.State.world Top.sys
      rw [e]
      rfl
    unfold Fresh
    rw [this]
    exact hf
  | scoreExercise x g ts fuel order f =>
    rcases step_score b t x g ts fuel order f with ⟨-, e⟩ | ⟨s, ok, h, e⟩
    · rw [e]; exact hg
    · rw [e] at hso ⊢
      have hfs := System.fresh_score hs hg.fresh hc.1 (by rw [show t.sys.graph = _ from hg.graph]; exact hn)
        hc.2.2 hc.2.1 h
      obtain ⟨-, h1, h2, h3⟩ := System.stored_score hs h
      refine ⟨hso, hg.graph, ?_⟩
      have : (t.putSys s).sys = s := by
        cases s
        simp only at h1 h2 h3
        subst h1 h2 h3
        rfl
      unfold Fresh at hfs ⊢
      rw [this]
      exact hfs
  | getUnitScore u n =>
    exact ⟨hso, hg.graph, (coh_step (t.sys.world (t.config b), t.caches) (.score u n) hcon trivial hf).1⟩
  | getBatch q =>
    rcases step_batch b t q with ⟨-, e⟩ | ⟨s, r, -, e⟩
    · rw [e]; exact hg
    · rw [e] at hso ⊢
      exact ⟨hso, hg.graph, coh_asks b t hcon q.asks _ hf⟩
  | invalidate u =>
    refine ⟨hso, hg.graph, ?_⟩
    exact coh_write (u := u) (w := t.sys.world (t.config b)) ⟨rfl, rfl, rfl, rfl, fun _ _ => rfl,
      fun _ _ => rfl, fun x hx => rfl⟩ hcon hc hf
  | invalidatePrefix p => exact ⟨hso, hg.graph, coh_filter _ hf⟩
  | addToReviewList u f => exact ⟨hso, hg.graph, hf⟩
  | removeFromReviewList u f => exact ⟨hso, hg.graph, hf⟩
  | setPreferences p f => cases f <;> exact ⟨hso, hg.graph, hf⟩
  | options o => cases o <;> exact ⟨hso, hg.graph, hf⟩
  | _ => exact absurd hc id

theorem good_runs {b : Base R} {ops : List (Graph.Op Str)} {t : Top R} (hg : Good b ops t)
    (he : (Graph.run ops).getUnitType [] = none) (hn : NoEmpty (Graph.run ops)) (h : List (Call R))
    (hc : ∀ c ∈ h, Clean c) : Good b ops (runs b t h) := by
  induction h using List.reverseRecOn with
  | nil => exact hg
  | append_singleton h c ih =>
    rw [runs_snoc]
    exact good_step (ih (fun c hc' => hc c (List.mem_append_left _ hc'))) he hn c (hc c (by simp))

/-- C27 for the object as a whole (partial): use the object in any way at all, close it and open it again;
then grade exercises, ask for batches and scores, add to and remove from the blacklist and the review list,
and change options or preferences in any order.  At any later point the score answered for an exercise, or
for a lesson or course that nothing supersedes, is the one computed from scratch from what is stored then.
Missing: the calls left out by `Clean`, after some of which it is false (`stale_after_failed_trial` and the
witnesses of C27). -/
theorem scores_fresh_since_opening_partial (b : Base R) (g0 : Graph Str) (clock : Int)
    (h1 h2 : List (Call R)) (ops : List (Graph.Op Str)) (he : (Graph.run ops).getUnitType [] = none)
    (hn : NoEmpty (Graph.run ops))
    (hok : (step b (runs b (fresh g0 clock) h1) (.restart (Graph.run ops))).2 = true)
    (hc : ∀ c ∈ h2, Clean c) (u : Str)
    (hu : (Graph.run ops).getUnitType u = some .exercise ∨ Plain (Graph.run ops) u) (n : Nat) (h0 : 0 < n) :
    let t := runs b (fresh g0 clock) (h1 ++ .restart (Graph.run ops) :: h2)
    ∃ v c, scoreC (t.sys.world (t.config b)) n u t.caches = some (v, c) ∧
      Scratch (t.sys.world (t.config b)) u v := by
  intro t
  have hs := sound_runs b _ h1 (sound_fresh b g0 clock)
  have hso := sound_step b _ (.restart (Graph.run ops)) hs
  have hg : Good b ops (step b (runs b (fresh g0 clock) h1) (.restart (Graph.run ops))).1 := by
    rcases step_restart b (runs b (fresh g0 clock) h1) (Graph.run ops) with e | ⟨-, e⟩
    · rw [e] at hok; cases hok
    · rw [e] at hso ⊢
      exact ⟨hso, rfl, coh_empty _ _⟩
  have hgt : Good b ops t := by
    have := good_runs hg he hn h2 hc
    have e : t = runs b (step b (runs b (fresh g0 clock) h1) (.restart (Graph.run ops))).1 h2 := by
      change runs b _ (h1 ++ ([Call.restart (Graph.run ops)] ++ h2)) = _
      rw [← List.append_assoc, runs_append, runs_snoc]
    rw [e]
    exact this
  refine answers_of_coh (w := t.sys.world (t.config b)) (c := t.caches) hgt.fresh u ?_ n h0
  change t.graph.getUnitType u = some .exercise ∨ Plain t.graph u
  rw [hgt.graph]
  exact hu

/-! ### Blacklisting -/

/-- The call may take `u` off the blacklist. -/
def Unlists (u : Str) : Call R → Prop
  | .removeFromBlacklist v _ => v = u
  | .removePrefixFromBlacklist p _ => likePrefix p u = true
  | _ => False

theorem blacklisted_step {b : Base R} {t : Top R} (hs : Sound b t) (c : Call R) (u : Str)
    (hc : ¬ Unlists u c) (h : t.blacklist.blacklisted u = true) :
    (step b t c).1.blacklist.blacklisted u = true := by
  obtain ⟨ops, hb⟩ := hs.blacklist
  rw [hb] at h
  have key : ∀ o, (Blacklist.run (ops ++ [o])).blacklisted u = true →
      (t.blacklist.step o).1.blacklisted u = true := by
    intro o ho
    rw [Blacklist.run_snoc, ← hb] at ho
    exact ho
  have abs := fun o => (Blacklist.blacklist_refines_set ops o).1
  have done : (step b t c).1.blacklist = t.blacklist → (step b t c).1.blacklist.blacklisted u = true := by
    intro e; rw [e, hb]; exact h
  cases c with
  | addToBlacklist v f =>
    refine key _ ?_
    have := abs (.add v f)
    cases hr : ((Blacklist.run ops).step (.add v f)).2 <;> rw [hr] at this
    · exact (this u).2 h
    · exact (this u).2 (Or.inl h)
  | removeFromBlacklist v f =>
    refine key _ ?_
    have := abs (.remove v f)
    cases hr : ((Blacklist.run ops).step (.remove v f)).2 <;> rw [hr] at this
    · exact (this u).2 h
    · exact (this u).2 ⟨h, fun e => hc e.symm⟩
  | removePrefixFromBlacklist p f =>
    refine key _ ?_
    have := abs (.removePrefix p f)
    have hp : likePrefix p u = false := by
      cases hl : likePrefix p u with
      | false => rfl
      | true => exact absurd hl hc
    cases hr : ((Blacklist.run ops).step (.removePrefix p f)).2 <;> rw [hr] at this
    · rcases (this u).2 h with h' | h'
      · exact h'
      · rw [hp] at h'; cases h'
    · exact (this u).2 ⟨h, hp⟩
  | blacklisted v => exact key (.query v) ((abs (.query v) u).2 h)
  | restart g =>
    rcases step_restart b t g with e | ⟨-, e⟩
    · rw [e]; rw [hb]; exact h
    · rw [e]; exact key .reopen ((abs .reopen u).2 h)
  | scoreExercise x g ts fuel order f =>
    rcases step_score b t x g ts fuel order f with ⟨-, e⟩ | ⟨s, ok, -, e⟩ <;> (rw [e]; rw [e] at done; exact done rfl)
  | getBatch q =>
    rcases step_batch b t q with ⟨-, e⟩ | ⟨s, r, -, e⟩ <;> exact done (by rw [e])
  | setPreferences p f => exact done (by cases f <;> rfl)
  | _ => exact done rfl

theorem blacklisted_runs {b : Base R} {t : Top R} (hs : Sound b t) (h : List (Call R)) (u : Str)
    (hc : ∀ c ∈ h, ¬ Unlists u c) (h0 : t.blacklist.blacklisted u = true) :
    (runs b t h).blacklist.blacklisted u = true := by
  induction h using List.reverseRecOn with
  | nil => exact h0
  | append_singleton h c ih =>
    rw [runs_snoc]
    exact blacklisted_step (sound_runs b _ h hs) c u (hc c (by simp))
      (ih (fun c hc' => hc c (List.mem_append_left _ hc')))

/-- C32 for the object as a whole: once `add_to_blacklist` of a unit returned `Ok`, and as long as the unit is
not removed from the blacklist, neither directly nor by a prefix that SQL's `LIKE` takes to match it, no
batch contains the unit, an exercise of it or an exercise of a lesson of it, whatever else happens in
between, including restarts, and whatever the filter, unless it is the review list. -/
theorem blacklisted_not_scheduled (b : Base R) (g0 : Graph Str) (clock : Int) (h1 h2 : List (Call R))
    (u : Str) (hadd : (step b (runs b (fresh g0 clock) h1) (.addToBlacklist u false)).2 = true)
    (h2u : ∀ c ∈ h2, ¬ Unlists u c) (q : Request) (hq : q.filter ≠ some .reviewList)
    (hch : Batch.IsChoices q.choices) {s : Batch.Session Str} {xs : List Str} :
    let t := runs b (fresh g0 clock) (h1 ++ .addToBlacklist u false :: h2)
    Search.Sane (t.env q) → t.batch q = some (s, some xs) → ∀ x ∈ xs, x ≠ u ∧
      ∀ l, t.graph.getExerciseLesson x = some l → l ≠ u ∧ ∀ c, t.graph.getLessonCourse l = some c → c ≠ u := by
  intro t hsane hb x hx
  have hs := sound_runs b _ h1 (sound_fresh b g0 clock)
  have hlisted : t.blacklist.blacklisted u = true := by
    have e : t = runs b (step b (runs b (fresh g0 clock) h1) (.addToBlacklist u false)).1 h2 := by
      change runs b _ (h1 ++ ([Call.addToBlacklist u false] ++ h2)) = _
      rw [← List.append_assoc, runs_append, runs_snoc]
    rw [e]
    have h0 : (step b (runs b (fresh g0 clock) h1) (.addToBlacklist u false)).1.blacklist.blacklisted u =
        true := by
      obtain ⟨ops, ho⟩ := hs.blacklist
      have := (Blacklist.blacklist_refines_set ops (.add u false)).1
      have hadd' : ((Blacklist.run ops).step (.add u false)).2 = true := by rw [← ho]; exact hadd
      rw [hadd', Blacklist.run_snoc, ← ho] at this
      exact (this u).2 (Or.inr rfl)
    have hs' := sound_step b _ (.addToBlacklist u false) hs
    exact blacklisted_runs hs' h2 u h2u h0
  have hnb := Batch.batch_not_blacklisted hsane hch hb hq x hx
  refine ⟨?_, fun l hl => ⟨?_, fun c hc => ?_⟩⟩
  · rintro rfl; exact hnb (Or.inl hlisted)
  · rintro rfl; exact hnb (Or.inr ⟨l, hl, Or.inl hlisted⟩)
  · rintro rfl; exact hnb (Or.inr ⟨l, hl, Or.inr ⟨c, hc, hlisted⟩⟩)

end Trane.TopLevel
