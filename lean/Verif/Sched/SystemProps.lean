import Verif.Sched.SystemLemmas

/-!
# Properties of scoring an exercise

C43, C66, and C27 and C41 for whole histories of calls.
-/

namespace Trane.System
open Trane.Store Trane.Store.Table
open Trane.UnitScorer

variable {R : Type} [Field R] [LinearOrder R]

/-! ### One call -/

/-- C43: a call that returns `Ok` appends one trial, with the given grade and time, to the trials of the
exercise and touches no other trial; it appends at most one delta, to the deltas of the exercise; it
updates the relearn pile and the success rate; and the library, the blacklist and the clock stay. -/
theorem score_effects {cfg : Config R} {order : List Reward → List Reward} {fuel : Nat} {s s' : State R}
    {x : Str} {g : MasteryScore} {t : Int} {f : Faults} (hs : Stored cfg s)
    (h : scoreExercise cfg order fuel s x g t f = some (s', true)) :
    s'.trials.history x = s.trials.history x ++ [(gradeVal R g, t)] ∧
    (∀ u, u ≠ x → s'.trials.history u = s.trials.history u ∧
      ∀ n, s'.trials.get cfg.sortV u n = s.trials.get cfg.sortV u n) ∧
    (s'.deltas.history x = s.deltas.history x ∨
      ∃ d, s'.deltas.history x = s.deltas.history x ++ [(d, t)]) ∧
    (∀ u, u ≠ x → s'.deltas.history u = s.deltas.history u ∧
      ∀ n, s'.deltas.get cfg.sortV u n = s.deltas.get cfg.sortV u n) ∧
    s'.session = Batch.graded s.session x g ∧
    s'.graph = s.graph ∧ s'.black = s.black ∧ s'.now = s.now := by
  obtain ⟨v, c1, r, c, -, -, he⟩ := ends_of_score hs.tables h
  obtain ⟨hT1, hT2, -⟩ := newTrials_spec hs.tables x g t
  obtain ⟨hD1, hD2, -⟩ := newDeltas_spec hs.tables x g t v r
  cases he with
  | done rs ids =>
    refine ⟨by simpa [afterTrial] using hT1 x, fun u hu => ⟨by simpa [afterTrial, Ne.symm hu] using hT1 u, hT2 u hu⟩, ?_,
      fun u hu => ⟨by simpa [afterTrial, Ne.symm hu] using hD1 u, hD2 u hu⟩, rfl, rfl, rfl, rfl⟩
    by_cases hr : 0 < r.trials
    · right
      exact ⟨_, by simpa [afterTrial, hr] using hD1 x⟩
    · left
      simpa [afterTrial, hr] using hD1 x

/-- C43: the rewards a call stores are those propagated from the exercise, less near-duplicates; of each
unit the newest 20 are kept. -/
theorem score_stores_rewards {cfg : Config R} {order : List Reward → List Reward} {fuel : Nat}
    {s s' : State R} {x : Str} {g : MasteryScore} {t : Int} {f : Faults} (hs : Stored cfg s)
    (h : scoreExercise cfg order fuel s x g t f = some (s', true)) :
    ∃ rs ops, Propagator.Propagates s.graph [] x g t rs ∧ s.rewards = Rewards.run cfg.sortW ops ∧
      ∀ u, KeepsNewest 20
        (s.rewards.table.history u ++
          ((Rewards.accepted (Rewards.sessionLog ops) (order (rs.map toStore))).filter
            (fun r => r.unit = u)).map Rewards.payload)
        (s'.rewards.table.history u) := by
  obtain ⟨v, c1, r, c, -, -, he⟩ := ends_of_score hs.tables h
  cases he with
  | done rs ids _ _ _ hp =>
    obtain ⟨ops, ho⟩ := hs.rewards
    refine ⟨rs, ops, ⟨fuel, hp⟩, ho, fun u => ?_⟩
    have := Rewards.record_rewards_stores_accepted cfg.sortW ops (order (rs.map toStore)) u
    rw [Rewards.run_snoc, ← ho] at this
    exact this

/-- C66: when the caches agree with the stored data, the delta is the grade minus the score before the
call, and it is stored exactly when the exercise had been graded before. -/
theorem score_delta {cfg : Config R} {order : List Reward → List Reward} {fuel : Nat} {s s' : State R}
    {x : Str} {g : MasteryScore} {t : Int} {f : Faults} (hs : Stored cfg s) (hf : Fresh cfg s)
    (hn : 0 < cfg.numTrials) (hx : s.graph.getUnitType x = some .exercise)
    (h : scoreExercise cfg order fuel s x g t f = some (s', true)) :
    ∃ v, Scratch (s.world cfg) x (some v) ∧ s'.deltas.history x = s.deltas.history x ++
      if s.trials.history x = [] then [] else [(gradeVal R g - v, t)] := by
  obtain ⟨v, c1, r, c, h1, h2, he⟩ := ends_of_score hs.tables h
  obtain ⟨-, hr, hv⟩ := coh_queried hf h1 h2
  obtain ⟨hD1, -, -⟩ := newDeltas_spec hs.tables x g t v r
  have hfuel : 0 < fuel := by
    rcases Nat.eq_zero_or_pos fuel with rfl | h0
    · simp [scoreC] at h1
    · exact h0
  obtain ⟨v', c', h3, h4⟩ := answers_of_coh (w := s.world cfg) hf x (Or.inl hx) fuel hfuel
  have h1' : scoreC (s.world cfg) fuel x s.caches = some (v, c1) := h1
  rw [h1'] at h3
  cases h3
  have hv := hv hx
  subst hv
  refine ⟨_, h4, ?_⟩
  have htr : r.trials = (s.trials.get cfg.sortV x cfg.numTrials).length := by rw [hr]; rfl
  have hlen := (get_newest cfg.sortV s.trials x cfg.numTrials).1
  cases he with
  | done rs ids =>
    change (newDeltas cfg s x g t _ r).history x = _
    rw [hD1 x]
    congr 1
    by_cases hh : s.trials.history x = []
    · have : ¬ 0 < r.trials := by rw [htr, hlen, hh]; simp
      simp [hh, this]
    · have : 0 < r.trials := by
        rw [htr, hlen]
        have := List.length_pos_of_ne_nil hh
        omega
      simp [hh, this]

/-- C43: without database errors a call returns `Ok`. -/
theorem score_returns_ok {cfg : Config R} {order : List Reward → List Reward} {fuel : Nat} {s : State R}
    {x : Str} {g : MasteryScore} {t : Int} {o : State R × Bool} (hs : Stored cfg s)
    (h : scoreExercise cfg order fuel s x g t {} = some o) : o.2 = true := by
  obtain ⟨v, c1, r, c, -, -, he⟩ := ends_of_score hs.tables h
  cases he with
  | deltaFailed _ hd => cases hd
  | trialFailed _ hd => cases hd
  | rewardFailed _ _ _ _ hd => cases hd
  | done => rfl

/-- C43: a call on an exercise ends, whatever the library and the state of the caches. -/
theorem score_terminates {cfg : Config R} (order : List Reward → List Reward) {s : State R} {x : Str}
    (g : MasteryScore) (t : Int) (f : Faults) (hs : Stored cfg s)
    (hx : s.graph.getUnitType x = some .exercise) :
    ∃ N, ∀ fuel, N ≤ fuel → ∃ o, scoreExercise cfg order fuel s x g t f = some o := by
  obtain ⟨ops, hg⟩ := hs.graph
  obtain ⟨N, hN⟩ := Propagator.propagation_terminates ops [] x g t
  refine ⟨N + 1, fun fuel hfuel => ?_⟩
  obtain ⟨rs, hrs⟩ := hN fuel (by omega)
  rw [← hg] at hrs
  obtain ⟨n, rfl⟩ : ∃ k, fuel = k + 1 := ⟨fuel - 1, by omega⟩
  have hex : ∀ c, ∃ r c', exC (s.world cfg) x c = some (r, c') := by
    intro c
    unfold exC
    split <;> exact ⟨_, _, rfl⟩
  obtain ⟨r1, c1, e1⟩ := hex s.caches
  have h1 : scoreC (s.world cfg) (n + 1) x s.caches = some (some r1.score, c1) := by
    have hx' : (s.world cfg).graph.getUnitType x = some .exercise := hx
    rw [scoreC, hx']
    change (exC (s.world cfg) x s.caches).bind _ = _
    rw [e1]
    rfl
  obtain ⟨r2, c2, e2⟩ := hex c1
  unfold scoreExercise
  simp only [h1, e2, hrs]
  repeat' split
  all_goals exact ⟨_, rfl⟩

/-- C43: what a call that returns an error leaves behind.  Either nothing but cached scores changed, or the
write of the trial failed and the delta may be stored, or the write of the rewards failed and the trial,
the delta and the relearn pile are updated but no reward is stored. -/
theorem score_failure {cfg : Config R} {order : List Reward → List Reward} {fuel : Nat} {s s' : State R}
    {x : Str} {g : MasteryScore} {t : Int} {f : Faults} (hs : Stored cfg s)
    (h : scoreExercise cfg order fuel s x g t f = some (s', false)) :
    s'.rewards.table = s.rewards.table ∧ s'.graph = s.graph ∧ s'.black = s.black ∧ s'.now = s.now ∧
    ((f.delta = true ∧ s'.deltas = s.deltas ∧ s'.trials = s.trials ∧ s'.session = s.session) ∨
     (f.trial = true ∧ s'.trials = s.trials ∧ s'.session = s.session ∧
      (∀ u, u ≠ x → s'.deltas.history u = s.deltas.history u) ∧
      (s'.deltas.history x = s.deltas.history x ∨
        ∃ d, s'.deltas.history x = s.deltas.history x ++ [(d, t)])) ∨
     (f.reward.isSome ∧ s'.trials.history x = s.trials.history x ++ [(gradeVal R g, t)] ∧
      (∀ u, u ≠ x → s'.trials.history u = s.trials.history u) ∧
      s'.session = Batch.graded s.session x g ∧
      (∀ u, u ≠ x → s'.deltas.history u = s.deltas.history u) ∧
      (s'.deltas.history x = s.deltas.history x ∨
        ∃ d, s'.deltas.history x = s.deltas.history x ++ [(d, t)]))) := by
  obtain ⟨v, c1, r, c, -, -, he⟩ := ends_of_score hs.tables h
  obtain ⟨hT1, hT2, -⟩ := newTrials_spec hs.tables x g t
  obtain ⟨hD1, hD2, -⟩ := newDeltas_spec hs.tables x g t v r
  have hDo : ∀ u, u ≠ x → (newDeltas cfg s x g t v r).history u = s.deltas.history u :=
    fun u hu => by simpa [Ne.symm hu] using hD1 u
  have hDx : (newDeltas cfg s x g t v r).history x = s.deltas.history x ∨
      ∃ d, (newDeltas cfg s x g t v r).history x = s.deltas.history x ++ [(d, t)] := by
    by_cases hr : 0 < r.trials
    · right
      exact ⟨_, by simpa [hr] using hD1 x⟩
    · left
      simpa [hr] using hD1 x
  cases he with
  | deltaFailed _ hf => exact ⟨rfl, rfl, rfl, rfl, Or.inl ⟨hf, rfl, rfl, rfl⟩⟩
  | trialFailed _ hf => exact ⟨rfl, rfl, rfl, rfl, Or.inr (Or.inl ⟨hf, rfl, rfl, hDo, hDx⟩)⟩
  | rewardFailed rs k _ _ hf =>
    obtain ⟨ops, ho⟩ := hs.rewards
    have hrr := ((record_rewards cfg.sortW ops (order (rs.map toStore))).2 k).2
    rw [← ho] at hrr
    refine ⟨hrr, rfl, rfl, rfl, Or.inr (Or.inr ⟨by simp [hf], by simpa [afterTrial] using hT1 x,
      fun u hu => by simpa [afterTrial, Ne.symm hu] using hT1 u, rfl, hDo, hDx⟩)⟩

/-! ### Histories of calls -/

/-- The calls of a session. -/
inductive Op
  /-- `score_exercise` -/
  | score (x : Str) (g : MasteryScore) (t : Int) (fuel : Nat) (order : List Reward → List Reward)
      (f : Faults)
  /-- `get_unit_score` and the getters of exercise data -/
  | query (u : Str) (n : Nat)
  /-- `get_avg_trials` of a lesson or a course -/
  | lessonTrials (u : Str)
  | courseTrials (u : Str) (n : Nat)
  /-- `add_to_blacklist`, `remove_from_blacklist` -/
  | blacklist (u : Str) (b : Bool)
  /-- `get_exercise_batch` -/
  | batch (q : Batch.Request Str)

/-- One call. -/
def step (cfg : Config R) (s : State R) : Op → State R
  | .score x g t fuel order f =>
    match scoreExercise cfg order fuel s x g t f with
    | none => s
    | some o => o.1
  | .query u n => { s with caches := UnitScorer.after s.caches (scoreC (s.world cfg) n u s.caches) }
  | .lessonTrials u => { s with caches := UnitScorer.after s.caches (lessonTrialsC (s.world cfg) u s.caches) }
  | .courseTrials u n => { s with caches := UnitScorer.after s.caches (courseTrialsC (s.world cfg) n u s.caches) }
  | .blacklist u b => { s with
      black := fun y => if y = u then b else s.black y
      caches := invalidate s.graph s.caches u }
  | .batch q => { s with session := Batch.act s.session (.batch q) }

/-- The state after a history. -/
def runs (cfg : Config R) (s : State R) (h : List Op) : State R := h.foldl (step cfg) s

/-- A session opened on an empty database. -/
def opened (g : Graph Str) (black : Str → Bool) (now : Int) : State R :=
  { graph := g, black := black, now := now }

/-- Every grading in the history returned `Ok`. -/
def AllOk (cfg : Config R) : State R → List Op → Prop
  | _, [] => True
  | s, o :: h => (∀ x g t fuel order f, o = .score x g t fuel order f →
      ∃ s', scoreExercise cfg order fuel s x g t f = some (s', true)) ∧ AllOk cfg (step cfg s o) h

/-- The histories for which the caches stay in agreement with the database: units with empty names are not
written to and the write of a trial does not fail. -/
def Clean : Op → Prop
  | .score x _ _ _ order f => x ≠ [] ∧ f.trial = false ∧ ∀ l, (order l).Perm l
  | .blacklist u _ => u ≠ []
  | _ => True

/-- The grades given to `x`, oldest first. -/
def grades (R : Type) [Field R] (h : List Op) (x : Str) : List (R × Int) :=
  h.filterMap (fun o => match o with
    | .score y g t _ _ _ => if y = x then some (gradeVal R g, t) else none
    | _ => none)

/-- The gradings and batches of a history. -/
def acts (h : List Op) : List (Batch.Act Str) :=
  h.filterMap (fun o => match o with
    | .score x g _ _ _ _ => some (.grade x g)
    | .batch q => some (.batch q)
    | _ => none)

theorem runs_snoc (cfg : Config R) (s : State R) (h : List Op) (o : Op) :
    runs cfg s (h ++ [o]) = step cfg (runs cfg s h) o := by simp [runs]

theorem allOk_append {cfg : Config R} {s : State R} {h h' : List Op} :
    AllOk cfg s (h ++ h') ↔ AllOk cfg s h ∧ AllOk cfg (runs cfg s h) h' := by
  induction h generalizing s with
  | nil => simp [AllOk, runs]
  | cons o h ih =>
    simp only [List.cons_append, AllOk, ih, and_assoc]
    rfl

theorem stored_opened (cfg : Config R) (ops : List (Graph.Op Str)) (black : Str → Bool) (now : Int)
    (he : (Graph.run ops).getUnitType [] = none) :
    Stored cfg (opened (Graph.run ops) black now : State R) :=
  ⟨⟨ops, rfl⟩, he, ⟨[], rfl⟩, ⟨[], rfl⟩, ⟨[], rfl⟩⟩

theorem stored_step {cfg : Config R} {s : State R} (hs : Stored cfg s) (o : Op) :
    Stored cfg (step cfg s o) ∧ (step cfg s o).graph = s.graph := by
  cases o with
  | score x g t fuel order f =>
    unfold step
    dsimp only
    split
    · exact ⟨hs, rfl⟩
    · rename_i o h
      obtain ⟨h1, h2, -⟩ := stored_score hs h
      exact ⟨h1, h2⟩
  | _ => exact ⟨⟨hs.graph, hs.empty, hs.trials, hs.deltas, hs.rewards⟩, rfl⟩

theorem stored_after {cfg : Config R} {s : State R} (hs : Stored cfg s) (h : List Op) :
    Stored cfg (runs cfg s h) ∧ (runs cfg s h).graph = s.graph := by
  induction h using List.reverseRecOn with
  | nil => exact ⟨hs, rfl⟩
  | append_singleton h o ih =>
    rw [runs_snoc]
    obtain ⟨h1, h2⟩ := stored_step ih.1 o
    exact ⟨h1, h2.trans ih.2⟩

theorem fresh_step {cfg : Config R} {s : State R} (hs : Stored cfg s) (hn : NoEmpty s.graph)
    (hf : Fresh cfg s) (o : Op) (ho : Clean o) : Fresh cfg (step cfg s o) := by
  have hcon := contained_of_stored hs
  cases o with
  | score x g t fuel order f =>
    unfold step
    dsimp only
    split
    · exact hf
    · rename_i o h
      exact fresh_score hs hf ho.1 hn ho.2.2 ho.2.1 h
  | query u n => exact (coh_step (s.world cfg, s.caches) (.score u n) hcon trivial hf).1
  | lessonTrials u => exact (coh_step (s.world cfg, s.caches) (.lessonTrials u) hcon trivial hf).1
  | courseTrials u n => exact (coh_step (s.world cfg, s.caches) (.courseTrials u n) hcon trivial hf).1
  | blacklist u b => exact (coh_step (s.world cfg, s.caches) (.blacklist u b) hcon ho hf).1
  | batch q => exact hf

theorem fresh_opened (cfg : Config R) (g : Graph Str) (black : Str → Bool) (now : Int) :
    Fresh cfg (opened g black now : State R) := coh_empty _ _

theorem fresh_after {cfg : Config R} {s : State R} (hs : Stored cfg s) (hn : NoEmpty s.graph)
    (hf : Fresh cfg s) (h : List Op) (hh : ∀ o ∈ h, Clean o) : Fresh cfg (runs cfg s h) := by
  induction h using List.reverseRecOn with
  | nil => exact hf
  | append_singleton h o ih =>
    rw [runs_snoc]
    have := stored_after hs h
    exact fresh_step this.1 (by rw [this.2]; exact hn)
      (ih (fun o ho => hh o (List.mem_append_left _ ho))) o (hh o (by simp))

/-- C43 and C27 (partial): after any history of gradings, queries, batches and blacklist edits, in which
gradings may fail at the delta or at the rewards, the score answered for an exercise (and for a unit that
nothing supersedes) is the one computed from scratch from the stored trials, deltas and rewards.  Missing:
histories in which the write of a trial fails, see `stale_after_failed_trial`, and those already excluded in
`scores_not_stale_partial`. -/
theorem system_scores_not_stale_partial (cfg : Config R) (ops : List (Graph.Op Str)) (black : Str → Bool)
    (now : Int) (he : (Graph.run ops).getUnitType [] = none) (hn : NoEmpty (Graph.run ops))
    (h : List Op) (hh : ∀ o ∈ h, Clean o) (u : Str)
    (hu : (Graph.run ops).getUnitType u = some .exercise ∨ Plain (Graph.run ops) u) (n : Nat)
    (h0 : 0 < n) :
    let s := runs cfg (opened (Graph.run ops) black now : State R) h
    ∃ v c, scoreC (s.world cfg) n u s.caches = some (v, c) ∧ Scratch (s.world cfg) u v := by
  intro s
  have hst := stored_opened cfg ops black now he
  have hg : s.graph = Graph.run ops := (stored_after hst h).2
  have hf := fresh_after hst hn (fresh_opened cfg _ black now) h hh
  refine answers_of_coh (w := s.world cfg) hf u ?_ n h0
  change s.graph.getUnitType u = some .exercise ∨ Plain s.graph u
  rw [hg]
  exact hu

/-- C43: after any history of calls in which every grading returned `Ok`, the stored trials of every
exercise are exactly the grades given, in order. -/
theorem grades_stored (cfg : Config R) (ops : List (Graph.Op Str)) (black : Str → Bool) (now : Int)
    (he : (Graph.run ops).getUnitType [] = none) (h : List Op)
    (hok : AllOk cfg (opened (Graph.run ops) black now) h) (x : Str) :
    (runs cfg (opened (Graph.run ops) black now : State R) h).trials.history x = grades R h x := by
  induction h using List.reverseRecOn with
  | nil => rfl
  | append_singleton h o ih =>
    rw [allOk_append] at hok
    obtain ⟨hok, ho, -⟩ := hok
    have ih := ih hok
    have hst := (stored_after (stored_opened (R := R) cfg ops black now he) h).1
    rw [runs_snoc]
    unfold grades at ih ⊢
    rw [List.filterMap_append, ← ih]
    cases o with
    | score y g t fuel order f =>
      obtain ⟨s', hs'⟩ := ho y g t fuel order f rfl
      obtain ⟨h1, h2, -⟩ := score_effects hst hs'
      simp only [step, hs']
      by_cases hy : y = x
      · subst hy; simp [h1]
      · rw [(h2 x (fun e => hy e.symm)).1]; simp [hy]
    | _ => simp [step]

/-- C66: after any history of calls in which every grading returned `Ok`, the stored deltas of an exercise
are one per grading but the first, with the same times. -/
theorem deltas_stored (cfg : Config R) (ops : List (Graph.Op Str)) (black : Str → Bool) (now : Int)
    (he : (Graph.run ops).getUnitType [] = none) (hn : NoEmpty (Graph.run ops))
    (h0 : 0 < cfg.numTrials) (h : List Op)
    (hok : AllOk cfg (opened (Graph.run ops) black now) h) (hh : ∀ o ∈ h, Clean o) (x : Str)
    (hx : (Graph.run ops).getUnitType x = some .exercise) :
    ((runs cfg (opened (Graph.run ops) black now : State R) h).deltas.history x).map Prod.snd =
      (grades R h x).tail.map Prod.snd := by
  induction h using List.reverseRecOn with
  | nil => rfl
  | append_singleton h o ih =>
    rw [allOk_append] at hok
    obtain ⟨hok, ho, -⟩ := hok
    have hh' : ∀ o ∈ h, Clean o := fun o ho => hh o (List.mem_append_left _ ho)
    have ih := ih hok hh'
    have hso := stored_opened (R := R) cfg ops black now he
    have hst := stored_after hso h
    have hfr := fresh_after hso hn (fresh_opened cfg _ black now) h hh'
    have hgr := grades_stored cfg ops black now he h hok x
    have hx' : (runs cfg (opened (Graph.run ops) black now : State R) h).graph.getUnitType x =
        some .exercise := by rw [hst.2]; exact hx
    rw [runs_snoc]
    cases o with
    | score y g t fuel order f =>
      obtain ⟨s', hs'⟩ := ho y g t fuel order f rfl
      simp only [step, hs']
      by_cases hy : y = x
      · subst hy
        obtain ⟨v, -, hd⟩ := score_delta hst.1 hfr h0 hx' hs'
        have e : grades R (h ++ [.score y g t fuel order f]) y = grades R h y ++ [(gradeVal R g, t)] := by
          simp [grades]
        rw [hd, hgr, e, List.map_append, ih]
        cases grades R h y <;> simp
      · have e : grades R (h ++ [.score y g t fuel order f]) x = grades R h x := by
          simp [grades, hy]
        obtain ⟨-, -, -, h4, -⟩ := score_effects hst.1 hs'
        rw [(h4 x (fun e => hy e.symm)).1, e, ih]
    | _ =>
      have e : ∀ o : Op, (∀ y g t fuel order f, o ≠ .score y g t fuel order f) →
          grades R (h ++ [o]) x = grades R h x := by
        intro o ho
        unfold grades
        rw [List.filterMap_append]
        cases o <;> first | exact absurd rfl (ho _ _ _ _ _ _) | simp
      rw [e _ (by intros; simp)]
      exact ih

theorem deltas_extend {cfg : Config R} {s : State R} (hs : Stored cfg s) (h : List Op)
    (hok : AllOk cfg s h) (x : Str) : s.deltas.history x <+: (runs cfg s h).deltas.history x := by
  induction h generalizing s with
  | nil => exact List.prefix_rfl
  | cons o h ih =>
    obtain ⟨ho, hok⟩ := hok
    refine List.IsPrefix.trans ?_ (ih (stored_step hs o).1 hok)
    cases o with
    | score y g t fuel order f =>
      obtain ⟨s', hs'⟩ := ho y g t fuel order f rfl
      simp only [step, hs']
      obtain ⟨-, -, h3, h4, -⟩ := score_effects hs hs'
      by_cases hy : x = y
      · subst hy
        rcases h3 with h3 | ⟨d, h3⟩ <;> rw [h3]
        exact List.prefix_append _ _
      · rw [(h4 x hy).1]
    | _ => exact List.prefix_rfl

/-- C66: and the delta of a grading is the grade minus the score the exercise had just before, computed from
scratch from what was stored then. -/
theorem delta_value (cfg : Config R) (ops : List (Graph.Op Str)) (black : Str → Bool) (now : Int)
    (he : (Graph.run ops).getUnitType [] = none) (hn : NoEmpty (Graph.run ops))
    (h0 : 0 < cfg.numTrials) (x : Str) (hx : (Graph.run ops).getUnitType x = some .exercise)
    (h later : List Op) (g : MasteryScore) (t : Int) (fuel : Nat) (order : List Reward → List Reward)
    (f : Faults) (hok : AllOk cfg (opened (Graph.run ops) black now) (h ++ .score x g t fuel order f :: later))
    (hh : ∀ o ∈ h, Clean o) (hbefore : grades R h x ≠ []) :
    ∃ v, Scratch ((runs cfg (opened (Graph.run ops) black now : State R) h).world cfg) x (some v) ∧
      ((runs cfg (opened (Graph.run ops) black now : State R)
        (h ++ .score x g t fuel order f :: later)).deltas.history x)[(grades R h x).length - 1]? =
        some (gradeVal R g - v, t) := by
  rw [allOk_append] at hok
  obtain ⟨hok, ho, hok2⟩ := hok
  have hso := stored_opened (R := R) cfg ops black now he
  have hst := stored_after hso h
  have hfr := fresh_after hso hn (fresh_opened cfg _ black now) h hh
  have hgr := grades_stored cfg ops black now he h hok x
  have hx' : (runs cfg (opened (Graph.run ops) black now : State R) h).graph.getUnitType x =
      some .exercise := by rw [hst.2]; exact hx
  obtain ⟨s', hs'⟩ := ho x g t fuel order f rfl
  obtain ⟨v, hv, hd⟩ := score_delta hst.1 hfr h0 hx' hs'
  refine ⟨v, hv, ?_⟩
  have e : runs cfg (opened (Graph.run ops) black now : State R) (h ++ .score x g t fuel order f :: later) =
      runs cfg s' later := by
    have e1 : step cfg (runs cfg (opened (Graph.run ops) black now : State R) h) (.score x g t fuel order f) = s' := by
      simp only [step, hs']
    unfold runs at e1 ⊢
    rw [List.foldl_append, List.foldl_cons, e1]
  have e2 : step cfg (runs cfg (opened (Graph.run ops) black now : State R) h) (.score x g t fuel order f) = s' := by
    simp only [step, hs']
  rw [e2] at hok2
  rw [e]
  obtain ⟨rest, hrest⟩ := deltas_extend (stored_score hst.1 hs').1 later hok2 x
  rw [← hrest, hd, hgr, if_neg hbefore]
  have hlen : ((runs cfg (opened (Graph.run ops) black now : State R) h).deltas.history x).length =
      (grades R h x).length - 1 := by
    have := congrArg List.length (deltas_stored cfg ops black now he hn h0 h hok hh x hx)
    simpa using this
  rw [List.append_assoc, List.getElem?_append_right (by omega), hlen]
  simp

/-- C41 for whole histories: when every grading returned `Ok`, the session state depends on the gradings and
batches only, so that `pile_exact`, `success_rate_exact` and `frequency_exact` describe it. -/
theorem session_of_history (cfg : Config R) (ops : List (Graph.Op Str)) (black : Str → Bool) (now : Int)
    (he : (Graph.run ops).getUnitType [] = none) (h : List Op)
    (hok : AllOk cfg (opened (Graph.run ops) black now) h) :
    (runs cfg (opened (Graph.run ops) black now : State R) h).session = Batch.session (acts h) := by
  induction h using List.reverseRecOn with
  | nil => rfl
  | append_singleton h o ih =>
    rw [allOk_append] at hok
    obtain ⟨hok, ho, -⟩ := hok
    have ih := ih hok
    have hst := (stored_after (stored_opened (R := R) cfg ops black now he) h).1
    rw [runs_snoc]
    unfold acts Batch.session at ih ⊢
    rw [List.filterMap_append, List.foldl_append, ← ih]
    cases o with
    | score y g t fuel order f =>
      obtain ⟨s', hs'⟩ := ho y g t fuel order f rfl
      obtain ⟨-, -, -, -, h5, -⟩ := score_effects hst hs'
      simp [step, hs', h5, Batch.act]
    | batch q => simp [step]
    | _ => simp [step]

/-- C41: an exercise is in the relearn pile exactly if its last grade was failing and no batch since then
found it blacklisted. -/
theorem pile_of_history (cfg : Config R) (ops : List (Graph.Op Str)) (black : Str → Bool) (now : Int)
    (he : (Graph.run ops).getUnitType [] = none) (h : List Op)
    (hok : AllOk cfg (opened (Graph.run ops) black now) h) (hp : Batch.Proper (acts h))
    (hend : Batch.Ended {} (acts h)) (x : Str) :
    x ∈ (runs cfg (opened (Graph.run ops) black now : State R) h).session.pile ↔
      Batch.ToRelearn (acts h) x := by
  rw [session_of_history cfg ops black now he h hok]
  exact (Batch.pile_exact _ hp hend).2 x

/-! ### Non-vacuity and counterexamples -/

/-- A check for `AllOk`. -/
def okB (cfg : Config R) : State R → List Op → Bool
  | _, [] => true
  | s, o :: h => (match o with
    | .score x g t fuel order f =>
      match scoreExercise cfg order fuel s x g t f with
      | some (_, b) => b
      | none => false
    | _ => true) && okB cfg (step cfg s o) h

theorem allOk_of_okB {cfg : Config R} {s : State R} {h : List Op} (hb : okB cfg s h = true) :
    AllOk cfg s h := by
  induction h generalizing s with
  | nil => trivial
  | cons o h ih =>
    simp only [okB, Bool.and_eq_true] at hb
    refine ⟨?_, ih hb.2⟩
    rintro x g t fuel order f rfl
    have h1 := hb.1
    dsimp only at h1
    split at h1
    · rename_i o b heq
      subst h1
      exact ⟨_, heq⟩
    · cases h1

theorem noEmpty_of_maps {g : Graph Str}
    (h1 : ∀ e ∈ g.enc, ∀ p ∈ e.2, p.1 ≠ []) (h2 : ∀ e ∈ g.encBy, ∀ p ∈ e.2, p.1 ≠ [])
    (h3 : ∀ e ∈ g.deps, [] ∉ e.2) (h4 : ∀ e ∈ g.dependents, [] ∉ e.2) : NoEmpty g := by
  rintro good u w ⟨l, hl, hm⟩
  cases good with
  | true =>
    simp only [if_true, Graph.getEncompasses] at hl
    split at hl
    · rw [Option.map_eq_some_iff] at hl
      obtain ⟨ds, hd, rfl⟩ := hl
      obtain ⟨d, hd', he⟩ := List.mem_map.1 hm
      cases he
      exact h3 _ (AMap.mem_of_find hd) hd'
    · exact h1 _ (AMap.mem_of_find hl) _ hm rfl
  | false =>
    simp only [Bool.false_eq_true, if_false, Graph.getEncompassedBy] at hl
    split at hl
    · rw [Option.map_eq_some_iff] at hl
      obtain ⟨ds, hd, rfl⟩ := hl
      obtain ⟨d, hd', he⟩ := List.mem_map.1 hm
      cases he
      exact h4 _ (AMap.mem_of_find hd) hd'
    · exact h2 _ (AMap.mem_of_find hl) _ hm rfl

/-- Course `c` with lessons `l` (exercise `e`) and `m` (exercise `d`); `l` encompasses `m`. -/
def sampleOps : List (Graph.Op Str) := [.addCourse ['c'], .addLesson ['l'] ['c'], .addLesson ['m'] ['c'],
  .addExercise ['e'] ['l'], .addExercise ['d'] ['m'], .addEncompassed ['l'] [] [(['m'], 1)]]

/-- A scorer that reads everything: the newest trial, plus a tenth of the newest delta and of the newest
reward of the lesson. -/
def sampleConfig : Config ℚ where
  sortV := insSort
  sortW := insSort
  scorer := fun _ _ st l _ =>
    ((st.1.head?.map Prod.fst).getD 0 + (st.2.head?.map Prod.fst).getD 0 / 10 +
      (l.head?.map (fun r => r.1.1)).getD 0 / 10, 0, none)
  supScore := 4
  numTrials := 20
  numRewards := 20

def sampleHistory : List Op := [.score ['e'] .three 10 9 id {}, .query ['l'] 9, .query ['m'] 9,
  .score ['d'] .one 15 9 id {}, .score ['e'] .one 20 9 id {}, .blacklist ['d'] true,
  .score ['e'] .four 30 9 id {}]

/-- The hypotheses of the theorems above hold of a concrete history, and the stored data are not trivial. -/
example :
    let s := runs sampleConfig (opened (Graph.run sampleOps) (fun _ => false) 0) sampleHistory
    (Graph.run sampleOps).getUnitType [] = none ∧ NoEmpty (Graph.run sampleOps) ∧
    AllOk sampleConfig (opened (Graph.run sampleOps) (fun _ => false) 0) sampleHistory ∧
    (∀ o ∈ sampleHistory, Clean o) ∧ (Graph.run sampleOps).getUnitType ['e'] = some .exercise ∧
    s.trials.history ['e'] = [(3, 10), (1, 20), (4, 30)] ∧
    s.deltas.history ['e'] = [(-19 / 10, 20), (329 / 100, 30)] ∧ s.deltas.history ['d'] = [] ∧
    s.rewards.table.history ['m'] = [((2 / 5, 1), 30)] ∧ s.session.pile = [['d']] := by
  refine ⟨by decide +kernel, noEmpty_of_maps (by decide +kernel) (by decide +kernel) (by decide +kernel)
    (by decide +kernel), allOk_of_okB (by decide +kernel), ?_, by decide +kernel, by decide +kernel,
    by decide +kernel, by decide +kernel, by decide +kernel, by decide +kernel⟩
  simp [sampleHistory, Clean]

/-- When the delta is stored and the write of the trial fails, the cached score of the exercise is not
refreshed although the stored data changed: the score answered (3) is not the one computed from what is
stored (2.8). -/
theorem stale_after_failed_trial :
    let s := runs sampleConfig (opened (Graph.run sampleOps) (fun _ => false) 0)
      [.score ['e'] .three 10 9 id {}, .score ['e'] .one 20 9 id { trial := true }]
    (scoreC (s.world sampleConfig) 9 ['e'] s.caches).map Prod.fst = some (some 3) ∧
    (scoreC (s.world sampleConfig) 9 ['e'] {}).map Prod.fst = some (some (14 / 5)) := by decide +kernel

end Trane.System
