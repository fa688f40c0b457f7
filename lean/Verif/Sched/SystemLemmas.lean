import Verif.Sched.System

/-!
# Lemmas on scoring an exercise
-/

namespace Trane.System
open Trane.Store
open Trane.UnitScorer

variable {R : Type} [Field R] [LinearOrder R]

/-- The state is that of a library built by edit calls and of databases written by the API; no unit of the
library has the empty name. -/
structure Stored (cfg : Config R) (s : State R) : Prop where
  graph : ∃ ops, s.graph = Graph.run ops
  empty : s.graph.getUnitType [] = none
  trials : ∃ ops, s.trials = Table.run cfg.sortV ops
  deltas : ∃ ops, s.deltas = Table.run cfg.sortV ops
  rewards : ∃ ops, s.rewards = Rewards.run cfg.sortW ops

/-- The databases were written by the API. -/
structure Tables (cfg : Config R) (s : State R) : Prop where
  trials : ∃ ops, s.trials = Table.run cfg.sortV ops
  deltas : ∃ ops, s.deltas = Table.run cfg.sortV ops
  rewards : ∃ ops, s.rewards = Rewards.run cfg.sortW ops

theorem Stored.tables {cfg : Config R} {s : State R} (h : Stored cfg s) : Tables cfg s :=
  ⟨h.trials, h.deltas, h.rewards⟩

/-- Recording a single entry. -/
theorem step_record {α : Type} (S : SortDesc α) (ops : List (LogOp α)) (e : Entry α) (fail : Bool) :
    ((Table.run S ops).step S (.record [e] fail)).2 = !fail ∧
    (fail = true → ((Table.run S ops).step S (.record [e] fail)).1 = Table.run S ops) ∧
    (fail = false → ∀ u, ((Table.run S ops).step S (.record [e] fail)).1.history u =
      (Table.run S ops).history u ++ if e.unit = u then [(e.val, e.ts)] else []) ∧
    (∀ u, u ≠ e.unit → ∀ n, ((Table.run S ops).step S (.record [e] fail)).1.get S u n =
      (Table.run S ops).get S u n) := by
  refine ⟨?_, ?_, ?_, ?_⟩
  · obtain ⟨t', h1, _⟩ := Table.record_spec (Table.run S ops) [e] (Table.wf_run S ops)
    cases fail <;> simp [Table.step, h1]
  · obtain ⟨t', h1, _⟩ := Table.record_spec (Table.run S ops) [e] (Table.wf_run S ops)
    rintro rfl
    simp [Table.step, h1]
  · obtain ⟨t', h1, _, h3, _⟩ := Table.record_spec (Table.run S ops) [e] (Table.wf_run S ops)
    rintro rfl u
    simp only [Table.step, h1]
    rw [if_neg (by simp), h3 u]
    congr 1
    by_cases he : e.unit = u <;> simp [Table.forUnit, he]
  · intro u hu n
    have := Table.record_leaves_other_units S ops [e] fail u (by simpa using fun h => hu h.symm) n
    rwa [Table.run_snoc] at this

/-- Recording rewards. -/
theorem record_rewards (S : SortDesc (ℚ × ℚ)) (ops : List Rewards.Op) (rs : List Reward) :
    (∃ ids, ((Rewards.run S ops).record S rs none).2 = some ids ∧
      ids = (Rewards.accepted (Rewards.sessionLog ops) rs).map Reward.unit ∧
      ∀ u, u ∉ ids → ∀ n, ((Rewards.run S ops).record S rs none).1.table.get S u n =
        (Rewards.run S ops).table.get S u n) ∧
    ∀ k, ((Rewards.run S ops).record S rs (some k)).2 = none ∧
      ((Rewards.run S ops).record S rs (some k)).1.table = (Rewards.run S ops).table := by
  have h := Rewards.record_rewards_reports_accepted S ops rs
  constructor
  · refine ⟨_, h.1, rfl, ?_⟩
    intro u hu n
    obtain ⟨hw, hc, hb⟩ := Rewards.good_run S ops
    obtain ⟨j1, j2, j3, j4, j5, j6⟩ := Rewards.loop_spec S rs (Rewards.run S ops) (Rewards.sessionLog ops)
      (Rewards.run S ops).table.history none hw hc (fun u => Table.KeepsNewest.refl _ _ (hb u))
    have hok : (Rewards.loop S (Rewards.run S ops) rs none).2.2 = true := j1.2 (by simp)
    have e := j6 u (by
      intro r hr he
      exact hu (List.mem_map.2 ⟨r, hr, he⟩))
    simp only [Rewards.record, hok, Option.isNone_none, Bool.and_self, if_true]
    unfold Table.get
    rw [e]
  · intro k
    have := h.2 k
    rw [Rewards.run_snoc] at this
    exact this

/-- The table of deltas after the first write: one more entry if the exercise has trials. -/
def newDeltas (cfg : Config R) (s : State R) (x : Str) (g : MasteryScore) (t : Int) (v : Option R)
    (r : ExRec R) : Table R :=
  if 0 < r.trials then (s.deltas.step cfg.sortV (.record [⟨x, gradeVal R g - v.getD 0, t⟩] false)).1
  else s.deltas

/-- The table of trials after the second write. -/
def newTrials (cfg : Config R) (s : State R) (x : Str) (g : MasteryScore) (t : Int) : Table R :=
  (s.trials.step cfg.sortV (.record [⟨x, gradeVal R g, t⟩] false)).1

/-- The state after the trial is written. -/
def afterTrial (cfg : Config R) (s : State R) (x : Str) (g : MasteryScore) (t : Int) (v : Option R)
    (r : ExRec R) (c : Caches Str R) : State R :=
  { s with
    deltas := newDeltas cfg s x g t v r
    trials := newTrials cfg s x g t
    caches := invalidate s.graph c x
    session := Batch.graded s.session x g }

/-- The ways in which a call can end. -/
inductive Ends (cfg : Config R) (order : List Reward → List Reward) (fuel : Nat) (s : State R) (x : Str)
    (g : MasteryScore) (t : Int) (f : Faults) (v : Option R) (r : ExRec R) (c : Caches Str R) :
    State R × Bool → Prop
  | deltaFailed : 0 < r.trials → f.delta = true →
      Ends cfg order fuel s x g t f v r c ({ s with caches := c }, false)
  | trialFailed : (0 < r.trials → f.delta = false) → f.trial = true →
      Ends cfg order fuel s x g t f v r c
        ({ s with caches := c, deltas := newDeltas cfg s x g t v r }, false)
  | rewardFailed (rs : List (Propagator.UnitReward Str)) (k : Nat) : (0 < r.trials → f.delta = false) →
      f.trial = false → f.reward = some k → Propagator.propagate s.graph [] fuel x g t = some rs →
      Ends cfg order fuel s x g t f v r c ({ afterTrial cfg s x g t v r c with
        rewards := (s.rewards.record cfg.sortW (order (rs.map toStore)) (some k)).1 }, false)
  | done (rs : List (Propagator.UnitReward Str)) (ids : List Str) : (0 < r.trials → f.delta = false) →
      f.trial = false → f.reward = none → Propagator.propagate s.graph [] fuel x g t = some rs →
      (s.rewards.record cfg.sortW (order (rs.map toStore)) none).2 = some ids →
      Ends cfg order fuel s x g t f v r c ({ afterTrial cfg s x g t v r c with
        rewards := (s.rewards.record cfg.sortW (order (rs.map toStore)) none).1
        caches := ids.foldl (fun c u => invalidate s.graph c u) (invalidate s.graph c x) }, true)

theorem ends_of_score {cfg : Config R} {order : List Reward → List Reward} {fuel : Nat} {s : State R}
    {x : Str} {g : MasteryScore} {t : Int} {f : Faults} {o : State R × Bool} (hs : Tables cfg s)
    (h : scoreExercise cfg order fuel s x g t f = some o) :
    ∃ v c1 r c, scoreC (s.world cfg) fuel x s.caches = some (v, c1) ∧
      exC (s.world cfg) x c1 = some (r, c) ∧ Ends cfg order fuel s x g t f v r c o := by
  obtain ⟨⟨tp, hto⟩, ⟨dop, hdo⟩, ⟨ro, hro⟩⟩ := hs
  unfold scoreExercise at h
  cases h1 : scoreC (s.world cfg) fuel x s.caches with
  | none => simp [h1] at h
  | some p =>
    obtain ⟨v, c1⟩ := p
    simp only [h1] at h
    cases h2 : exC (s.world cfg) x c1 with
    | none => simp [h2] at h
    | some q =>
      obtain ⟨r, c⟩ := q
      simp only [h2] at h
      refine ⟨v, c1, r, c, rfl, h2, ?_⟩
      have hd := step_record cfg.sortV dop ⟨x, gradeVal R g - v.getD 0, t⟩ f.delta
      rw [← hdo] at hd
      have ht := step_record cfg.sortV tp ⟨x, gradeVal R g, t⟩ f.trial
      rw [← hto] at ht
      by_cases hdf : 0 < r.trials ∧ f.delta = true
      · obtain ⟨hr, hf⟩ := hdf
        rw [if_pos hr, if_pos (by rw [hd.1, hf]; rfl), hd.2.1 hf] at h
        cases h
        exact .deltaFailed hr hf
      · have hdf' : 0 < r.trials → f.delta = false := by
          intro hr
          cases hfd : f.delta with
          | false => rfl
          | true => exact absurd ⟨hr, hfd⟩ hdf
        have hdl : (if 0 < r.trials then
            s.deltas.step cfg.sortV (.record [⟨x, gradeVal R g - v.getD 0, t⟩] f.delta)
            else (s.deltas, true)) = (newDeltas cfg s x g t v r, true) := by
          unfold newDeltas
          split
          · rename_i hr
            have := hd.1
            rw [hdf' hr] at this ⊢
            exact Prod.ext rfl this
          · rfl
        rw [hdl] at h
        simp only [Bool.true_eq_false, if_false] at h
        cases hft : f.trial with
        | true =>
          rw [hft] at h ht
          rw [if_pos (by rw [ht.1]; rfl), ht.2.1 rfl] at h
          cases h
          exact .trialFailed hdf' hft
        | false =>
          rw [hft] at h ht
          rw [if_neg (by rw [ht.1]; simp)] at h
          cases hp : Propagator.propagate s.graph [] fuel x g t with
          | none => rw [hp] at h; cases h
          | some rs =>
            rw [hp] at h
            simp only at h
            have hrr := record_rewards cfg.sortW ro (order (rs.map toStore))
            rw [← hro] at hrr
            cases hfr : f.reward with
            | none =>
              rw [hfr] at h
              obtain ⟨⟨ids, hids, -⟩, -⟩ := hrr
              have e : s.rewards.record cfg.sortW (order (rs.map toStore)) none =
                ((s.rewards.record cfg.sortW (order (rs.map toStore)) none).1, some ids) :=
                Prod.ext rfl hids
              rw [e] at h
              cases h
              exact .done rs ids hdf' hft hfr hp hids
            | some k =>
              rw [hfr] at h
              have e : s.rewards.record cfg.sortW (order (rs.map toStore)) (some k) =
                ((s.rewards.record cfg.sortW (order (rs.map toStore)) (some k)).1, none) :=
                Prod.ext rfl (hrr.2 k).1
              rw [e] at h
              cases h
              exact .rewardFailed rs k hdf' hft hfr hp

/-! ### The tables -/

theorem newTrials_spec {cfg : Config R} {s : State R} (hs : Tables cfg s) (x : Str) (g : MasteryScore)
    (t : Int) :
    (∀ u, (newTrials cfg s x g t).history u = s.trials.history u ++
      if x = u then [(gradeVal R g, t)] else []) ∧
    (∀ u, u ≠ x → ∀ n, (newTrials cfg s x g t).get cfg.sortV u n = s.trials.get cfg.sortV u n) ∧
    ∃ ops, newTrials cfg s x g t = Table.run cfg.sortV ops := by
  obtain ⟨tp, hto⟩ := hs.trials
  have ht := step_record cfg.sortV tp ⟨x, gradeVal R g, t⟩ false
  rw [← hto] at ht
  refine ⟨ht.2.2.1 rfl, ht.2.2.2, tp ++ [.record [⟨x, gradeVal R g, t⟩] false], ?_⟩
  rw [Table.run_snoc, ← hto]
  rfl

theorem newDeltas_spec {cfg : Config R} {s : State R} (hs : Tables cfg s) (x : Str) (g : MasteryScore)
    (t : Int) (v : Option R) (r : ExRec R) :
    (∀ u, (newDeltas cfg s x g t v r).history u = s.deltas.history u ++
      if 0 < r.trials ∧ x = u then [(gradeVal R g - v.getD 0, t)] else []) ∧
    (∀ u, u ≠ x → ∀ n, (newDeltas cfg s x g t v r).get cfg.sortV u n = s.deltas.get cfg.sortV u n) ∧
    ∃ ops, newDeltas cfg s x g t v r = Table.run cfg.sortV ops := by
  obtain ⟨dop, hdo⟩ := hs.deltas
  unfold newDeltas
  by_cases hr : 0 < r.trials
  · rw [if_pos hr]
    have ht := step_record cfg.sortV dop ⟨x, gradeVal R g - v.getD 0, t⟩ false
    rw [← hdo] at ht
    refine ⟨?_, ht.2.2.2, dop ++ [.record [⟨x, gradeVal R g - v.getD 0, t⟩] false], ?_⟩
    · intro u
      rw [ht.2.2.1 rfl u]
      simp [hr]
    · rw [Table.run_snoc, ← hdo]
  · rw [if_neg hr]
    exact ⟨fun u => by simp [hr], fun _ _ _ => rfl, dop, hdo⟩

theorem stored_score {cfg : Config R} {order : List Reward → List Reward} {fuel : Nat} {s : State R}
    {x : Str} {g : MasteryScore} {t : Int} {f : Faults} {o : State R × Bool} (hs : Stored cfg s)
    (h : scoreExercise cfg order fuel s x g t f = some o) :
    Stored cfg o.1 ∧ o.1.graph = s.graph ∧ o.1.black = s.black ∧ o.1.now = s.now := by
  obtain ⟨v, c1, r, c, -, -, he⟩ := ends_of_score hs.tables h
  have hT := (newTrials_spec hs.tables x g t).2.2
  have hD := (newDeltas_spec hs.tables x g t v r).2.2
  obtain ⟨ro, hro⟩ := hs.rewards
  have hR : ∀ rs k, ∃ ops, (s.rewards.record cfg.sortW rs k).1 = Rewards.run cfg.sortW ops := by
    intro rs k
    refine ⟨ro ++ [.record rs k], ?_⟩
    rw [Rewards.run_snoc, ← hro]
    rfl
  cases he with
  | deltaFailed => exact ⟨⟨hs.graph, hs.empty, hs.trials, hs.deltas, hs.rewards⟩, rfl, rfl, rfl⟩
  | trialFailed => exact ⟨⟨hs.graph, hs.empty, hs.trials, hD, hs.rewards⟩, rfl, rfl, rfl⟩
  | rewardFailed => exact ⟨⟨hs.graph, hs.empty, hT, hD, hR _ _⟩, rfl, rfl, rfl⟩
  | done => exact ⟨⟨hs.graph, hs.empty, hT, hD, hR _ _⟩, rfl, rfl, rfl⟩

theorem tables_score {cfg : Config R} {order : List Reward → List Reward} {fuel : Nat} {s : State R}
    {x : Str} {g : MasteryScore} {t : Int} {f : Faults} {o : State R × Bool} (hs : Tables cfg s)
    (h : scoreExercise cfg order fuel s x g t f = some o) : Tables cfg o.1 := by
  obtain ⟨v, c1, r, c, -, -, he⟩ := ends_of_score hs h
  have hT := (newTrials_spec hs x g t).2.2
  have hD := (newDeltas_spec hs x g t v r).2.2
  obtain ⟨ro, hro⟩ := hs.rewards
  have hR : ∀ rs k, ∃ ops, (s.rewards.record cfg.sortW rs k).1 = Rewards.run cfg.sortW ops := by
    intro rs k
    refine ⟨ro ++ [.record rs k], ?_⟩
    rw [Rewards.run_snoc, ← hro]
    rfl
  cases he with
  | deltaFailed => exact ⟨hs.trials, hs.deltas, hs.rewards⟩
  | trialFailed => exact ⟨hs.trials, hD, hs.rewards⟩
  | rewardFailed => exact ⟨hT, hD, hR _ _⟩
  | done => exact ⟨hT, hD, hR _ _⟩

/-! ### The caches -/

/-- The caches agree with what is stored. -/
def Fresh (cfg : Config R) (s : State R) : Prop :=
  Coh (Plain s.graph) (s.world cfg) s.caches

/-- Nothing in the library encompasses, or is encompassed by, the empty name. -/
def NoEmpty (g : Graph Str) : Prop := ∀ good u w, ¬ Propagator.Edge g good u [] w

theorem contained_of_stored {cfg : Config R} {s : State R} (hs : Stored cfg s) :
    Contained (s.world cfg).graph (s.world cfg).dflt := by
  obtain ⟨ops, h⟩ := hs.graph
  have he := hs.empty
  change Contained s.graph []
  rw [h] at he ⊢
  exact contained_run ops [] he

theorem coh_queried {cfg : Config R} {s : State R} (hf : Fresh cfg s) {fuel : Nat} {x : Str}
    {v : Option R} {c1 c : Caches Str R} {r : ExRec R}
    (h1 : scoreC (s.world cfg) fuel x s.caches = some (v, c1))
    (h2 : exC (s.world cfg) x c1 = some (r, c)) :
    Coh (Plain s.graph) (s.world cfg) c ∧ r = (s.world cfg).exRec x ∧
    (s.graph.getUnitType x = some .exercise → v = some ((s.world cfg).exRec x).score) := by
  have hc1 : Coh (Plain s.graph) (s.world cfg) c1 := (pres_score (s.world cfg) fuel x).1 _ _ _ hf h1
  obtain ⟨c', h3, h4⟩ := sim_exC (Plain s.graph) (s.world cfg) x _ rfl c1 hc1
  rw [h2] at h3
  cases h3
  refine ⟨h4, rfl, ?_⟩
  intro ht
  obtain ⟨c', h3, -⟩ := sim_exC (Plain s.graph) (s.world cfg) x _ rfl s.caches hf
  cases fuel with
  | zero => simp [scoreC] at h1
  | succ n =>
    have ht' : (s.world cfg).graph.getUnitType x = some .exercise := ht
    rw [scoreC, ht'] at h1
    change (exC (s.world cfg) x s.caches).bind _ = _ at h1
    rw [h3] at h1
    cases h1
    rfl

/-- No reward goes to the empty name. -/
theorem propagate_noEmpty {cfg : Config R} {s : State R} (hs : Stored cfg s) (hn : NoEmpty s.graph)
    {fuel : Nat} {x : Str} {g : MasteryScore} {t : Int} {rs : List (Propagator.UnitReward Str)}
    (h : Propagator.propagate s.graph [] fuel x g t = some rs) : ∀ r ∈ rs, r.unit ≠ [] := by
  obtain ⟨ops, hg⟩ := hs.graph
  intro r hr he
  rw [hg] at h hn
  obtain ⟨l, c, p, k, -, hp, -, -⟩ := Propagator.rewards_follow_edges ops [] x g t rs ⟨fuel, h⟩ r hr
  rw [he] at hp
  cases hp with
  | first _ h => exact hn _ _ _ h
  | step _ h => exact hn _ _ _ h

theorem accepted_subset (rs : List Reward) : ∀ log, ∀ r ∈ Rewards.accepted log rs, r ∈ rs := by
  induction rs with
  | nil => intro log r hr; simp [Rewards.accepted] at hr
  | cons a rs ih =>
    intro log r hr
    unfold Rewards.accepted at hr
    split at hr
    · exact List.mem_cons_of_mem _ (ih _ _ hr)
    · rcases List.mem_cons.1 hr with rfl | hr
      · exact List.mem_cons_self
      · exact List.mem_cons_of_mem _ (ih _ _ hr)

/-- The write of trial and delta, with the invalidation that follows. -/
theorem fresh_afterTrial {cfg : Config R} {s : State R} (hs : Stored cfg s) {x : Str} (hx : x ≠ [])
    {g : MasteryScore} {t : Int} {v : Option R} {r : ExRec R} {c : Caches Str R}
    (hc : Coh (Plain s.graph) (s.world cfg) c) : Fresh cfg (afterTrial cfg s x g t v r c) := by
  have hd : Differ x (s.world cfg) ((afterTrial cfg s x g t v r c).world cfg) := by
    refine ⟨rfl, rfl, rfl, rfl, fun y hy => ?_, fun _ _ => rfl, fun _ _ => rfl⟩
    change ((newTrials cfg s x g t).get cfg.sortV y cfg.numTrials,
      (newDeltas cfg s x g t v r).get cfg.sortV y cfg.numTrials) = _
    rw [(newTrials_spec hs.tables x g t).2.1 y hy, (newDeltas_spec hs.tables x g t v r).2.1 y hy]
    rfl
  exact coh_write hd (contained_of_stored hs) hx hc

theorem fresh_score {cfg : Config R} {order : List Reward → List Reward} {fuel : Nat} {s : State R}
    {x : Str} {g : MasteryScore} {t : Int} {f : Faults} {o : State R × Bool} (hs : Stored cfg s)
    (hf : Fresh cfg s) (hx : x ≠ []) (hn : NoEmpty s.graph) (ho : ∀ l, (order l).Perm l)
    (hft : f.trial = false) (h : scoreExercise cfg order fuel s x g t f = some o) : Fresh cfg o.1 := by
  obtain ⟨v, c1, r, c, h1, h2, he⟩ := ends_of_score hs.tables h
  obtain ⟨hc, -, -⟩ := coh_queried hf h1 h2
  obtain ⟨ro, hro⟩ := hs.rewards
  cases he with
  | deltaFailed => exact hc
  | trialFailed _ ht => rw [hft] at ht; cases ht
  | rewardFailed rs k =>
    have ha := fresh_afterTrial hs (t := t) (g := g) (v := v) (r := r) hx hc
    have hrr := ((record_rewards cfg.sortW ro (order (rs.map toStore))).2 k).2
    rw [← hro] at hrr
    have e : ({ afterTrial cfg s x g t v r c with
        rewards := (s.rewards.record cfg.sortW (order (rs.map toStore)) (some k)).1 } : State R).world cfg =
        (afterTrial cfg s x g t v r c).world cfg := by
      unfold State.world
      simp only [hrr]
      rfl
    unfold Fresh at ha ⊢
    rw [e]
    exact ha
  | done rs ids _ _ _ hp hids =>
    have ha := fresh_afterTrial hs (t := t) (g := g) (v := v) (r := r) hx hc
    obtain ⟨⟨ids', hids', hacc, hother⟩, -⟩ := record_rewards cfg.sortW ro (order (rs.map toStore))
    rw [← hro] at hids' hother
    rw [hids] at hids'
    cases hids'
    have hne : ([] : Str) ∉ ids := by
      rw [hacc]
      intro hm
      obtain ⟨q, hq, hq'⟩ := List.mem_map.1 hm
      have hq2 := (ho _).mem_iff.1 (accepted_subset _ _ _ hq)
      obtain ⟨q0, hq0, rfl⟩ := List.mem_map.1 hq2
      exact propagate_noEmpty hs hn hp q0 hq0 hq'
    have hcon : Contained ((afterTrial cfg s x g t v r c).world cfg).graph
        ((afterTrial cfg s x g t v r c).world cfg).dflt := (contained_of_stored hs :)
    have hcr := coh_rewards ids
      (fun u => (s.rewards.record cfg.sortW (order (rs.map toStore)) none).1.table.get cfg.sortW u
        cfg.numRewards) ((afterTrial cfg s x g t v r c).world cfg) hcon hne _ ha
    refine Eq.mp (congrArg (fun w => Coh (Plain s.graph) w _) ?_) hcr
    unfold State.world
    congr 1
    funext u
    by_cases hu : u ∈ ids
    · rw [if_pos hu]
    · rw [if_neg hu, hother u hu]
      rfl

end Trane.System
