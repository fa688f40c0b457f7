import Verif.Store.Separate
import Verif.Sched.SeparateFrame
import Verif.Sched.PropagatorProps
import Verif.Top.Props
import Verif.Top.ScoreProps
import Verif.Top.SeparateSpec

/-!
# C113: lemmas
-/

namespace Trane.Propagator
open Trane.UnitScorer (Apart)
variable {ι : Type} [DecidableEq ι]

theorem next_side {g : Graph ι} {P : ι → Prop} (ha : Apart g P) {u : ι} (hu : P u) (r : ℚ) : ∀ p ∈ nextUnits g u r, P p.1 := by
  intro p hp
  unfold nextUnits at hp
  split at hp
  · cases hg : g.getEncompasses u with
    | none => rw [hg] at hp; simp at hp
    | some l => rw [hg] at hp; exact (ha.encompassing true u p.1 p.2 ⟨l, hg, hp⟩).2 hu
  · cases hg : g.getEncompassedBy u with
    | none => rw [hg] at hp; simp at hp
    | some l => rw [hg] at hp; exact (ha.encompassing false u p.1 p.2 ⟨l, hg, hp⟩).2 hu

theorem loop_side {g : Graph ι} {P : ι → Prop} (ha : Apart g P) (t : Int) : ∀ (n : Nat) (m : AMap ι (UnitReward ι))
    (s : List (UnitReward ι)) {r : AMap ι (UnitReward ι)}, (∀ e ∈ m, P e.2.unit) → (∀ i ∈ s, P i.unit) →
    loop g t n m s = some r → ∀ e ∈ r, P e.2.unit
  | n, m, [], r, hm, _, h => by
    cases n <;> (cases h; exact hm)
  | 0, _, _ :: _, _, _, _, h => by cases h
  | n + 1, m, i :: s, r, hm, hs, h => by
    unfold loop at h
    split at h
    · exact loop_side ha t n m s hm (fun j hj => hs j (by simp [hj])) h
    · refine loop_side ha t n _ _ ?_ ?_ h
      · have key : ∀ (m : AMap ι (UnitReward ι)), (∀ e ∈ m, P e.2.unit) → ∀ e ∈ m.put i.unit i, P e.2.unit := by
          intro m
          induction m with
          | nil => intro _ e he; rw [AMap.put, List.mem_singleton] at he; rw [he]; exact hs i (by simp)
          | cons x m ih =>
            intro hm e he
            obtain ⟨k, v⟩ := x
            unfold AMap.put at he
            split at he
            · rcases List.mem_cons.1 he with rfl | he
              · exact hs i (by simp)
              · exact hm e (by simp [he])
            · rcases List.mem_cons.1 he with rfl | he
              · exact hm _ (by simp)
              · exact ih (fun e he => hm e (by simp [he])) e he
        exact key m hm
      · intro j hj
        rcases List.mem_append.1 hj with hj | hj
        · rw [List.mem_reverse] at hj
          unfold nextItems at hj
          obtain ⟨p, hp, rfl⟩ := List.mem_map.1 hj
          exact next_side ha (hs i (by simp)) _ p (List.mem_of_mem_filter hp)
        · exact hs j (by simp [hj])

/-- The rewards of a grade are for units on the side of the exercise. -/
theorem propagate_side {g : Graph ι} {P : ι → Prop} (ha : Apart g P) (empty : ι) (n : Nat) {x : ι} (hx : P x) (s : MasteryScore)
    (t : Int) {rs : List (UnitReward ι)} (h : propagate g empty n x s t = some rs) : ∀ r ∈ rs, P r.unit := by
  unfold propagate at h
  split at h
  · cases h; simp
  · rename_i l c hr
    unfold resolveRoots at hr
    obtain ⟨l', e1, e2⟩ := Option.bind_eq_some_iff.1 hr
    obtain ⟨c', e3, e4⟩ := Option.map_eq_some_iff.1 e2
    cases e4
    have hl : P l := (ha.lesson x l e1).1 hx
    have hc : P c := (ha.course l c e3).1 hl
    unfold helper at h
    split at h
    · cases h; simp
    · obtain ⟨m, e5, e6⟩ := Option.map_eq_some_iff.1 h
      subst e6
      intro r hr
      obtain ⟨e, he, rfl⟩ := List.mem_map.1 hr
      refine loop_side ha t n [] _ (by simp) ?_ e5 e he
      intro i hi
      rw [List.mem_reverse] at hi
      unfold initialItems at hi
      obtain ⟨p, hp, rfl⟩ := List.mem_map.1 hi
      rcases List.mem_append.1 (List.mem_of_mem_filter hp) with hp | hp
      · exact next_side ha hl _ p hp
      · exact next_side ha hc _ p hp

end Trane.Propagator

namespace Trane.TopLevel
open Trane.Store
open Trane.UnitScorer

variable {R : Type} [Field R] [LinearOrder R]

/-- Two objects that agree on the units of `D`. -/
structure Beside (b : Base R) (D : Str → Prop) (t t' : Top R) : Prop where
  apart : Apart t.graph D
  graph : t'.graph = t.graph
  options : t'.options = t.options
  prefs : t'.prefs = t.prefs
  override : t'.override = t.override
  clock : t'.clock = t.clock
  blacklist : Blacklist.On D t.blacklist t'.blacklist
  trials : Table.On D t.trials t'.trials
  deltas : Table.On D t.deltas t'.deltas
  rewards : Rewards.On D t.rewards t'.rewards
  caches : CachesOn D t.caches t'.caches

section
variable {b : Base R} {D : Str → Prop} {t t' : Top R}

theorem beside_world (hV : Blind b.sortV) (hW : Blind b.sortW) (he : D []) (h : Beside b D t t') :
    WorldsOn D (t.sys.world (t.config b)) (t'.sys.world (t'.config b)) where
  graph := h.graph
  now := by show t'.override.getD t'.clock = t.override.getD t.clock; rw [h.override, h.clock]
  compute := by
    unfold System.State.world Top.config
    simp only [h.clock]
  supScore := by
    unfold System.State.world Top.config
    simp only [h.options]
  dflt := rfl
  empty := he
  black := h.blacklist.asked
  stats := fun u hu => by
    show (t'.trials.get b.sortV u t'.options.made.numTrials, t'.deltas.get b.sortV u t'.options.made.numTrials) =
      (t.trials.get b.sortV u t.options.made.numTrials, t.deltas.get b.sortV u t.options.made.numTrials)
    rw [h.options, h.trials.get b.sortV hV hu, h.deltas.get b.sortV hV hu]
  rewards := fun u hu => by
    show t'.rewards.table.get b.sortW u t'.options.made.numRewards = t.rewards.table.get b.sortW u t.options.made.numRewards
    rw [h.options, h.rewards.get b.sortW hW hu]

theorem after_on {α : Type} {P : α → Prop} {m m' : M Str R α} {c c' : Caches Str R} (h : Follows D P m m') (hc : CachesOn D c c') :
    CachesOn D (after c (m c)) (after c' (m' c')) := by
  rcases h c c' hc with ⟨e, e'⟩ | ⟨a, d, d', e, e', hd, -⟩
  · rw [e, e']; exact hc
  · rw [e, e']; exact hd

theorem after_off {α : Type} {P : α → Prop} {m : M Str R α} {c : Caches Str R} (h : Frames D P m) : CachesOn D c (after c (m c)) := by
  cases e : m c with
  | none => exact .refl _ _
  | some p => exact (h c p.1 p.2 e).1

theorem CachesOn.symm' {c c' : Caches Str R} (h : CachesOn D c c') : CachesOn D c' c :=
  ⟨fun u hu => (h.ex u hu).symm, fun u hu => (h.les u hu).symm, fun u hu => (h.cou u hu).symm, fun u hu => (h.lesT u hu).symm,
    fun u hu => (h.couT u hu).symm⟩

theorem invalidateAll_off {g : Graph Str} (ha : Apart g D) : ∀ (ids : List Str) (c : Caches Str R), (∀ u ∈ ids, ¬ D u) →
    CachesOn D c (ids.foldl (fun c u => invalidate g c u) c)
  | [], c, _ => .refl _ _
  | u :: ids, c, h => (invalidate_off ha c (h u (by simp))).trans (invalidateAll_off ha ids _ fun v hv => h v (by simp [hv]))

theorem invalidateAll_on (g : Graph Str) : ∀ (ids : List Str) {c c' : Caches Str R}, CachesOn D c c' →
    CachesOn D (ids.foldl (fun c u => invalidate g c u) c) (ids.foldl (fun c u => invalidate g c u) c')
  | [], _, _, h => h
  | u :: ids, _, _, h => invalidateAll_on g ids (invalidate_on g h u)

theorem ask_on (hV : Blind b.sortV) (hW : Blind b.sortW) (he : D []) (h : Beside b D t t') {a : Ask} (ha : D a.unit)
    {c c' : Caches Str R} (hc : CachesOn D c c') : CachesOn D (t.ask b c a) (t'.ask b c' a) := by
  have hw := beside_world hV hW he h
  have hap : Apart (t.sys.world (t.config b)).graph D := h.apart
  cases a with
  | score u n => exact after_on (fol_score hap hw n ha) hc
  | lessonTrials u => exact after_on (fol_lessonTrials hap hw ha) hc
  | courseTrials u n => exact after_on (fol_courseTrials hap hw n ha) hc

theorem ask_off (hg : Apart t.graph D) {a : Ask} (ha : ¬ D a.unit) (c : Caches Str R) : CachesOn D c (t.ask b c a) := by
  have hap : Apart (t.sys.world (t.config b)).graph D := hg
  cases a with
  | score u n => exact after_off (fra_score hap n ha)
  | lessonTrials u => exact after_off (fra_lessonTrials hap ha)
  | courseTrials u n => exact after_off (fra_courseTrials hap n ha)

theorem asks_off (hg : Apart t.graph D) : ∀ (as : List Ask) (c : Caches Str R), (∀ a ∈ as, ¬ D a.unit) →
    CachesOn D c (as.foldl (t.ask b) c)
  | [], c, _ => .refl _ _
  | a :: as, c, h => (ask_off hg (h a (by simp)) c).trans (asks_off hg as _ fun x hx => h x (by simp [hx]))

theorem asks_filter [DecidablePred D] (hV : Blind b.sortV) (hW : Blind b.sortW) (he : D []) (h : Beside b D t t') :
    ∀ (as : List Ask) {c c' : Caches Str R}, CachesOn D c c' →
    CachesOn D (as.foldl (t.ask b) c) ((as.filter (fun a => D a.unit)).foldl (t'.ask b) c')
  | [], _, _, hc => hc
  | a :: as, c, c', hc => by
    by_cases hd : D a.unit
    · rw [List.filter_cons_of_pos (by simpa using hd)]
      exact asks_filter hV hW he h as (ask_on hV hW he h hd hc)
    · rw [List.filter_cons_of_neg (by simpa using hd)]
      exact asks_filter hV hW he h as ((CachesOn.symm' (ask_off h.apart hd c)).trans hc)

theorem beside_refl (hs : Sound b t) (ha : Apart t.graph D) : Beside b D t t := by
  obtain ⟨o1, e1⟩ := hs.trials
  obtain ⟨o2, e2⟩ := hs.deltas
  obtain ⟨o3, e3⟩ := hs.rewards
  have w1 : Table.Wf t.trials := by rw [e1]; exact Table.wf_run b.sortV o1
  have w2 : Table.Wf t.deltas := by rw [e2]; exact Table.wf_run b.sortV o2
  have w3 : Table.Wf t.rewards.table := by rw [e3]; exact (Rewards.good_run b.sortW o3).wf
  exact ⟨ha, rfl, rfl, rfl, rfl, rfl, ⟨hs.blacklist, hs.blacklist, fun _ _ => rfl⟩, ⟨fun _ _ => rfl, w1, w1⟩,
    ⟨fun _ _ => rfl, w2, w2⟩, ⟨fun _ _ => ⟨rfl, rfl⟩, w3, w3⟩, .refl _ _⟩

/-- The queries of a batch, compared with those of another batch with the same queries about `D`. -/
theorem asks_both [DecidablePred D] (hV : Blind b.sortV) (hW : Blind b.sortW) (he : D []) (h : Beside b D t t') (hs : Sound b t')
    {as as' : List Ask} (e : as'.filter (fun a => D a.unit) = as.filter (fun a => D a.unit)) {c c' : Caches Str R}
    (hc : CachesOn D c c') : CachesOn D (as.foldl (t.ask b) c) (as'.foldl (t'.ask b) c') := by
  have h1 := asks_filter hV hW he h as hc
  have hr : Beside b D t' t' := beside_refl hs (by rw [h.graph]; exact h.apart)
  have h2 := asks_filter hV hW he hr as' (CachesOn.refl D c')
  rw [e] at h2
  exact h1.trans (CachesOn.symm' h2)

/-- Grading an exercise of `D`. -/
theorem beside_score (hV : Blind b.sortV) (hW : Blind b.sortW) (he : D []) (h : Beside b D t t') {x : Str} (hx : D x)
    (g : MasteryScore) (ts : Int) (fuel : Nat) {order : List Reward → List Reward} (ho : ∀ l, (order l).Perm l) (f : System.Faults) :
    Beside b D (step b t (.scoreExercise x g ts fuel order f)).1 (step b t' (.scoreExercise x g ts fuel order f)).1 ∧
      (step b t' (.scoreExercise x g ts fuel order f)).2 = (step b t (.scoreExercise x g ts fuel order f)).2 := by
  have hw := beside_world hV hW he h
  have hap : Apart (t.sys.world (t.config b)).graph D := h.apart
  simp only [step, System.scoreExercise]
  rcases fol_score hap hw fuel hx t.sys.caches t'.sys.caches h.caches with ⟨e, e'⟩ | ⟨ex, c, c', e, e', hc, -⟩
  · simp only [e, e']; exact ⟨h, trivial⟩
  simp only [e, e']
  rcases fol_exC hap hw hx c c' hc with ⟨e, e'⟩ | ⟨r, d, d', e, e', hd, -⟩
  · simp only [e, e']; exact ⟨h, trivial⟩
  simp only [e, e']
  obtain ⟨v, hv⟩ : ∃ v, v = System.gradeVal R g - ex.getD 0 := ⟨_, rfl⟩
  have dd : ∃ X X' ok, (if 0 < r.trials then t.deltas.step b.sortV (.record [⟨x, v, ts⟩] f.delta) else (t.deltas, true)) = (X, ok) ∧
      (if 0 < r.trials then t'.deltas.step b.sortV (.record [⟨x, v, ts⟩] f.delta) else (t'.deltas, true)) = (X', ok) ∧ Table.On D X X' := by
    by_cases hr : 0 < r.trials
    · have := h.deltas.record b.sortV [⟨x, v, ts⟩] f.delta
      refine ⟨_, (t'.deltas.step b.sortV (.record [⟨x, v, ts⟩] f.delta)).1, _, if_pos hr, ?_, this.1⟩
      rw [if_pos hr]
      exact Prod.ext rfl this.2
    · exact ⟨_, _, _, if_neg hr, if_neg hr, h.deltas⟩
  obtain ⟨X, X', ok, q1, q2, hX⟩ := dd
  have tt : ∃ Y Y' ok, t.trials.step b.sortV (.record [⟨x, System.gradeVal R g, ts⟩] f.trial) = (Y, ok) ∧
      t'.trials.step b.sortV (.record [⟨x, System.gradeVal R g, ts⟩] f.trial) = (Y', ok) ∧ Table.On D Y Y' := by
    have := h.trials.record b.sortV [⟨x, System.gradeVal R g, ts⟩] f.trial
    exact ⟨_, (t'.trials.step b.sortV (.record [⟨x, System.gradeVal R g, ts⟩] f.trial)).1, _, rfl, Prod.ext rfl this.2, this.1⟩
  obtain ⟨Y, Y', ok', p1, p2, hY⟩ := tt
  simp only [Top.sys, Top.config, ← hv, q1, q2, p1, p2]
  cases ok with
  | false =>
    simp only [if_true]
    exact ⟨⟨h.apart, h.graph, h.options, h.prefs, h.override, h.clock, h.blacklist, h.trials, hX, h.rewards, hd⟩, trivial⟩
  | true =>
    cases ok' with
    | false =>
      simp only [Bool.true_eq_false, if_false, if_true]
      exact ⟨⟨h.apart, h.graph, h.options, h.prefs, h.override, h.clock, h.blacklist, hY, hX, h.rewards, hd⟩, trivial⟩
    | true =>
      simp only [Bool.true_eq_false, if_false, h.graph]
      rcases hp : Propagator.propagate t.graph [] fuel x g ts with _ | rs
      · exact ⟨h, rfl⟩
      · dsimp only
        have hin : ∀ y ∈ order (rs.map System.toStore), D y.unit := by
          intro y hy
          obtain ⟨z, hz, rfl⟩ := List.mem_map.1 ((ho _).mem_iff.1 hy)
          exact Propagator.propagate_side h.apart [] fuel hx g ts hp z hz
        obtain ⟨r1, r2⟩ := h.rewards.record b.sortW hW hin f.reward
        revert r1 r2
        have hi := invalidate_on t.graph hd x
        rcases t.rewards.record b.sortW (order (rs.map System.toStore)) f.reward with ⟨rew, o⟩
        rcases t'.rewards.record b.sortW (order (rs.map System.toStore)) f.reward with ⟨rew', o'⟩
        intro r1 r2
        dsimp only at r1 r2
        subst r2
        cases o' with
        | none => exact ⟨⟨h.apart, h.graph, h.options, h.prefs, h.override, h.clock, h.blacklist, hY, hX, r1, hi⟩, rfl⟩
        | some ids =>
          exact ⟨⟨h.apart, h.graph, h.options, h.prefs, h.override, h.clock, h.blacklist, hY, hX, r1, invalidateAll_on t.graph ids hi⟩, rfl⟩

/-- Grading an exercise outside `D`. -/
theorem beside_score_off (h : Beside b D t t') {x : Str} (hx : ¬ D x)
    (g : MasteryScore) (ts : Int) (fuel : Nat) {order : List Reward → List Reward} (ho : ∀ l, (order l).Perm l) (f : System.Faults) :
    Beside b D (step b t (.scoreExercise x g ts fuel order f)).1 t' := by
  have hap : Apart (t.sys.world (t.config b)).graph D := h.apart
  simp only [step, System.scoreExercise]
  rcases e : scoreC (t.sys.world (t.config b)) fuel x t.sys.caches with _ | ⟨ex, c⟩
  · exact h
  have hc := (fra_score hap fuel hx _ _ _ e).1
  dsimp only
  rcases e : exC (t.sys.world (t.config b)) x c with _ | ⟨r, d⟩
  · exact h
  have hd : CachesOn D d t'.caches := (CachesOn.symm' (hc.trans (fra_exC hx _ _ _ e).1)).trans h.caches
  dsimp only
  have hone : ∀ v : R, ∀ e ∈ [(⟨x, v, ts⟩ : Entry R)], ¬ D e.unit := by
    intro v e he
    rw [List.mem_singleton.1 he]
    exact hx
  obtain ⟨v, hv⟩ : ∃ v, v = System.gradeVal R g - ex.getD 0 := ⟨_, rfl⟩
  have dd : ∃ X ok, (if 0 < r.trials then t.deltas.step b.sortV (.record [⟨x, v, ts⟩] f.delta) else (t.deltas, true)) = (X, ok) ∧
      Table.On D X t'.deltas := by
    by_cases hr : 0 < r.trials
    · exact ⟨_, _, if_pos hr, h.deltas.record_off b.sortV (hone v) f.delta⟩
    · exact ⟨_, _, if_neg hr, h.deltas⟩
  obtain ⟨X, ok, q1, hX⟩ := dd
  obtain ⟨Y, ok', p1, hY⟩ : ∃ Y ok, t.trials.step b.sortV (.record [⟨x, System.gradeVal R g, ts⟩] f.trial) = (Y, ok) ∧
      Table.On D Y t'.trials := ⟨_, _, rfl, h.trials.record_off b.sortV (hone _) f.trial⟩
  simp only [Top.sys, Top.config, ← hv, q1, p1]
  cases ok with
  | false =>
    simp only [if_true]
    exact ⟨h.apart, h.graph, h.options, h.prefs, h.override, h.clock, h.blacklist, h.trials, hX, h.rewards, hd⟩
  | true =>
    cases ok' with
    | false =>
      simp only [Bool.true_eq_false, if_false, if_true]
      exact ⟨h.apart, h.graph, h.options, h.prefs, h.override, h.clock, h.blacklist, hY, hX, h.rewards, hd⟩
    | true =>
      simp only [Bool.true_eq_false, if_false]
      rcases hp : Propagator.propagate t.graph [] fuel x g ts with _ | rs
      · exact h
      · dsimp only
        have hin : ∀ y ∈ order (rs.map System.toStore), ¬ D y.unit := by
          intro y hy
          obtain ⟨z, hz, rfl⟩ := List.mem_map.1 ((ho _).mem_iff.1 hy)
          exact Propagator.propagate_side (apart_not h.apart) [] fuel hx g ts hp z hz
        obtain ⟨r1, r2⟩ := h.rewards.record_off b.sortW hin f.reward
        revert r1 r2
        have hi := (CachesOn.symm' (invalidate_off h.apart d hx)).trans hd
        rcases t.rewards.record b.sortW (order (rs.map System.toStore)) f.reward with ⟨rew, o⟩
        intro r1 r2
        dsimp only at r1 r2
        cases o with
        | none => exact ⟨h.apart, h.graph, h.options, h.prefs, h.override, h.clock, h.blacklist, hY, hX, r1, hi⟩
        | some ids =>
          exact ⟨h.apart, h.graph, h.options, h.prefs, h.override, h.clock, h.blacklist, hY, hX, r1,
            (CachesOn.symm' (invalidateAll_off h.apart ids _ (r2 ids rfl))).trans hi⟩

/-- The same call on both objects. -/
theorem beside_kept (hV : Blind b.sortV) (hW : Blind b.sortW) (he : D []) (h : Beside b D t t') {c : Call R} (hc : Stays D c) :
    Beside b D (step b t c).1 (step b t' c).1 ∧ (step b t' c).2 = (step b t c).2 := by
  have hw := beside_world hV hW he h
  have hap : Apart (t.sys.world (t.config b)).graph D := h.apart
  cases c with
  | addToBlacklist u f =>
    have := h.blacklist.step (o := .add u f) hc
    refine ⟨⟨h.apart, h.graph, h.options, h.prefs, h.override, h.clock, this.1, h.trials, h.deltas, h.rewards, ?_⟩, this.2⟩
    show CachesOn D (invalidate t.graph t.caches u) (invalidate t'.graph t'.caches u)
    rw [h.graph]; exact invalidate_on _ h.caches u
  | removeFromBlacklist u f =>
    have := h.blacklist.step (o := .remove u f) hc
    refine ⟨⟨h.apart, h.graph, h.options, h.prefs, h.override, h.clock, this.1, h.trials, h.deltas, h.rewards, ?_⟩, this.2⟩
    show CachesOn D (invalidate t.graph t.caches u) (invalidate t'.graph t'.caches u)
    rw [h.graph]; exact invalidate_on _ h.caches u
  | removePrefixFromBlacklist p f =>
    have := h.blacklist.step (o := .removePrefix p f) hc
    exact ⟨⟨h.apart, h.graph, h.options, h.prefs, h.override, h.clock, this.1, h.trials, h.deltas, h.rewards,
      invalidatePrefix_on _ h.caches⟩, this.2⟩
  | blacklisted u =>
    have := h.blacklist.step (o := .query u) hc
    exact ⟨⟨h.apart, h.graph, h.options, h.prefs, h.override, h.clock, this.1, h.trials, h.deltas, h.rewards, h.caches⟩, this.2⟩
  | addToReviewList u f =>
    exact ⟨⟨h.apart, h.graph, h.options, h.prefs, h.override, h.clock, h.blacklist, h.trials, h.deltas, h.rewards, h.caches⟩, by
      cases f <;> rfl⟩
  | removeFromReviewList u f =>
    exact ⟨⟨h.apart, h.graph, h.options, h.prefs, h.override, h.clock, h.blacklist, h.trials, h.deltas, h.rewards, h.caches⟩, by
      cases f <;> rfl⟩
  | recordScores es f =>
    have := h.trials.record b.sortV es f
    exact ⟨⟨h.apart, h.graph, h.options, h.prefs, h.override, h.clock, h.blacklist, this.1, h.deltas, h.rewards, h.caches⟩, this.2⟩
  | trimScores n s =>
    have : s = none := hc
    subst this
    exact ⟨⟨h.apart, h.graph, h.options, h.prefs, h.override, h.clock, h.blacklist, h.trials.trim b.sortV n, h.deltas, h.rewards,
      h.caches⟩, rfl⟩
  | removeScores p s =>
    have : s = none := hc
    subst this
    exact ⟨⟨h.apart, h.graph, h.options, h.prefs, h.override, h.clock, h.blacklist, h.trials.remove p, h.deltas, h.rewards, h.caches⟩, rfl⟩
  | recordDeltas es f =>
    have := h.deltas.record b.sortV es f
    exact ⟨⟨h.apart, h.graph, h.options, h.prefs, h.override, h.clock, h.blacklist, h.trials, this.1, h.rewards, h.caches⟩, this.2⟩
  | trimDeltas n s =>
    have : s = none := hc
    subst this
    exact ⟨⟨h.apart, h.graph, h.options, h.prefs, h.override, h.clock, h.blacklist, h.trials, h.deltas.trim b.sortV n, h.rewards,
      h.caches⟩, rfl⟩
  | removeDeltas p s =>
    have : s = none := hc
    subst this
    exact ⟨⟨h.apart, h.graph, h.options, h.prefs, h.override, h.clock, h.blacklist, h.trials, h.deltas.remove p, h.rewards, h.caches⟩, rfl⟩
  | recordRewards rs f =>
    have := h.rewards.record b.sortW hW hc f
    exact ⟨⟨h.apart, h.graph, h.options, h.prefs, h.override, h.clock, h.blacklist, h.trials, h.deltas, this.1, h.caches⟩,
      congrArg Option.isSome this.2⟩
  | trimRewards n s =>
    have : s = none := hc
    subst this
    exact ⟨⟨h.apart, h.graph, h.options, h.prefs, h.override, h.clock, h.blacklist, h.trials, h.deltas, h.rewards.trim b.sortW hW n,
      h.caches⟩, rfl⟩
  | removeRewards p s =>
    have : s = none := hc
    subst this
    exact ⟨⟨h.apart, h.graph, h.options, h.prefs, h.override, h.clock, h.blacklist, h.trials, h.deltas, h.rewards.remove b.sortW p,
      h.caches⟩, rfl⟩
  | setPreferences p f =>
    cases f
    · exact ⟨⟨h.apart, h.graph, h.options, rfl, h.override, h.clock, h.blacklist, h.trials, h.deltas, h.rewards, h.caches⟩, rfl⟩
    · exact ⟨h, rfl⟩
  | editGraph o => exact hc.elim
  | scoreExercise x g ts fuel order f => exact beside_score hV hW he h hc.1 g ts fuel hc.2 f
  | getUnitScore u n =>
    have hf := fol_score hap hw n hc
    refine ⟨⟨h.apart, h.graph, h.options, h.prefs, h.override, h.clock, h.blacklist, h.trials, h.deltas, h.rewards,
      after_on hf h.caches⟩, ?_⟩
    show (scoreC (t'.sys.world (t'.config b)) n u t'.caches).isSome = (scoreC (t.sys.world (t.config b)) n u t.caches).isSome
    rcases hf t.caches t'.caches h.caches with ⟨e, e'⟩ | ⟨a, d, d', e, e', -⟩
    · rw [e, e']
    · rw [e, e']; rfl
  | getBatch q => exact hc.elim
  | invalidate u =>
    refine ⟨⟨h.apart, h.graph, h.options, h.prefs, h.override, h.clock, h.blacklist, h.trials, h.deltas, h.rewards, ?_⟩, rfl⟩
    show CachesOn D (invalidate t.graph t.caches u) (invalidate t'.graph t'.caches u)
    rw [h.graph]; exact invalidate_on _ h.caches u
  | invalidatePrefix p =>
    exact ⟨⟨h.apart, h.graph, h.options, h.prefs, h.override, h.clock, h.blacklist, h.trials, h.deltas, h.rewards,
      invalidatePrefix_on _ h.caches⟩, rfl⟩
  | options o =>
    exact ⟨⟨h.apart, h.graph, congrArg (fun s => s.call o) h.options, h.prefs, h.override, h.clock, h.blacklist, h.trials, h.deltas,
      h.rewards, h.caches⟩, rfl⟩
  | overrideTime o =>
    exact ⟨⟨h.apart, h.graph, h.options, h.prefs, rfl, h.clock, h.blacklist, h.trials, h.deltas, h.rewards, h.caches⟩, rfl⟩
  | wait c =>
    exact ⟨⟨h.apart, h.graph, h.options, h.prefs, h.override, rfl, h.blacklist, h.trials, h.deltas, h.rewards, h.caches⟩, rfl⟩
  | restart g =>
    by_cases hv : (schedulerOptions t.prefs).verify = true
    · have hv' : (schedulerOptions t'.prefs).verify = true := by rw [h.prefs]; exact hv
      simp only [step, if_pos hv, if_pos hv']
      exact ⟨⟨hc, rfl, by rw [h.prefs], h.prefs, rfl, h.clock, (h.blacklist.step (o := .reopen) trivial).1, h.trials, h.deltas,
        h.rewards.reopen b.sortW, .refl _ _⟩, trivial⟩
    · have hv' : ¬ (schedulerOptions t'.prefs).verify = true := by rw [h.prefs]; exact hv
      simp only [step, if_neg hv, if_neg hv']
      exact ⟨h, trivial⟩

/-- A call about other units on the first object only. -/
theorem beside_off (h : Beside b D t t') {c : Call R} (hc : Elsewhere D c) : Beside b D (step b t c).1 t' := by
  have hap : Apart (t.sys.world (t.config b)).graph D := h.apart
  cases c <;> try exact hc.elim
  case addToBlacklist u f =>
    exact ⟨h.apart, h.graph, h.options, h.prefs, h.override, h.clock, h.blacklist.step_off (o := .add u f) hc, h.trials, h.deltas, h.rewards,
      (CachesOn.symm' (invalidate_off h.apart t.caches hc)).trans h.caches⟩
  case removeFromBlacklist u f =>
    exact ⟨h.apart, h.graph, h.options, h.prefs, h.override, h.clock, h.blacklist.step_off (o := .remove u f) hc, h.trials, h.deltas,
      h.rewards, (CachesOn.symm' (invalidate_off h.apart t.caches hc)).trans h.caches⟩
  case removePrefixFromBlacklist p f =>
    refine ⟨h.apart, h.graph, h.options, h.prefs, h.override, h.clock, h.blacklist.step_off (o := .removePrefix p f) hc, h.trials, h.deltas,
      h.rewards, (CachesOn.symm' (invalidatePrefix_off _ t.caches ?_)).trans h.caches⟩
    intro u hu
    by_contra hp
    have := likePrefix_of_prefix p u (List.isPrefixOf_iff_prefix.1 (by simpa using hp))
    rw [hc u hu] at this
    cases this
  case blacklisted u =>
    exact ⟨h.apart, h.graph, h.options, h.prefs, h.override, h.clock, h.blacklist.step_off (o := .query u) hc, h.trials, h.deltas, h.rewards,
      h.caches⟩
  case addToReviewList u f => exact ⟨h.apart, h.graph, h.options, h.prefs, h.override, h.clock, h.blacklist, h.trials, h.deltas, h.rewards, h.caches⟩
  case removeFromReviewList u f =>
    exact ⟨h.apart, h.graph, h.options, h.prefs, h.override, h.clock, h.blacklist, h.trials, h.deltas, h.rewards, h.caches⟩
  case recordScores es f =>
    exact ⟨h.apart, h.graph, h.options, h.prefs, h.override, h.clock, h.blacklist, h.trials.record_off b.sortV hc f, h.deltas, h.rewards, h.caches⟩
  case removeScores p s =>
    exact ⟨h.apart, h.graph, h.options, h.prefs, h.override, h.clock, h.blacklist, h.trials.remove_off hc s, h.deltas, h.rewards, h.caches⟩
  case recordDeltas es f =>
    exact ⟨h.apart, h.graph, h.options, h.prefs, h.override, h.clock, h.blacklist, h.trials, h.deltas.record_off b.sortV hc f, h.rewards, h.caches⟩
  case removeDeltas p s =>
    exact ⟨h.apart, h.graph, h.options, h.prefs, h.override, h.clock, h.blacklist, h.trials, h.deltas.remove_off hc s, h.rewards, h.caches⟩
  case recordRewards rs f =>
    exact ⟨h.apart, h.graph, h.options, h.prefs, h.override, h.clock, h.blacklist, h.trials, h.deltas, (h.rewards.record_off b.sortW hc f).1,
      h.caches⟩
  case removeRewards p s =>
    exact ⟨h.apart, h.graph, h.options, h.prefs, h.override, h.clock, h.blacklist, h.trials, h.deltas, h.rewards.remove_off b.sortW hc s, h.caches⟩
  case scoreExercise x g ts fuel order f => exact beside_score_off h hc.1 g ts fuel hc.2 f
  case getUnitScore u n =>
    exact ⟨h.apart, h.graph, h.options, h.prefs, h.override, h.clock, h.blacklist, h.trials, h.deltas, h.rewards,
      (CachesOn.symm' (after_off (fra_score hap n hc))).trans h.caches⟩
  case getBatch q =>
    simp only [step]
    rcases t.batch q with _ | ⟨s, r⟩
    · exact h
    · exact ⟨h.apart, h.graph, h.options, h.prefs, h.override, h.clock, h.blacklist, h.trials, h.deltas, h.rewards,
        (CachesOn.symm' (asks_off h.apart q.asks t.caches hc)).trans h.caches⟩
  case invalidate u =>
    exact ⟨h.apart, h.graph, h.options, h.prefs, h.override, h.clock, h.blacklist, h.trials, h.deltas, h.rewards,
      (CachesOn.symm' (invalidate_off h.apart t.caches hc)).trans h.caches⟩
  case invalidatePrefix p =>
    refine ⟨h.apart, h.graph, h.options, h.prefs, h.override, h.clock, h.blacklist, h.trials, h.deltas, h.rewards,
      (CachesOn.symm' (invalidatePrefix_off _ t.caches ?_)).trans h.caches⟩
    intro u hu
    by_contra hp
    exact hc u hu (List.isPrefixOf_iff_prefix.1 (by simpa using hp))

/-- A batch on each object. -/
theorem beside_batch [DecidablePred D] (hV : Blind b.sortV) (hW : Blind b.sortW) (he : D []) (h : Beside b D t t') (hs : Sound b t')
    {q q' : Request} (e : q'.asks.filter (fun a => D a.unit) = q.asks.filter (fun a => D a.unit)) (hq : (t.batch q).isSome)
    (hq' : (t'.batch q').isSome) : Beside b D (step b t (.getBatch q)).1 (step b t' (.getBatch q')).1 := by
  obtain ⟨⟨s, r⟩, e1⟩ := Option.isSome_iff_exists.1 hq
  obtain ⟨⟨s', r'⟩, e2⟩ := Option.isSome_iff_exists.1 hq'
  simp only [step, e1, e2]
  exact ⟨h.apart, h.graph, h.options, h.prefs, h.override, h.clock, h.blacklist, h.trials, h.deltas, h.rewards,
    asks_both hV hW he h hs e h.caches⟩

end

theorem completes_cons {b : Base R} {t : Top R} {c : Call R} {h : List (Call R)} (hc : Completes b t (c :: h)) :
    Completes b (step b t c).1 h := by
  intro h1 q h2 e
  have := hc (c :: h1) q h2 (by rw [e]; rfl)
  exact this

theorem beside_runs {b : Base R} {D : Str → Prop} [DecidablePred D] (hV : Blind b.sortV) (hW : Blind b.sortW) (he : D [])
    {h h' : List (Call R)} (hw : Without D h h') : ∀ {t t' : Top R}, Beside b D t t' → Sound b t' → Completes b t h → Completes b t' h' →
    Beside b D (runs b t h) (runs b t' h') ∧ Sound b (runs b t' h') := by
  induction hw with
  | nil => intro t t' hb hs _ _; exact ⟨hb, hs⟩
  | kept c hk _ ih =>
    intro t t' hb hs c1 c2
    exact ih (beside_kept hV hW he hb hk).1 (sound_step b t' c hs) (completes_cons c1) (completes_cons c2)
  | left_out c hk _ ih =>
    intro t t' hb hs c1 c2
    exact ih (beside_off hb hk) hs (completes_cons c1) c2
  | batch q q' e _ ih =>
    intro t t' hb hs c1 c2
    exact ih (beside_batch hV hW he hb hs e (c1 [] q _ rfl) (c2 [] q' _ rfl)) (sound_step b t' _ hs) (completes_cons c1) (completes_cons c2)

end Trane.TopLevel
