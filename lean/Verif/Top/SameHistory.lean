import Verif.Top.Model
import Verif.Top.OfferOrder
import Verif.Sched.TouchesOrder
import Verif.Sched.ScoreOrderProps
import Verif.Store.RewardsOrder

/-!
# C107: the same history of calls on a library that was opened differently, specification and lemmas
-/

namespace Trane.TopLevel
open Trane.Store
open Trane.UnitScorer

variable {R : Type} [Field R] [LinearOrder R]

/-! ### Specification -/

/-- The same units, parents, dependencies and superseding units, in any order; neither has weights of its own. -/
structure Mirrors (g g' : Graph Str) : Prop where
  sets : SameSets g g'
  dependencies : ∀ u v, Graph.DependsOn g' u v ↔ Graph.DependsOn g u v
  dependents : ∀ u v, Graph.HasDependent g' u v ↔ Graph.HasDependent g u v
  plain : g.encompassingEqualsDependency = true
  plain' : g'.encompassingEqualsDependency = true

/-- What a query of a batch is about; the bound on its steps is forgotten. -/
def Ask.about : Ask → Query Str
  | .score u _ => .score u
  | .lessonTrials u => .lesT u
  | .courseTrials u _ => .couT u

/-- The queries of a batch all come to an end. -/
def AllAnswered (b : Base R) (t : Top R) : Caches Str R → List Ask → Prop
  | _, [] => True
  | c, .score u n :: as => (scoreC (t.sys.world (t.config b)) n u c).isSome ∧ AllAnswered b t (t.ask b c (.score u n)) as
  | c, .lessonTrials u :: as =>
    (lessonTrialsC (t.sys.world (t.config b)) u c).isSome ∧ AllAnswered b t (t.ask b c (.lessonTrials u)) as
  | c, .courseTrials u n :: as =>
    (courseTrialsC (t.sys.world (t.config b)) n u c).isSome ∧ AllAnswered b t (t.ask b c (.courseTrials u n)) as

/-- The call comes to an end. -/
def Ends (b : Base R) (t : Top R) : Call R → Prop
  | .scoreExercise x g ts fuel order f => (System.scoreExercise (t.config b) order fuel t.sys x g ts f).isSome
  | .getUnitScore u n => (scoreC (t.sys.world (t.config b)) n u t.caches).isSome
  | .getBatch q => (t.batch q).isSome ∧ AllAnswered b t t.caches q.asks
  | _ => True

/-- The same call made on two objects.  What may differ is what the caller does not decide: the bounds on the steps, the
order in which rewards are listed, the random choices of a batch and the order in which it looks at scores, and the order of
the sets in the graph of a library that is opened again.  Database errors are the same, and none interrupts a list of rewards;
the graph is not edited by hand. -/
inductive SameCall : Call R → Call R → Prop
  | addToBlacklist u f : SameCall (.addToBlacklist u f) (.addToBlacklist u f)
  | removeFromBlacklist u f : SameCall (.removeFromBlacklist u f) (.removeFromBlacklist u f)
  | removePrefixFromBlacklist p f : SameCall (.removePrefixFromBlacklist p f) (.removePrefixFromBlacklist p f)
  | blacklisted u : SameCall (.blacklisted u) (.blacklisted u)
  | addToReviewList u f : SameCall (.addToReviewList u f) (.addToReviewList u f)
  | removeFromReviewList u f : SameCall (.removeFromReviewList u f) (.removeFromReviewList u f)
  | recordScores es f : SameCall (.recordScores es f) (.recordScores es f)
  | trimScores n s : SameCall (.trimScores n s) (.trimScores n s)
  | removeScores p s : SameCall (.removeScores p s) (.removeScores p s)
  | recordDeltas es f : SameCall (.recordDeltas es f) (.recordDeltas es f)
  | trimDeltas n s : SameCall (.trimDeltas n s) (.trimDeltas n s)
  | removeDeltas p s : SameCall (.removeDeltas p s) (.removeDeltas p s)
  | recordRewards rs f : SameCall (.recordRewards rs f) (.recordRewards rs f)
  | trimRewards n : SameCall (.trimRewards n none) (.trimRewards n none)
  | removeRewards p : SameCall (.removeRewards p none) (.removeRewards p none)
  | setPreferences p f : SameCall (.setPreferences p f) (.setPreferences p f)
  | scoreExercise x g ts {fuel fuel' order order'} (d e : Bool) : (∀ l, (order l).Perm l) → (∀ l, (order' l).Perm l) →
      SameCall (.scoreExercise x g ts fuel order ⟨d, e, none⟩) (.scoreExercise x g ts fuel' order' ⟨d, e, none⟩)
  | getUnitScore u {n n'} : SameCall (.getUnitScore u n) (.getUnitScore u n')
  | getBatch {q q' : Request} : (∀ x, (∃ a ∈ q.asks, a.about = x) ↔ ∃ a ∈ q'.asks, a.about = x) → SameCall (.getBatch q) (.getBatch q')
  | invalidate u : SameCall (.invalidate u) (.invalidate u)
  | invalidatePrefix p : SameCall (.invalidatePrefix p) (.invalidatePrefix p)
  | options c : SameCall (.options c) (.options c)
  | overrideTime o : SameCall (.overrideTime o) (.overrideTime o)
  | wait c : SameCall (.wait c) (.wait c)
  | restart {g g'} : Mirrors g g' → SameCall (.restart g) (.restart g')

/-- The call asks for a batch; its result is random. -/
def Call.isBatch : Call R → Bool
  | .getBatch _ => true
  | _ => false

/-- The same history on two objects; every call comes to an end. -/
inductive SameHistory (b : Base R) : Top R → Top R → List (Call R) → List (Call R) → Prop
  | nil {t t'} : SameHistory b t t' [] []
  | cons {t t' c c' h h'} : SameCall c c' → Ends b t c → Ends b t' c' → SameHistory b (step b t c).1 (step b t' c').1 h h' →
      SameHistory b t t' (c :: h) (c' :: h')

/-- Two objects that differ in the numbers of the rows of the database of rewards, the order of their sets and the session only. -/
structure Twins (t t' : Top R) : Prop where
  blacklist : t'.blacklist = t.blacklist
  review : t'.review = t.review
  trials : t'.trials = t.trials
  deltas : t'.deltas = t.deltas
  rewards : Rewards.Alike t.rewards t'.rewards
  prefs : t'.prefs = t.prefs
  graph : Mirrors t.graph t'.graph
  options : t'.options = t.options
  caches : SameCaches t.caches t'.caches
  override : t'.override = t.override
  clock : t'.clock = t.clock

/-! ### Lemmas -/

theorem twins_world {b : Base R} (hS : Blind b.sortW) {t t' : Top R} (h : Twins t t') :
    t'.sys.world (t'.config b) = (t.sys.world (t.config b)).on t'.graph := by
  unfold System.State.world Top.sys Top.config World.on
  have e : ∀ u n, t'.rewards.table.get b.sortW u n = t.rewards.table.get b.sortW u n :=
    fun u n => Table.same_get b.sortW hS h.rewards.wf u (h.rewards.at_ u).history n
  simp only [h.blacklist, h.trials, h.deltas, h.options, h.override, h.clock, e]

section
variable {ι T W : Type} [DecidableEq ι] {w : World ι R T W} {g : Graph ι} {c c' d d' : Caches ι R}

theorem same_score (h : SameSets w.graph g) (hc : SameCaches c c') {u : ι} {n n' : Nat} {v v' : Option R}
    (e : scoreC w n u c = some (v, d)) (e' : scoreC (w.on g) n' u c' = some (v', d')) :
    v' = v ∧ SameCaches d d' ∧ Fills w c (Touches w c (.score u)) d ∧ Fills (w.on g) c' (Touches w c (.score u)) d' := by
  have f1 := fills_step (fills_refl w c) (adds_score n u) (hered_touches _) (ag_score w c n u) e
  have f2 := fills_step (fills_refl (w.on g) c') (adds_score n' u) (hered_touches _) (ag_score (w.on g) c' n' u) e'
  have f1' : Fills w c (Touches w c (.score u)) d := ⟨f1.grown, f1.whole, fun k => by rw [f1.has]; simp⟩
  have f2' : Fills (w.on g) c' (Touches w c (.score u)) d' :=
    ⟨f2.grown, f2.whole, fun k => by rw [f2.has, same_touches_iff h hc]; simp⟩
  obtain ⟨k, hk⟩ := ((ag_score w c n u).snd c v d (grown_refl w c) e).2
  obtain ⟨k', hk'⟩ := ((ag_score (w.on g) c' n' u).snd c' v' d' (grown_refl _ c') e').2
  rw [hc.scoreO, on_scoreO h] at hk'
  exact ⟨mono_unique (omono_score w c u) hk' hk, same_fills h hc (fun _ => Iff.rfl) f1' f2', f1', f2'⟩

/-- The answers are the same. -/
theorem same_answers_of (h : SameSets w.graph g) (hc : SameCaches c c') (u : ι) :
    (∀ v, Answers w c u v ↔ Answers (w.on g) c' u v) ∧
    (∀ v, AnswersLessonTrials w c u v ↔ AnswersLessonTrials (w.on g) c' u v) ∧
    (∀ v, AnswersCourseTrials w c u v ↔ AnswersCourseTrials (w.on g) c' u v) ∧
    ∀ b, AnswersSuperseded w c u b ↔ AnswersSuperseded (w.on g) c' u b := by
  obtain ⟨a1, a2, a3, a4⟩ := order_same_scores h c u
  have h0 := grown_refl (w.on g) c
  have h1 := grown_refl (w.on g) c'
  refine ⟨fun v => (a1 v).trans ?_, fun v => (a2 v).trans ?_, fun v => (a3 v).trans ?_, fun v => (a4 v).trans ?_⟩
  · refine (agrees_iff (fun n => ag_score (w.on g) c n u) h0 v).trans (Iff.trans ?_
      (agrees_iff (fun n => ag_score (w.on g) c' n u) h1 v).symm)
    rw [hc.scoreO]
  · obtain ⟨c1, e1, -⟩ := (ag_lessonTrials (w.on g) c u).sim _ rfl c h0
    obtain ⟨c2, e2, -⟩ := (ag_lessonTrials (w.on g) c' u).sim _ rfl c' h1
    unfold AnswersLessonTrials
    rw [e1, e2, hc.lessonTrialsO]
    constructor
    · rintro ⟨c', h⟩; cases h; exact ⟨c2, rfl⟩
    · rintro ⟨c', h⟩; cases h; exact ⟨c1, rfl⟩
  · refine (agrees_iff (fun n => ag_courseTrials (w.on g) c n u) h0 v).trans (Iff.trans ?_
      (agrees_iff (fun n => ag_courseTrials (w.on g) c' n u) h1 v).symm)
    rw [hc.courseTrialsO]
  · refine (agrees_iff (fun n => ag_check (w.on g) c (ag_score (w.on g) c n) n u) h0 v).trans (Iff.trans ?_
      (agrees_iff (fun n => ag_check (w.on g) c' (ag_score (w.on g) c' n) n u) h1 v).symm)
    rw [hc.scoreO, hc.over]

end

/-- The entries after the queries of a batch. -/
theorem fills_asks (b : Base R) (t : Top R) (c0 : Caches Str R) (as : List Ask) : ∀ (F : Key Str → Prop) (c : Caches Str R),
    Fills (t.sys.world (t.config b)) c0 F c → AllAnswered b t c as →
    Fills (t.sys.world (t.config b)) c0
      (fun k => F k ∨ ∃ q, (∃ a ∈ as, a.about = q) ∧ Touches (t.sys.world (t.config b)) c0 q k) (as.foldl (t.ask b) c) := by
  induction as with
  | nil => intro F c hc _; exact ⟨hc.grown, hc.whole, fun k => by rw [List.foldl_nil, hc.has]; simp⟩
  | cons a as ih =>
    intro F c hc ha
    have key : ∃ c1, t.ask b c a = c1 ∧ Fills (t.sys.world (t.config b)) c0
        (fun k => F k ∨ Touches (t.sys.world (t.config b)) c0 a.about k) c1 ∧ AllAnswered b t c1 as := by
      refine ⟨_, rfl, ?_⟩
      cases a with
      | score u n =>
        obtain ⟨h1, h2⟩ := ha
        obtain ⟨⟨v, c1⟩, e⟩ := Option.isSome_iff_exists.1 h1
        refine ⟨?_, h2⟩
        simp only [Top.ask, e, after]
        exact fills_step hc (adds_score n u) (hered_touches _) (ag_score _ c0 n u) e
      | lessonTrials u =>
        obtain ⟨h1, h2⟩ := ha
        obtain ⟨⟨v, c1⟩, e⟩ := Option.isSome_iff_exists.1 h1
        refine ⟨?_, h2⟩
        simp only [Top.ask, e, after]
        exact fills_step hc (adds_lessonTrials u) (hered_touches _) (ag_lessonTrials _ c0 u) e
      | courseTrials u n =>
        obtain ⟨h1, h2⟩ := ha
        obtain ⟨⟨v, c1⟩, e⟩ := Option.isSome_iff_exists.1 h1
        refine ⟨?_, h2⟩
        simp only [Top.ask, e, after]
        exact fills_step hc (adds_courseTrials n u) (hered_touches _) (ag_courseTrials _ c0 n u) e
    obtain ⟨c1, e1, f1, a1⟩ := key
    rw [List.foldl_cons, e1]
    have f2 := ih _ c1 f1 a1
    refine ⟨f2.grown, f2.whole, fun k => ?_⟩
    rw [f2.has]
    constructor
    · rintro (h | (h | h) | ⟨q, ⟨x, hx, hq⟩, h⟩)
      · exact .inl h
      · exact .inr (.inl h)
      · exact .inr (.inr ⟨_, ⟨a, List.mem_cons_self, rfl⟩, h⟩)
      · exact .inr (.inr ⟨q, ⟨x, List.mem_cons_of_mem _ hx, hq⟩, h⟩)
    · rintro (h | h | ⟨q, ⟨x, hx, hq⟩, h⟩)
      · exact .inl h
      · exact .inr (.inl (.inl h))
      · rcases List.mem_cons.1 hx with rfl | hx
        · exact .inr (.inl (.inr (by rw [hq]; exact h)))
        · exact .inr (.inr ⟨q, ⟨x, hx, hq⟩, h⟩)

/-- Grading an exercise. -/
theorem twins_score {b : Base R} (hS : Blind b.sortW) {t t' : Top R} (h : Twins t t') (x : Str) (g : MasteryScore) (ts : Int)
    {fuel fuel' : Nat} {order order' : List Reward → List Reward} (d e : Bool) (ho : ∀ l, (order l).Perm l) (ho' : ∀ l, (order' l).Perm l)
    {s s' : System.State R} {ok ok' : Bool}
    (hs : System.scoreExercise (t.config b) order fuel t.sys x g ts ⟨d, e, none⟩ = some (s, ok))
    (hs' : System.scoreExercise (t'.config b) order' fuel' t'.sys x g ts ⟨d, e, none⟩ = some (s', ok')) :
    Twins (t.putSys s) (t'.putSys s') ∧ ok' = ok := by
  have hw := twins_world hS h
  unfold System.scoreExercise at hs hs'
  rw [hw] at hs'
  have hc : t'.sys.caches = t'.caches := rfl
  have hc0 : t.sys.caches = t.caches := rfl
  rw [hc] at hs'
  rw [hc0] at hs
  cases e1 : scoreC (t.sys.world (t.config b)) fuel x t.caches with
  | none => rw [e1] at hs; cases hs
  | some p =>
  obtain ⟨v, c1⟩ := p
  cases e1' : scoreC ((t.sys.world (t.config b)).on t'.graph) fuel' x t'.caches with
  | none => rw [e1'] at hs'; cases hs'
  | some p' =>
  obtain ⟨v', c1'⟩ := p'
  rw [e1] at hs
  rw [e1'] at hs'
  obtain ⟨rfl, -, f1, f1'⟩ := same_score (w := t.sys.world (t.config b)) (g := t'.graph) h.graph.sets h.caches e1 e1'
  dsimp only at hs hs'
  cases e2 : exC (t.sys.world (t.config b)) x c1 with
  | none => rw [e2] at hs; cases hs
  | some p =>
  obtain ⟨r, c2⟩ := p
  cases e2' : exC ((t.sys.world (t.config b)).on t'.graph) x c1' with
  | none => rw [e2'] at hs'; cases hs'
  | some p' =>
  obtain ⟨r', c2'⟩ := p'
  rw [e2] at hs
  rw [e2'] at hs'
  have f2 := fills_step f1 (adds_exC x) (hered_touches _) (ag_exC _ t.caches x) e2
  have f2' := fills_step f1' (adds_exC x) (hered_touches _) (ag_exC _ t'.caches x) e2'
  have hC : SameCaches c2 c2' := same_fills (w := t.sys.world (t.config b)) (g := t'.graph) h.graph.sets h.caches
    (fun k => by rw [same_touches_iff (w := t.sys.world (t.config b)) h.graph.sets h.caches]) f2 f2'
  have hr : r' = r := by
    obtain ⟨k, hk⟩ := ((ag_exC (t.sys.world (t.config b)) t.caches x).snd c1 r c2 f1.grown e2).2
    obtain ⟨k', hk'⟩ := ((ag_exC ((t.sys.world (t.config b)).on t'.graph) t'.caches x).snd c1' r' c2' f1'.grown e2').2
    rw [← Option.some.inj hk, ← Option.some.inj hk', h.caches.over, over_on,
      on_exRec (w := over (t.sys.world (t.config b)) t.caches) h.graph.sets]
  subst hr
  dsimp only at hs hs'
  have hV : (t'.config b).sortV = (t.config b).sortV := rfl
  have hd : t'.sys.deltas = t.sys.deltas := h.deltas
  have ht : t'.sys.trials = t.sys.trials := h.trials
  rw [hV, hd, ht] at hs'
  generalize (if 0 < r'.trials then t.sys.deltas.step (t.config b).sortV
    (.record [⟨x, System.gradeVal R g - v'.getD 0, ts⟩] d) else (t.sys.deltas, true)) = D at hs hs'
  obtain ⟨D1, D2⟩ := D
  dsimp only at hs hs'
  cases D2 with
  | false =>
    simp only [if_true, Option.some.injEq, Prod.mk.injEq] at hs hs'
    obtain ⟨rfl, rfl⟩ := hs
    obtain ⟨rfl, rfl⟩ := hs'
    exact ⟨⟨h.blacklist, h.review, rfl, rfl, h.rewards, h.prefs, h.graph, h.options, hC, h.override, h.clock⟩, rfl⟩
  | true =>
  simp only [Bool.true_eq_false, if_false] at hs hs'
  generalize t.sys.trials.step (t.config b).sortV (.record [⟨x, System.gradeVal R g, ts⟩] e) = E at hs hs'
  obtain ⟨E1, E2⟩ := E
  dsimp only at hs hs'
  cases E2 with
  | false =>
    simp only [if_true, Option.some.injEq, Prod.mk.injEq] at hs hs'
    obtain ⟨rfl, rfl⟩ := hs
    obtain ⟨rfl, rfl⟩ := hs'
    exact ⟨⟨h.blacklist, h.review, rfl, rfl, h.rewards, h.prefs, h.graph, h.options, hC, h.override, h.clock⟩, rfl⟩
  | true =>
  simp only [Bool.true_eq_false, if_false] at hs hs'
  have hg0 : t.sys.graph = t.graph := rfl
  have hg1 : t'.sys.graph = t'.graph := rfl
  rw [hg0] at hs
  rw [hg1] at hs'
  cases e3 : Propagator.propagate t.graph [] fuel x g ts with
  | none => rw [e3] at hs; cases hs
  | some rs =>
  cases e3' : Propagator.propagate t'.graph [] fuel' x g ts with
  | none => rw [e3'] at hs'; cases hs'
  | some rs' =>
  rw [e3] at hs
  rw [e3'] at hs'
  have hp : rs.Perm rs' := Propagator.order_same_rewards_of [] x g ts h.graph.sets.exerciseLesson h.graph.sets.lessonCourse
    h.graph.dependencies h.graph.dependents h.graph.plain h.graph.plain' ⟨fuel, e3⟩ ⟨fuel', e3'⟩
  have hn := (Propagator.rewards_bounded_of (Propagator.validWeights_default h.graph.plain) [] x g ts rs ⟨fuel, e3⟩).1
  have hp2 : (order (rs.map System.toStore)).Perm (order' (rs'.map System.toStore)) :=
    (ho _).trans ((hp.map _).trans (ho' _).symm)
  have hn2 : ((order (rs.map System.toStore)).map Reward.unit).Nodup := by
    rw [((ho _).map Reward.unit).nodup_iff, List.map_map]
    exact hn
  obtain ⟨hA, ids, ids', h1, h2, h3⟩ := Rewards.record_any_order b.sortW hS h.rewards hp2 hn2
  have hW : (t.config b).sortW = b.sortW := rfl
  have hW' : (t'.config b).sortW = b.sortW := rfl
  have hR : t.sys.rewards = t.rewards := rfl
  have hR' : t'.sys.rewards = t'.rewards := rfl
  dsimp only at hs hs'
  rw [hW, hR] at hs
  rw [hW', hR'] at hs'
  generalize t.rewards.record b.sortW (order (rs.map System.toStore)) none = P at hs hA h1
  generalize t'.rewards.record b.sortW (order' (rs'.map System.toStore)) none = P' at hs' hA h2
  obtain ⟨P1, P2⟩ := P
  obtain ⟨P1', P2'⟩ := P'
  dsimp only at h1 h2 hA
  subst h1 h2
  simp only [Option.some.injEq, Prod.mk.injEq] at hs hs'
  obtain ⟨rfl, rfl⟩ := hs
  obtain ⟨rfl, rfl⟩ := hs'
  refine ⟨⟨h.blacklist, h.review, rfl, rfl, hA, h.prefs, h.graph, h.options, ?_, h.override, h.clock⟩, rfl⟩
  exact same_invalidations h.graph.sets (same_invalidate h.graph.sets hC x) (fun u => h3.mem_iff.symm)

/-- **One call**: twins stay twins, and the call returns the same. -/
theorem twins_step {b : Base R} (hS : Blind b.sortW) {t t' : Top R} (h : Twins t t') {c c' : Call R} (hc : SameCall c c')
    (he : Ends b t c) (he' : Ends b t' c') :
    Twins (step b t c).1 (step b t' c').1 ∧ (c.isBatch = false → (step b t' c').2 = (step b t c).2) := by
  cases hc with
  | addToBlacklist u f =>
    simp only [step, h.blacklist]
    exact ⟨⟨rfl, h.review, h.trials, h.deltas, h.rewards, h.prefs, h.graph, h.options,
      same_invalidate h.graph.sets h.caches u, h.override, h.clock⟩, fun _ => by trivial⟩
  | removeFromBlacklist u f =>
    simp only [step, h.blacklist]
    exact ⟨⟨rfl, h.review, h.trials, h.deltas, h.rewards, h.prefs, h.graph, h.options,
      same_invalidate h.graph.sets h.caches u, h.override, h.clock⟩, fun _ => by trivial⟩
  | removePrefixFromBlacklist p f =>
    simp only [step, h.blacklist]
    exact ⟨⟨rfl, h.review, h.trials, h.deltas, h.rewards, h.prefs, h.graph, h.options,
      same_invalidatePrefix h.caches _, h.override, h.clock⟩, fun _ => by trivial⟩
  | blacklisted u =>
    simp only [step, h.blacklist]
    exact ⟨⟨rfl, h.review, h.trials, h.deltas, h.rewards, h.prefs, h.graph, h.options, h.caches, h.override, h.clock⟩, fun _ => by trivial⟩
  | addToReviewList u f =>
    simp only [step, h.review]
    exact ⟨⟨h.blacklist, rfl, h.trials, h.deltas, h.rewards, h.prefs, h.graph, h.options, h.caches, h.override, h.clock⟩, fun _ => by trivial⟩
  | removeFromReviewList u f =>
    simp only [step, h.review]
    exact ⟨⟨h.blacklist, rfl, h.trials, h.deltas, h.rewards, h.prefs, h.graph, h.options, h.caches, h.override, h.clock⟩, fun _ => by trivial⟩
  | recordScores es f =>
    simp only [step, h.trials]
    exact ⟨⟨h.blacklist, h.review, rfl, h.deltas, h.rewards, h.prefs, h.graph, h.options, h.caches, h.override, h.clock⟩, fun _ => by trivial⟩
  | trimScores n s =>
    simp only [step, h.trials]
    exact ⟨⟨h.blacklist, h.review, rfl, h.deltas, h.rewards, h.prefs, h.graph, h.options, h.caches, h.override, h.clock⟩, fun _ => by trivial⟩
  | removeScores p s =>
    simp only [step, h.trials]
    exact ⟨⟨h.blacklist, h.review, rfl, h.deltas, h.rewards, h.prefs, h.graph, h.options, h.caches, h.override, h.clock⟩, fun _ => by trivial⟩
  | recordDeltas es f =>
    simp only [step, h.deltas]
    exact ⟨⟨h.blacklist, h.review, h.trials, rfl, h.rewards, h.prefs, h.graph, h.options, h.caches, h.override, h.clock⟩, fun _ => by trivial⟩
  | trimDeltas n s =>
    simp only [step, h.deltas]
    exact ⟨⟨h.blacklist, h.review, h.trials, rfl, h.rewards, h.prefs, h.graph, h.options, h.caches, h.override, h.clock⟩, fun _ => by trivial⟩
  | removeDeltas p s =>
    simp only [step, h.deltas]
    exact ⟨⟨h.blacklist, h.review, h.trials, rfl, h.rewards, h.prefs, h.graph, h.options, h.caches, h.override, h.clock⟩, fun _ => by trivial⟩
  | recordRewards rs f =>
    obtain ⟨a, e⟩ := Rewards.step_same b.sortW hS h.rewards (.record rs f) ⟨by simp, by simp⟩
    simp only [step, e]
    exact ⟨⟨h.blacklist, h.review, h.trials, h.deltas, a, h.prefs, h.graph, h.options, h.caches, h.override, h.clock⟩, fun _ => by trivial⟩
  | trimRewards n =>
    obtain ⟨a, e⟩ := Rewards.step_same b.sortW hS h.rewards (.trim n none) ⟨by simp, by simp⟩
    simp only [step, e]
    exact ⟨⟨h.blacklist, h.review, h.trials, h.deltas, a, h.prefs, h.graph, h.options, h.caches, h.override, h.clock⟩, fun _ => by trivial⟩
  | removeRewards p =>
    obtain ⟨a, e⟩ := Rewards.step_same b.sortW hS h.rewards (.removePrefix p none) ⟨by simp, by simp⟩
    simp only [step, e]
    exact ⟨⟨h.blacklist, h.review, h.trials, h.deltas, a, h.prefs, h.graph, h.options, h.caches, h.override, h.clock⟩, fun _ => by trivial⟩
  | setPreferences p f =>
    simp only [step]
    cases f with
    | true => exact ⟨h, fun _ => by trivial⟩
    | false =>
      exact ⟨⟨h.blacklist, h.review, h.trials, h.deltas, h.rewards, rfl, h.graph, h.options, h.caches, h.override, h.clock⟩,
        fun _ => by trivial⟩
  | scoreExercise x g ts d e ho ho' =>
    obtain ⟨⟨s, ok⟩, hs⟩ := Option.isSome_iff_exists.1 he
    obtain ⟨⟨s', ok'⟩, hs'⟩ := Option.isSome_iff_exists.1 he'
    obtain ⟨a, rfl⟩ := twins_score hS h x g ts d e ho ho' hs hs'
    simp only [step, hs, hs']
    exact ⟨a, fun _ => by trivial⟩
  | @getUnitScore u n n' =>
    obtain ⟨⟨v, c1⟩, e⟩ := Option.isSome_iff_exists.1 he
    obtain ⟨⟨v', c1'⟩, e'⟩ := Option.isSome_iff_exists.1 he'
    have e2 := e'
    rw [twins_world hS h] at e2
    obtain ⟨-, hC, -⟩ := same_score (w := t.sys.world (t.config b)) h.graph.sets h.caches e e2
    simp only [step, e, e', after]
    exact ⟨⟨h.blacklist, h.review, h.trials, h.deltas, h.rewards, h.prefs, h.graph, h.options, hC, h.override, h.clock⟩,
      fun _ => by trivial⟩
  | @getBatch q q' ha =>
    obtain ⟨h1, h2⟩ := he
    obtain ⟨h1', h2'⟩ := he'
    obtain ⟨⟨s, r⟩, e⟩ := Option.isSome_iff_exists.1 h1
    obtain ⟨⟨s', r'⟩, e'⟩ := Option.isSome_iff_exists.1 h1'
    simp only [step, e, e', Call.isBatch]
    refine ⟨⟨h.blacklist, h.review, h.trials, h.deltas, h.rewards, h.prefs, h.graph, h.options, ?_, h.override, h.clock⟩, by simp⟩
    have f := fills_asks b t t.caches q.asks _ _ (fills_refl _ _) h2
    have f' := fills_asks b t' t'.caches q'.asks _ _ (fills_refl _ _) h2'
    rw [twins_world hS h] at f'
    refine same_fills (w := t.sys.world (t.config b)) h.graph.sets h.caches (fun k => ?_) f f'
    simp only [same_touches_iff (w := t.sys.world (t.config b)) h.graph.sets h.caches, ha]
  | invalidate u =>
    exact ⟨⟨h.blacklist, h.review, h.trials, h.deltas, h.rewards, h.prefs, h.graph, h.options,
      same_invalidate h.graph.sets h.caches u, h.override, h.clock⟩, fun _ => by trivial⟩
  | invalidatePrefix p =>
    exact ⟨⟨h.blacklist, h.review, h.trials, h.deltas, h.rewards, h.prefs, h.graph, h.options,
      same_invalidatePrefix h.caches _, h.override, h.clock⟩, fun _ => by trivial⟩
  | options c =>
    refine ⟨⟨h.blacklist, h.review, h.trials, h.deltas, h.rewards, h.prefs, h.graph, ?_, h.caches, h.override, h.clock⟩, fun _ => by trivial⟩
    simp only [step, h.options]
  | overrideTime o =>
    exact ⟨⟨h.blacklist, h.review, h.trials, h.deltas, h.rewards, h.prefs, h.graph, h.options, h.caches, rfl, h.clock⟩, fun _ => by trivial⟩
  | wait c =>
    exact ⟨⟨h.blacklist, h.review, h.trials, h.deltas, h.rewards, h.prefs, h.graph, h.options, h.caches, h.override, rfl⟩, fun _ => by trivial⟩
  | restart hm =>
    obtain ⟨a, -⟩ := Rewards.step_same b.sortW hS h.rewards .reopen ⟨by simp, by simp⟩
    simp only [step, h.prefs]
    split
    · refine ⟨⟨?_, ?_, ?_, ?_, a, rfl, hm, rfl, .refl _, rfl, h.clock⟩, fun _ => by trivial⟩
      · dsimp only; rw [h.blacklist]
      · dsimp only; rw [h.review]
      · dsimp only; rw [h.trials]
      · dsimp only; rw [h.deltas]
    · exact ⟨h, fun _ => by trivial⟩

end Trane.TopLevel
