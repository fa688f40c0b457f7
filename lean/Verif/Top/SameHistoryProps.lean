import Verif.Top.SameHistory
import Verif.Top.OfferOrderProps
import Verif.Library.ShuffleScores

/-!
# C107: the same history of calls on a library that was opened differently

The full statement has no condition on the manifests; with weights of encompassed units the rewards depend on the order
(`Propagator.rewards_depend_on_order`), so `Mirrors` asks that none are listed.  Batches look at scores and leave them in the
caches; `SameCall` asks that the batches of both histories look at the same ones, in whatever order.
-/

namespace Trane.TopLevel
open Trane.Store
open Trane.UnitScorer
open Trane.Library (Disk Lib FPath Loads GeneratesProper SameFiles Reopened Both)
open Trane.Search (BelowLimits SearchOf Reached initialCandidates IsRnd Rnd)

section
variable {R : Type} [Field R] [LinearOrder R]

/-! ### Specification -/

/-- What the calls of a history return, but for the batches. -/
def returned (b : Base R) : Top R → List (Call R) → List Bool
  | _, [] => []
  | t, c :: h => (if c.isBatch then [] else [(step b t c).2]) ++ returned b (step b t c).1 h

/-- Two objects answer the same to every question about scores, stored data, lists, preferences and options. -/
structure AnswerSame (b : Base R) (t t' : Top R) : Prop where
  score : ∀ u v, GetsScore b t' u v ↔ GetsScore b t u v
  unitTrials : ∀ u v, GetsTrials b t' u v ↔ GetsTrials b t u v
  superseded : ∀ u v, GetsSuperseded b t' u v ↔ GetsSuperseded b t u v
  trials : ∀ u n, t'.trials.get b.sortV u n = t.trials.get b.sortV u n
  deltas : ∀ u n, t'.deltas.get b.sortV u n = t.deltas.get b.sortV u n
  rewards : ∀ u n, t'.rewards.table.get b.sortW u n = t.rewards.table.get b.sortW u n
  blacklisted : ∀ u, t'.blacklist.blacklisted u = t.blacklist.blacklisted u
  review : ReviewList.entries t'.review = ReviewList.entries t.review
  prefs : t'.prefs = t.prefs
  options : t'.options = t.options

/-! ### Theorems -/

/-- Twins answer the same. -/
theorem twins_answer {b : Base R} (hS : Blind b.sortW) {t t' : Top R} (h : Twins t t') : AnswerSame b t t' := by
  have hsc := fun u => same_answers_of (w := t.sys.world (t.config b)) (g := t'.graph) h.graph.sets h.caches u
  have hw := twins_world hS h
  refine ⟨fun u v => ?_, fun u v => ?_, fun u v => ?_, fun u n => by rw [h.trials], fun u n => by rw [h.deltas],
    fun u n => Table.same_get b.sortW hS h.rewards.wf u (h.rewards.at_ u).history n, fun u => by rw [h.blacklist],
    by rw [h.review], h.prefs, h.options⟩
  · unfold GetsScore; rw [hw]; exact ((hsc u).1 v).symm
  · unfold GetsTrials
    rw [hw, h.graph.sets.type]
    cases t.graph.getUnitType u with
    | none => exact Iff.rfl
    | some ty =>
      cases ty with
      | course => exact ((hsc u).2.2.1 v).symm
      | lesson => exact ((hsc u).2.1 v).symm
      | exercise => exact Iff.rfl
  · unfold GetsSuperseded; rw [hw]; exact ((hsc u).2.2.2 v).symm

/-- After the same history twins are still twins, and the calls have returned the same. -/
theorem same_history_twins {b : Base R} (hS : Blind b.sortW) {t t' : Top R} {h h' : List (Call R)} (hh : SameHistory b t t' h h')
    (ht : Twins t t') : Twins (runs b t h) (runs b t' h') ∧ returned b t' h' = returned b t h := by
  induction hh with
  | nil => exact ⟨ht, rfl⟩
  | @cons t t' c c' h h' hc he he' _ ih =>
    obtain ⟨a, r⟩ := twins_step hS ht hc he he'
    obtain ⟨i1, i2⟩ := ih a
    refine ⟨by simpa [runs] using i1, ?_⟩
    have hb : c'.isBatch = c.isBatch := by cases hc <;> rfl
    simp only [returned]
    rw [i2, hb]
    cases e : c.isBatch with
    | true => rfl
    | false => rw [r e]

theorem fresh_twins {g g' : Graph Str} (h : Mirrors g g') (clock : Int) : Twins (fresh g clock : Top R) (fresh g' clock) :=
  ⟨rfl, rfl, rfl, rfl, ⟨fun _ => ⟨rfl, rfl⟩, Table.wf_empty, Table.wf_empty⟩, rfl, h, rfl, .refl _, rfl, rfl⟩

theorem sound_wf {b : Base R} {t : Top R} (h : Sound b t) : Table.Wf t.rewards.table := by
  obtain ⟨ops, e⟩ := h.rewards
  rw [e]
  exact (Rewards.good_run b.sortW ops).wf

/-- **C107.**  Two objects are made on new libraries whose graphs differ in the order of their sets only.  After the same
history of calls they answer the same, and every call but those for batches has returned the same. -/
theorem same_history_same_answers_partial {b : Base R} (hS : Blind b.sortW) {g g' : Graph Str} (hg : Mirrors g g') (clock : Int)
    {h h' : List (Call R)} (hh : SameHistory b (fresh g clock) (fresh g' clock) h h') :
    AnswerSame b (runs b (fresh g clock) h) (runs b (fresh g' clock) h') ∧
    returned b (fresh g' clock) h' = returned b (fresh g clock) h := by
  obtain ⟨a, r⟩ := same_history_twins hS hh (fresh_twins hg clock)
  exact ⟨twins_answer hS a, r⟩

/-- Opening the same library twice gives twins. -/
theorem restart_twins {b : Base R} {t : Top R} (hw : Sound b t) {g g' : Graph Str} (hg : Mirrors g g')
    (ho : (step b t (.restart g)).2 = true) : Twins (step b t (.restart g)).1 (step b t (.restart g')).1 := by
  have hv : (schedulerOptions t.prefs).verify = true := by
    by_contra hv
    simp only [step, hv, Bool.false_eq_true, if_false] at ho
  have hw := sound_wf hw
  simp only [step, if_pos hv]
  exact ⟨rfl, rfl, rfl, rfl, ⟨fun _ => ⟨rfl, rfl⟩, hw, hw⟩, rfl, hg, rfl, .refl _, rfl, rfl⟩

/-- **C107, from an existing directory**: any object whose databases were only used through it is closed; the same library is opened twice, and the same calls are made. -/
theorem same_history_after_opening_partial {b : Base R} (hS : Blind b.sortW) {t : Top R} (hw : Sound b t) {g g' : Graph Str}
    (hg : Mirrors g g') (ho : (step b t (.restart g)).2 = true) {h h' : List (Call R)}
    (hh : SameHistory b (step b t (.restart g)).1 (step b t (.restart g')).1 h h') :
    AnswerSame b (runs b (step b t (.restart g)).1 h) (runs b (step b t (.restart g')).1 h') ∧
    returned b (step b t (.restart g')).1 h' = returned b (step b t (.restart g)).1 h := by
  have ht := restart_twins hw hg ho
  obtain ⟨a, r⟩ := same_history_twins hS hh ht
  exact ⟨twins_answer hS a, r⟩

end

section
variable {α γ : Type} {d d' : Disk α γ} {ig : List FPath} {lib lib' : Lib α γ}

/-- **C107.**  The order in which the files are listed gives such graphs, when no manifest lists encompassed units. -/
theorem order_mirrors (h : SameFiles d d') (hg : GeneratesProper d) (hl : Loads d ig lib) (hl' : Loads d' ig lib')
    (he : ∀ u ds es ss, lib.Lists u ds es ss → es = []) : Mirrors lib.graph lib'.graph := by
  have a := Library.order_same_answers h hg hl hl'
  obtain ⟨ops, e1, f1⟩ := Library.no_enc_flag hg hl he
  obtain ⟨ops', e2, f2⟩ := Library.no_enc_flag (Library.generatesProper_same h hg) hl' (Library.order_no_weights h hg hl hl' he)
  refine ⟨Library.order_same_sets h hg hl hl', a.dependsOn, fun u v => ?_, by rw [e1]; exact f1, by rw [e2]; exact f2⟩
  have a3 := a.dependsOn
  rw [e1, e2] at a3 ⊢
  rw [← Graph.dependents_inverse_of_dependencies, ← Graph.dependents_inverse_of_dependencies, a3]

/-- **C107.**  So does serializing the library and reopening it from that. -/
theorem reopened_mirrors (hg : GeneratesProper d) (hl : Loads d ig lib) (hr : Reopened lib lib')
    (he : ∀ u ds es ss, lib.Lists u ds es ss → es = []) : Mirrors lib.graph lib'.graph := by
  have a := Library.reopened_graph hg hl hr
  obtain ⟨ops, e1, f1⟩ := Library.no_enc_flag hg hl he
  have p : lib.graph.encompassingEqualsDependency = true := by rw [e1]; exact f1
  exact ⟨(reopened_interchangeable hg hl hr).sets, fun c l => rel_mem (a.dependencies c) l, fun c l => rel_mem (a.dependents c) l,
    p, a.equalsDependency.trans p⟩

/-! ### What is on offer afterwards -/

variable {b : Base ℚ} {A B : Top ℚ} {q q' : Request}

/-- Searches by twins are made on the same material. -/
theorem twins_material (hS : Blind b.sortW) (hi : Interchangeable lib lib') (hT : Twins A B) (hA : A.graph = lib.graph)
    (hB : B.graph = lib'.graph) (hq : Serves lib b A q) (hq' : Serves lib' b B q') : Search.SameMaterial (A.env q) (B.env q') := by
  have hsc := twins_answer hS hT
  have hty : ∀ u, B.graph.getUnitType u = A.graph.getUnitType u := hT.graph.sets.type
  refine ⟨?_, fun u => ?_, fun u => ?_, fun u => ?_, ?_, fun u hk => ?_, fun u => ?_, fun u => ?_⟩
  · change Search.SameUnits A.graph B.graph
    rw [hA, hB]; exact hi.units
  · change Both _ (q.env.courseMeta u) (q'.env.courseMeta u)
    rw [hq.course, hq'.course]; exact hi.course u
  · change Both _ (q.env.lessonMeta u) (q'.env.lessonMeta u)
    rw [hq.lesson, hq'.lesson, hi.lesson]
    cases (lib.getLessonManifest u).map (fun m => m.metadata.getD []) with
    | none => trivial
    | some x => exact sameMeta_refl x
  · exact hsc.blacklisted u
  · change B.options.current = A.options.current
    rw [hT.options]
  · change q'.env.score u = q.env.score u
    obtain ⟨ty, hk⟩ := hk
    change A.graph.getUnitType u = some ty at hk
    obtain ⟨v, hv⟩ := Option.ne_none_iff_exists'.1 (hq.reads.known u (by rw [hk]; simp))
    obtain ⟨v', hv'⟩ := Option.ne_none_iff_exists'.1 (hq'.reads.known u (by rw [hty, hk]; simp))
    rw [hv, hv']
    congr 1
    exact score_unique b A u ((hsc.score u v').1 (hq'.reads.score u v' hv')) (hq.reads.score u v hv)
  · change q'.env.trials u = q.env.trials u
    exact trials_unique (b := b) (t := A) (u := u) ((hsc.unitTrials u _).1 (hq'.reads.trials u)) (hq.reads.trials u)
  · change q'.env.superseded u = q.env.superseded u
    exact UnitScorer.superseded_unique _ _ _ ((hsc.superseded u _).1 (hq'.reads.superseded u)) (hq.reads.superseded u)

/-- The search of the second object sees a sane library if that of the first does. -/
theorem twins_sane (hS : Blind b.sortW) (hi : Interchangeable lib lib') (hT : Twins A B) (hA : A.graph = lib.graph)
    (hB : B.graph = lib'.graph) (hq : Serves lib b A q) (hq' : Serves lib' b B q') (hs : Search.Sane (A.env q)) :
    Search.Sane (B.env q') := by
  have hm := twins_material hS hi hT hA hB hq hq'
  have both_isSome : ∀ {x y : Option Filters.Metadata}, Both Search.SameMeta x y → y.isSome = x.isSome := by
    intro x y hb
    cases x <;> cases y <;> first | rfl | exact hb.elim
  refine ⟨?_, fun u => ?_, fun u => ?_, fun u => ?_, fun l hl => ?_, ?_, ?_, ?_, fun u hu => ?_⟩
  · change Graph.WF B.graph
    rw [hB]; exact hi.wf
  · rw [Search.same_isCourse hm, hs.course, both_isSome (hm.courseMeta u)]
  · rw [Search.same_isLesson hm, hs.lesson, both_isSome (hm.lessonMeta u)]
  · rw [hm.units.type, hs.exercise]
    change q.env.hasExercise u = true ↔ q'.env.hasExercise u = true
    rw [hq.exercise, hq'.exercise, hi.exercise]
  · rw [hm.units.lessonCourse]
    exact hs.lessonHasCourse l ((Search.same_isLesson hm l).1 hl)
  · rw [show (B.env q').dflt = (A.env q).dflt from hq'.dflt.trans hq.dflt.symm, hm.units.type]; exact hs.dfltUnknown
  · rw [show (B.env q').dflt = (A.env q).dflt from hq'.dflt.trans hq.dflt.symm, hm.black]; exact hs.dfltBlack
  · rw [show (B.env q').dflt = (A.env q).dflt from hq'.dflt.trans hq.dflt.symm, hm.superseded]; exact hs.dfltSuperseded
  · change q'.env.score u = none ∨ q'.env.score u = some none
    cases hsc : q'.env.score u with
    | none => exact .inl rfl
    | some v =>
      right
      congr 1
      refine score_unique b B u (hq'.reads.score u v hsc) ⟨1, B.caches, ?_⟩
      have : (B.sys.world (B.config b)).graph.getUnitType u = none := hu
      unfold UnitScorer.scoreC
      rw [this]
      rfl

/-- The requests of the second object are answered too. -/
theorem twins_serves (hS : Blind b.sortW) (hi : Interchangeable lib lib') (hT : Twins A B) (hq : Serves lib b A q) :
    ∃ q', Serves lib' b B q' := by
  have hsc := twins_answer hS hT
  refine ⟨{ q with env := { q.env with
    courseMeta := fun u => (lib'.getCourseManifest u).map (fun m => m.metadata.getD []) } },
    ⟨fun u v hv => (hsc.score u v).2 (hq.reads.score u v hv), fun u hu => hq.reads.known u ?_,
      fun u => (hsc.unitTrials u _).2 (hq.reads.trials u), fun u => (hsc.superseded u _).2 (hq.reads.superseded u)⟩,
    fun x => ?_, fun u => rfl, fun u => ?_, fun u => ?_, hq.dflt⟩
  · rw [← hT.graph.sets.type]; exact hu
  · obtain ⟨r, c', h1, h2, h3⟩ := hq.urgency x
    have hx := UnitScorer.on_exRec (w := A.sys.world (A.config b)) hT.graph.sets x
    rw [twins_world hS hT]
    unfold UnitScorer.exC at h1 ⊢
    rw [hx, hT.caches.ex]
    cases e : A.caches.ex.find x with
    | some r' => simp only [e] at h1 ⊢; cases h1; exact ⟨_, _, rfl, h2, h3⟩
    | none => simp only [e] at h1 ⊢; cases h1; exact ⟨_, _, rfl, h2, h3⟩
  · change q.env.lessonMeta u = _
    rw [hq.lesson, hi.lesson]
  · change q.env.hasExercise u = _
    rw [hq.exercise, hi.exercise]

/-- A history in which the library is neither opened again nor edited leaves both graphs as they are. -/
theorem same_history_graphs {b : Base ℚ} {t t' : Top ℚ} {h h' : List (Call ℚ)} (hh : SameHistory b t t' h h')
    (hn : ∀ c ∈ h, ¬ Restarts c) : (runs b t h).graph = t.graph ∧ (runs b t' h').graph = t'.graph := by
  have key : ∀ (t : Top ℚ) (h : List (Call ℚ)), (∀ c ∈ h, ¬ Restarts c) → h.filterMap toGraph = [] → (runs b t h).graph = t.graph := by
    intro t h h1 h2
    rw [library_of_history_partial b t h h1 (by rw [h2]; simp), h2]
    rfl
  have both : (∀ c ∈ h', ¬ Restarts c) ∧ h.filterMap toGraph = [] ∧ h'.filterMap toGraph = [] := by
    clear key
    induction hh with
    | nil => simp
    | @cons t t' c c' h h' hc _ _ _ ih =>
      obtain ⟨i1, i2, i3⟩ := ih (fun x hx => hn x (List.mem_cons_of_mem _ hx))
      have hr := hn c List.mem_cons_self
      refine ⟨fun x hx => ?_, ?_, ?_⟩
      · rcases List.mem_cons.1 hx with rfl | hx
        · cases hc <;> exact hr
        · exact i1 x hx
      · cases hc <;> simpa [toGraph] using i2
      · cases hc <;> simpa [toGraph] using i3
  exact ⟨key t h hn both.2.1, key t' h' both.1 both.2.2⟩

/-- **C107, what is on offer.**  An object is closed and opened again, once with one library and once with the other, and the
same calls are made on both.  Whatever the filter, the student then has access to the same units; and two searches that stay
below the limits take the same number of exercises from every lesson. -/
theorem same_history_same_offer_partial (hS : Blind b.sortW) (hi : Interchangeable lib lib') (hg : Mirrors lib.graph lib'.graph)
    {t0 : Top ℚ} (hw : Sound b t0) (ho : (step b t0 (.restart lib.graph)).2 = true) {h h' : List (Call ℚ)}
    (hh : SameHistory b (step b t0 (.restart lib.graph)).1 (step b t0 (.restart lib'.graph)).1 h h')
    (hn : ∀ c ∈ h, ¬ Restarts c) {t1 t2 : Top ℚ} (h1 : t1 = runs b (step b t0 (.restart lib.graph)).1 h)
    (h2 : t2 = runs b (step b t0 (.restart lib'.graph)).1 h') (hv : t1.options.current.verify = true)
    (hq : Serves lib b t1 q) (hq' : Serves lib' b t2 q') (hs : Search.Sane (t1.env q))
    (f : Option (Filters.UnitFilter Str)) {mf mf' sc sc' init init'} (hf : SearchOf (t1.env q) f = some (mf, sc, init))
    (hf' : SearchOf (t2.env q') f = some (mf', sc', init')) :
    (∀ u, Reached (t2.env q') mf' sc' init' u ↔ Reached (t1.env q) mf sc init u) ∧
    ∀ (rnds rnds' : Nat → Rnd) (fuel fuel' : Nat) (entries entries' : List Str) (cs cs' : List (Candidate Str)),
      (∀ i, IsRnd (rnds i)) → (∀ i, IsRnd (rnds' i)) →
      initialCandidates (t1.env q) rnds fuel entries f = some (some cs) →
      initialCandidates (t2.env q') rnds' fuel' entries' f = some (some cs') →
      (∀ ids, f = some (.courses ids) → ∀ u ∈ ids, lib.getLessonManifest u = none) →
      BelowLimits (t1.env q) cs → BelowLimits (t2.env q') cs' → ∀ l,
      (cs'.filter (fun c => c.lesson = l)).length = (cs.filter (fun c => c.lesson = l)).length := by
  obtain ⟨ho', -⟩ := restart_eq b t0 (g' := lib'.graph) ho
  have hgr := same_history_graphs hh hn
  have hT := (same_history_twins hS hh (restart_twins hw hg ho)).1
  rw [← h1, ← h2] at hgr hT
  have hg1 := hgr.1.trans (restart_ok ho).1
  have hg2 := hgr.2.trans (restart_ok ho').1
  have hm := twins_material hS hi hT hg1 hg2 hq hq'
  have hs' := twins_sane hS hi hT hg1 hg2 hq hq' hs
  have hles : ∀ u, Search.IsLesson (t1.env q) u → lib.getLessonManifest u ≠ none := by
    intro u hu hn
    have := (hs.lesson u).1 hu
    rw [show (t1.env q).lessonMeta u = _ from hq.lesson u, hn] at this
    cases this
  have hfr : 0 ≤ (t1.env q).opts.passing.minFraction ∧ (t1.env q).opts.passing.minFraction ≤ 1 :=
    ((options_verify_iff _).1 hv).2.2.2.1.2.1
  exact ⟨fun u => Search.order_same_access hm hs hs' hf hf' u,
    fun rnds rnds' fuel fuel' entries entries' cs cs' hr hr' hc hc' hids hb hb' l =>
      Search.order_same_search hm hs hs' hr hr' hc hc' hf (fun ids hf u hu hl => hles u hl (hids ids hf u hu)) hfr.1 hfr.2
        hb hb' l⟩

end

end Trane.TopLevel
