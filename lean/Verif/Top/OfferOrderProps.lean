import Verif.Top.OfferOrder
import Verif.Top.ProgressSample

/-!
# C106: what objects that opened interchangeable libraries answer and offer
-/

namespace Trane.TopLevel
open Trane.Store
open Trane.Graph
open Trane.Library (Disk Lib FPath Loads GeneratesProper SameFiles Reopened Both sampleDisk sampleLib sample_loads
  sample_generates)
open Trane.UnitScorer (SameSets order_same_scores)
open Trane.Search (BelowLimits SearchOf Reached initialCandidates IsRnd Rnd)

variable {α γ : Type} {d d' : Disk α γ} {ig : List FPath} {lib lib' : Lib α γ} {b : Base ℚ} {t : Top ℚ} {q q' : Request}

/-- The requests of the second object are answered too. -/
theorem interchangeable_serves (hi : Interchangeable lib lib') (ho : (step b t (.restart lib.graph)).2 = true)
    (hq : Serves lib b (step b t (.restart lib.graph)).1 q) :
    ∃ q', Serves lib' b (step b t (.restart lib'.graph)).1 q' := by
  obtain ⟨_, he⟩ := restart_eq b t (g' := lib'.graph) ho
  have hgr := (restart_ok ho).1
  generalize hA : (step b t (.restart lib.graph)).1 = A at *
  generalize hB : (step b t (.restart lib'.graph)).1 = B at *
  subst he
  have hset : SameSets A.graph lib'.graph := by rw [hgr]; exact hi.sets
  have hsc := fun u => order_same_scores (w := A.sys.world (A.config b)) (g := lib'.graph) hset A.caches u
  have hty : ∀ u, lib'.graph.getUnitType u = A.graph.getUnitType u := fun u => by rw [hgr]; exact hi.units.type u
  refine ⟨{ q with env := { q.env with
    courseMeta := fun u => (lib'.getCourseManifest u).map (fun m => m.metadata.getD []) } },
    ⟨fun u v hv => ((hsc u).1 v).1 (hq.reads.score u v hv), fun u hu => hq.reads.known u ?_, fun u => ?_,
      fun u => ((hsc u).2.2.2 _).1 (hq.reads.superseded u)⟩, fun x => ?_, fun u => rfl, fun u => ?_, fun u => ?_, hq.dflt⟩
  · rw [← hty]; exact hu
  · have h2 := hq.reads.trials u
    unfold GetsTrials at h2 ⊢
    change (match lib'.graph.getUnitType u with | some .course => _ | some .lesson => _ | _ => _)
    rw [hty]
    cases hh : A.graph.getUnitType u with
    | none => rw [hh] at h2; exact h2
    | some ty =>
      rw [hh] at h2
      cases ty with
      | course => exact ((hsc u).2.2.1 _).1 h2
      | lesson => exact ((hsc u).2.1 _).1 h2
      | exercise => exact h2
  · obtain ⟨r, c', h1, h2, h3⟩ := hq.urgency x
    have hx := UnitScorer.on_exRec (w := A.sys.world (A.config b)) hset x
    refine ⟨r, c', ?_, h2, h3⟩
    rw [← h1]
    change UnitScorer.exC ((A.sys.world (A.config b)).on lib'.graph) x A.caches = _
    unfold UnitScorer.exC
    rw [hx]
  · change q.env.lessonMeta u = _
    rw [hq.lesson, hi.lesson]
  · change q.env.hasExercise u = _
    rw [hq.exercise, hi.exercise]

/-- **C106.**  An object is closed and opened again, once with one library (`t1`) and once with the other (`t2`).  Whatever
the filter, the student has access to the same units; and two searches that stay below the limits take the same number of
exercises from every lesson. -/
theorem interchangeable_search (hi : Interchangeable lib lib') (ho : (step b t (.restart lib.graph)).2 = true)
    {t1 t2 : Top ℚ} (h1 : t1 = (step b t (.restart lib.graph)).1) (h2 : t2 = (step b t (.restart lib'.graph)).1)
    (hq : Serves lib b t1 q) (hq' : Serves lib' b t2 q') (hs : Search.Sane (t1.env q))
    (f : Option (Filters.UnitFilter Str)) {mf mf' sc sc' init init'} (hf : SearchOf (t1.env q) f = some (mf, sc, init))
    (hf' : SearchOf (t2.env q') f = some (mf', sc', init')) :
    (∀ u, Reached (t2.env q') mf' sc' init' u ↔ Reached (t1.env q) mf sc init u) ∧
    ∀ (rnds rnds' : Nat → Rnd) (fuel fuel' : Nat) (entries entries' : List Str) (cs cs' : List (Candidate Str)),
      (∀ i, IsRnd (rnds i)) → (∀ i, IsRnd (rnds' i)) →
      initialCandidates (t1.env q) rnds fuel entries f = some (some cs) →
      initialCandidates (t2.env q') rnds' fuel' entries' f = some (some cs') →
      (∀ ids, f = some (.courses ids) → ∀ u ∈ ids, lib.getLessonManifest u = none) →
      BelowLimits (t1.env q) cs → BelowLimits (t2.env q') cs' → ∀ l,
      (cs'.filter (fun c => c.lesson = l)).length = (cs.filter (fun c => c.lesson = l)).length := by
  subst h1 h2
  have hm := interchangeable_material hi ho hq hq'
  have hs' := interchangeable_sane hi ho hq hq' hs
  have hv := (restart_ok ho).2.2.2
  have hopt := (restart_ok ho).2.2.1
  have hles : ∀ u, Search.IsLesson ((step b t (.restart lib.graph)).1.env q) u → lib.getLessonManifest u ≠ none := by
    intro u hu hn
    have := (hs.lesson u).1 hu
    rw [show ((step b t (.restart lib.graph)).1.env q).lessonMeta u = _ from hq.lesson u, hn] at this
    cases this
  have hfr : 0 ≤ ((step b t (.restart lib.graph)).1.env q).opts.passing.minFraction ∧
      ((step b t (.restart lib.graph)).1.env q).opts.passing.minFraction ≤ 1 := by
    have e : ((step b t (.restart lib.graph)).1.env q).opts = schedulerOptions t.prefs := by
      change (step b t (.restart lib.graph)).1.options.current = _
      rw [hopt]; rfl
    rw [e]
    exact ((options_verify_iff _).1 hv).2.2.2.1.2.1
  exact ⟨fun u => Search.order_same_access hm hs hs' hf hf' u,
    fun rnds rnds' fuel fuel' entries entries' cs cs' hr hr' hc hc' hids hb hb' l =>
      Search.order_same_search hm hs hs' hr hr' hc hc' hf (fun ids hf u hu hl => hles u hl (hids ids hf u hu)) hfr.1 hfr.2
        hb hb' l⟩

/-- **C106.**  The scores, the trials and the superseded units are the same, whichever of the two libraries is opened. -/
theorem interchangeable_scores (hi : Interchangeable lib lib') (ho : (step b t (.restart lib.graph)).2 = true)
    {t1 t2 : Top ℚ} (h1 : t1 = (step b t (.restart lib.graph)).1) (h2 : t2 = (step b t (.restart lib'.graph)).1) (u : Str) :
    (∀ v, GetsScore b t2 u v ↔ GetsScore b t1 u v) ∧ (∀ v, GetsTrials b t2 u v ↔ GetsTrials b t1 u v) ∧
    ∀ v, GetsSuperseded b t2 u v ↔ GetsSuperseded b t1 u v := by
  obtain ⟨_, he⟩ := restart_eq b t (g' := lib'.graph) ho
  have hgr := (restart_ok ho).1
  rw [← h1] at hgr he
  rw [← h2] at he
  subst he
  have hset : SameSets t1.graph lib'.graph := by rw [hgr]; exact hi.sets
  have hsc := order_same_scores (w := t1.sys.world (t1.config b)) (g := lib'.graph) hset t1.caches u
  refine ⟨fun v => (hsc.1 v).symm, fun v => ?_, fun v => (hsc.2.2.2 v).symm⟩
  unfold GetsTrials
  change (match lib'.graph.getUnitType u with | some .course => _ | some .lesson => _ | _ => _) ↔ _
  rw [show lib'.graph.getUnitType u = t1.graph.getUnitType u by rw [hgr]; exact hi.units.type u]
  cases hh : t1.graph.getUnitType u with
  | none => exact Iff.rfl
  | some ty =>
    cases ty with
    | course => exact (hsc.2.2.1 _).symm
    | lesson => exact (hsc.2.1 _).symm
    | exercise => exact Iff.rfl

/-! ### A case that meets the hypotheses -/

/-- The sample library, serialized and reopened: both searches without filter succeed, stay below the limits and take the
same number of exercises from every lesson. -/
example : ∃ lib', Reopened (sampleLib []) lib' ∧ ∃ t0 t2 q q' cs cs',
    openedTop = (step chainBase t0 (.restart (sampleLib []).graph)).1 ∧ t2 = (step chainBase t0 (.restart lib'.graph)).1 ∧
    Serves (sampleLib []) chainBase openedTop q ∧ Serves lib' chainBase t2 q' ∧
    (∃ rnds fuel, (∀ i, IsRnd (rnds i)) ∧ initialCandidates (openedTop.env q) rnds fuel [] none = some (some cs)) ∧
    (∃ rnds fuel, (∀ i, IsRnd (rnds i)) ∧ initialCandidates (t2.env q') rnds fuel [] none = some (some cs')) ∧
    BelowLimits (openedTop.env q) cs ∧ BelowLimits (t2.env q') cs' ∧
    ∀ l, (cs'.filter (fun c => c.lesson = l)).length = (cs.filter (fun c => c.lesson = l)).length := by
  obtain ⟨lib', hre⟩ := Library.can_reopen (sampleLib [])
  have hi := reopened_interchangeable sample_generates sample_loads hre
  obtain ⟨env, -, hs⟩ := serves_exists opened_running whole_acyclic sampleRequest
  have ho : (step chainBase (runs chainBase (fresh {} 0) earlierCalls) (.restart (sampleLib []).graph)).2 = true := by
    have hok : (schedulerOptions (runs chainBase (fresh {} 0) earlierCalls).prefs).verify = true := by decide +kernel
    simp only [step, if_pos hok]
  have hsane := running_sane opened_running hs opened_no_empty
  obtain ⟨q', hs'⟩ := interchangeable_serves hi ho hs
  have hsane' := interchangeable_sane hi ho hs hs' hsane
  have hm := interchangeable_material hi ho hs hs'
  have answers : ∀ {lib : Lib Unit Unit} {t : Top ℚ} {q : Request}, Serves lib chainBase t q → Search.Sane (t.env q) →
      ∃ rnds fuel cs, (∀ i, IsRnd (rnds i)) ∧ initialCandidates (t.env q) rnds fuel [] none = some (some cs) := by
    intro lib t q hs hsane
    have hr : ∀ i : Nat, IsRnd (Search.plain i) := Search.plain_isRnd
    obtain ⟨r, N, h⟩ := Search.search_terminates hsane hr [] none
    cases r with
    | some cs => exact ⟨_, N, cs, hr, h N le_rfl⟩
    | none =>
      exfalso
      rcases Search.search_error hsane hr (h N le_rfl) with ⟨x, hx, ⟨l, hl⟩ | ⟨hf, _⟩⟩ | ⟨hf, _⟩
      · obtain ⟨r, c', _, h2, h3⟩ := hs.urgency x
        rcases hx with hx | hx | hx
        · refine hs.reads.known x ?_ hx
          rw [show t.graph.getUnitType x = some .exercise from (hsane.wf.tyE x l ((hsane.wf.exercise l x).1 hl.1)).1]
          simp
        · rw [show (t.env q).urgency x = _ from h2] at hx; cases hx
        · rw [show (t.env q).velocity x = _ from h3] at hx; cases hx
      · cases hf
      · cases hf
  obtain ⟨rnds, fuel, cs, hr, hc⟩ := answers hs hsane
  obtain ⟨rnds', fuel', cs', hr', hc'⟩ := answers hs' hsane'
  have hles : ∀ l, Search.IsLesson (openedTop.env { sampleRequest with env := env }) l → l ∈ (sampleLib []).lessons.keys := by
    intro l hl
    have h1 := (hsane.lesson l).1 hl
    rw [show (openedTop.env { sampleRequest with env := env }).lessonMeta l = _ from hs.lesson l, Option.isSome_map] at h1
    obtain ⟨m, h2⟩ := Option.isSome_iff_exists.1 h1
    exact (AMap.mem_keys_iff _ _).2 ⟨m, h2⟩
  have hexs : ∀ l x, LessonHasExercise (openedTop.env { sampleRequest with env := env }).graph l x →
      x ∈ (sampleLib []).exercises.keys := by
    intro l x hx
    have h1 := (hsane.exercise x).1 (hsane.wf.tyE x l ((hsane.wf.exercise l x).1 hx)).1
    rw [show (openedTop.env { sampleRequest with env := env }).hasExercise x = _ from hs.exercise x] at h1
    obtain ⟨m, h2⟩ := Option.isSome_iff_exists.1 h1
    exact (AMap.mem_keys_iff _ _).2 ⟨m, h2⟩
  have hlim : (sampleLib []).lessons.keys.length < openedTop.options.current.maxLessonsInProgress ∧
      (sampleLib []).exercises.keys.length < 10 * openedTop.options.current.batchSize := by decide +kernel
  have hb := Search.small_below_limits hsane hr hc rfl hles hexs hlim.1 hlim.2
  have hb' := Search.small_below_limits hsane' hr' hc' rfl
    (fun l hl => hles l ((Search.same_isLesson hm l).1 hl))
    (fun l x hx => hexs l x ((Search.same_hasExercise hm hsane hsane' l x).1 hx))
    (by rw [hm.opts]; exact hlim.1) (by rw [hm.opts]; exact hlim.2)
  refine ⟨lib', hre, _, _, _, q', cs, cs', rfl, rfl, hs, hs', ⟨rnds, fuel, hr, hc⟩, ⟨rnds', fuel', hr', hc'⟩, hb, hb', ?_⟩
  exact (interchangeable_search hi ho rfl rfl hs hs' hsane none rfl rfl).2 rnds rnds' fuel fuel' [] [] cs cs' hr hr' hc hc'
    (by intro ids h; cases h) hb hb'

end Trane.TopLevel
