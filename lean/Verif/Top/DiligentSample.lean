import Verif.Top.DiligentProps
import Verif.Top.FivesSample
import Verif.Top.ProgressSample

/-! A case for C111: the sample library without superseding, and a student who grades every exercise five. -/

namespace Trane.TopLevel
open Trane.Store
open Trane.Graph
open Trane.Library (sampleDisk sample_generates)
open Relation (TransGen)

/-- The library of `Verif/Library/Sample.lean` without superseded units. -/
def simpleDisk : Library.Disk Unit Unit := { sampleDisk with
  lesson := fun p => (sampleDisk.lesson p).map (fun m => { m with sup := [] }) }

def simpleLib : Library.Lib Unit Unit := ((Library.openLibrary (Graph.idOrder Str) 100 simpleDisk []).join).getD {}

theorem simple_loads : Library.Loads simpleDisk [] simpleLib := Library.loads_of (by decide +kernel)

/-- Nothing practised, course `b` blacklisted. -/
def simpleTop : Top ℚ :=
  (step worstBase (runs worstBase (fresh {} 0) earlierCalls) (.restart simpleLib.graph)).1

theorem simple_running : Running simpleDisk [] simpleLib worstBase [] simpleTop where
  proper := sample_generates
  loads := simple_loads
  opened := ⟨{}, 0, earlierCalls, by
    have hok : (schedulerOptions (runs worstBase (fresh {} 0) earlierCalls).prefs).verify = true := by decide +kernel
    simp only [step, if_pos hok], rfl⟩
  stays := by simp
  unedited := rfl

theorem simple_simple : Simple simpleLib := by
  refine ⟨fun u => ?_, System.noEmpty_of_maps (by decide +kernel) (by decide +kernel) (by decide +kernel) (by decide +kernel)⟩
  have : simpleLib.graph.supBy = [] := by decide +kernel
  unfold getSupersededBy
  rw [this]
  rfl

theorem simple_laid_out : simpleLib.WellLaidOut := by
  have hb : ∀ u v, simpleLib.ComesBefore u v → layoutRank v < layoutRank u := by
    have h1 : ∀ e ∈ simpleLib.courses, ∀ s ∈ e.2.deps, layoutRank s < layoutRank e.1 := by decide +kernel
    have h2 : ∀ e ∈ simpleLib.lessons, ∀ s ∈ e.2.deps, layoutRank s < layoutRank e.1 := by decide +kernel
    have h3 : ∀ e ∈ simpleLib.lessons, layoutRank e.1 < layoutRank e.2.courseId := by decide +kernel
    have h4 : ∀ e ∈ simpleLib.lessons, ∀ c ∈ simpleLib.courses, e.2.courseId = c.1 →
      (e.2.deps.all (fun x => (simpleLib.lessons.find x).all (fun m => m.courseId != c.1))) = true →
      ∀ s ∈ c.2.deps, layoutRank s < layoutRank e.1 := by decide +kernel
    intro u v h
    rcases h with ⟨_, ds, es, ss, ⟨m, hm, rfl, _⟩ | ⟨m, hm, rfl, _⟩, hv⟩ | ⟨_, c, m, cm, hbg, hcm, hv⟩ | ⟨m, hm, rfl⟩
    · exact h1 _ (AMap.mem_of_find hm) v hv
    · exact h2 _ (AMap.mem_of_find hm) v hv
    · refine h4 _ (AMap.mem_of_find hbg.1) _ (AMap.mem_of_find hcm) hbg.2.1 ?_ v hv
      rw [List.all_eq_true]
      intro x hx
      rw [Option.all_eq_true]
      intro m' hm'
      simpa using hbg.2.2 x hx m' hm'
    · exact h3 _ (AMap.mem_of_find hm)
  refine ⟨?_, ?_, ?_⟩
  · rintro ⟨u, hu⟩
    have key : ∀ v, TransGen simpleLib.ComesBefore u v → layoutRank v < layoutRank u := by
      intro v hv
      induction hv with
      | single h => exact hb _ _ h
      | tail _ h ih => exact lt_trans (hb _ _ h) ih
    exact lt_irrefl _ (key u hu)
  · have h1 : ∀ e ∈ simpleLib.courses, ∀ s ∈ e.2.deps, simpleLib.getExerciseManifest s = none := by
      decide +kernel
    have h2 : ∀ e ∈ simpleLib.lessons, ∀ s ∈ e.2.deps, simpleLib.getExerciseManifest s = none := by
      decide +kernel
    rintro u ds es ss (⟨m, hm, rfl, _⟩ | ⟨m, hm, rfl, _⟩) x hx
    · exact h1 _ (AMap.mem_of_find hm) x hx
    · exact h2 _ (AMap.mem_of_find hm) x hx
  · have h1 : ∀ e ∈ simpleLib.lessons, e.2.deps ≠ [] → ∃ x ∈ e.2.deps, ∃ m ∈ (simpleLib.lessons.find x),
        m.courseId = e.2.courseId := by decide +kernel
    rintro c m _ _ ⟨l, lm, hbg, hne, _⟩
    obtain ⟨x, hx, m', hm', hc⟩ := h1 _ (AMap.mem_of_find hbg.1) hne
    exact absurd (hc.trans hbg.2.1) (hbg.2.2 x hx m' hm')

theorem simple_acyclic : ¬ Graph.HasCycle (OnDiskOver simpleDisk []) := by
  have hstep : ∀ u s, OnDiskOver simpleDisk [] u s → wholeRank s < wholeRank u := by
    intro u s hus
    have h1 : ∀ e ∈ simpleLib.graph.supBy, ∀ s ∈ e.2, wholeRank s < wholeRank e.1 := by decide +kernel
    have h2 : ∀ e ∈ simpleLib.graph.courseLessons, ∀ s ∈ e.2, wholeRank s < wholeRank e.1 := by decide +kernel
    have h3 : Graph.SupersededBy simpleLib.graph u s ∨ Graph.CourseHasLesson simpleLib.graph u s := by
      have := (steps_on_disk simple_running u s).2 hus
      rw [← simple_running.graph]
      exact this
    rcases h3 with ⟨ids, e, hs⟩ | ⟨ids, e, hs⟩
    · exact h1 _ (AMap.mem_of_find e) s hs
    · exact h2 _ (AMap.mem_of_find e) s hs
  rintro ⟨u, hu⟩
  have key : ∀ a b, Relation.TransGen (OnDiskOver simpleDisk []) a b → wholeRank b < wholeRank a := by
    intro a b hab
    induction hab with
    | single h => exact hstep _ _ h
    | tail _ h ih => exact lt_trans (hstep _ _ h) ih
  exact lt_irrefl _ (key u u hu)

/-- Every exercise of the library one and twenty times. -/
def allFives : List Five :=
  (List.range 21).flatMap (fun i => simpleLib.exercises.keys.map (fun x => { exercise := x, time := 1000 + 10 * (i : Int) }))

/-- Nothing has happened at round 0, and everything has been practised by round 1; a score is asked for in between. -/
def diligentCalls : ℕ → List (Call ℚ)
  | 0 => []
  | _ + 1 => .getUnitScore ['a'] 9 :: allFives.map Five.call

theorem fives_gradingsOk {b : Base ℚ} (ps : List Five) (t : Top ℚ) (h : ∀ r ∈ resultsOf b t (ps.map Five.call), r = true) :
    GradingsOk b t (ps.map Five.call) := by
  induction ps generalizing t with
  | nil => trivial
  | cons p ps ih =>
    simp only [List.map_cons, resultsOf, List.mem_cons, forall_eq_or_imp] at h
    exact ⟨fun _ => h.1, ih _ h.2⟩

theorem simple_session (n : ℕ) : FivesSession simpleDisk [] simpleLib worstBase simpleTop 1000 (diligentCalls n) := by
  have hg : simpleTop.graph = simpleLib.graph := simple_running.graph
  refine ⟨simple_running, simple_simple, ?_, ?_, ?_, ?_, by decide +kernel, by decide +kernel⟩
  case refine_3 =>
    intro x p hp
    have hr : simpleTop.trials.rows = [] := by decide +kernel
    simp only [Table.history, Table.rowsOf, hr] at hp
    split at hp <;> simp at hp
  case refine_4 =>
    intro x p hp
    have hr : simpleTop.deltas.rows = [] := by decide +kernel
    simp only [Table.history, Table.rowsOf, hr] at hp
    split at hp <;> simp at hp
  · intro c hc
    cases n with
    | zero => cases hc
    | succ n =>
      rcases List.mem_cons.1 hc with rfl | hc
      · trivial
      · obtain ⟨p, hp, rfl⟩ := List.mem_map.1 hc
        have : ∀ p ∈ allFives, p.exercise ≠ [] ∧ 1000 ≤ p.time := by decide +kernel
        have hord : ∀ l, (p.order l).Perm l := by
          obtain ⟨i, -, hp⟩ := List.mem_flatMap.1 hp
          obtain ⟨x, -, rfl⟩ := List.mem_map.1 hp
          exact fun l => List.Perm.refl _
        exact ⟨(this p hp).1, rfl, (this p hp).2, hord, rfl⟩
  · cases n with
    | zero => trivial
    | succ n =>
      refine ⟨fun h => h.elim, fives_gradingsOk _ _ (fives_accepted _ _ ?_ ?_)⟩
      · exact sound_step _ _ _ simple_running.sound
      · show ∀ p ∈ allFives, simpleTop.graph.getUnitType p.exercise = _ ∧ _ ∧ (Propagator.propagate simpleTop.graph _ _ _ _ _).isSome = true
        rw [hg]
        decide +kernel

theorem simple_can_pass : CanPass 5 simpleTop := by
  constructor <;> decide +kernel

/-- The hypotheses of C111 hold of it, so by round 3 at the latest everything is open. -/
example : ∃ qs : ℕ → Request, (∀ n, Serves simpleLib worstBase (runs worstBase simpleTop (diligentCalls n)) (qs n)) ∧
    simpleLib.lessons.keys.length = 3 ∧
    ∃ n ≤ 3, ∀ u, (simpleLib.getLessonManifest u).isSome = true ∨ (simpleLib.getCourseManifest u).isSome = true →
      Search.Open ((runs worstBase simpleTop (diligentCalls n)).env (qs n)) u := by
  have hser := fun n => serves_exists (session_running (simple_session n)) simple_acyclic sampleRequest
  choose env _ hs using hser
  have hl : simpleLib.lessons.keys.length = 3 := by decide +kernel
  refine ⟨fun n => { sampleRequest with env := env n }, hs, hl, ?_⟩
  rw [← hl]
  refine diligent_student_done (since := 1000) (θ := 5) diligentCalls _ ?_ simple_session hs (by decide +kernel) simple_laid_out
    worst_fair simple_can_pass ?_
  · intro n
    cases n with
    | zero => exact List.nil_prefix
    | succ n => exact List.prefix_rfl
  · rintro n ⟨l, hl⟩
    refine ⟨l, hl, fun x hx => ?_⟩
    have hall : ∀ x ∈ simpleLib.exercises.keys, simpleTop.options.made.numTrials < timesGraded x (diligentCalls 1) := by decide +kernel
    refine hall x ?_
    have hr := session_running (simple_session n)
    have hsane := running_sane hr (hs n) ⟨((session_same (simple_session n) worst_fair simple_can_pass).2 []).trans (by decide +kernel),
      simple_simple.unsuperseded []⟩
    have hty : (runs worstBase simpleTop (diligentCalls n)).graph.getUnitType x = some .exercise :=
      (hsane.wf.tyE _ _ ((hsane.wf.exercise _ _).1 hx.1)).1
    rw [hr.graph, (Library.library_types simple_running.proper simple_loads x).2.2] at hty
    obtain ⟨m, hm⟩ := Option.isSome_iff_exists.1 hty
    exact List.mem_map.2 ⟨_, AMap.mem_of_find hm, rfl⟩

/-- At round 0 lesson `a1`, on which `a2` depends, is not mastered. -/
example (q : Request) (hq : Serves simpleLib worstBase simpleTop q) : ¬ Search.Satisfied (simpleTop.env q) ['a', '1'] := by
  have hg : simpleTop.graph = simpleLib.graph := simple_running.graph
  have hsc : GetsScore worstBase simpleTop ['a', '1'] (some 0) := by
    have : (UnitScorer.scoreC (simpleTop.sys.world (simpleTop.config worstBase)) 9 ['a', '1'] simpleTop.caches).map
      Prod.fst = some (some 0) := by decide +kernel
    obtain ⟨⟨v, c'⟩, h1, h2⟩ := Option.map_eq_some_iff.1 this
    cases h2
    exact ⟨9, c', h1⟩
  have hne : simpleTop.graph.getUnitType ['a', '1'] ≠ none := by rw [hg]; decide +kernel
  obtain ⟨v, hv⟩ := Option.ne_none_iff_exists'.1 (hq.reads.known ['a', '1'] hne)
  have hv0 : v = some 0 := score_unique worstBase simpleTop _ (hq.reads.score _ v hv) hsc
  have htr : GetsTrials worstBase simpleTop ['a', '1'] (some 0) := by
    unfold GetsTrials
    rw [hg, show simpleLib.graph.getUnitType ['a', '1'] = some .lesson by decide +kernel]
    have : (UnitScorer.lessonTrialsC (simpleTop.sys.world (simpleTop.config worstBase)) ['a', '1']
      simpleTop.caches).map Prod.fst = some (some 0) := by decide +kernel
    obtain ⟨⟨v, c'⟩, h1, h2⟩ := Option.map_eq_some_iff.1 this
    cases h2
    exact ⟨c', h1⟩
  have ht0 : q.env.trials ['a', '1'] = some 0 := trials_unique (hq.reads.trials ['a', '1']) htr
  have hbl : simpleTop.blacklist.blacklisted ['a', '1'] = false ∧ simpleTop.blacklist.blacklisted ['a'] = false := by
    decide +kernel
  have hmin : (0 : ℚ) < simpleTop.options.current.passing.minScore := by decide +kernel
  have hco : simpleTop.graph.getLessonCourse ['a', '1'] = some ['a'] := by rw [hg]; decide +kernel
  rintro (h | ⟨c, hc, h⟩ | h | h | h | h | ⟨s, n, h, _, h3, _⟩)
  · rw [show (simpleTop.env q).black ['a', '1'] = false from hbl.1] at h; cases h
  · rw [show (simpleTop.env q).graph.getLessonCourse ['a', '1'] = some ['a'] from hco] at hc
    cases hc
    rw [show (simpleTop.env q).black ['a'] = false from hbl.2] at h; cases h
  · have h3 : GetsSuperseded worstBase simpleTop ['a', '1'] false := by
      refine ⟨0, simpleTop.caches, ?_⟩
      unfold UnitScorer.checkC
      have : (simpleTop.sys.world (simpleTop.config worstBase)).graph.getSupersededBy ['a', '1'] = none := by
        change simpleTop.graph.getSupersededBy _ = none
        rw [hg]; exact simple_simple.unsuperseded _
      rw [this]
      rfl
    have h4 := UnitScorer.superseded_unique _ _ _ (hq.reads.superseded ['a', '1']) h3
    rw [show q.env.superseded ['a', '1'] = true from h] at h4
    cases h4
  · rw [show (simpleTop.env q).score ['a', '1'] = some v from hv] at h; cases h
  · rw [show (simpleTop.env q).score ['a', '1'] = some v from hv, hv0] at h; cases h
  · rw [show (simpleTop.env q).trials ['a', '1'] = some 0 from ht0] at h; cases h
  · rw [show (simpleTop.env q).score ['a', '1'] = some v from hv, hv0] at h
    cases h
    exact absurd h3 (not_le.2 hmin)

end Trane.TopLevel
