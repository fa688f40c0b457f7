import Verif.Top.ProgressProps
import Verif.Top.WholeSample
import Verif.Sched.ProgressSample

/-! The hypotheses of C105 hold of an object that has just opened the sample library. -/

namespace Trane.TopLevel
open Trane.Store
open Trane.Graph
open Trane.Library (sampleDisk sampleLib sample_loads sample_generates)
open Relation (TransGen)

/-- Nothing practised, unit `b` blacklisted. -/
def openedTop : Top ℚ :=
  (step chainBase (runs chainBase (fresh {} 0) earlierCalls) (.restart (sampleLib []).graph)).1

theorem opened_running : Running sampleDisk [] (sampleLib []) chainBase [] openedTop where
  proper := sample_generates
  loads := sample_loads
  opened := ⟨{}, 0, earlierCalls, by
    have hok : (schedulerOptions (runs chainBase (fresh {} 0) earlierCalls).prefs).verify = true := by decide +kernel
    simp only [step, if_pos hok], rfl⟩
  stays := by simp
  unedited := rfl

theorem opened_no_empty : NoEmptyId (sampleLib []) openedTop := by
  constructor <;> decide +kernel

/-- Every step goes to a unit of smaller rank. -/
def layoutRank (u : Str) : Nat :=
  if u = ['a', '1'] then 0 else if u = ['a', '2'] then 1 else if u = ['a'] then 2 else if u = ['g'] then 3 else 4

theorem sample_laid_out : (sampleLib []).WellLaidOut := by
  have hb : ∀ u v, (sampleLib []).ComesBefore u v → layoutRank v < layoutRank u := by
    have h1 : ∀ e ∈ (sampleLib []).courses, ∀ s ∈ e.2.deps, layoutRank s < layoutRank e.1 := by decide +kernel
    have h2 : ∀ e ∈ (sampleLib []).lessons, ∀ s ∈ e.2.deps, layoutRank s < layoutRank e.1 := by decide +kernel
    have h3 : ∀ e ∈ (sampleLib []).lessons, layoutRank e.1 < layoutRank e.2.courseId := by decide +kernel
    have h4 : ∀ e ∈ (sampleLib []).lessons, ∀ c ∈ (sampleLib []).courses, e.2.courseId = c.1 →
      (e.2.deps.all (fun x => ((sampleLib []).lessons.find x).all (fun m => m.courseId != c.1))) = true →
      ∀ s ∈ c.2.deps, layoutRank s < layoutRank e.1 := by decide +kernel
    intro u v h
    rcases h with ⟨_, ds, es, ss, ⟨m, hm, rfl, _⟩ | ⟨m, hm, rfl, _⟩, hv⟩ | ⟨_, c, m, cm, hbg, hcm, hv⟩ | ⟨m, hm, rfl⟩
    · exact h1 _ (AMap.mem_of_find hm) v hv
    · exact h2 _ (AMap.mem_of_find hm) v hv
    · refine h4 _ (AMap.mem_of_find hbg.1) _ (AMap.mem_of_find hcm) hbg.2.1 ?_ v hv
      rw [List.all_eq_true]
      intro x hx
      rw [Option.all_eq_true]
      intro m' hm'
      simpa using hbg.2.2 x hx m' hm'
    · exact h3 _ (AMap.mem_of_find hm)
  refine ⟨?_, ?_, ?_⟩
  · rintro ⟨u, hu⟩
    have key : ∀ v, TransGen (sampleLib []).ComesBefore u v → layoutRank v < layoutRank u := by
      intro v hv
      induction hv with
      | single h => exact hb _ _ h
      | tail _ h ih => exact lt_trans (hb _ _ h) ih
    exact lt_irrefl _ (key u hu)
  · have h1 : ∀ e ∈ (sampleLib []).courses, ∀ s ∈ e.2.deps, (sampleLib []).getExerciseManifest s = none := by
      decide +kernel
    have h2 : ∀ e ∈ (sampleLib []).lessons, ∀ s ∈ e.2.deps, (sampleLib []).getExerciseManifest s = none := by
      decide +kernel
    rintro u ds es ss (⟨m, hm, rfl, _⟩ | ⟨m, hm, rfl, _⟩) x hx
    · exact h1 _ (AMap.mem_of_find hm) x hx
    · exact h2 _ (AMap.mem_of_find hm) x hx
  · have h1 : ∀ e ∈ (sampleLib []).lessons, e.2.deps ≠ [] → ∃ x ∈ e.2.deps, ∃ m ∈ ((sampleLib []).lessons.find x),
        m.courseId = e.2.courseId := by decide +kernel
    rintro c m _ _ ⟨l, lm, hbg, hne, _⟩
    obtain ⟨x, hx, m', hm', hc⟩ := h1 _ (AMap.mem_of_find hbg.1) hne
    exact absurd (hc.trans hbg.2.1) (hbg.2.2 x hx m' hm')

/-- Lesson `a2` is locked right after opening, and the theorem gives the lesson it waits for. -/
example : ∃ q, Serves (sampleLib []) chainBase openedTop q ∧ Search.NothingStranded (openedTop.env q) ∧
    ¬ Search.Open (openedTop.env q) ['a', '2'] ∧
    ∃ l, TransGen (sampleLib []).ComesBefore ['a', '2'] l ∧ Search.ToLearn (openedTop.env q) l := by
  obtain ⟨env, -, hs⟩ := serves_exists opened_running whole_acyclic sampleRequest
  refine ⟨_, hs, ?_⟩
  have hsane := running_sane opened_running hs opened_no_empty
  have hg : openedTop.graph = (sampleLib []).graph := opened_running.graph
  have hstr : Search.NothingStranded (openedTop.env { sampleRequest with env := env }) := by
    intro c l hcl hsup
    exfalso
    have hcg : CourseHasLesson (sampleLib []).graph c l := by rw [← hg]; exact hcl
    have h1 : ∀ e ∈ (sampleLib []).graph.courseLessons, (sampleLib []).graph.getSupersededBy e.1 = none := by
      decide +kernel
    obtain ⟨s, hs', _⟩ := hcg
    have h2 := h1 _ (AMap.mem_of_find hs')
    have h3 : GetsSuperseded chainBase openedTop c false := by
      refine ⟨0, openedTop.caches, ?_⟩
      unfold UnitScorer.checkC
      have : (openedTop.sys.world (openedTop.config chainBase)).graph.getSupersededBy c = none := by
        change openedTop.graph.getSupersededBy c = none
        rw [hg]; exact h2
      rw [this]
      rfl
    have h4 := UnitScorer.superseded_unique _ _ _ (hs.reads.superseded c) h3
    have h5 : env.superseded c = true := hsup
    rw [show ({ sampleRequest with env := env } : Request).env = env from rfl, h5] at h4
    cases h4
  have hno : ¬ Search.Open (openedTop.env { sampleRequest with env := env }) ['a', '2'] := by
    have hdep : DependsOn openedTop.graph ['a', '2'] ['a', '1'] := by
      rw [hg]
      exact ⟨[['a', '1']], by decide +kernel, by simp⟩
    have hk : Known openedTop.graph ['a', '1'] := by
      rw [hg]
      exact ⟨.lesson, by decide +kernel⟩
    have hsc : GetsScore chainBase openedTop ['a', '1'] (some 0) := by
      have : (UnitScorer.scoreC (openedTop.sys.world (openedTop.config chainBase)) 9 ['a', '1'] openedTop.caches).map
        Prod.fst = some (some 0) := by decide +kernel
      obtain ⟨⟨v, c'⟩, h1, h2⟩ := Option.map_eq_some_iff.1 this
      cases h2
      exact ⟨9, c', h1⟩
    have hsu : GetsSuperseded chainBase openedTop ['a', '1'] false := by
      have : (UnitScorer.checkC (openedTop.sys.world (openedTop.config chainBase))
        (UnitScorer.scoreC (openedTop.sys.world (openedTop.config chainBase)) 9) 9 ['a', '1'] openedTop.caches).map
        Prod.fst = some false := by decide +kernel
      obtain ⟨⟨v, c'⟩, h1, h2⟩ := Option.map_eq_some_iff.1 this
      cases h2
      exact ⟨9, c', h1⟩
    have htr : GetsTrials chainBase openedTop ['a', '1'] (some 0) := by
      unfold GetsTrials
      rw [hg, show (sampleLib []).graph.getUnitType ['a', '1'] = some .lesson by decide +kernel]
      have : (UnitScorer.lessonTrialsC (openedTop.sys.world (openedTop.config chainBase)) ['a', '1']
        openedTop.caches).map Prod.fst = some (some 0) := by decide +kernel
      obtain ⟨⟨v, c'⟩, h1, h2⟩ := Option.map_eq_some_iff.1 this
      cases h2
      exact ⟨c', h1⟩
    have hne : openedTop.graph.getUnitType ['a', '1'] ≠ none := by
      obtain ⟨ty, hty⟩ := hk
      rw [hty]; simp
    obtain ⟨v, hv⟩ := Option.ne_none_iff_exists'.1 (hs.reads.known ['a', '1'] hne)
    have hv0 : v = some 0 := score_unique chainBase openedTop _ (hs.reads.score _ v hv) hsc
    have ht0 : env.trials ['a', '1'] = some 0 := trials_unique (hs.reads.trials ['a', '1']) htr
    have hs0 : env.superseded ['a', '1'] = false := UnitScorer.superseded_unique _ _ _ (hs.reads.superseded _) hsu
    have hnot : ¬ Search.Satisfied (openedTop.env { sampleRequest with env := env }) ['a', '1'] := by
      have hbl : openedTop.blacklist.blacklisted ['a', '1'] = false ∧ openedTop.blacklist.blacklisted ['a'] = false := by
        decide +kernel
      have hco : openedTop.graph.getLessonCourse ['a', '1'] = some ['a'] := by rw [hg]; decide +kernel
      have hmin : (0 : ℚ) < openedTop.options.current.passing.minScore := by decide +kernel
      rintro (h | ⟨c, hc, h⟩ | h | h | h | h | ⟨s, n, h, _, h3, _⟩)
      · rw [show (openedTop.env { sampleRequest with env := env }).black ['a', '1'] = false from hbl.1] at h; cases h
      · rw [show (openedTop.env { sampleRequest with env := env }).graph.getLessonCourse ['a', '1'] = some ['a']
          from hco] at hc
        cases hc
        rw [show (openedTop.env { sampleRequest with env := env }).black ['a'] = false from hbl.2] at h; cases h
      · rw [show (openedTop.env { sampleRequest with env := env }).superseded ['a', '1'] = false from hs0] at h; cases h
      · rw [show (openedTop.env { sampleRequest with env := env }).score ['a', '1'] = some v from hv] at h; cases h
      · rw [show (openedTop.env { sampleRequest with env := env }).score ['a', '1'] = some v from hv, hv0] at h; cases h
      · rw [show (openedTop.env { sampleRequest with env := env }).trials ['a', '1'] = some 0 from ht0] at h; cases h
      · rw [show (openedTop.env { sampleRequest with env := env }).score ['a', '1'] = some v from hv, hv0] at h
        cases h
        exact absurd h3 (not_le.2 hmin)
    have lock : ¬ Search.Unlocked (openedTop.env { sampleRequest with env := env }) none ['a', '2'] :=
      fun hu => hnot (hu _ hdep _ (.self trivial))
    refine Search.stays_locked hsane (fun u => u = ['a', '2']) ?_ rfl
    rintro u rfl
    refine ⟨?_, fun c _ => .inr lock, fun d _ => .inr (.inr lock), fun hcrs => ?_⟩
    · rintro ⟨s, hst, h | h⟩
      · exact lock h.2
      · have := hst.2.2 ['a', '1']
        rw [← h.1] at this
        exact this hdep hk
    · have h1 : openedTop.graph.getUnitType ['a', '2'] = some .course := hcrs
      rw [hg, show (sampleLib []).graph.getUnitType ['a', '2'] = some .lesson by decide +kernel] at h1
      cases h1
  exact ⟨hstr, hno, opened_waits_for_offer_partial opened_running (by simp) hs opened_no_empty sample_laid_out hstr
    (.inl (by decide +kernel)) hno⟩

end Trane.TopLevel
