import Verif.Top.Whole
import Verif.Library.ProgressProps

/-!
# C105 for an object that has opened a library
-/

namespace Trane.TopLevel
open Trane.Store
open Trane.Graph
open Trane.Library (Disk Lib FPath)
open Trane.UnitScorer (SameAnswers Queried)
open Relation (TransGen)

variable {α γ : Type} {d : Disk α γ} {ig : List FPath} {lib : Lib α γ} {b : Base ℚ} {h : List (Call ℚ)} {t : Top ℚ}
  {q : Request}

/-- **C105.**  An object has opened a library, and the caches of its unit scorer hold nothing out of date.  Every lesson
or course that a search without filter does not get to waits for a lesson that comes before it, that the search gets to,
and that offers exercises and is not yet mastered. -/
theorem object_waits_for_offer_partial (hr : Running d ig lib b h t) (hq : Serves lib b t q) (he : NoEmptyId lib t)
    (hc : SameAnswers (t.sys.world (t.config b)) {} t.caches) (hw : lib.WellLaidOut)
    (hs : Search.NothingStranded (t.env q)) {u : Str}
    (hu : (lib.getLessonManifest u).isSome = true ∨ (lib.getCourseManifest u).isSome = true)
    (hl : ¬ Search.Open (t.env q) u) :
    ∃ l, TransGen lib.ComesBefore u l ∧ Search.ToLearn (t.env q) l := by
  have hsane := running_sane hr hq he
  have hg : (t.env q).graph = lib.graph := hr.graph
  have hreads : Search.ReadsFrom (t.sys.world (t.config b)) {} (t.env q) := by
    refine ⟨rfl, fun _ => rfl, fun u hk => ?_, fun l hl => ?_, fun c hc' => ?_, fun u => ?_⟩
    · obtain ⟨ty, hty⟩ := hk
      have hne : t.graph.getUnitType u ≠ none := by
        rw [show t.graph.getUnitType u = some ty from hty]; simp
      obtain ⟨v, hv⟩ := Option.ne_none_iff_exists'.1 (hq.reads.known u hne)
      exact ⟨v, hv, (hc.score u v).2 (hq.reads.score u v hv)⟩
    · have := hq.reads.trials l
      unfold GetsTrials at this
      rw [show t.graph.getUnitType l = some .lesson from hl] at this
      exact (hc.lessonTrials l _).2 this
    · have := hq.reads.trials c
      unfold GetsTrials at this
      rw [show t.graph.getUnitType c = some .course from hc'] at this
      exact (hc.courseTrials c _).2 this
    · exact (hc.superseded u _).2 (hq.reads.superseded u)
  have hu' : Search.IsLesson (t.env q) u ∨ Search.IsCourse (t.env q) u := by
    obtain ⟨h1, h2, _⟩ := Library.library_types hr.proper hr.loads u
    rw [← h1, ← h2, ← hg] at hu
    exact hu
  obtain ⟨l, h1, h2⟩ := Search.scored_waits_for_offer_partial Queried.empty hreads hsane
    (Library.library_orderly hr.proper hr.loads hw hsane hg) hs hu' hl
  exact ⟨l, Relation.TransGen.mono (fun _ _ hb => Library.library_before hr.proper hr.loads hsane hg hb) _ _ h1, h2⟩

/-- **C105.**  In particular right after opening the library and making calls that only ask, or that change the review
list, the preferences or the options. -/
theorem opened_waits_for_offer_partial (hr : Running d ig lib b h t) (ha : ∀ c ∈ h, Asks c) (hq : Serves lib b t q)
    (he : NoEmptyId lib t) (hw : lib.WellLaidOut) (hs : Search.NothingStranded (t.env q)) {u : Str}
    (hu : (lib.getLessonManifest u).isSome = true ∨ (lib.getCourseManifest u).isSome = true)
    (hl : ¬ Search.Open (t.env q) u) :
    ∃ l, TransGen lib.ComesBefore u l ∧ Search.ToLearn (t.env q) l := by
  refine object_waits_for_offer_partial hr hq he ?_ hw hs hu hl
  obtain ⟨g0, clock, earlier, hok, ht⟩ := hr.opened
  generalize ht0 : step b (runs b (fresh g0 clock) earlier) (.restart lib.graph) = r at hok ht
  have hs0 : Sound b r.1 := by
    rw [← ht0]
    exact sound_step b _ _ (sound_runs b _ earlier (sound_fresh b g0 clock))
  have hc0 : r.1.caches = {} := by
    rcases step_restart b (runs b (fresh g0 clock) earlier) lib.graph with e | ⟨_, e⟩
    · rw [ht0] at e; rw [e] at hok; cases hok
    · rw [ht0] at e; rw [e]
  obtain ⟨h1, h2⟩ := asking_runs hs0 h ha
  rw [ht, h1]
  rw [hc0] at h2
  exact UnitScorer.asking_changes_no_answer _ _ _ h2

end Trane.TopLevel
