import Verif.Top.WholeAsk
import Verif.Top.ScoreSample
import Verif.Library.Sample

/-! The hypotheses of C86 hold of an object on the sample library, after several calls. -/

namespace Trane.TopLevel
open Trane.Store
open Trane.Graph
open Trane.Library (sampleDisk sampleLib sample_loads sample_generates DiskExercise)

/-- Before the library is opened: nothing is stored but a blacklisted unit and a preferred batch size. -/
def earlierCalls : List (Call ℚ) := [.addToBlacklist ['b'] false, .setPreferences ⟨some 20⟩ false]

/-- The calls after it: two grades, a review-list entry, an asked score. -/
def wholeCalls : List (Call ℚ) := [.scoreExercise ['x'] .four 10 9 id {}, .scoreExercise ['y'] .one 20 9 id {},
  .addToReviewList ['x'] false, .getUnitScore ['a'] 9, .wait 100]

def wholeTop : Top ℚ :=
  runs chainBase (step chainBase (runs chainBase (fresh {} 0) earlierCalls) (.restart (sampleLib []).graph)).1 wholeCalls

theorem whole_running : Running sampleDisk [] (sampleLib []) chainBase wholeCalls wholeTop where
  proper := sample_generates
  loads := sample_loads
  opened := ⟨{}, 0, earlierCalls, by
    have hok : (schedulerOptions (runs chainBase (fresh {} 0) earlierCalls).prefs).verify = true := by decide +kernel
    simp only [step, if_pos hok], rfl⟩
  stays := by simp [wholeCalls, Restarts]
  unedited := by simp [wholeCalls, toGraph]

theorem whole_no_empty : NoEmptyId (sampleLib []) wholeTop := by
  constructor <;> decide +kernel

/-- Every step goes to a unit of smaller rank. -/
def wholeRank (u : Str) : Nat :=
  if u = ['a'] ∨ u = ['b'] then 2 else if u = ['a', '1'] then 1 else 0

theorem whole_acyclic : ¬ HasCycle (OnDiskOver sampleDisk []) := by
  have hstep : ∀ u s, OnDiskOver sampleDisk [] u s → wholeRank s < wholeRank u := by
    intro u s hus
    have h1 : ∀ e ∈ (sampleLib []).graph.supBy, ∀ s ∈ e.2, wholeRank s < wholeRank e.1 := by decide +kernel
    have h2 : ∀ e ∈ (sampleLib []).graph.courseLessons, ∀ s ∈ e.2, wholeRank s < wholeRank e.1 := by decide +kernel
    have h3 : SupersededBy (sampleLib []).graph u s ∨ CourseHasLesson (sampleLib []).graph u s := by
      have := (steps_on_disk whole_running u s).2 hus
      rw [← whole_running.graph]
      exact this
    rcases h3 with ⟨ids, e, hs⟩ | ⟨ids, e, hs⟩
    · exact h1 _ (AMap.mem_of_find e) s hs
    · exact h2 _ (AMap.mem_of_find e) s hs
  rintro ⟨u, hu⟩
  have key : ∀ v, Relation.TransGen (OnDiskOver sampleDisk []) u v → wholeRank v < wholeRank u := by
    intro v hv
    induction hv with
    | single h => exact hstep _ _ h
    | tail _ h ih => exact lt_trans (hstep _ _ h) ih
  exact lt_irrefl _ (key u hu)

theorem whole_graded : ∀ x ∈ gradedIds wholeCalls, ∃ m, DiskExercise sampleDisk [] m ∧ m.id = x := by
  have h1 : ∀ x ∈ [['x'], ['y']], ((sampleLib []).getExerciseManifest x).isSome = true := by decide +kernel
  intro x hx
  obtain ⟨m, hm⟩ := Option.isSome_iff_exists.1 (h1 x hx)
  exact ⟨m, ((Library.library_manifests sample_generates sample_loads x).2.2 m).1 hm⟩

/-- With any filter, also the review list, there is a request that is served, and it succeeds. -/
example (f : Option (Filters.UnitFilter Str)) : ∃ q s xs, q.filter = f ∧ Batch.IsChoices q.choices ∧
    Serves (sampleLib []) chainBase wholeTop q ∧ wholeTop.batch q = some (s, some xs) := by
  obtain ⟨env, -, hs⟩ := serves_exists whole_running whole_acyclic { sampleRequest with filter := f }
  obtain ⟨N, s, xs, hx⟩ := whole_batch_succeeds whole_running hs whole_no_empty (Batch.firstOf_ok strOrder) whole_graded
    (by
      intro _ u hu
      have h1 : ∀ u ∈ ReviewList.entries wholeTop.review, ((sampleLib []).graph.getUnitType u).isSome = true := by
        decide +kernel
      exact Option.isSome_iff_exists.1 (h1 u hu))
  refine ⟨{ sampleRequest with filter := f, env := env, fuel := N }, s, xs, rfl, Batch.firstOf_ok strOrder, ?_,
    hx N (le_refl N)⟩
  exact ⟨⟨hs.reads.score, hs.reads.known, hs.reads.trials, hs.reads.superseded⟩, hs.urgency, hs.course, hs.lesson,
    hs.exercise, hs.dflt⟩

/-- What the object holds: grade 1 put `y` on the relearn pile, the batch size is the preferred one, the relearned
exercise and the others have manifests. -/
example : wholeTop.session.pile = [['y']] ∧ wholeTop.options.made.batchSize = 20 ∧
    wholeTop.blacklist.blacklisted ['b'] = true ∧ ReviewList.entries wholeTop.review = [['x']] := by decide +kernel

end Trane.TopLevel
