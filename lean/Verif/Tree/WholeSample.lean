import Verif.Tree.Whole
import Verif.Tree.GenSample
import Verif.Top.WholeSample

/-! The hypotheses of C92 hold of an object on a library with a generated course, after several calls. -/

namespace Trane.Tree
open Trane.Store (Str)
open Trane.Library
open Trane.TopLevel
open Trane.Graph (HasCycle SupersededBy CourseHasLesson)
open Trane.Json (Generator UserPreferences)

/-- The library of the knowledge base. -/
def cardsLib : Lib Rest Generator := opened (cards.real plain) []

deriving instance DecidableEq for Trane.Graph

/-- Its graph. -/
def cardsGraph : Trane.Graph Str where
  types := [("k".toList, .course), ("k::a".toList, .lesson), ("k::a::1".toList, .exercise), ("k::b".toList, .lesson)]
  courseLessons := [("k".toList, ["k::b".toList, "k::a".toList])]
  startingLessons := [("k".toList, ["k::a".toList])]
  lessonCourse := [("k::a".toList, "k".toList), ("k::b".toList, "k".toList)]
  lessonExercises := [("k::a".toList, ["k::a::1".toList])]
  exerciseLesson := [("k::a::1".toList, "k::a".toList)]
  deps := [("k".toList, []), ("k::a".toList, []), ("k::b".toList, ["w".toList, "k::a".toList])]
  dependents := [("k::a".toList, ["k::b".toList]), ("w".toList, ["k::b".toList])]
  sinks := ["w".toList, "k".toList]

theorem cards_graph : cardsLib.graph = cardsGraph := by decide +kernel

/-- The card is graded, the computer waits. -/
def cardsCalls : List (Call ℚ) := [.scoreExercise "k::a::1".toList .one 10 9 id {}, .wait 100]

def cardsTop : TopLevel.Top ℚ :=
  runs chainBase (step chainBase (runs chainBase (fresh {} 0) []) (.restart cardsGraph)).1 cardsCalls

theorem cards_running : RunningOn cards plain {} cardsLib chainBase cardsCalls cardsTop where
  fair := plain_fair
  prefers := prefers_iff.mpr (by decide +kernel)
  loads := opened_loads cards_loads
  opened := ⟨{}, 0, [], rfl, by
    have hok : (schedulerOptions (runs chainBase (fresh {} 0) []).prefs).verify = true := by decide +kernel
    simp only [step, if_pos hok], by rw [cards_graph]; rfl⟩
  stays := by simp [cardsCalls, Restarts]
  unedited := by simp [cardsCalls, toGraph]

theorem cards_no_empty : NoEmptyId cardsLib cardsTop := by
  constructor
  · decide +kernel
  · rw [cards_graph]; decide +kernel

/-- Every step goes from the course to a lesson. -/
def cardsRank (u : Str) : Nat := if u = "k".toList then 1 else 0

theorem steps_of {d : Disk Rest Generator} {ig : List FPath} {lib : Lib Rest Generator} {b : Base ℚ}
    {h : List (Call ℚ)} {t : TopLevel.Top ℚ} (hr : Running d ig lib b h t) {u s : Str} (hus : OnDiskOver d ig u s) :
    SupersededBy lib.graph u s ∨ CourseHasLesson lib.graph u s := by
  have := (steps_on_disk hr u s).2 hus
  rw [← hr.graph]
  exact this

theorem cards_acyclic : ¬ HasCycle (OnDiskOver (cards.real plain).disk []) := by
  have hstep : ∀ u s, OnDiskOver (cards.real plain).disk [] u s → cardsRank s < cardsRank u := by
    intro u s hus
    have h1 : ∀ e ∈ cardsGraph.supBy, ∀ s ∈ e.2, cardsRank s < cardsRank e.1 := by decide +kernel
    have h2 : ∀ e ∈ cardsGraph.courseLessons, ∀ s ∈ e.2, cardsRank s < cardsRank e.1 := by decide +kernel
    have h3 : SupersededBy cardsGraph u s ∨ CourseHasLesson cardsGraph u s :=
      cards_graph ▸ steps_of cards_running.running hus
    rcases h3 with ⟨ids, e, hs⟩ | ⟨ids, e, hs⟩
    · exact h1 _ (AMap.mem_of_find e) s hs
    · exact h2 _ (AMap.mem_of_find e) s hs
  rintro ⟨u, hu⟩
  have key : ∀ v, Relation.TransGen (OnDiskOver (cards.real plain).disk []) u v → cardsRank v < cardsRank u := by
    intro v hv
    induction hv with
    | single h => exact hstep _ _ h
    | tail _ h ih => exact lt_trans (hstep _ _ h) ih
  exact lt_irrefl _ (key u hu)

/-- There is a request that is served, and it succeeds. -/
theorem cards_batch : ∃ q s xs, q.filter = none ∧ Batch.IsChoices q.choices ∧
    Serves cardsLib chainBase cardsTop q ∧ cardsTop.batch q = some (s, some xs) := by
  obtain ⟨env, -, hs⟩ := serves_exists cards_running.running cards_acyclic { sampleRequest with filter := none }
  obtain ⟨N, s, xs, hx⟩ := batch_succeeds_from_texts cards_running hs cards_no_empty
    (Batch.firstOf_ok TopLevel.strOrder) (by
      have h1 : ∀ x ∈ gradedIds cardsCalls, (cardsLib.getExerciseManifest x).isSome = true := by
        intro x hx
        have h2 : ∀ x ∈ gradedIds cardsCalls, cardsGraph.getUnitType x = some .exercise := by decide +kernel
        rw [← (library_types cards_running.running.proper cards_running.running.loads x).2.2]
        exact cards_graph ▸ h2 x hx
      exact fun x hx => Option.isSome_iff_exists.1 (h1 x hx)) (by intro h; cases h)
  exact ⟨{ sampleRequest with filter := none, env := env, fuel := N }, s, xs, rfl, Batch.firstOf_ok TopLevel.strOrder,
    ⟨⟨hs.reads.score, hs.reads.known, hs.reads.trials, hs.reads.superseded⟩, hs.urgency, hs.course, hs.lesson,
      hs.exercise, hs.dflt⟩, hx N (le_refl N)⟩

/-- Grade 1 put the card on the relearn pile. -/
example : cardsTop.session.pile = ["k::a::1".toList] ∧ cardsTop.options.made.batchSize = 50 := by decide +kernel

end Trane.Tree
