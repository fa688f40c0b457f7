import Verif.Top.SessionProps
import Verif.Sched.BatchSample
import Mathlib.Data.List.Lex
import Mathlib.Data.Char

/-! A small object on which the hypotheses of the theorems about the whole are shown to hold. -/

namespace Trane.TopLevel
open Trane.Store
open Trane.UnitScorer (Plain)

/-- The order of names. -/
theorem strOrder : Shuffler.IsOrder (fun a b : Str => decide (a ≤ b)) :=
  ⟨fun a b c h1 h2 => by simp only [decide_eq_true_eq] at *; exact le_trans h1 h2,
   fun a b => by simp only [decide_eq_true_eq]; exact le_total a b,
   fun a b h1 h2 => by simp only [decide_eq_true_eq] at *; exact le_antisymm h1 h2⟩

/-- Course `c` with lesson `l` (exercises `e` and `f`) and lesson `m` (exercise `d`). -/
def sampleOps : List (Graph.Op Str) := [.addCourse ['c'], .addDependencies ['c'] .course [],
  .addLesson ['l'] ['c'], .addDependencies ['l'] .lesson [], .addExercise ['e'] ['l'], .addExercise ['f'] ['l'],
  .addLesson ['m'] ['c'], .addDependencies ['m'] .lesson [], .addExercise ['d'] ['m'],
  .addEncompassed ['l'] [] [(['m'], 1)], .updateStartingLessons]

/-- The library of the sample. -/
def sampleGraph : Graph Str := Graph.run sampleOps

/-- A batch request without filter. -/
def sampleRequest : Request where
  env :=
    { graph := sampleGraph
      black := fun _ => false
      courseMeta := fun u => if sampleGraph.getUnitType u = some .course then some [] else none
      lessonMeta := fun u => if sampleGraph.getUnitType u = some .lesson then some [] else none
      hasExercise := fun u => decide (sampleGraph.getUnitType u = some .exercise)
      dflt := []
      opts := .default
      score := fun u => if sampleGraph.getUnitType u = none then none else some (some 1)
      trials := fun u => if sampleGraph.getUnitType u = none then none else some 1
      superseded := fun _ => false
      urgency := fun _ => some 1
      velocity := fun _ => some none
      frequency := fun _ => 0 }
  choices := Batch.firstOf (fun a b => decide (a ≤ b))
  fuel := 400
  filter := none
  asks := [.score ['l'] 9, .lessonTrials ['m'], .courseTrials ['c'] 9]

def sampleBase : Base ℚ where
  sortV := System.sampleConfig.sortV
  sortW := System.sampleConfig.sortW
  scorer := fun _ => System.sampleConfig.scorer

/-- Before closing the object: everything can happen. -/
def before : List (Call ℚ) := [.scoreExercise ['e'] .three 10 9 id {}, .recordScores [⟨['d'], 2, 3⟩] false,
  .addToBlacklist ['m'] false, .setPreferences ⟨some 5⟩ false, .wait 100]

/-- After opening it again. -/
def later : List (Call ℚ) := [.getUnitScore ['l'] 9, .addToBlacklist ['e'] false,
  .scoreExercise ['f'] .one 120 9 id {}, .removeFromBlacklist ['m'] false, .addToReviewList ['d'] false,
  .getUnitScore ['c'] 9, .invalidatePrefix ['c'], .scoreExercise ['e'] .five 130 9 id {}]

/-- The whole history. -/
def sample : Top ℚ := runs sampleBase (fresh sampleGraph 0) (before ++ .restart sampleGraph :: later)

theorem sample_graph : sample.graph = sampleGraph := by
  have hok : (schedulerOptions (runs sampleBase (fresh sampleGraph 0) before).prefs).verify = true := by
    decide +kernel
  have e : sample = runs sampleBase (step sampleBase (runs sampleBase (fresh sampleGraph 0) before)
      (.restart sampleGraph)).1 later := by
    rw [← runs_snoc, ← runs_append, List.append_assoc]
    rfl
  rw [e, library_of_history_partial _ _ _ (by simp [later, Restarts]) (by simp [later, toGraph])]
  rcases step_restart sampleBase (runs sampleBase (fresh sampleGraph 0) before) sampleGraph with e' | ⟨-, e'⟩
  · simp only [step, if_pos hok, Prod.mk.injEq, Bool.true_eq_false, and_false] at e'
  · rw [e']
    rfl

/-- The hypotheses of `scores_fresh_since_opening_partial` hold of the sample, and the score it speaks about
is not trivial. -/
example : sampleGraph.getUnitType [] = none ∧ System.NoEmpty sampleGraph ∧
    (step sampleBase (runs sampleBase (fresh sampleGraph 0) before) (.restart sampleGraph)).2 = true ∧
    (∀ c ∈ later, Clean c) ∧ Plain sampleGraph ['c'] ∧
    (UnitScorer.scoreC (sample.sys.world (sample.config sampleBase)) 9 ['c'] sample.caches).map Prod.fst =
      some (some (77 / 50)) := by
  refine ⟨by decide +kernel, System.noEmpty_of_maps (by decide +kernel) (by decide +kernel) (by decide +kernel)
    (by decide +kernel), by decide +kernel, ?_, ⟨by decide +kernel, ?_⟩, by decide +kernel⟩
  · simp [later, Clean]
  · intro ls l hls hl
    have : sampleGraph.getCourseLessons ['c'] = some [['m'], ['l']] := by decide +kernel
    rw [this] at hls
    cases hls
    have : ∀ l ∈ [['m'], ['l']], sampleGraph.getSupersededBy l = none ∧ sampleGraph.getCourseLessons l = none := by
      decide +kernel
    exact this l hl

/-- What the history of the sample leaves behind; the hypotheses of `trials_of_history` and the others hold. -/
example : sample.trials.history ['e'] = [(3, 10), (5, 130)] ∧ sample.deltas.history ['e'] = [(2, 130)] ∧
    sample.blacklist.entries = [['e']] ∧ ReviewList.entries sample.review = [['d']] ∧
    sample.options.get.batchSize = 5 ∧ sample.session.pile = [['f']] := by decide +kernel

theorem sample_sane : Search.Sane (sample.env sampleRequest) := by
  have hg : (sample.env sampleRequest).graph = sampleGraph := sample_graph
  have hco : ∀ l, sampleGraph.getUnitType l = some .lesson → ∃ c, sampleGraph.getLessonCourse l = some c := by
    intro l h
    have hm : l ∈ sampleGraph.types.keys := (AMap.mem_keys_iff _ _).2 ⟨_, h⟩
    have : ∀ x ∈ sampleGraph.types.keys, sampleGraph.getUnitType x = some .lesson →
        (sampleGraph.getLessonCourse x).isSome = true := by decide +kernel
    exact Option.isSome_iff_exists.1 (this l hm h)
  refine ⟨?_, ?_, ?_, ?_, ?_, ?_, ?_, rfl, ?_⟩
  · rw [hg]; exact Graph.wf_run sampleOps
  · intro u
    change (sample.env sampleRequest).graph.getUnitType u = some .course ↔
      (if sampleGraph.getUnitType u = some .course then some [] else none : Option Filters.Metadata).isSome = true
    rw [hg]
    split <;> simp_all
  · intro u
    change (sample.env sampleRequest).graph.getUnitType u = some .lesson ↔
      (if sampleGraph.getUnitType u = some .lesson then some [] else none : Option Filters.Metadata).isSome = true
    rw [hg]
    split <;> simp_all
  · intro u
    rw [hg]
    exact (decide_eq_true_iff).symm
  · intro l hl
    unfold Search.IsLesson at hl
    rw [hg] at hl ⊢
    exact hco l hl
  · rw [hg]; change sampleGraph.getUnitType [] = none; decide +kernel
  · change sample.blacklist.blacklisted [] = false; decide +kernel
  · intro u hu
    rw [hg] at hu
    left
    exact if_pos hu

/-- The hypotheses of `blacklisted_not_scheduled` hold of the sample: exercise `e` is blacklisted and a batch
with the two other exercises is returned. -/
example : (step sampleBase (runs sampleBase (fresh sampleGraph 0) (before ++ [.restart sampleGraph,
      .getUnitScore ['l'] 9])) (.addToBlacklist ['e'] false)).2 = true ∧
    (∀ c ∈ later.drop 2, ¬ Unlists ['e'] c) ∧ Batch.IsChoices sampleRequest.choices ∧
    Search.Sane (sample.env sampleRequest) ∧
    ∃ s xs, sample.batch sampleRequest = some (s, some xs) ∧ xs.Perm [['d'], ['f']] := by
  refine ⟨by decide +kernel, ?_, Batch.firstOf_ok strOrder, sample_sane, ?_⟩
  · simp [later, Unlists]
  · have hd : Batch.drafted (sample.env sampleRequest) sample.options.made 400
        (ReviewList.entries sample.review) sample.session none = some [['d'], ['f']] := by decide +kernel
    obtain ⟨xs, hp, h⟩ := Batch.getBatch_firstOf strOrder hd
    have hall : ([['d'], ['f']] : List Str).all (sample.env sampleRequest).hasExercise = true := by
      decide +kernel
    rw [if_pos hall] at h
    exact ⟨_, xs, h, hp⟩

end Trane.TopLevel
