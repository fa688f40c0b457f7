import Verif.Top.TidyLemmas

/-!
# C112: trimming the stored history changes nothing
-/

namespace Trane.TopLevel
open Trane.Store
open Trane.UnitScorer (after scoreC exC)

variable {R : Type} [Field R] [LinearOrder R]

/-- **C112.** Open an object on any library, make any calls, and then the same calls with trimming to 20 entries or
more in between, as often as one likes and stopped at any point.  If no exercise was graded twice at the same date, the
two objects cannot be told apart: every score, number of trials and superseded unit, and every batch, is the same; the
last 20 grades of every exercise are; the blacklist, the review list, the rewards, the preferences, the library, the
options and the study session are. -/
theorem trimming_changes_nothing (b : Base R) (g : Graph Str) (clock : Int) {h h' : List (Call R)} (ht : Tidied h h')
    (hd : DatesDiffer h) {t t' : Top R} (et : t = runs b (fresh g clock) h) (et' : t' = runs b (fresh g clock) h') :
    (∀ u v, GetsScore b t' u v ↔ GetsScore b t u v) ∧
    (∀ u v, GetsTrials b t' u v ↔ GetsTrials b t u v) ∧
    (∀ u v, GetsSuperseded b t' u v ↔ GetsSuperseded b t u v) ∧
    (∀ q, t'.batch q = t.batch q) ∧
    (∀ u n, n ≤ 20 → t'.trials.get b.sortV u n = t.trials.get b.sortV u n) ∧
    t' = { t with trials := t'.trials, deltas := t'.deltas } := by
  have hs := shorter_runs ht (shorter_fresh b g clock) (by simpa using hd.1) (by simpa using hd.2)
  rw [← et, ← et'] at hs
  have hw := shorter_world hs
  have hc : t'.caches = t.caches := by rw [hs.rest]
  have hg : t'.graph = t.graph := by rw [hs.rest]
  refine ⟨fun u v => ?_, fun u v => ?_, fun u v => ?_, fun q => ?_, fun u n hn => ?_, hs.rest⟩
  · unfold GetsScore; rw [hw, hc]
  · unfold GetsTrials; rw [hw, hc, hg]
  · unfold GetsSuperseded; rw [hw, hc]
  · rw [hs.rest]; rfl
  · exact hs.trials.get_le b.sortV u hn

/-- **C112.** The next call reports success or failure alike, too. -/
theorem trimming_keeps_results (b : Base R) (g : Graph Str) (clock : Int) {h h' : List (Call R)} (ht : Tidied h h')
    (c : Call R) (hd : DatesDiffer (h ++ [c])) :
    (step b (runs b (fresh g clock) h') c).2 = (step b (runs b (fresh g clock) h) c).2 := by
  have h1 := hd.1
  have h2 := hd.2
  rw [List.flatMap_append] at h1 h2
  have hs := shorter_runs ht (shorter_fresh b g clock) (by simpa using h1.of_append_left) (by simpa using h2.of_append_left)
  refine (shorter_same hs c rfl rfl ?_ ?_).2
  · simpa using h1
  · simpa using h2

/-! ### Samples -/

/-- Twenty-two grades of `e`, one more by `score_exercise`, a question, and another grade. -/
def longHistory : List (Call ℚ) := [.recordScores ((List.range 22).map (fun i => ⟨['e'], 3, i⟩)) false,
  .scoreExercise ['e'] .five 30 9 id {}, .getUnitScore ['c'] 9, .scoreExercise ['e'] .two 40 9 id {}]

/-- The same with trimming after the first calls. -/
def tidyHistory : List (Call ℚ) := [.recordScores ((List.range 22).map (fun i => ⟨['e'], 3, i⟩)) false, .trimScores 20 none,
  .trimRewards 20 (some 1), .scoreExercise ['e'] .five 30 9 id {}, .trimDeltas 25 none, .getUnitScore ['c'] 9, .trimScores 20 none,
  .scoreExercise ['e'] .two 40 9 id {}]

/-- The hypotheses hold, and the trimming did throw rows away. -/
example : Tidied longHistory tidyHistory ∧ DatesDiffer longHistory ∧
    (runs sampleBase (fresh sampleGraph 0) longHistory).trials.rows.length = 24 ∧
    (runs sampleBase (fresh sampleGraph 0) tidyHistory).trials.rows.length = 21 := by
  refine ⟨?_, ?_, by decide +kernel, by decide +kernel⟩
  · exact .same _ (.trims _ (Nat.le_refl 20) (.trims _ (Nat.le_refl 20) (.same _ (.trims _ (by decide : 20 ≤ 25) (.same _
      (.trims _ (Nat.le_refl 20) (.same _ .nil)))))))
  · unfold DatesDiffer; decide +kernel

/-- The numbers of trials of the sample, by computation. -/
theorem trials_of_eval {h : List (Call ℚ)} {l : Str} {v : Option ℚ}
    (hl : (runs sampleBase (fresh sampleGraph 0) h).graph.getUnitType l = some .lesson)
    (hv : (UnitScorer.lessonTrialsC ((runs sampleBase (fresh sampleGraph 0) h).sys.world
      ((runs sampleBase (fresh sampleGraph 0) h).config sampleBase)) l (runs sampleBase (fresh sampleGraph 0) h).caches).map Prod.fst =
      some v) : GetsTrials sampleBase (runs sampleBase (fresh sampleGraph 0) h) l v := by
  unfold GetsTrials
  rw [hl]
  obtain ⟨⟨v, c'⟩, h1, h2⟩ := Option.map_eq_some_iff.1 hv
  cases h2
  exact ⟨c', h1⟩

/-- Keeping 19 is not enough: the number of trials of the lesson `m` is 20 without trimming and 19 with it. -/
theorem keeping_fewer_changes : ∃ h : List (Call ℚ), DatesDiffer h ∧
    GetsTrials sampleBase (runs sampleBase (fresh sampleGraph 0) h) ['m'] (some 20) ∧
    GetsTrials sampleBase (runs sampleBase (fresh sampleGraph 0) (h ++ [.trimScores 19 none])) ['m'] (some 19) := by
  refine ⟨[.recordScores ((List.range 20).map (fun i => ⟨['d'], 3, i⟩)) false], ?_, trials_of_eval ?_ ?_, trials_of_eval ?_ ?_⟩
  · unfold DatesDiffer; decide +kernel
  all_goals decide +kernel

end Trane.TopLevel
