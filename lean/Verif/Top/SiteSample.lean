import Verif.Top.SiteProps
import Verif.Top.AskProps

/-! # C119: the hypotheses are met, and what is not seen -/

namespace Trane.TopLevel
open Trane.Store
open Trane.UnitScorer (scoreC)

/-- Two objects practise by turns. -/
def twoPractise : List (Nat × Call ℚ) := [(0, .scoreExercise ['e'] .three 10 9 id {}), (1, .scoreExercise ['e'] .five 20 9 id {}),
  (1, .addToBlacklist ['m'] false), (0, .recordScores [⟨['d'], 2, 3⟩] false), (1, .setPreferences ⟨some 5⟩ false),
  (0, .scoreExercise ['d'] .four 30 9 id {}), (1, .addToReviewList ['d'] false), (0, .restart sampleGraph), (0, .addToBlacklist ['e'] false),
  (1, .scoreExercise ['f'] .two 40 9 id {})]

/-- A new library, opened twice. -/
def twoObjects : Site ℚ := newSite sampleGraph 0

/-- `GradingsOk`, one call at a time. -/
theorem gradingsOk_of_all {b : Base ℚ} {s : Site ℚ} {h : List (Nat × Call ℚ)}
    (hp : ∀ n, n < h.length → ∀ k, h[n]? = some k → ((s.runs b (h.take n)).step b k).2 = true) : s.GradingsOk b h := by
  intro h1 k h2 e _
  have := hp h1.length (by simp [e]) k (by simp [e])
  rwa [e, List.take_left' rfl] at this

/-- The hypotheses of `no_grade_lost` are met, and the three grades of `e` and `d` are found by both objects. -/
example : (∀ k ∈ twoPractise, Keeps k.2) ∧ twoObjects.GradingsOk sampleBase twoPractise ∧
    ((twoObjects.runs sampleBase twoPractise).sees 0).trials.history ['e'] = [(3, 10), (5, 20)] ∧
    ((twoObjects.runs sampleBase twoPractise).sees 1).trials.history ['d'] = [(2, 3), (4, 30)] := by
  refine ⟨by simp [twoPractise, Keeps], gradingsOk_of_all ?_, by decide +kernel, by decide +kernel⟩
  have : ∀ n < twoPractise.length, (match twoPractise[n]? with
      | none => true
      | some k => (((twoObjects.runs sampleBase (twoPractise.take n)).step sampleBase k).2)) = true := by decide +kernel
  intro n hn k hk
  have := this n hn
  rwa [hk] at this

/-- The hypotheses of `blacklist_of_last_opened` are met: object 0 is opened again after what object 1 did, and edits the blacklist itself. -/
example : ((twoObjects.runs sampleBase (twoPractise.take 7)).step sampleBase (0, .restart sampleGraph)).2 = true ∧
    (∀ k ∈ twoPractise.drop 8, OnlyEditor 0 k) ∧
    ((twoObjects.runs sampleBase twoPractise).sees 0).blacklist.blacklisted ['m'] = true ∧
    ((twoObjects.runs sampleBase twoPractise).sees 1).blacklist.entries = [['m'], ['e']] := by
  refine ⟨by decide +kernel, ?_, by decide +kernel, by decide +kernel⟩
  simp [twoPractise, OnlyEditor, Blacklists]

/-- **C119**, the limit: what one object adds to the blacklist, another one lists but does not skip, and if it adds the same id it gets an error. -/
theorem blacklisting_not_seen :
    let s := twoObjects.runs sampleBase [(0, .addToBlacklist ['e'] false)]
    ['e'] ∈ (s.sees 1).blacklist.entries ∧ (s.sees 1).blacklist.blacklisted ['e'] = false ∧
    (s.step sampleBase (1, .addToBlacklist ['e'] false)).2 = false := by decide +kernel

/-- **C119**, the limit: an addition to the blacklist that returned `Ok` is lost.  One object adds an exercise, another one takes it off, the first adds
it again: the call returns `Ok` and nothing is on the list. -/
theorem addition_lost :
    let s := twoObjects.runs sampleBase [(0, .addToBlacklist ['e'] false), (1, .removeFromBlacklist ['e'] false)]
    let r := s.step sampleBase (0, .addToBlacklist ['e'] false)
    r.2 = true ∧ ∀ j, (r.1.sees j).blacklist.entries = [] := by
  refine ⟨by decide +kernel, fun j => ?_⟩
  have : ((((twoObjects.runs sampleBase [(0, .addToBlacklist ['e'] false), (1, .removeFromBlacklist ['e'] false)]).step sampleBase
    (0, .addToBlacklist ['e'] false)).1).common).black = [] := by decide +kernel
  exact this

/-- **C119**, the limit: an object goes on answering the score it computed before another one graded the exercise, although it finds the new grade
among the stored ones; opened again, it answers the score that goes with them. -/
theorem grade_not_seen :
    let s := twoObjects.runs sampleBase [(0, .scoreExercise ['e'] .two 10 9 id {}), (0, .getUnitScore ['e'] 9),
      (1, .scoreExercise ['e'] .five 20 9 id {})]
    let s' := (s.step sampleBase (0, .restart sampleGraph)).1
    (s.sees 0).trials.history ['e'] = [(2, 10), (5, 20)] ∧
    (scoreC ((s.sees 0).sys.world ((s.sees 0).config sampleBase)) 9 ['e'] (s.sees 0).caches).map Prod.fst ≠
      (scoreC ((s'.sees 0).sys.world ((s'.sees 0).config sampleBase)) 9 ['e'] (s'.sees 0).caches).map Prod.fst := by decide +kernel

end Trane.TopLevel
