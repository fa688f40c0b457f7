import Verif.Tree.ListedSample
import Verif.Library.ShuffleScores
import Verif.Top.Sample

/-!
# C104: scores and rewards of a library of texts do not depend on the order in which its files are listed
-/

namespace Trane.Tree
open Trane.Store (Str)
open Trane.Library
open Trane.Json (Generator)
open Trane.TopLevel (Base GetsScore GetsTrials GetsSuperseded)

variable {F : Type} (M : Machine F) {order : List Path → List Path} {perm : ∀ l, (order l).Perm l} {X X' : Outside}

theorem opens_both (hX : X.Fair) (hX' : X'.Fair) (h : SameProgram X X') {lib lib' : Lib Rest Generator}
    (hl : Opens (M.real X) lib) (hl' : Opens ((M.listing order perm).real X') lib') : ∃ ig, SameFiles (M.real X).disk ((M.listing order perm).real X').disk ∧
      GeneratesProper (M.real X).disk ∧ Loads (M.real X).disk ig lib ∧ Loads ((M.listing order perm).real X').disk ig lib' := by
  obtain ⟨text, prefs, h1, h2, h3⟩ := hl
  obtain ⟨text', prefs', h1', h2', h3'⟩ := hl'
  have e : some text = some text' := h1.symm.trans h1'
  cases e
  rw [h2] at h2'
  cases h2'
  exact ⟨_, disk_listing (M := M) (order := order) (perm := perm) hX hX' h, real_proper M X, h3, h3'⟩

/-- **C104, scores**: two objects that opened the library over the same stored data, with the files listed in different
orders, give the same scores, numbers of trials and superseded units. -/
theorem listing_same_scores {R : Type} [Field R] [LinearOrder R] (hX : X.Fair) (hX' : X'.Fair) (h : SameProgram X X')
    {lib lib' : Lib Rest Generator} (hl : Opens (M.real X) lib) (hl' : Opens ((M.listing order perm).real X') lib')
    (b : Base R) (t : TopLevel.Top R) (ho : (TopLevel.step b t (.restart lib.graph)).2 = true) (u : Str) :
    (TopLevel.step b t (.restart lib'.graph)).2 = true ∧
    (∀ v, GetsScore b (TopLevel.step b t (.restart lib.graph)).1 u v ↔ GetsScore b (TopLevel.step b t (.restart lib'.graph)).1 u v) ∧
    (∀ v, GetsTrials b (TopLevel.step b t (.restart lib.graph)).1 u v ↔ GetsTrials b (TopLevel.step b t (.restart lib'.graph)).1 u v) ∧
    ∀ v, GetsSuperseded b (TopLevel.step b t (.restart lib.graph)).1 u v ↔
      GetsSuperseded b (TopLevel.step b t (.restart lib'.graph)).1 u v := by
  obtain ⟨ig, h1, h2, h3, h4⟩ := opens_both M hX hX' h hl hl'
  exact order_restart_scores h1 h2 h3 h4 b t ho u

/-- **C104, rewards**: when no manifest lists encompassed units, a grade gives the same rewards in both. -/
theorem listing_same_rewards (hX : X.Fair) (hX' : X'.Fair) (h : SameProgram X X') {lib lib' : Lib Rest Generator}
    (hl : Opens (M.real X) lib) (hl' : Opens ((M.listing order perm).real X') lib')
    (he : ∀ u ds es ss, lib.Lists u ds es ss → es = []) (e : Str) (score : MasteryScore) (t : Int)
    {rs rs' : List (Propagator.UnitReward Str)} (hr : Propagator.Propagates lib.graph [] e score t rs)
    (hr' : Propagator.Propagates lib'.graph [] e score t rs') : rs.Perm rs' := by
  obtain ⟨ig, h1, h2, h3, h4⟩ := opens_both M hX hX' h hl hl'
  exact order_library_rewards h1 h2 h3 h4 he e score t hr hr'

/-! ### On an example -/

/-- The exercises of a lesson do come in different orders, and the course has a score. -/
example : ∃ lib lib', Opens (twoArtists.real plain) lib ∧ Opens ((backwards twoArtists).real plain) lib' ∧
    (∃ l, lib.graph.getLessonExercises l ≠ lib'.graph.getLessonExercises l) ∧
    ∀ v, GetsScore TopLevel.sampleBase (TopLevel.step TopLevel.sampleBase (TopLevel.fresh lib.graph 7) (.restart lib.graph)).1 "t".toList v ↔
      GetsScore TopLevel.sampleBase (TopLevel.step TopLevel.sampleBase (TopLevel.fresh lib.graph 7) (.restart lib'.graph)).1 "t".toList v :=
  ⟨_, _, twoArtists_open, twoArtists_backwards_open, ⟨"t::singing".toList, by decide +kernel⟩,
    (listing_same_scores twoArtists (order := List.reverse) (perm := List.reverse_perm) plain_fair plain_fair ⟨rfl, rfl, rfl, rfl⟩ twoArtists_open
      twoArtists_backwards_open TopLevel.sampleBase _ (by decide +kernel) _).2.1⟩

theorem no_enc_of {lib : Lib Rest Generator} (h1 : ∀ p ∈ lib.courses, p.2.enc = []) (h2 : ∀ p ∈ lib.lessons, p.2.enc = []) :
    ∀ u ds es ss, lib.Lists u ds es ss → es = [] := by
  rintro u ds es ss (⟨m, hm, -, e, -⟩ | ⟨m, hm, -, e, -⟩)
  · exact e ▸ h1 _ (AMap.mem_of_find hm)
  · exact e ▸ h2 _ (AMap.mem_of_find hm)

theorem twoArtists_no_enc : ∀ u ds es ss, (opened (twoArtists.real plain) []).Lists u ds es ss → es = [] :=
  no_enc_of (by decide +kernel) (by decide +kernel)

theorem one_reward {g : Graph Str} {e : Str} {n : Nat} (h : (Propagator.propagate g [] n e .five 7).map List.length = some 1) :
    ∃ rs, Propagator.Propagates g [] e .five 7 rs ∧ rs ≠ [] := by
  obtain ⟨rs, e1, l1⟩ := Option.map_eq_some_iff.1 h
  refine ⟨rs, ⟨n, e1⟩, ?_⟩
  rintro rfl
  cases l1

theorem twoArtists_reward : (Propagator.propagate (opened (twoArtists.real plain) []).graph [] 20 "t::advanced_singing::s".toList
    .five 7).map List.length = some 1 := by decide +kernel

theorem twoArtists_backwards_reward : (Propagator.propagate (opened ((backwards twoArtists).real plain) []).graph [] 20
    "t::advanced_singing::s".toList .five 7).map List.length = some 1 := by decide +kernel

theorem twoArtists_facts : ∃ lib lib', Opens (twoArtists.real plain) lib ∧ Opens ((backwards twoArtists).real plain) lib' ∧
    (∀ u ds es ss, lib.Lists u ds es ss → es = []) ∧
    (Propagator.propagate lib.graph [] 20 "t::advanced_singing::s".toList .five 7).map List.length = some 1 ∧
    (Propagator.propagate lib'.graph [] 20 "t::advanced_singing::s".toList .five 7).map List.length = some 1 :=
  ⟨_, _, twoArtists_open, twoArtists_backwards_open, twoArtists_no_enc, twoArtists_reward, twoArtists_backwards_reward⟩

/-- Grading an exercise of the advanced lesson rewards the other lesson, in both. -/
example : ∃ lib lib' rs rs', Opens (twoArtists.real plain) lib ∧ Opens ((backwards twoArtists).real plain) lib' ∧
    Propagator.Propagates lib.graph [] "t::advanced_singing::s".toList .five 7 rs ∧
    Propagator.Propagates lib'.graph [] "t::advanced_singing::s".toList .five 7 rs' ∧ rs ≠ [] ∧ rs.Perm rs' := by
  obtain ⟨lib, lib', h1, h2, h3, h4, h5⟩ := twoArtists_facts
  obtain ⟨rs, e1, hn⟩ := one_reward h4
  obtain ⟨rs', e2, -⟩ := one_reward h5
  exact ⟨lib, lib', rs, rs', h1, h2, e1, e2, hn, listing_same_rewards twoArtists (order := List.reverse) (perm := List.reverse_perm)
    plain_fair plain_fair ⟨rfl, rfl, rfl, rfl⟩ h1 h2 h3 _ _ _ e1 e2⟩

end Trane.Tree
