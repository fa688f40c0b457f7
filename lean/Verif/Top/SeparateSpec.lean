import Verif.Sched.Separate
import Verif.Top.Spec

/-!
# C113: which histories differ only in what was done in another part of the library

`D` is a part of the library that nothing connects with the rest (`UnitScorer.Apart`).
-/

namespace Trane.TopLevel
open Trane.Store
open Trane.UnitScorer (Apart)

variable {R : Type} [Field R] [LinearOrder R]

/-- The unit a query of the search is about. -/
def Ask.unit : Ask → Str
  | .score u _ => u
  | .lessonTrials u => u
  | .courseTrials u _ => u

/-- The call is about units of `D`, or about the object as a whole.  Trimming and removing by prefix are not interrupted, edits of
the library are left out, and a library opened again still has nothing that connects `D` with the rest. -/
def Stays (D : Str → Prop) : Call R → Prop
  | .addToBlacklist u _ | .removeFromBlacklist u _ | .blacklisted u | .getUnitScore u _ | .invalidate u => D u
  | .removePrefixFromBlacklist _ f => f = none
  | .recordScores es _ | .recordDeltas es _ => ∀ e ∈ es, D e.unit
  | .recordRewards rs _ => ∀ r ∈ rs, D r.unit
  | .trimScores _ stop | .trimDeltas _ stop | .trimRewards _ stop => stop = none
  | .removeScores _ stop | .removeDeltas _ stop | .removeRewards _ stop => stop = none
  | .scoreExercise x _ _ _ order _ => D x ∧ ∀ l, (order l).Perm l
  | .editGraph _ | .getBatch _ => False
  | .restart g => Apart g D
  | .addToReviewList .. | .removeFromReviewList .. | .setPreferences .. | .invalidatePrefix _ | .options _ | .overrideTime _ | .wait _ => True

/-- The call is about units outside `D` only, or about the review list, or is a batch that asks for no scores of `D`. -/
def Elsewhere (D : Str → Prop) : Call R → Prop
  | .addToBlacklist u _ | .removeFromBlacklist u _ | .blacklisted u | .getUnitScore u _ | .invalidate u => ¬ D u
  | .recordScores es _ | .recordDeltas es _ => ∀ e ∈ es, ¬ D e.unit
  | .recordRewards rs _ => ∀ r ∈ rs, ¬ D r.unit
  | .removePrefixFromBlacklist p _ | .removeScores p _ | .removeDeltas p _ | .removeRewards p _ => ∀ u, D u → likePrefix p u = false
  | .invalidatePrefix p => ∀ u, D u → ¬ p <+: u
  | .scoreExercise x _ _ _ order _ => ¬ D x ∧ ∀ l, (order l).Perm l
  | .addToReviewList .. | .removeFromReviewList .. => True
  | .getBatch q => ∀ a ∈ q.asks, ¬ D a.unit
  | _ => False

/-- `h'` is `h` without the calls about units outside `D`; a batch may be replaced by another one if the same queries about
units of `D` are made while they are built. -/
inductive Without (D : Str → Prop) [DecidablePred D] : List (Call R) → List (Call R) → Prop
  | nil : Without D [] []
  | kept (c : Call R) {h h'} : Stays D c → Without D h h' → Without D (c :: h) (c :: h')
  | left_out (c : Call R) {h h'} : Elsewhere D c → Without D h h' → Without D (c :: h) h'
  | batch (q q' : Request) {h h'} : q'.asks.filter (fun a => D a.unit) = q.asks.filter (fun a => D a.unit) → Without D h h' →
      Without D (.getBatch q :: h) (.getBatch q' :: h')

/-- Every batch that the calls ask for, starting with `t`, comes to an end. -/
def Completes (b : Base R) (t : Top R) (h : List (Call R)) : Prop :=
  ∀ h1 q h2, h = h1 ++ .getBatch q :: h2 → ((runs b t h1).batch q).isSome

end Trane.TopLevel
