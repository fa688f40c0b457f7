import Verif.Top.Model

/-!
# What the calls on a `Trane` object are meant to do

A small specification, written without looking at the model of the calls: which parts of the object a call
may change, and which calls each component is meant to receive.
-/

namespace Trane.TopLevel
open Trane.Store

/-- The parts of the object a user can observe. -/
inductive Part
  | blacklist | reviewList | trials | deltas | rewards | preferences | library | options | session | time
  deriving DecidableEq

/-- The parts a call is about; it must leave the other parts alone. -/
def concerns {R : Type} : Call R → List Part
  | .addToBlacklist .. => [.blacklist]
  | .removeFromBlacklist .. => [.blacklist]
  | .removePrefixFromBlacklist .. => [.blacklist]
  | .blacklisted .. => []
  | .addToReviewList .. => [.reviewList]
  | .removeFromReviewList .. => [.reviewList]
  | .recordScores .. => [.trials]
  | .trimScores .. => [.trials]
  | .removeScores .. => [.trials]
  | .recordDeltas .. => [.deltas]
  | .trimDeltas .. => [.deltas]
  | .removeDeltas .. => [.deltas]
  | .recordRewards .. => [.rewards]
  | .trimRewards .. => [.rewards]
  | .removeRewards .. => [.rewards]
  | .setPreferences .. => [.preferences]
  | .editGraph .. => [.library]
  | .scoreExercise .. => [.trials, .deltas, .rewards, .session]
  | .getUnitScore .. => []
  | .getBatch .. => [.session]
  | .invalidate .. => []
  | .invalidatePrefix .. => []
  | .options .. => [.options]
  | .overrideTime .. => [.time]
  | .wait .. => [.time]
  | .restart .. => [.library, .options, .session, .time]

/-- A part looks the same to the user. -/
def Same {R : Type} (t t' : Top R) : Part → Prop
  | .blacklist => t'.blacklist.entries = t.blacklist.entries ∧
      ∀ u, t'.blacklist.blacklisted u = t.blacklist.blacklisted u
  | .reviewList => ReviewList.entries t'.review = ReviewList.entries t.review
  | .trials => t'.trials = t.trials
  | .deltas => t'.deltas = t.deltas
  | .rewards => t'.rewards.table = t.rewards.table
  | .preferences => t'.prefs = t.prefs
  | .library => t'.graph = t.graph
  | .options => t'.options = t.options
  | .session => t'.session = t.session
  | .time => t'.override = t.override ∧ t'.clock = t.clock

/-- The call the blacklist is meant to receive. -/
def toBlacklist {R : Type} : Call R → Option Blacklist.Op
  | .addToBlacklist u f => some (.add u f)
  | .removeFromBlacklist u f => some (.remove u f)
  | .removePrefixFromBlacklist p f => some (.removePrefix p f)
  | .blacklisted u => some (.query u)
  | _ => none

/-- The call the review list is meant to receive. -/
def toReviewList {R : Type} : Call R → Option ReviewList.Op
  | .addToReviewList u f => some (.add u f)
  | .removeFromReviewList u f => some (.remove u f)
  | _ => none

/-- The call the table of trials is meant to receive; a grading adds one trial. -/
def toTrials {R : Type} [Field R] : Call R → Option (LogOp R)
  | .recordScores es f => some (.record es f)
  | .trimScores n s => some (.trim n s)
  | .removeScores p s => some (.removePrefix p s)
  | .scoreExercise x g t _ _ _ => some (.record [⟨x, System.gradeVal R g, t⟩] false)
  | _ => none

/-- The call the table of deltas receives directly. -/
def toDeltas {R : Type} : Call R → Option (LogOp R)
  | .recordDeltas es f => some (.record es f)
  | .trimDeltas n s => some (.trim n s)
  | .removeDeltas p s => some (.removePrefix p s)
  | _ => none

/-- The call the table of rewards receives directly. -/
def toRewards {R : Type} : Call R → Option Rewards.Op
  | .recordRewards rs f => some (.record rs f)
  | .trimRewards n s => some (.trim n s)
  | .removeRewards p s => some (.removePrefix p s)
  | _ => none

/-- The edit the graph is meant to receive. -/
def toGraph {R : Type} : Call R → Option (Graph.Op Str)
  | .editGraph o => some o
  | _ => none

/-- The call on the options. -/
def toOptions {R : Type} : Call R → Option OptionsApi.Call
  | .options c => some c
  | _ => none

/-- The preferences after a history: those of the last successful `set_user_preferences`. -/
def lastPreferences {R : Type} (p : Preferences) : List (Call R) → Preferences
  | [] => p
  | .setPreferences q false :: h => lastPreferences q h
  | _ :: h => lastPreferences p h

/-- The call grades an exercise. -/
def Grades {R : Type} : Call R → Prop
  | .scoreExercise .. => True
  | _ => False

/-- The call closes and reopens the object. -/
def Restarts {R : Type} : Call R → Prop
  | .restart .. => True
  | _ => False

/-- The databases are those of an object that was only used through its API. -/
structure Sound {R : Type} (b : Base R) (t : Top R) : Prop where
  blacklist : ∃ ops, t.blacklist = Blacklist.run ops
  review : ∃ ops, t.review = ReviewList.run ops
  trials : ∃ ops, t.trials = Table.run b.sortV ops
  deltas : ∃ ops, t.deltas = Table.run b.sortV ops
  rewards : ∃ ops, t.rewards = Rewards.run b.sortW ops

end Trane.TopLevel
