import Verif.Top.Model
import Verif.Conc.Grading

/-! # C118: crashes in the middle of a call -/

namespace Trane.Threads

/-- The data after the first `n` steps of the program (or at its end, if it has fewer), nobody else being there. -/
def Prog.at {σ α : Type} : Prog σ α → σ → Nat → σ
  | .done _, s, _ => s
  | .act _ _, s, 0 => s
  | .act f next, s, n + 1 => (next s).at (f s) n

end Trane.Threads

namespace Trane.TopLevel
open Trane.Store Trane.System

variable {R : Type} [Field R] [LinearOrder R]

/-- The call without the failures of the database it meets. -/
def unharmed : Call R → Call R
  | .addToBlacklist u _ => .addToBlacklist u false
  | .removeFromBlacklist u _ => .removeFromBlacklist u false
  | .removePrefixFromBlacklist p _ => .removePrefixFromBlacklist p none
  | .addToReviewList u _ => .addToReviewList u false
  | .removeFromReviewList u _ => .removeFromReviewList u false
  | .recordScores es _ => .recordScores es false
  | .trimScores n _ => .trimScores n none
  | .removeScores p _ => .removeScores p none
  | .recordDeltas es _ => .recordDeltas es false
  | .trimDeltas n _ => .trimDeltas n none
  | .removeDeltas p _ => .removeDeltas p none
  | .recordRewards rs _ => .recordRewards rs none
  | .trimRewards n _ => .trimRewards n none
  | .removeRewards p _ => .removeRewards p none
  | .setPreferences p _ => .setPreferences p false
  | .scoreExercise x g t fuel order _ => .scoreExercise x g t fuel order {}
  | c => c

/-- What a crash in the middle of the call can leave of the object `t`.  Grading: what the first steps of the program have done
(`Conc/Grading`; each of its writes is a transaction of one database, C18).  Trimming and removing by prefix: the first statements are
done, one per id (/repo/src/practice_stats.rs:169-177, 195-200, /repo/src/blacklist.rs:145-151).  Everything else is one statement or one
transaction: all or nothing (C18).  A crash inside the writing of the preferences file can also leave a part of the file (C76); this is
not counted here. -/
def Torn (b : Base R) (t : Top R) : Call R → Top R → Prop
  | .scoreExercise x g ts fuel order f, d =>
    ∃ n, d = t.putSys ((Threads.gradeCode (t.config b) x g ts fuel order f).at t.sys n)
  | .trimScores n _, d => ∃ k, d = { t with trials := t.trials.trimByTime b.sortV n (some k) }
  | .trimDeltas n _, d => ∃ k, d = { t with deltas := t.deltas.trimByTime b.sortV n (some k) }
  | .trimRewards n _, d => ∃ k, d = { t with rewards := { t.rewards with table := t.rewards.table.trimById b.sortW n (some k) } }
  | .removeScores p _, d => ∃ k, d = { t with trials := t.trials.removePrefix p (some k) }
  | .removeDeltas p _, d => ∃ k, d = { t with deltas := t.deltas.removePrefix p (some k) }
  | .removeRewards p _, d => ∃ k, d = { t with rewards := { t.rewards with table := t.rewards.table.removePrefix p (some k) } }
  | .removePrefixFromBlacklist p _, d =>
    ∃ k, d = { t with blacklist := ((t.blacklist.db.filter (likePrefix p)).take k).foldl Blacklist.removeRow t.blacklist }
  | c, d => d = t ∨ d = (step b t c).1

/-- The two calls are the same but for the failures they meet. -/
def SameButFaults (c c' : Call R) : Prop := unharmed c = unharmed c'

/-- The objects there can be, with crashes in the middle of calls: `Life b g0 clock t`. -/
inductive Life (b : Base R) (g0 : Graph Str) (clock : Int) : Top R → Prop
  | new : Life b g0 clock (fresh g0 clock)
  | call {t : Top R} (c : Call R) : Life b g0 clock t → Life b g0 clock (step b t c).1
  | crash {t d : Top R} (c : Call R) (g : Graph Str) : Life b g0 clock t → (∀ g, c ≠ .restart g) → Torn b t c d →
      (step b d (.restart g)).2 = true → Life b g0 clock (step b d (.restart g)).1

end Trane.TopLevel
