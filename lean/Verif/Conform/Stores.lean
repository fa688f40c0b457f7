import Verif.Store.Blacklist
import Verif.Store.ReviewList
import Verif.Store.LogProps
import Verif.Store.Rewards

/-!
# The project's own tests of the databases, replayed on the model

/repo/src/blacklist.rs:203-325, review_list.rs:126-161, practice_stats.rs:239-415,
practice_deltas.rs:214-390, practice_rewards.rs:302-603.  These are tests of the model, not theorems
about it: each `example` makes the calls of one `#[test]` of the code on the model and checks the
assertions of that test.  No claim rests on them.
-/

namespace Trane.Conform.Stores

open Trane.Store
open Trane.Store.Table (insSort)

/-- `Ustr::from`. -/
def u (s : String) : Str := s.toList

/-! ### /repo/src/blacklist.rs -/

section Blacklist
open Trane.Store.Blacklist (run entries blacklisted)

/-- `not_in_blacklist`. -/
example : (run []).blacklisted (u "unit_id") = false := by decide +kernel

/-- `add_and_remove_from_blacklist`. -/
example : (run [.add (u "unit_id") false]).blacklisted (u "unit_id") = true ∧
    (run [.add (u "unit_id") false, .query (u "unit_id"), .remove (u "unit_id") false]).blacklisted
      (u "unit_id") = false := by decide +kernel

/-- The units of `remove_prefix_from_blacklist`. -/
def units : List Str := [u "a", u "a::a", u "b", u "b::a", u "c", u "c::a"]

/-- `remove_prefix_from_blacklist`. -/
example : let b := run (units.map (.add · false) ++ [.removePrefix (u "a") none])
    ∀ x ∈ units, b.blacklisted x = decide (x.head? ≠ some 'a') := by decide +kernel

/-- `blacklist_cache`. -/
example : let b := run [.add (u "unit_id") false, .query (u "unit_id")]
    b.blacklisted (u "unit_id") = true ∧ (b.step (.add (u "unit_id") false)).2 = true := by
  decide +kernel

/-- `readd_to_blacklist`. -/
example : (run [.add (u "unit_id") false, .query (u "unit_id"), .remove (u "unit_id") false,
    .query (u "unit_id"), .add (u "unit_id") false]).blacklisted (u "unit_id") = true := by
  decide +kernel

/-- `all_entries`. -/
example : (run [.add (u "unit_id") false, .query (u "unit_id"), .add (u "unit_id2") false,
    .query (u "unit_id2")]).entries = [u "unit_id", u "unit_id2"] := by decide +kernel

/-- `reopen_blacklist`. -/
example : (run [.add (u "unit_id") false, .query (u "unit_id"), .reopen]).blacklisted
    (u "unit_id") = true := by decide +kernel

end Blacklist

/-! ### /repo/src/review_list.rs -/

section ReviewList
open Trane.Store.ReviewList (run entries)

/-- `add_and_remove_from_review_list`. -/
example : let ops : List ReviewList.Op := [.add (u "unit_id") false, .add (u "unit_id") false,
      .add (u "unit_id2") false]
    entries (run ops) = [u "unit_id", u "unit_id2"] ∧
    entries (run (ops ++ [.remove (u "unit_id") false])) = [u "unit_id2"] := by decide +kernel

end ReviewList

/-! ### /repo/src/practice_stats.rs and practice_deltas.rs -/

section Logs
open Trane.Store.Table (run get)

/-- `trial` and `delta` of the test modules. -/
def trial (x : Str) (v : ℚ) (t : Int) : Entry ℚ := ⟨x, v, t⟩

/-- `record_exercise_scores` that meets no database error. -/
def recorded (es : List (Entry ℚ)) : LogOp ℚ := .record es false

/-- The scores answered to `get_scores`, or the deltas to `get_deltas`. -/
def values (t : Table ℚ) (x : Str) (n : Nat) : List ℚ := (get insSort t x n).map Prod.fst

/-- The answers are sorted by time, newest first. -/
def sorted (t : Table ℚ) (x : Str) (n : Nat) : Prop :=
  ((get insSort t x n).map Prod.snd).Pairwise (fun a b => b ≤ a)

instance (t : Table ℚ) (x : Str) (n : Nat) : Decidable (sorted t x n) := by
  unfold sorted; infer_instance

def ex1 : Str := u "exercise1"
def ex2 : Str := u "exercise2"
def ex3 : Str := u "exercise3"

/-- `basic` of the stats. -/
example : values (run insSort [recorded [trial (u "ex_123") 5 1]]) (u "ex_123") 1 = [5] := by
  decide +kernel

/-- `multiple_records` of the stats. -/
example : let t := run insSort [recorded [trial (u "ex_123") 3 1, trial (u "ex_123") 4 2,
      trial (u "ex_123") 5 3]]
    values t (u "ex_123") 1 = [5] ∧ values t (u "ex_123") 3 = [5, 4, 3] ∧
    values t (u "ex_123") 10 = [5, 4, 3] ∧ sorted t (u "ex_123") 10 := by decide +kernel

/-- `no_records` of the stats and of the deltas. -/
example : values (run insSort []) (u "ex_123") 10 = [] := by decide +kernel

/-- The records of the tests of trimming and of removing a prefix. -/
def threes : List (LogOp ℚ) :=
  [recorded [trial ex1 3 1, trial ex1 4 2, trial ex1 5 3],
   recorded [trial ex2 1 1, trial ex2 1 2, trial ex2 3 3]]

/-- `trim_scores_some_scores_removed`. -/
example : let t := run insSort (threes ++ [.trim 2 none])
    values t ex1 10 = [5, 4] ∧ values t ex2 10 = [3, 1] ∧ sorted t ex1 10 ∧ sorted t ex2 10 := by
  decide +kernel

/-- `trim_scores_no_scores_removed`. -/
example : let t := run insSort (threes ++ [.trim 10 none])
    values t ex1 10 = [5, 4, 3] ∧ values t ex2 10 = [3, 1, 1] ∧ sorted t ex1 10 ∧
    sorted t ex2 10 := by decide +kernel

/-- `remove_scores_with_prefix`. -/
example : let ops := threes ++ [recorded [trial ex3 1 1, trial ex3 1 2, trial ex3 3 3],
      .removePrefix (u "exercise1") none]
    let t := run insSort ops
    let t' := run insSort (ops ++ [.removePrefix (u "exercise") none])
    values t ex1 10 = [] ∧ values t ex2 10 = [3, 1, 1] ∧ values t ex3 10 = [3, 1, 1] ∧
    values t' ex1 10 = [] ∧ values t' ex2 10 = [] ∧ values t' ex3 10 = [] := by decide +kernel

/-- `basic` of the deltas. -/
example : values (run insSort [recorded [trial (u "ex_123") (1/2) 1]]) (u "ex_123") 1 = [1/2] := by
  decide +kernel

/-- `multiple_records` of the deltas. -/
example : let t := run insSort [recorded [trial (u "ex_123") (1/10) 1, trial (u "ex_123") (3/10) 2,
      trial (u "ex_123") (1/2) 3]]
    values t (u "ex_123") 1 = [1/2] ∧ values t (u "ex_123") 3 = [1/2, 3/10, 1/10] ∧
    values t (u "ex_123") 10 = [1/2, 3/10, 1/10] ∧ sorted t (u "ex_123") 10 := by decide +kernel

/-- The records of the tests of trimming and of removing a prefix of the deltas. -/
def tenths : List (LogOp ℚ) :=
  [recorded [trial ex1 (1/10) 1, trial ex1 (2/10) 2, trial ex1 (3/10) 3],
   recorded [trial ex2 (-1/10) 1, trial ex2 (-2/10) 2, trial ex2 (-3/10) 3]]

/-- `trim_deltas_some_removed`. -/
example : let t := run insSort (tenths ++ [.trim 2 none])
    values t ex1 10 = [3/10, 2/10] ∧ values t ex2 10 = [-3/10, -2/10] := by decide +kernel

/-- `trim_deltas_none_removed`. -/
example : let t := run insSort (tenths ++ [.trim 10 none])
    values t ex1 10 = [3/10, 2/10, 1/10] ∧ values t ex2 10 = [-3/10, -2/10, -1/10] := by
  decide +kernel

/-- `remove_deltas_with_prefix`. -/
example : let ops := tenths ++ [recorded [trial ex3 (4/10) 1, trial ex3 (5/10) 2,
      trial ex3 (6/10) 3], .removePrefix (u "exercise1") none]
    let t := run insSort ops
    let t' := run insSort (ops ++ [.removePrefix (u "exercise") none])
    values t ex1 10 = [] ∧ values t ex2 10 = [-3/10, -2/10, -1/10] ∧
    values t ex3 10 = [6/10, 5/10, 4/10] ∧
    values t' ex1 10 = [] ∧ values t' ex2 10 = [] ∧ values t' ex3 10 = [] := by decide +kernel

end Logs

/-! ### /repo/src/practice_rewards.rs -/

section Rewards
open Trane.Store.Rewards (run)

/-- One call of `record_unit_rewards` with one reward, as in the tests. -/
def reward (x : Str) (v w : ℚ) (t : Int) : Rewards.Op := .record [⟨x, v, w, t⟩] none

/-- The values and weights answered to `get_rewards`. -/
def answered (s : Rewards) (x : Str) (n : Nat) : List ℚ × List ℚ :=
  ((Table.get insSort s.table x n).map (·.1.1), (Table.get insSort s.table x n).map (·.1.2))

/-- `basic`. -/
example : answered (run insSort [reward (u "unit_123") 3 1 1]) (u "unit_123") 1 = ([3], [1]) := by
  decide +kernel

/-- `multiple_rewards`. -/
example : let s := run insSort [reward (u "unit_123") 3 1 1, reward (u "unit_123") 2 1 2,
      reward (u "unit_123") (-1) (5/100) 3]
    answered s (u "unit_123") 1 = ([-1], [5/100]) ∧
    answered s (u "unit_123") 3 = ([-1, 2, 3], [5/100, 1, 1]) ∧
    answered s (u "unit_123") 10 = ([-1, 2, 3], [5/100, 1, 1]) := by decide +kernel

/-- `many_rewards`. -/
example : answered (run insSort ((List.range 20).map (fun i : Nat => reward (u "unit_123") i 1 i)))
      (u "unit_123") 10 =
    ([19, 18, 17, 16, 15, 14, 13, 12, 11, 10], [1, 1, 1, 1, 1, 1, 1, 1, 1, 1]) := by decide +kernel

/-- `no_records`. -/
example : answered (run insSort []) (u "unit_123") 10 = ([], []) := by decide +kernel

def unit1 : Str := u "unit1"
def unit2 : Str := u "unit2"
def unit3 : Str := u "unit3"

/-- The rewards of the tests of trimming and of removing a prefix. -/
def sixRewards : List Rewards.Op :=
  [reward unit1 3 1 1, reward unit1 4 1 2, reward unit1 5 1 3,
   reward unit2 1 1 1, reward unit2 2 1 2, reward unit2 3 1 3]

/-- `trim_rewards_some_rewards_removed`. -/
example : let s := run insSort sixRewards
    let s' := run insSort (sixRewards ++ [.trim 2 none])
    (answered s unit1 10).1.length = 3 ∧ (answered s unit2 10).1.length = 3 ∧
    answered s' unit1 10 = ([5, 4], [1, 1]) ∧ answered s' unit2 10 = ([3, 2], [1, 1]) := by
  decide +kernel

/-- `trim_rewards_no_rewards_removed`. -/
example : let s := run insSort (sixRewards ++ [.trim 10 none])
    answered s unit1 10 = ([5, 4, 3], [1, 1, 1]) ∧
    answered s unit2 10 = ([3, 2, 1], [1, 1, 1]) := by decide +kernel

/-- `remove_rewards_with_prefix`. -/
example : let ops := sixRewards ++ [reward unit3 1 1 1, reward unit3 2 1 2, reward unit3 3 1 3,
      .removePrefix (u "unit1") none]
    let s := run insSort ops
    let s' := run insSort (ops ++ [.removePrefix (u "unit") none])
    answered s unit1 10 = ([], []) ∧ answered s unit2 10 = ([3, 2, 1], [1, 1, 1]) ∧
    answered s unit3 10 = ([3, 2, 1], [1, 1, 1]) ∧
    answered s' unit1 10 = ([], []) ∧ answered s' unit2 10 = ([], []) ∧
    answered s' unit3 10 = ([], []) := by decide +kernel

end Rewards

end Trane.Conform.Stores
