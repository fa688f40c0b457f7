import Verif.Store.Table
import Mathlib.Data.Rat.Defs
import Mathlib.Algebra.Order.Ring.Unbundled.Rat

/-!
# The practice rewards database

Models `/repo/src/practice_rewards.rs`.  Rewards and weights are rationals instead of `f32`
(no `NaN`; the weight difference is not rounded).
-/

namespace Trane.Store

/-- `UnitReward`, /repo/src/data.rs (unit_id, value, weight, timestamp). -/
structure Reward where
  unit : Str
  value : ℚ
  weight : ℚ
  ts : Int
  deriving DecidableEq

/-- `LocalPracticeRewards`, /repo/src/practice_rewards.rs:96-102: the database and the cache of
recently accepted rewards. -/
structure Rewards where
  table : Table (ℚ × ℚ) := {}
  cache : AMap Str (List Reward) := []

namespace Rewards

/-- The comparison inside `has_similar_reward`, /repo/src/practice_rewards.rs:75-79, with
`SECONDS_IN_DAY` (line 51) and `WEIGHT_EPSILON` (line 54). -/
def similar (r s : Reward) : Bool :=
  decide (s.value = r.value) && decide ((s.ts - r.ts).natAbs < 86400) &&
    decide (|s.weight - r.weight| < 1 / 10)

/-- `has_similar_reward`, /repo/src/practice_rewards.rs:71-82. -/
def hasSimilar (c : AMap Str (List Reward)) (r : Reward) : Bool :=
  match AMap.find c r.unit with
  | none => false
  | some rs => rs.any (similar r)

/-- The update of one cache line: drop the oldest at `MAX_CACHE_SIZE` = 10 (/repo/src/practice_rewards.rs:57), append.
-/
def pushCache (r : Reward) (rs : List Reward) : List Reward :=
  (if rs.length ≥ 10 then rs.drop 1 else rs) ++ [r]

/-- `add_new_reward`, /repo/src/practice_rewards.rs:86-92. -/
def addCache (c : AMap Str (List Reward)) (r : Reward) : AMap Str (List Reward) :=
  AMap.upd c r.unit [] (pushCache r)

/-- The `DELETE` with `OFFSET 20`, /repo/src/practice_rewards.rs:213-220. -/
def truncate (S : SortDesc (ℚ × ℚ)) (t : Table (ℚ × ℚ)) (u : Str) : Table (ℚ × ℚ) :=
  match t.uidOf u with
  | none => t
  | some k => { t with rows := Table.trimUidById S 20 k t.rows }

/-- The loop of `record_unit_rewards_helper`, /repo/src/practice_rewards.rs:191-224.  `budget = some k`
models a database error when handling the `k+1`-st reward that is not skipped.  Returns the state, the
`updated` list and whether the loop ended without error. -/
def loop (S : SortDesc (ℚ × ℚ)) : Rewards → List Reward → Option Nat → Rewards × List Str × Bool
  | s, [], _ => (s, [], true)
  | s, r :: rs, budget =>
    if hasSimilar s.cache r then loop S s rs budget
    else if budget = some 0 then (s, [], false)
    else
      match s.table.recordOne ⟨r.unit, (r.value, r.weight), r.ts⟩ with
      | none => (s, [], false)
      | some t =>
        let res := loop S ⟨truncate S t r.unit, addCache s.cache r⟩ rs (budget.map (· - 1))
        (res.1, r.unit :: res.2.1, res.2.2)

/-- `record_unit_rewards`, /repo/src/practice_rewards.rs:188-228: one transaction.  On an error
(including a failing commit, `fail = some k` with a large `k`) the transaction is rolled back when the
handle is dropped, but the cache keeps the rewards added so far.  `some ids` is `Ok(updated)`. -/
def record (S : SortDesc (ℚ × ℚ)) (s : Rewards) (rs : List Reward) (fail : Option Nat) :
    Rewards × Option (List Str) :=
  let res := loop S s rs fail
  if res.2.2 && fail.isNone then (res.1, some res.2.1) else ({ res.1 with table := s.table }, none)

/-- The calls of `PracticeRewards` (/repo/src/practice_rewards.rs:22-48) and reopening, which starts
with an empty cache (lines 138-147). -/
inductive Op
  | record (rs : List Reward) (fail : Option Nat)
  | trim (n : Nat) (stop : Option Nat)
  | removePrefix (p : Str) (stop : Option Nat)
  | reopen

/-- One call; the result is `Ok` with the updated ids (empty for the other calls) or an error.
/repo/src/practice_rewards.rs:272-297. -/
def step (S : SortDesc (ℚ × ℚ)) (s : Rewards) : Op → Rewards × Option (List Str)
  | .record rs fail => s.record S rs fail
  | .trim n stop =>
    ({ s with table := s.table.trimById S n stop }, if stop.isNone then some [] else none)
  | .removePrefix p stop =>
    ({ s with table := s.table.removePrefix p stop }, if stop.isNone then some [] else none)
  | .reopen => ({ s with cache := [] }, some [])

/-- A history on a fresh database. /repo/src/practice_rewards.rs:272-297. -/
def run (S : SortDesc (ℚ × ℚ)) (ops : List Op) : Rewards :=
  ops.foldl (fun s o => (s.step S o).1) {}

theorem run_snoc (S : SortDesc (ℚ × ℚ)) (ops : List Op) (o : Op) :
    run S (ops ++ [o]) = ((run S ops).step S o).1 := by simp [run]

end Rewards
end Trane.Store
