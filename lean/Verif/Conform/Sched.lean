import Verif.Sched.Batch
import Verif.Sched.CandidateWeightProps

/-!
# The project's own tests of the scheduler's parts, replayed on the model

/repo/src/scheduler/relearn_pile.rs:71-110, review_knocker.rs:230-483, shuffler.rs:88-268,
reward_propagator.rs:180-354 and filter.rs:345-808.  These are tests of the model, not theorems about
it: each `example` makes the calls of one `#[test]` of the code on the model and checks the assertions
of that test.  No claim rests on them.
-/

namespace Trane.Conform.Sched

open Trane
open Trane.Store (Str)

/-- `Ustr::from`. -/
def u (s : String) : Str := s.toList

/-! ### /repo/src/scheduler/relearn_pile.rs -/

/-- `test_update`. -/
example : let p := Batch.updatePile (Batch.updatePile (Batch.updatePile [] (u "exercise_1") .one)
      (u "exercise_2") .two) (u "exercise_2") .one
    let q := Batch.updatePile (Batch.updatePile p (u "exercise_1") .four) (u "exercise_2") .five
    u "exercise_1" ∈ p ∧ u "exercise_2" ∈ p ∧ u "exercise_1" ∉ q ∧ u "exercise_2" ∉ q := by
  decide +kernel

/-- `test_add_to_batch`: five of the twenty exercises are asked for. -/
example : Batch.relearnCount { SchedulerOptions.default with
    batchSize := 10, relearnFraction := 1/2 } = 5 := by decide +kernel

/-! ### /repo/src/scheduler/review_knocker.rs -/

/-- The ids of the two tests, which are `course_{i}`, `course_{i}_lesson_{j}` and `ex{i}_{j}` there, as
numbers (the model works for ids of any type). -/
def course (i : Nat) : Nat := 1000 + i
def lesson (i j : Nat) : Nat := 2000 + 10 * i + j
def exercise (i j : Nat) : Nat := 3000 + 10 * i + j

/-- The graph of `test_compute_weight_many_encompassed`: `n` courses, each on top of the one before,
with `m` lessons each, each on top of the one before. -/
def tower (n m : Nat) : List (Graph.Op Nat) :=
  (List.range n).flatMap (fun i =>
    [.addCourse (course i)] ++
    (if 0 < i then [.addEncompassed (course i) [course (i - 1)] []] else []) ++
    (List.range m).flatMap (fun j =>
      [.addLesson (lesson i j) (course i)] ++
      (if 0 < j then [.addEncompassed (lesson i j) [lesson i (j - 1)] []] else [])))

/-- The initial batch of the two tests: an exercise of each lesson. -/
def batch (n m : Nat) : List (Candidate Nat) :=
  (List.range n).flatMap (fun i => (List.range m).map (fun j =>
    { exercise := exercise i j, lesson := lesson i j, course := course i, score := 9 / 2 }))

/-- The units where the search for weights starts: the lessons and courses of the batch. -/
def starts (n m : Nat) : List Nat :=
  (List.range n).flatMap (fun i => course i :: (List.range m).map (lesson i))

/-- The weight of an exercise in the map. -/
def weightIn (m : Option (AMap Nat ℚ)) (x : Nat) : ℚ := ((m.getD []).find x).getD 0

/-- `test_compute_weight_many_encompassed`, the weights of the units above. -/
example : let m := Knocker.encompassingMap (Graph.run (tower 20 5)) 1000 (starts 20 5) (batch 20 5) false
    m.isSome ∧
    (∀ i ∈ List.range 5, ∀ j ∈ List.range 5, Knocker.veryHighlyWeight ≤ weightIn m (exercise i j)) ∧
    weightIn m (exercise 19 4) = 0 := by
  decide +kernel

/-- `test_compute_weight_many_encompassed`, the weights of the units below. -/
example : let r := Knocker.encompassingMap (Graph.run (tower 20 5)) 1000 (starts 20 5) (batch 20 5) true
    r.isSome ∧
    (∀ i ∈ List.range' 15 5, ∀ j ∈ List.range 5,
      Knocker.veryHighlyWeight ≤ weightIn r (exercise i j)) ∧
    weightIn r (exercise 0 0) = 0 := by
  decide +kernel

/-- The graph of `test_compute_weight_few_encompassed`. -/
def flat (n m : Nat) : List (Graph.Op Nat) :=
  (List.range n).flatMap (fun i => .addCourse (course i) ::
    (List.range m).map (fun j => .addLesson (lesson i j) (course i)))

/-- `test_compute_weight_few_encompassed`. -/
example : let g := Graph.run (flat 5 3)
    let m := Knocker.encompassingMap g 100 (starts 5 3) (batch 5 3) false
    let r := Knocker.encompassingMap g 100 (starts 5 3) (batch 5 3) true
    m.isSome ∧ r.isSome ∧
    (∀ i ∈ List.range 5, ∀ j ∈ List.range 3,
      weightIn m (exercise i j) = 0 ∧ weightIn r (exercise i j) = 0) := by
  decide +kernel

/-- A candidate with an exercise id and a score. -/
def scored (x : String) (s : ℚ) : Candidate Str :=
  { exercise := u x, lesson := u "lesson1", course := u "course1", score := s }

/-- `test_remove_very_highly_encompassed`. -/
example : (Knocker.removeVeryHighly [scored "ex1" (9/2), scored "ex2" (7/2), scored "ex3" 2]
      [(u "ex1", 12), (u "ex2", 8), (u "ex3", 2)]).map Candidate.exercise = [u "ex2", u "ex3"] := by
  decide +kernel

/-- `test_get_highly_encompassed`. -/
example : (Knocker.highly [scored "ex1" (9/2), scored "ex2" (39/10), scored "ex3" 2,
      scored "ex4" (38/10), scored "ex5" 4]
      [(u "ex1", 12), (u "ex2", 8), (u "ex3", 2), (u "ex4", 3), (u "ex5", 12)]).map
      Candidate.exercise = [u "ex2", u "ex5"] := by
  decide +kernel

/-! ### /repo/src/scheduler/shuffler.rs

The tests of the order after shuffling are instances of the theorems of C40. -/

/-- `empty_candidates`, for any randomness. -/
example (le : Str → Str → Bool) (sh : Nat → List (Candidate Str) → List (Candidate Str))
    (draw : Nat → ℚ) :
    Shuffler.shuffleCandidates le sh draw SchedulerOptions.default [] = [] := by
  simp [Shuffler.shuffleCandidates, Shuffler.allGroups, List.splitBy]

/-- `group_sort_key`, for any random number. -/
example (v : ℚ) (h0 : 0 ≤ v) (h1 : v < 1) :
    Shuffler.groupSortKey v ([] : List (Candidate Str)) = 0 ∧
    (1/5 ≤ Shuffler.groupSortKey v [scored "e1" (1/2), scored "e2" (1/10)] ∧
      Shuffler.groupSortKey v [scored "e1" (1/2), scored "e2" (1/10)] < 1) ∧
    (0 ≤ Shuffler.groupSortKey v [scored "e1" 1, scored "e2" 2] ∧
      Shuffler.groupSortKey v [scored "e1" 1, scored "e2" 2] < 4/5) := by
  have a1 : Shuffler.avgScore [scored "e1" (1/2), scored "e2" (1/10)] ≤ 1 := by decide +kernel
  have a2 : ¬ Shuffler.avgScore [scored "e1" 1, scored "e2" 2] ≤ 1 := by decide +kernel
  simp only [Shuffler.groupSortKey, a1, a2, reduceCtorEq, if_true, if_false]
  refine ⟨trivial, ⟨?_, ?_⟩, ?_, ?_⟩ <;> linarith

/-! ### /repo/src/scheduler/reward_propagator.rs -/

/-- `initial_reward`. -/
example : Propagator.initialReward .five = 8/10 ∧ Propagator.initialReward .four = 4/10 ∧
    Propagator.initialReward .three = -3/10 ∧ Propagator.initialReward .two = -5/10 ∧
    Propagator.initialReward .one = -1 := by decide +kernel

/-- `stop_propagation`. -/
example : let r := Propagator.minAbsReward
    let w := Propagator.minWeight
    Propagator.stop r w = false ∧ Propagator.stop (r - 1/1000) w = true ∧
    Propagator.stop (-r + 1/1000) w = true ∧ Propagator.stop r (w - 1/1000) = true := by
  decide +kernel

/-- `build_path_graph`. -/
def pathGraph (source : List (Str × ℚ)) : Graph Str :=
  Graph.run [.addCourse (u "0"), .addLesson (u "0::0") (u "0"), .addLesson (u "0::1") (u "0"),
    .addLesson (u "0::2") (u "0"), .addLesson (u "0::3") (u "0"),
    .addExercise (u "0::0::0") (u "0::0"), .addEncompassed (u "0::0") [] source,
    .addEncompassed (u "0::1") [] [(u "0::3", 1)], .addEncompassed (u "0::2") [] [(u "0::3", 1)]]

/-- `propagate_five_rewards`: the value and the weight of the reward a unit gets. -/
def fiveReward (g : Graph Str) (x : Str) : Option (ℚ × ℚ) :=
  ((Propagator.helper g [] 100 (u "0::0") (u "0") .five 0).getD []).find? (fun r => r.unit = x)
    |>.map (fun r => (r.value, r.weight))

/-- `strongest_path_wins` and `strongest_path_is_order_independent`. -/
example :
    fiveReward (pathGraph [(u "0::1", 1), (u "0::2", 1/2)]) (u "0::3") = some (72/100, 8/10) ∧
    fiveReward (pathGraph [(u "0::2", 1/2), (u "0::1", 1)]) (u "0::3") = some (72/100, 8/10) := by
  decide +kernel

/-- The chain of `edge_weights_attenuate_reward_weight` and `weak_recursive_hops_are_pruned`. -/
def chain (a b : ℚ) : Graph Str :=
  Graph.run [.addCourse (u "0"), .addLesson (u "0::0") (u "0"), .addLesson (u "0::1") (u "0"),
    .addLesson (u "0::2") (u "0"), .addEncompassed (u "0::0") [] [(u "0::1", a)],
    .addEncompassed (u "0::1") [] [(u "0::2", b)]]

/-- `edge_weights_attenuate_reward_weight`. -/
example : fiveReward (chain (8/10) (8/10)) (u "0::1") = some (64/100, 8/10) ∧
    fiveReward (chain (8/10) (8/10)) (u "0::2") = some (4608/10000, 512/1000) := by
  decide +kernel

/-- `weak_initial_edges_are_pruned`. -/
example : (Propagator.helper (Graph.run [.addCourse (u "0"), .addLesson (u "0::0") (u "0"),
      .addLesson (u "0::1") (u "0"), .addEncompassed (u "0::0") [] [(u "0::1", 1/10)]]) [] 100
      (u "0::0") (u "0") .five 0) = some [] := by
  decide +kernel

/-- `weak_recursive_hops_are_pruned`. -/
example : (fiveReward (chain 1 (1/10)) (u "0::1")).isSome ∧
    fiveReward (chain 1 (1/10)) (u "0::2") = none := by
  decide +kernel

/-- `resolve_roots`. -/
example : let g := Graph.run [.addCourse (u "course"), .addLesson (u "lesson") (u "course"),
      .addExercise (u "exercise") (u "lesson")]
    Propagator.resolveRoots g (u "exercise") = some (u "lesson", u "course") ∧
    Propagator.resolveRoots g (u "missing") = none := by
  decide +kernel

/-! ### /repo/src/scheduler/filter.rs -/

/-- `dynamic_batch_size`. -/
example : CandidateFilter.dynamicBatchSize 5 10 = 5 ∧
    CandidateFilter.dynamicBatchSize 50 70 = 70 / 3 ∧
    CandidateFilter.dynamicBatchSize 50 10 = CandidateFilter.minDynamicBatchSize ∧
    CandidateFilter.dynamicBatchSize 50 150 = 50 ∧ CandidateFilter.dynamicBatchSize 50 200 = 50 := by
  decide +kernel

/-- `candidates_in_window`. -/
example : (CandidateFilter.inWindow [scored "exercise1" (21/10), scored "exercise2" 3,
      scored "exercise3" (37/10), scored "exercise4" 1, scored "exercise5" (35/10)]
      [u "exercise1", u "exercise5"] { percentage := 1, lo := 2, hi := 4 }).map Candidate.exercise =
    [u "exercise2", u "exercise3"] := by
  decide +kernel

/-- The remainder of `add_remainder`. -/
def remainder : List (Candidate Str) :=
  [scored "exercise2" 0, scored "exercise3" 0, scored "exercise4" 0]

/-- `add_remainder`, for any way to choose `n` of the candidates. -/
example (pick : Nat → List (Candidate Str) → List (Candidate Str))
    (hp : ∀ n l, n ≤ l.length → (pick n l).length = n) :
    let added := CandidateFilter.addRemainder pick 10 [scored "exercise1" 0] remainder none
    let full := (List.range 8).map (fun i => scored "exercise" i)
    1 < added.length ∧ added.length < 10 ∧
    CandidateFilter.addRemainder pick 10 full remainder none = full ∧
    (CandidateFilter.addRemainder pick 10 [scored "exercise1" 0] remainder (some 1)).length = 2 := by
  have e0 : CandidateFilter.addRemainder pick 10 [scored "exercise1" 0] remainder none =
      scored "exercise1" 0 :: remainder := rfl
  simp only [e0]
  refine ⟨by decide +kernel, by decide +kernel, by rfl, ?_⟩
  have h := hp 1 remainder (by decide)
  have e : CandidateFilter.addRemainder pick 10 [scored "exercise1" 0] remainder (some 1) =
    [scored "exercise1" 0] ++ pick 1 remainder := by
    simp [CandidateFilter.addRemainder, CandidateFilter.select, remainder]
  rw [e, List.length_append, h]
  rfl

/-- The success rates of `adjusted_mastery_windows`. -/
example : let o := SchedulerOptions.default
    let p := fun r => let a := CandidateFilter.adjusted o r
      (a.newWindow.percentage, a.targetWindow.percentage, a.currentWindow.percentage,
        a.easyWindow.percentage, a.masteredWindow.percentage)
    let p0 := (o.newWindow.percentage, o.targetWindow.percentage, o.currentWindow.percentage,
      o.easyWindow.percentage, o.masteredWindow.percentage)
    p (85/100) = p0 ∧ p (75/100) = p0 ∧ p (90/100) = p0 ∧
    (p0.1 < (p (95/100)).1 ∧ p0.2.1 < (p (95/100)).2.1 ∧
      (p (95/100)).2.2.2.1 < p0.2.2.2.1 ∧ (p (95/100)).2.2.2.2 < p0.2.2.2.2) ∧
    ((p (60/100)).1 < p0.1 ∧ (p (60/100)).2.1 < p0.2.1 ∧
      p0.2.2.2.1 < (p (60/100)).2.2.2.1 ∧ p0.2.2.2.2 < (p (60/100)).2.2.2.2) ∧
    ((p (30/100)).1 < (p (60/100)).1 ∧ (p (30/100)).2.1 < (p (60/100)).2.1 ∧
      (p (60/100)).2.2.2.1 < (p (30/100)).2.2.2.1 ∧ (p (60/100)).2.2.2.2 < (p (30/100)).2.2.2.2) ∧
    (∀ r ∈ [(0 : ℚ), 30/100, 60/100, 80/100, 95/100, 1],
      (p r).1 + (p r).2.1 + (p r).2.2.1 + (p r).2.2.2.1 + (p r).2.2.2.2 = 1) := by
  decide +kernel

end Trane.Conform.Sched
