import Verif.Top.SameHistoryProps
import Verif.Top.ScoreSample
import Verif.Top.ProgressSample

/-! A library built in two orders, and a history on both (C107). -/

namespace Trane.TopLevel
open Trane.Store
open Trane.UnitScorer
open Trane.Library (Both Reopened sampleDisk sampleLib sample_loads sample_generates)

/-- Course `c` with lesson `l` (exercises `e` and `f`) and lessons `m` (exercise `d`) and `n` (exercise `h`), which depend on `l`. -/
def twinOps : List (Graph.Op Str) := [.addCourse ['c'], .addDependencies ['c'] .course [],
  .addLesson ['l'] ['c'], .addDependencies ['l'] .lesson [], .addExercise ['e'] ['l'], .addExercise ['f'] ['l'],
  .addLesson ['m'] ['c'], .addDependencies ['m'] .lesson [['l']], .addExercise ['d'] ['m'],
  .addLesson ['n'] ['c'], .addDependencies ['n'] .lesson [['l']], .addExercise ['h'] ['n'],
  .addSuperseded ['n'] [['m']], .updateStartingLessons, .setEncompassingEqualsDependency]

/-- The same library, whose files were listed in the opposite order. -/
def twinOps' : List (Graph.Op Str) := [.addCourse ['c'], .addDependencies ['c'] .course [],
  .addLesson ['n'] ['c'], .addDependencies ['n'] .lesson [['l']], .addSuperseded ['n'] [['m']], .addExercise ['h'] ['n'],
  .addLesson ['m'] ['c'], .addDependencies ['m'] .lesson [['l']], .addExercise ['d'] ['m'],
  .addLesson ['l'] ['c'], .addDependencies ['l'] .lesson [], .addExercise ['f'] ['l'], .addExercise ['e'] ['l'],
  .updateStartingLessons, .setEncompassingEqualsDependency]

def twin : Graph Str := Graph.run twinOps
def twin' : Graph Str := Graph.run twinOps'

section
variable {ν : Type}

instance {β δ : Type} {S : β → δ → Prop} [∀ x y, Decidable (S x y)] (o : Option β) (o' : Option δ) : Decidable (Both S o o') := by
  cases o <;> cases o' <;> unfold Both <;> infer_instance

/-- Two maps agree everywhere when they agree on their keys. -/
theorem both_of_keys {S : ν → ν → Prop} {m m' : AMap Str ν} (h : ∀ k ∈ m.keys ++ m'.keys, Both S (m.find k) (m'.find k)) (u : Str) :
    Both S (m.find u) (m'.find u) := by
  by_cases hu : u ∈ m.keys ++ m'.keys
  · exact h u hu
  · simp only [List.mem_append, not_or] at hu
    have e : ∀ {n : AMap Str ν}, u ∉ n.keys → n.find u = none := by
      intro n hn
      cases e : n.find u with
      | none => rfl
      | some v => exact (hn ((AMap.mem_keys_iff _ _).2 ⟨v, e⟩)).elim
    rw [e hu.1, e hu.2]
    trivial

theorem eq_of_both {o o' : Option ν} (h : Both (· = ·) o o') : o' = o := by
  cases o <;> cases o' <;> simp_all [Both]

end

theorem twin_mirrors : Mirrors twin twin' := by
  refine ⟨⟨fun u => ?_, fun u => ?_, fun u => ?_, fun u => ?_, fun u => ?_, fun u => ?_⟩, fun u v => ?_, fun u v => ?_, ?_, ?_⟩
  · exact eq_of_both (both_of_keys (m := twin.types) (m' := twin'.types) (by decide +kernel) u)
  · exact eq_of_both (both_of_keys (m := twin.exerciseLesson) (m' := twin'.exerciseLesson) (by decide +kernel) u)
  · exact eq_of_both (both_of_keys (m := twin.lessonCourse) (m' := twin'.lessonCourse) (by decide +kernel) u)
  · exact both_of_keys (m := twin.lessonExercises) (m' := twin'.lessonExercises) (by decide +kernel) u
  · exact both_of_keys (m := twin.courseLessons) (m' := twin'.courseLessons) (by decide +kernel) u
  · exact both_of_keys (m := twin.supBy) (m' := twin'.supBy) (by decide +kernel) u
  · have := both_of_keys (S := List.Perm) (m := twin.deps) (m' := twin'.deps) (by decide +kernel) u
    obtain ⟨a, b⟩ | ⟨x, y, a, b, c⟩ := both_cases this
    · unfold Graph.DependsOn Graph.getDependencies; rw [a, b]
    · unfold Graph.DependsOn Graph.getDependencies; rw [a, b]; simp [c.mem_iff]
  · have := both_of_keys (S := List.Perm) (m := twin.dependents) (m' := twin'.dependents) (by decide +kernel) u
    obtain ⟨a, b⟩ | ⟨x, y, a, b, c⟩ := both_cases this
    · unfold Graph.HasDependent Graph.getDependents; rw [a, b]
    · unfold Graph.HasDependent Graph.getDependents; rw [a, b]; simp [c.mem_iff]
  · decide +kernel
  · decide +kernel

/-- The sets are in different orders. -/
example : twin.getCourseLessons ['c'] ≠ twin'.getCourseLessons ['c'] ∧ twin.getLessonExercises ['l'] ≠ twin'.getLessonExercises ['l'] ∧
    twin.getDependents ['l'] ≠ twin'.getDependents ['l'] := by decide +kernel

/-- A history on the first object. -/
def twinCalls : List (Call ℚ) := [.scoreExercise ['e'] .five 10 9 id {}, .scoreExercise ['d'] .two 20 9 id {},
  .getUnitScore ['c'] 9, .addToBlacklist ['f'] false, .scoreExercise ['h'] .four 30 9 id {}, .wait 100, .trimRewards 2 none,
  .restart twin, .getUnitScore ['m'] 9, .scoreExercise ['e'] .one 110 9 id {}]

/-- The same history on the second, where rewards are listed in other orders. -/
def twinCalls' : List (Call ℚ) := [.scoreExercise ['e'] .five 10 12 List.reverse {}, .scoreExercise ['d'] .two 20 12 List.reverse {},
  .getUnitScore ['c'] 10, .addToBlacklist ['f'] false, .scoreExercise ['h'] .four 30 12 List.reverse {}, .wait 100, .trimRewards 2 none,
  .restart twin', .getUnitScore ['m'] 10, .scoreExercise ['e'] .one 110 12 id {}]

theorem twin_history : SameHistory chainBase (fresh twin 0) (fresh twin' 0) twinCalls twinCalls' := by
  refine .cons (.scoreExercise _ _ _ _ _ (fun _ => .refl _) List.reverse_perm) (by unfold Ends; decide +kernel) (by unfold Ends; decide +kernel) ?_
  refine .cons (.scoreExercise _ _ _ _ _ (fun _ => .refl _) List.reverse_perm) (by unfold Ends; decide +kernel) (by unfold Ends; decide +kernel) ?_
  refine .cons (.getUnitScore _) (by unfold Ends; decide +kernel) (by unfold Ends; decide +kernel) ?_
  refine .cons (.addToBlacklist _ _) trivial trivial ?_
  refine .cons (.scoreExercise _ _ _ _ _ (fun _ => .refl _) List.reverse_perm) (by unfold Ends; decide +kernel) (by unfold Ends; decide +kernel) ?_
  refine .cons (.wait _) trivial trivial ?_
  refine .cons (.trimRewards _) trivial trivial ?_
  refine .cons (.restart twin_mirrors) trivial trivial ?_
  refine .cons (.getUnitScore _) (by unfold Ends; decide +kernel) (by unfold Ends; decide +kernel) ?_
  refine .cons (.scoreExercise _ _ _ _ _ (fun _ => .refl _) (fun _ => .refl _)) (by unfold Ends; decide +kernel) (by unfold Ends; decide +kernel) ?_
  exact .nil

/-- The hypotheses of `same_history_same_answers_partial` hold of this history, after which the units have different numbers in the two databases of rewards. -/
example : AnswerSame chainBase (runs chainBase (fresh twin 0) twinCalls) (runs chainBase (fresh twin' 0) twinCalls') ∧
    (runs chainBase (fresh twin 0) twinCalls).rewards.table.uids ≠
      (runs chainBase (fresh twin' 0) twinCalls').rewards.table.uids ∧
    returned chainBase (fresh twin 0) twinCalls = returned chainBase (fresh twin' 0) twinCalls' := by
  have h := same_history_same_answers_partial (b := chainBase) (Rewards.blind_insSort _) twin_mirrors 0 twin_history
  exact ⟨h.1, by decide +kernel, h.2.symm⟩

/-- Both know the same of the course at the end. -/
example : ∃ v : ℚ, 0 < v ∧ GetsScore chainBase (runs chainBase (fresh twin 0) twinCalls) ['c'] (some v) ∧
    GetsScore chainBase (runs chainBase (fresh twin' 0) twinCalls') ['c'] (some v) := by
  have h := (same_history_same_answers_partial (b := chainBase) (Rewards.blind_insSort _) twin_mirrors 0 twin_history).1
  have hv : ∃ v : ℚ, 0 < v ∧ (scoreC ((runs chainBase (fresh twin 0) twinCalls).sys.world
      ((runs chainBase (fresh twin 0) twinCalls).config chainBase)) 9 ['c'] (runs chainBase (fresh twin 0) twinCalls).caches).map Prod.fst
      = some (some v) := by
    have : ((scoreC ((runs chainBase (fresh twin 0) twinCalls).sys.world ((runs chainBase (fresh twin 0) twinCalls).config chainBase))
        9 ['c'] (runs chainBase (fresh twin 0) twinCalls).caches).map Prod.fst).any (fun o => o.any (fun v => decide (0 < v))) = true := by
      decide +kernel
    generalize (scoreC ((runs chainBase (fresh twin 0) twinCalls).sys.world ((runs chainBase (fresh twin 0) twinCalls).config chainBase))
        9 ['c'] (runs chainBase (fresh twin 0) twinCalls).caches).map Prod.fst = o at this
    match o, this with
    | some (some v), h => exact ⟨v, by simpa using h, rfl⟩
  obtain ⟨v, h0, hv⟩ := hv
  obtain ⟨⟨a, c⟩, h1, h2⟩ := Option.map_eq_some_iff.1 hv
  cases h2
  have hg : GetsScore chainBase (runs chainBase (fresh twin 0) twinCalls) ['c'] (some v) := ⟨9, c, h1⟩
  exact ⟨v, h0, hg, (h.score _ _).2 hg⟩

/-- An object that was used and closed; its library is opened in both orders, and used. -/
example : ∃ t : Top ℚ, Sound chainBase t ∧ (step chainBase t (.restart twin)).2 = true ∧ t.rewards.table.rows ≠ [] ∧
    SameHistory chainBase (step chainBase t (.restart twin)).1 (step chainBase t (.restart twin')).1
      [.getUnitScore ['c'] 9, .scoreExercise ['f'] .one 210 9 id {}]
      [.getUnitScore ['c'] 10, .scoreExercise ['f'] .one 210 12 List.reverse {}] := by
  refine ⟨runs chainBase (fresh twin 0) twinCalls, sound_runs _ _ _ (sound_fresh _ _ _), by decide +kernel, ?_, ?_⟩
  · intro h
    have : (runs chainBase (fresh twin 0) twinCalls).rewards.table.rows.length ≠ 0 := by decide +kernel
    rw [h] at this
    exact this rfl
  · refine .cons (.getUnitScore _) (by unfold Ends; decide +kernel) (by unfold Ends; decide +kernel) ?_
    refine .cons (.scoreExercise _ _ _ _ _ (fun _ => .refl _) List.reverse_perm) (by unfold Ends; decide +kernel)
      (by unfold Ends; decide +kernel) ?_
    exact .nil

/-- The library of `Verif/Library/Sample.lean` without encompassed units. -/
def plainDisk : Library.Disk Unit Unit := { sampleDisk with
  lesson := fun p => (sampleDisk.lesson p).map (fun m => { m with enc := [] }) }

def plainLib : Library.Lib Unit Unit := ((Library.openLibrary (Graph.idOrder Str) 100 plainDisk []).join).getD {}

theorem plain_loads : Library.Loads plainDisk [] plainLib := Library.loads_of (by decide +kernel)

theorem plain_generates : Library.GeneratesProper plainDisk := sample_generates

/-- Grades put into the database, an entry of the blacklist and a longer wait. -/
def offerCalls : List (Call ℚ) := [.recordScores [⟨['x'], 4, 10⟩, ⟨['y'], 5, 20⟩] false, .addToBlacklist ['z'] false, .wait 100]

theorem plain_opens : (step chainBase (runs chainBase (fresh {} 0) earlierCalls) (.restart plainLib.graph)).2 = true := by
  have hok : (schedulerOptions (runs chainBase (fresh {} 0) earlierCalls).prefs).verify = true := by decide +kernel
  simp only [step, if_pos hok]

theorem plain_running : Running plainDisk [] plainLib chainBase offerCalls
    (runs chainBase (step chainBase (runs chainBase (fresh {} 0) earlierCalls) (.restart plainLib.graph)).1 offerCalls) := by
  refine ⟨plain_generates, plain_loads, ⟨{}, 0, earlierCalls, plain_opens, rfl⟩, ?_, rfl⟩
  intro c hc
  simp only [offerCalls, List.mem_cons, List.not_mem_nil, or_false] at hc
  rcases hc with rfl | rfl | rfl <;> exact fun h => h

theorem plain_acyclic : ¬ Graph.HasCycle (OnDiskOver plainDisk []) := by
  have hstep : ∀ u s, OnDiskOver plainDisk [] u s → wholeRank s < wholeRank u := by
    intro u s hus
    have h1 : ∀ e ∈ plainLib.graph.supBy, ∀ s ∈ e.2, wholeRank s < wholeRank e.1 := by decide +kernel
    have h2 : ∀ e ∈ plainLib.graph.courseLessons, ∀ s ∈ e.2, wholeRank s < wholeRank e.1 := by decide +kernel
    have h3 : Graph.SupersededBy plainLib.graph u s ∨ Graph.CourseHasLesson plainLib.graph u s := by
      have := (steps_on_disk plain_running u s).2 hus
      rw [← plain_running.graph]
      exact this
    rcases h3 with ⟨ids, e, hs⟩ | ⟨ids, e, hs⟩
    · exact h1 _ (AMap.mem_of_find e) s hs
    · exact h2 _ (AMap.mem_of_find e) s hs
  rintro ⟨u, hu⟩
  have key : ∀ a b, Relation.TransGen (OnDiskOver plainDisk []) a b → wholeRank b < wholeRank a := by
    intro a b hab
    induction hab with
    | single h => exact hstep _ _ h
    | tail _ h ih => exact lt_trans (hstep _ _ h) ih
  exact lt_irrefl _ (key u u hu)

/-- The hypotheses of `same_history_same_offer_partial` hold of a library and the same library reopened from its serialized form. -/
example : ∃ lib' t0, Reopened plainLib lib' ∧ Interchangeable plainLib lib' ∧ Mirrors plainLib.graph lib'.graph ∧
    Sound chainBase t0 ∧ (step chainBase t0 (.restart plainLib.graph)).2 = true ∧
    SameHistory chainBase (step chainBase t0 (.restart plainLib.graph)).1 (step chainBase t0 (.restart lib'.graph)).1
      offerCalls offerCalls ∧ (∀ c ∈ offerCalls, ¬ Restarts c) ∧
    ∃ t1 q q', t1 = runs chainBase (step chainBase t0 (.restart plainLib.graph)).1 offerCalls ∧
      t1.options.current.verify = true ∧ Serves plainLib chainBase t1 q ∧
      Serves lib' chainBase (runs chainBase (step chainBase t0 (.restart lib'.graph)).1 offerCalls) q' ∧ Search.Sane (t1.env q) := by
  obtain ⟨lib', hre⟩ := Library.can_reopen plainLib
  have he : ∀ u ds es ss, plainLib.Lists u ds es ss → es = [] := by
    have h1 : ∀ e ∈ plainLib.courses, e.2.enc = [] := by decide +kernel
    have h2 : ∀ e ∈ plainLib.lessons, e.2.enc = [] := by decide +kernel
    rintro u ds es ss (⟨m, hm, _, rfl, _⟩ | ⟨m, hm, _, rfl, _⟩)
    · exact h1 _ (AMap.mem_of_find hm)
    · exact h2 _ (AMap.mem_of_find hm)
  have hi := reopened_interchangeable plain_generates plain_loads hre
  have hg := reopened_mirrors plain_generates plain_loads hre he
  have hw : Sound chainBase (runs chainBase (fresh {} 0) earlierCalls) := sound_runs _ _ _ (sound_fresh _ _ _)
  have ho := plain_opens
  have hh : ∀ t t' : Top ℚ, SameHistory chainBase t t' offerCalls offerCalls := fun t t' =>
    .cons (.recordScores _ _) trivial trivial (.cons (.addToBlacklist _ _) trivial trivial (.cons (.wait _) trivial trivial .nil))
  have hn := plain_running.stays
  obtain ⟨env, -, hs⟩ := serves_exists plain_running plain_acyclic sampleRequest
  have hT := (same_history_twins (b := chainBase) (Rewards.blind_insSort _) (hh _ _) (restart_twins hw hg ho)).1
  obtain ⟨q', hs'⟩ := twins_serves (Rewards.blind_insSort _) hi hT hs
  exact ⟨lib', _, hre, hi, hg, hw, ho, hh _ _, hn, _, _, q', rfl, by decide +kernel, hs, hs',
    running_sane plain_running hs (by constructor <;> decide +kernel)⟩

end Trane.TopLevel
