import Verif.Top.AnewSpec
import Verif.Top.SeparateProps

/-!
# C114: after starting over, a course is as if it had never been practised
-/

namespace Trane.TopLevel
open Trane.Store
open Trane.UnitScorer

variable {R : Type} [Field R] [LinearOrder R]

/-- Two objects with the same settings, the second of which never stored anything. -/
structure Unused (t t' : Top R) : Prop where
  graph : t'.graph = t.graph
  options : t'.options = t.options
  prefs : t'.prefs = t.prefs
  override : t'.override = t.override
  clock : t'.clock = t.clock
  blacklist : t'.blacklist = t.blacklist
  trials : t'.trials = {}
  deltas : t'.deltas = {}
  rewards : t'.rewards = {}

theorem trim_empty {α : Type} (S : SortDesc α) (n : Nat) (s : Option Nat) : (({} : Table α).step S (.trim n s)).1 = {} := by
  cases s <;> simp [Table.step, Table.trimByTime]

theorem remove_empty {α : Type} (S : SortDesc α) (p : Str) (s : Option Nat) : (({} : Table α).step S (.removePrefix p s)).1 = {} := by
  cases s <;> simp [Table.step, Table.removePrefix]

theorem trimRewards_empty (S : SortDesc (ℚ × ℚ)) (n : Nat) (s : Option Nat) : (({} : Rewards).step S (.trim n s)).1 = {} := by
  cases s <;> simp [Rewards.step, Table.trimById]

theorem removeRewards_empty (S : SortDesc (ℚ × ℚ)) (p : Str) (s : Option Nat) : (({} : Rewards).step S (.removePrefix p s)).1 = {} := by
  cases s <;> simp [Rewards.step, Table.removePrefix]

theorem unused_practice {b : Base R} {t t' : Top R} (h : Unused t t') {c : Call R} (hc : Practises c = true) :
    Unused (step b t c).1 t' := by
  cases c <;> try cases hc
  case recordScores es f => exact ⟨h.graph, h.options, h.prefs, h.override, h.clock, h.blacklist, h.trials, h.deltas, h.rewards⟩
  case recordDeltas es f => exact ⟨h.graph, h.options, h.prefs, h.override, h.clock, h.blacklist, h.trials, h.deltas, h.rewards⟩
  case recordRewards es f => exact ⟨h.graph, h.options, h.prefs, h.override, h.clock, h.blacklist, h.trials, h.deltas, h.rewards⟩
  case scoreExercise x g ts fuel order f =>
    simp only [step]
    split
    · exact h
    · exact ⟨h.graph, h.options, h.prefs, h.override, h.clock, h.blacklist, h.trials, h.deltas, h.rewards⟩

theorem unused_other {b : Base R} {t t' : Top R} (h : Unused t t') {c : Call R} (hc : Practises c = false) :
    Unused (step b t c).1 (step b t' c).1 := by
  have e := h.blacklist
  have keep : ∀ (x x' : Top R), x.graph = t.graph → x.options = t.options → x.prefs = t.prefs → x.override = t.override →
      x.clock = t.clock → x.blacklist = t.blacklist → x'.graph = t'.graph → x'.options = t'.options → x'.prefs = t'.prefs →
      x'.override = t'.override → x'.clock = t'.clock → x'.blacklist = t'.blacklist → x'.trials = t'.trials → x'.deltas = t'.deltas →
      x'.rewards = t'.rewards → Unused x x' := by
    intro x x' a1 a2 a3 a4 a5 a6 b1 b2 b3 b4 b5 b6 b7 b8 b9
    exact ⟨by rw [b1, a1, h.graph], by rw [b2, a2, h.options], by rw [b3, a3, h.prefs], by rw [b4, a4, h.override],
      by rw [b5, a5, h.clock], by rw [b6, a6, h.blacklist], by rw [b7, h.trials], by rw [b8, h.deltas], by rw [b9, h.rewards]⟩
  cases c <;> try cases hc
  case addToBlacklist u f =>
    refine ⟨h.graph, h.options, h.prefs, h.override, h.clock, ?_, h.trials, h.deltas, h.rewards⟩
    show (t'.blacklist.step (.add u f)).1 = (t.blacklist.step (.add u f)).1
    rw [e]
  case removeFromBlacklist u f =>
    refine ⟨h.graph, h.options, h.prefs, h.override, h.clock, ?_, h.trials, h.deltas, h.rewards⟩
    show (t'.blacklist.step (.remove u f)).1 = (t.blacklist.step (.remove u f)).1
    rw [e]
  case removePrefixFromBlacklist u f =>
    refine ⟨h.graph, h.options, h.prefs, h.override, h.clock, ?_, h.trials, h.deltas, h.rewards⟩
    show (t'.blacklist.step (.removePrefix u f)).1 = (t.blacklist.step (.removePrefix u f)).1
    rw [e]
  case blacklisted u =>
    refine ⟨h.graph, h.options, h.prefs, h.override, h.clock, ?_, h.trials, h.deltas, h.rewards⟩
    show (t'.blacklist.step (.query u)).1 = (t.blacklist.step (.query u)).1
    rw [e]
  case addToReviewList u f => exact keep _ _ rfl rfl rfl rfl rfl rfl rfl rfl rfl rfl rfl rfl rfl rfl rfl
  case removeFromReviewList u f => exact keep _ _ rfl rfl rfl rfl rfl rfl rfl rfl rfl rfl rfl rfl rfl rfl rfl
  case trimScores n s =>
    refine ⟨h.graph, h.options, h.prefs, h.override, h.clock, e, ?_, h.deltas, h.rewards⟩
    show (t'.trials.step b.sortV (.trim n s)).1 = {}
    rw [h.trials, trim_empty]
  case removeScores p s =>
    refine ⟨h.graph, h.options, h.prefs, h.override, h.clock, e, ?_, h.deltas, h.rewards⟩
    show (t'.trials.step b.sortV (.removePrefix p s)).1 = {}
    rw [h.trials, remove_empty]
  case trimDeltas n s =>
    refine ⟨h.graph, h.options, h.prefs, h.override, h.clock, e, h.trials, ?_, h.rewards⟩
    show (t'.deltas.step b.sortV (.trim n s)).1 = {}
    rw [h.deltas, trim_empty]
  case removeDeltas p s =>
    refine ⟨h.graph, h.options, h.prefs, h.override, h.clock, e, h.trials, ?_, h.rewards⟩
    show (t'.deltas.step b.sortV (.removePrefix p s)).1 = {}
    rw [h.deltas, remove_empty]
  case trimRewards n s =>
    refine ⟨h.graph, h.options, h.prefs, h.override, h.clock, e, h.trials, h.deltas, ?_⟩
    show (t'.rewards.step b.sortW (.trim n s)).1 = {}
    rw [h.rewards, trimRewards_empty]
  case removeRewards p s =>
    refine ⟨h.graph, h.options, h.prefs, h.override, h.clock, e, h.trials, h.deltas, ?_⟩
    show (t'.rewards.step b.sortW (.removePrefix p s)).1 = {}
    rw [h.rewards, removeRewards_empty]
  case setPreferences p f =>
    cases f
    · exact ⟨h.graph, h.options, rfl, h.override, h.clock, e, h.trials, h.deltas, h.rewards⟩
    · exact h
  case editGraph o =>
    refine ⟨?_, h.options, h.prefs, h.override, h.clock, e, h.trials, h.deltas, h.rewards⟩
    show (editGraph t'.graph o).1 = (editGraph t.graph o).1
    rw [h.graph]
  case getUnitScore u n => exact keep _ _ rfl rfl rfl rfl rfl rfl rfl rfl rfl rfl rfl rfl rfl rfl rfl
  case getBatch q =>
    simp only [step]
    rcases t.batch q with _ | ⟨s, r⟩ <;> rcases t'.batch q with _ | ⟨s', r'⟩ <;>
      exact keep _ _ rfl rfl rfl rfl rfl rfl rfl rfl rfl rfl rfl rfl rfl rfl rfl
  case invalidate u => exact keep _ _ rfl rfl rfl rfl rfl rfl rfl rfl rfl rfl rfl rfl rfl rfl rfl
  case invalidatePrefix p => exact keep _ _ rfl rfl rfl rfl rfl rfl rfl rfl rfl rfl rfl rfl rfl rfl rfl
  case options o =>
    exact ⟨h.graph, congrArg (fun s => s.call o) h.options, h.prefs, h.override, h.clock, e, h.trials, h.deltas, h.rewards⟩
  case overrideTime o => exact ⟨h.graph, h.options, h.prefs, rfl, h.clock, e, h.trials, h.deltas, h.rewards⟩
  case wait c => exact ⟨h.graph, h.options, h.prefs, h.override, rfl, e, h.trials, h.deltas, h.rewards⟩
  case restart g =>
    by_cases hv : (schedulerOptions t.prefs).verify = true
    · have hv' : (schedulerOptions t'.prefs).verify = true := by rw [h.prefs]; exact hv
      simp only [step, if_pos hv, if_pos hv']
      refine ⟨rfl, by rw [h.prefs], h.prefs, rfl, h.clock, by rw [e], h.trials, h.deltas, ?_⟩
      show (t'.rewards.step b.sortW .reopen).1 = {}
      rw [h.rewards]; rfl
    · have hv' : ¬ (schedulerOptions t'.prefs).verify = true := by rw [h.prefs]; exact hv
      simp only [step, if_neg hv, if_neg hv']
      exact h

theorem unused_runs {b : Base R} : ∀ (h : List (Call R)) {t t' : Top R}, Unused t t' →
    Unused (runs b t h) (runs b t' (h.filter (fun c => !Practises c)))
  | [], _, _, hu => hu
  | c :: h, t, t', hu => by
    cases hc : Practises c with
    | true =>
      rw [List.filter_cons_of_neg (by simp [hc])]
      exact unused_runs h (unused_practice hu hc)
    | false =>
      rw [List.filter_cons_of_pos (by simp [hc])]
      exact unused_runs h (unused_other hu hc)

theorem remove_none {α : Type} {t : Table α} (h : Table.Wf t) {p u : Str} (hu : p <+: u) : (t.removePrefix p none).history u = [] := by
  unfold Table.history
  rw [(Table.rowsOf_removePrefix t p none h u).1 rfl, if_pos (likePrefix_of_prefix p u hu)]
  rfl

theorem remove_nothing {α : Type} {t : Table α} (h : Table.Wf t) {p u : Str} (hu : t.history u = []) :
    (t.removePrefix p none).history u = [] := by
  have hr : t.rowsOf u = [] := List.map_eq_nil_iff.1 hu
  unfold Table.history
  rw [(Table.rowsOf_removePrefix t p none h u).1 rfl, hr]
  simp

/-- The two objects after starting over. -/
theorem anew_beside {b : Base R} {D : Str → Prop} {g : Graph Str} (ha : Apart g D) {t t' : Top R} (hs : Sound b t) (hs' : Sound b t')
    (h : Unused t t') {p : Str} (hp : ∀ u, D u → p <+: u ∨ NothingFor t u)
    (hok : (step b t (.restart g)).2 = true) : Beside b D (runs b t (startOver p g)) (step b t' (.restart g)).1 := by
  have hv : (schedulerOptions t.prefs).verify = true := by
    by_contra hv
    simp only [step, if_neg hv] at hok
    cases hok
  have hv' : (schedulerOptions t'.prefs).verify = true := by rw [h.prefs]; exact hv
  obtain ⟨o1, e1⟩ := hs.trials
  obtain ⟨o2, e2⟩ := hs.deltas
  obtain ⟨o3, e3⟩ := hs.rewards
  have w1 : Table.Wf t.trials := by rw [e1]; exact Table.wf_run b.sortV o1
  have w2 : Table.Wf t.deltas := by rw [e2]; exact Table.wf_run b.sortV o2
  have w3 : Table.Wf t.rewards.table := by rw [e3]; exact (Rewards.good_run b.sortW o3).wf
  have w0 : Table.Wf ({} : Table R) := Table.wf_run b.sortV []
  have w0' : Table.Wf ({} : Table (ℚ × ℚ)) := (Rewards.good_run b.sortW []).wf
  have hb := sound_step b _ (.restart g) (sound_step b _ (.removeRewards p none) (sound_step b _ (.removeDeltas p none)
    (sound_step b t (.removeScores p none) hs)))
  have hb' := sound_step b t' (.restart g) hs'
  have x1 : runs b t (startOver p g) = (step b (step b (step b (step b t (.removeScores p none)).1 (.removeDeltas p none)).1
    (.removeRewards p none)).1 (.restart g)).1 := rfl
  rw [← x1] at hb
  have x2 : runs b t (startOver p g) = ({
      blacklist := (t.blacklist.step .reopen).1
      review := (ReviewList.step t.review .reopen).1
      trials := t.trials.removePrefix p none
      deltas := t.deltas.removePrefix p none
      rewards := ⟨t.rewards.table.removePrefix p none, []⟩
      prefs := t.prefs
      graph := g
      options := OptionsApi.create (schedulerOptions t.prefs)
      clock := t.clock } : Top R) := by
    rw [x1]
    exact (congrArg Prod.fst (if_pos hv)).trans rfl
  have x3 : (step b t' (.restart g)).1 = ({
      blacklist := (t'.blacklist.step .reopen).1
      review := (ReviewList.step t'.review .reopen).1
      trials := {}
      deltas := {}
      rewards := {}
      prefs := t'.prefs
      graph := g
      options := OptionsApi.create (schedulerOptions t'.prefs)
      clock := t'.clock } : Top R) := by
    simp only [step, if_pos hv', h.trials, h.deltas, h.rewards]
    rfl
  rw [x2] at hb ⊢
  rw [x3] at hb' ⊢
  refine ⟨ha, rfl, ?_, h.prefs, rfl, h.clock, ⟨hb.blacklist, hb'.blacklist, fun u _ => ?_⟩, ⟨fun u hu => ?_, wf_removed w1, w0⟩,
    ⟨fun u hu => ?_, wf_removed w2, w0⟩, ⟨fun u hu => ⟨?_, rfl⟩, wf_removed w3, w0'⟩, .refl _ _⟩
  · show OptionsApi.create (schedulerOptions t'.prefs) = OptionsApi.create (schedulerOptions t.prefs)
    rw [h.prefs]
  · show ((t'.blacklist.step .reopen).1).blacklisted u = ((t.blacklist.step .reopen).1).blacklisted u
    rw [h.blacklist]
  · rcases hp u hu with hq | hq
    · exact (remove_none w1 hq).symm
    · exact (remove_nothing w1 hq.1).symm
  · rcases hp u hu with hq | hq
    · exact (remove_none w2 hq).symm
    · exact (remove_nothing w2 hq.2.1).symm
  · rcases hp u hu with hq | hq
    · exact (remove_none w3 hq).symm
    · exact (remove_nothing w3 hq.2.2).symm
where
  wf_removed {α : Type} {t : Table α} {p : Str} (h : Table.Wf t) : Table.Wf (t.removePrefix p none) := Table.wf_removePrefix t p none h

theorem unused_fresh (g : Graph Str) (clock : Int) : Unused (fresh g clock : Top R) (fresh g clock) :=
  ⟨rfl, rfl, rfl, rfl, rfl, rfl, rfl, rfl, rfl⟩

/-- **C114.** Make any calls, remove what is stored for the ids that start with `p`, and open the library again.  Let `D` be a
part of the library that nothing connects with the rest, with ids that start with `p` (or have nothing stored).  From then on
every unit of `D` has the scores, numbers of trials, grades, rewards and so on that it has for a student who made the same calls
but never practised anything; what was practised outside `D` since then does not matter. -/
theorem starting_over (b : Base R) (hV : Blind b.sortV) (hW : Blind b.sortW) (g0 g : Graph Str) (clock : Int) {D : Str → Prop}
    [DecidablePred D] (ha : Apart g D) (he : D []) (h : List (Call R)) {p : Str}
    (hp : ∀ u, D u → p <+: u ∨ NothingFor (runs b (fresh g0 clock) h) u)
    (hok : (step b (runs b (fresh g0 clock) h) (.restart g)).2 = true) {k k' : List (Call R)} (hw : Without D k k') {t t' : Top R}
    (et : t = runs b (fresh g0 clock) (h ++ startOver p g ++ k))
    (et' : t' = runs b (fresh g0 clock) (h.filter (fun c => !Practises c) ++ [.restart g] ++ k'))
    (hc : Completes b (runs b (fresh g0 clock) (h ++ startOver p g)) k)
    (hc' : Completes b (runs b (fresh g0 clock) (h.filter (fun c => !Practises c) ++ [.restart g])) k') :
    ∀ u, D u → (∀ v, GetsScore b t' u v ↔ GetsScore b t u v) ∧ (∀ v, GetsTrials b t' u v ↔ GetsTrials b t u v) ∧
      (∀ v, GetsSuperseded b t' u v ↔ GetsSuperseded b t u v) ∧
      (∀ n, t'.trials.get b.sortV u n = t.trials.get b.sortV u n) ∧ (∀ n, t'.deltas.get b.sortV u n = t.deltas.get b.sortV u n) ∧
      (∀ n, t'.rewards.table.get b.sortW u n = t.rewards.table.get b.sortW u n) ∧
      t'.blacklist.blacklisted u = t.blacklist.blacklisted u := by
  have hs := sound_runs b _ h (sound_fresh b g0 clock)
  have hs' := sound_runs b _ (h.filter (fun c => !Practises c)) (sound_fresh b g0 clock)
  have hb := anew_beside ha hs hs' (unused_runs h (unused_fresh g0 clock)) hp hok
  rw [← runs_append] at hb
  rw [← runs_snoc] at hb
  obtain ⟨hb, -⟩ := beside_runs hV hW he hw hb (sound_runs b _ _ (sound_fresh b g0 clock)) hc hc'
  rw [← runs_append, ← runs_append, ← et, ← et'] at hb
  exact beside_answers hV hW he hb

/-! ### Samples -/

/-- The course `c` of `twoCourses`, with ids that start with `c`. -/
def plainCourses : Graph Str := Graph.run [.addCourse ['c'], .addDependencies ['c'] .course [], .addLesson ['c', 'l'] ['c'],
  .addDependencies ['c', 'l'] .lesson [], .addExercise ['c', 'e'] ['c', 'l'], .addLesson ['c', 'm'] ['c'],
  .addDependencies ['c', 'm'] .lesson [['c', 'l']], .addExercise ['c', 'f'] ['c', 'm'], .addCourse ['k'], .addDependencies ['k'] .course [],
  .addLesson ['m'] ['k'], .addDependencies ['m'] .lesson [], .addExercise ['d'] ['m'], .addEncompassed ['c', 'm'] [] [(['c', 'l'], 1)],
  .updateStartingLessons]

/-- The units of course `c`, and the empty id. -/
def courseC (u : Str) : Prop := u ∈ [[], ['c'], ['c', 'l'], ['c', 'e'], ['c', 'm'], ['c', 'f']]

instance : DecidablePred courseC := fun u => inferInstanceAs (Decidable (u ∈ [[], ['c'], ['c', 'l'], ['c', 'e'], ['c', 'm'], ['c', 'f']]))

/-- Practice before starting over. -/
def firstTime : List (Call ℚ) := [.scoreExercise ['c', 'f'] .five 10 9 id {}, .scoreExercise ['c', 'e'] .four 20 9 id {},
  .scoreExercise ['c', 'f'] .two 30 9 id {}, .scoreExercise ['d'] .two 30 9 id {}, .getUnitScore ['c'] 9, .wait 60]

/-- Practice after starting over. -/
def secondTime : List (Call ℚ) := [.scoreExercise ['d'] .one 70 9 id {}, .scoreExercise ['c', 'f'] .three 80 9 id {}]

/-- The hypotheses hold, and the score of course `c` is 3/2, the mean of 3 and 0. -/
example : GetsScore sampleBase (runs sampleBase (fresh plainCourses 0) (firstTime ++ startOver ['c'] plainCourses ++ secondTime)) ['c']
    (some (3 / 2)) := by
  have ha : Apart plainCourses courseC := by
    refine apart_of_maps ?_ ?_ ?_ ?_ ?_ ?_ ?_ ?_ ?_ <;> decide +kernel
  have hp : ∀ u, courseC u → ['c'] <+: u ∨ NothingFor (runs sampleBase (fresh plainCourses 0) firstTime) u := by
    intro u hu
    have : u ∈ [[], ['c'], ['c', 'l'], ['c', 'e'], ['c', 'm'], ['c', 'f']] := hu
    simp only [List.mem_cons, List.not_mem_nil, or_false] at this
    rcases this with rfl | rfl | rfl | rfl | rfl | rfl
    · right; unfold NothingFor; decide +kernel
    all_goals left; decide
  have hn : ∀ (t : Top ℚ) (k : List (Call ℚ)), (∀ c ∈ k, ∀ q, c ≠ Call.getBatch q) → Completes sampleBase t k := by
    intro t k hk h1 q h2 e
    exact absurd rfl (hk (.getBatch q) (by rw [e]; simp) q)
  have hw : Without courseC secondTime [.scoreExercise ['c', 'f'] .three 80 9 id {}] :=
    .left_out _ ⟨by decide, fun _ => .refl _⟩ (.kept _ ⟨by decide, fun _ => .refl _⟩ .nil)
  have := starting_over sampleBase (Rewards.blind_insSort _) (Rewards.blind_insSort _) plainCourses plainCourses 0 ha (by decide) firstTime
    hp (by decide +kernel) hw rfl rfl (hn _ _ (by simp [secondTime])) (hn _ _ (by simp)) ['c'] (by decide)
  refine (this.1 _).1 ?_
  have e : (scoreC ((runs sampleBase (fresh plainCourses 0) (firstTime.filter (fun c => !Practises c) ++ [.restart plainCourses] ++
      [.scoreExercise ['c', 'f'] .three 80 9 id {}])).sys.world
    ((runs sampleBase (fresh plainCourses 0) (firstTime.filter (fun c => !Practises c) ++ [.restart plainCourses] ++
      [.scoreExercise ['c', 'f'] .three 80 9 id {}])).config sampleBase)) 9 ['c']
    (runs sampleBase (fresh plainCourses 0) (firstTime.filter (fun c => !Practises c) ++ [.restart plainCourses] ++
      [.scoreExercise ['c', 'f'] .three 80 9 id {}])).caches).map Prod.fst = some (some (3 / 2)) := by decide +kernel
  obtain ⟨⟨v, c'⟩, e1, e2⟩ := Option.map_eq_some_iff.1 e
  cases e2
  exact ⟨9, c', e1⟩

/-- Without opening the library again the old score is still answered: the removal does not reach the cached scores. -/
theorem removing_is_not_enough :
    let t := runs sampleBase (fresh plainCourses 0) (firstTime ++ [.removeScores ['c'] none, .removeDeltas ['c'] none, .removeRewards ['c'] none])
    let t' := runs sampleBase (fresh plainCourses 0) (firstTime ++ startOver ['c'] plainCourses)
    (scoreC (t.sys.world (t.config sampleBase)) 9 ['c'] t.caches).map Prod.fst ≠ some (some 0) ∧
    (scoreC (t'.sys.world (t'.config sampleBase)) 9 ['c'] t'.caches).map Prod.fst = some (some 0) := by
  decide +kernel

/-- Nor is it enough to invalidate the cached scores instead: a reward like one that was removed is not stored again. -/
theorem invalidating_is_not_enough :
    let calls : List (Call ℚ) := [.removeScores ['c'] none, .removeDeltas ['c'] none, .removeRewards ['c'] none, .invalidatePrefix ['c']]
    let again : List (Call ℚ) := [.scoreExercise ['c', 'f'] .five 40 9 id {}]
    let t := runs sampleBase (fresh plainCourses 0) (firstTime ++ calls ++ again)
    let t' := runs sampleBase (fresh plainCourses 0) (firstTime ++ startOver ['c'] plainCourses ++ again)
    t.rewards.table.history ['c', 'l'] = [] ∧ t'.rewards.table.history ['c', 'l'] = [((4 / 5, 1), 40)] := by
  decide +kernel

end Trane.TopLevel
