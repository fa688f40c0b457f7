import Verif.Library.ShuffleProps
import Verif.Graph.MapsOk
import Verif.Sched.ScoreOrderProps
import Verif.Top.ScoreProps

/-!
# C104: scores and rewards do not depend on the order in which files are listed
-/

namespace Trane.Library
open Trane.Store Trane.Filters Trane.Graph
open Trane.UnitScorer (SameSets World Caches Answers AnswersLessonTrials AnswersCourseTrials AnswersSuperseded)
open Trane.Propagator (Propagates UnitReward)

variable {α γ : Type} {d d' : Disk α γ} {ig : List FPath}

/-! ### Lemmas -/

theorem supBy_ne_nil {ι : Type} [DecidableEq ι] (ops : List (Op ι)) : ∀ u s, (run ops).supBy.find u = some s → s ≠ [] := by
  refine run_induction (P := fun g => ∀ u s, g.supBy.find u = some s → s ≠ []) (by simp [empty]) ?_ ops
  intro g o h
  cases o with
  | addCourse c =>
    rcases addCourse_cases g c with ⟨_, e⟩ | ⟨_, e⟩ <;> simp only [step, e] <;> exact h
  | addLesson l c =>
    rcases addLesson_cases g l c with ⟨_, e⟩ | ⟨_, _, e⟩ | ⟨_, ty, _, e⟩ <;> simp only [step, e] <;> exact h
  | addExercise x l =>
    rcases addExercise_cases g x l with ⟨_, e⟩ | ⟨_, _, e⟩ | ⟨_, ty, _, e⟩ <;> simp only [step, e] <;> exact h
  | addDependencies u t ds =>
    rcases step_addDependencies g u t ds with e | ⟨_, e⟩ <;> rw [e] <;> exact h
  | addEncompassed u ds es =>
    rcases addEncompassed_cases g u ds es with ⟨_, e⟩ | ⟨_, e⟩ <;> simp only [step, e] <;> exact h
  | setEncompassingEqualsDependency => exact h
  | addSuperseded u ss =>
    simp only [step, addSuperseded_eq]
    split
    · exact h
    · exact fold_insert_ne_nil _ _ _ h
  | updateStartingLessons =>
    obtain ⟨s, st, e⟩ := updateStartingLessons_frame g
    simp only [step, e]; exact h

theorem both_perm_of_sort {o o' : Option (List Str)} (h : o'.map sortIds = o.map sortIds) : Both List.Perm o o' := by
  cases o <;> cases o'
  · trivial
  · cases h
  · cases h
  · rename_i l l'
    have e : sortIds l' = sortIds l := Option.some.inj h
    have p : (sortIds l').Perm l' := List.perm_insertionSort _ l'
    rw [e] at p
    exact (show (sortIds l).Perm l from List.perm_insertionSort _ l).symm.trans p

theorem both_perm_of_mem {o o' : Option (List Str)} (h1 : ∀ s, o = some s → s ≠ [] ∧ s.Nodup) (h2 : ∀ s, o' = some s → s ≠ [] ∧ s.Nodup)
    (h : ∀ x, (∃ s, o' = some s ∧ x ∈ s) ↔ ∃ s, o = some s ∧ x ∈ s) : Both List.Perm o o' := by
  cases o with
  | none =>
    cases o' with
    | none => trivial
    | some s =>
      obtain ⟨x, hx⟩ := List.exists_mem_of_ne_nil s (h2 s rfl).1
      obtain ⟨_, e, -⟩ := (h x).1 ⟨s, rfl, hx⟩
      cases e
  | some s =>
    cases o' with
    | none =>
      obtain ⟨x, hx⟩ := List.exists_mem_of_ne_nil s (h1 s rfl).1
      obtain ⟨_, e, -⟩ := (h x).2 ⟨s, rfl, hx⟩
      cases e
    | some s' =>
      exact (List.perm_ext_iff_of_nodup (h1 s rfl).2 (h2 s' rfl).2).mpr (fun x => by simpa using (h x).symm)

/-- The graphs of the two libraries differ in the order of their sets only. -/
theorem order_same_sets (h : SameFiles d d') (hg : GeneratesProper d) {lib lib' : Lib α γ} (hl : Loads d ig lib)
    (hl' : Loads d' ig lib') : SameSets lib.graph lib'.graph := by
  have a := order_same_answers h hg hl hl'
  refine ⟨a.type, a.exerciseLesson, a.lessonCourse, fun u => both_perm_of_sort (a.exerciseIds u),
    fun u => both_perm_of_sort (a.lessonIds u), fun u => ?_⟩
  obtain ⟨cs, s, flag, -, -, -, e, -⟩ := loads_inv hg hl
  obtain ⟨cs', s', flag', -, -, -, e', -⟩ := loads_inv (generatesProper_same h hg) hl'
  have hs := a.supersedes
  have eg : lib.graph = run (finalOps (cs.flatMap items) flag) := by rw [e]
  have eg' : lib'.graph = run (finalOps (cs'.flatMap items) flag') := by rw [e']
  rw [eg, eg'] at hs ⊢
  refine both_perm_of_mem (fun x hx => ⟨supBy_ne_nil _ _ _ hx, (mapsOk_run _).supBy.2 _ _ hx⟩)
    (fun x hx => ⟨supBy_ne_nil _ _ _ hx, (mapsOk_run _).supBy.2 _ _ hx⟩) (fun x => ?_)
  have k := superseded_by_inverse_of_supersedes (finalOps (cs.flatMap items) flag) x u
  have k' := superseded_by_inverse_of_supersedes (finalOps (cs'.flatMap items) flag') x u
  exact k'.symm.trans ((hs x u).trans k)

theorem no_enc_flag (hg : GeneratesProper d) {lib : Lib α γ} (hl : Loads d ig lib)
    (he : ∀ u ds es ss, lib.Lists u ds es ss → es = []) : ∃ ops, lib.graph = run ops ∧ (run ops).encompassingEqualsDependency = true := by
  obtain ⟨cs, s, flag, -, -, hi, e, -⟩ := loads_inv hg hl
  have hf : flag = true := by
    rw [hi.flag]
    intro it hit
    cases it with
    | course m =>
      refine he m.id m.deps m.enc m.sup (.inl ⟨m, ?_, rfl, rfl, rfl⟩)
      rw [e]
      exact (hi.courses _ _).2 ⟨hit, rfl⟩
    | lesson m =>
      refine he m.id m.deps m.enc m.sup (.inr ⟨m, ?_, rfl, rfl, rfl⟩)
      rw [e]
      exact (hi.lessons _ _).2 ⟨hit, rfl⟩
    | exercise m => rfl
  refine ⟨finalOps (cs.flatMap items) flag, by rw [e], ?_⟩
  rw [hf]
  unfold finalOps
  rw [if_pos rfl, run_snoc]
  rfl

/-! ### Theorems -/

/-- **C104, scores of a library**: with the same stored data and caches, a library gives the same scores, numbers of
trials and superseded units whatever the order in which its files were listed. -/
theorem order_library_scores {R T W : Type} [Field R] [LinearOrder R] (h : SameFiles d d') (hg : GeneratesProper d)
    {lib lib' : Lib α γ} (hl : Loads d ig lib) (hl' : Loads d' ig lib') (w : World Str R T W) (c : Caches Str R) (u : Str) :
    (∀ v, Answers (w.on lib.graph) c u v ↔ Answers (w.on lib'.graph) c u v) ∧
    (∀ v, AnswersLessonTrials (w.on lib.graph) c u v ↔ AnswersLessonTrials (w.on lib'.graph) c u v) ∧
    (∀ v, AnswersCourseTrials (w.on lib.graph) c u v ↔ AnswersCourseTrials (w.on lib'.graph) c u v) ∧
    ∀ b, AnswersSuperseded (w.on lib.graph) c u b ↔ AnswersSuperseded (w.on lib'.graph) c u b :=
  UnitScorer.order_same_scores (w := w.on lib.graph) (g := lib'.graph) (order_same_sets h hg hl hl') c u

/-- If no manifest lists encompassed units, none does when the files are listed in another order. -/
theorem order_no_weights (h : SameFiles d d') (hg : GeneratesProper d) {lib lib' : Lib α γ} (hl : Loads d ig lib)
    (hl' : Loads d' ig lib') (he : ∀ u ds es ss, lib.Lists u ds es ss → es = []) :
    ∀ u ds es ss, lib'.Lists u ds es ss → es = [] := by
  have a := order_same_answers h hg hl hl'
  intro u ds es ss hlist
  refine he u ds es ss ?_
  unfold Lib.Lists at hlist ⊢
  rw [a.lesson] at hlist
  refine hlist.imp ?_ id
  rintro ⟨m, hm, e1, e2, e3⟩
  have := a.course u
  rw [hm] at this
  obtain ⟨h1, h2⟩ | ⟨x, y, h1, h2, hs⟩ := UnitScorer.both_cases this
  · cases h2
  · cases h2
    refine ⟨x, h1, ?_⟩
    have hs : SameCourse x m := hs
    have h2 := hs.2
    exact ⟨(congrArg CourseM.deps h2).symm.trans e1, (congrArg CourseM.enc h2).symm.trans e2, (congrArg CourseM.sup h2).symm.trans e3⟩

/-- **C104, rewards of a library**: and the same rewards for a grade, when no manifest lists encompassed units. -/
theorem order_library_rewards (h : SameFiles d d') (hg : GeneratesProper d) {lib lib' : Lib α γ} (hl : Loads d ig lib)
    (hl' : Loads d' ig lib') (he : ∀ u ds es ss, lib.Lists u ds es ss → es = []) (e : Str) (score : MasteryScore) (t : Int)
    {rs rs' : List (UnitReward Str)} (hr : Propagates lib.graph [] e score t rs) (hr' : Propagates lib'.graph [] e score t rs') :
    rs.Perm rs' := by
  have a := order_same_answers h hg hl hl'
  have he' := order_no_weights h hg hl hl' he
  obtain ⟨ops, e1, f1⟩ := no_enc_flag hg hl he
  obtain ⟨ops', e2, f2⟩ := no_enc_flag (generatesProper_same h hg) hl' he'
  have a1 := a.exerciseLesson
  have a2 := a.lessonCourse
  have a3 := a.dependsOn
  rw [e1, e2] at a1 a2 a3
  rw [e1] at hr
  rw [e2] at hr'
  exact Propagator.order_same_rewards [] e score t a1 a2 a3 f1 f2 hr hr'

/-- **C104, after opening**: two objects that opened the libraries over the same stored data give the same scores,
numbers of trials and superseded units. -/
theorem order_restart_scores {R : Type} [Field R] [LinearOrder R] (h : SameFiles d d') (hg : GeneratesProper d)
    {lib lib' : Lib α γ} (hl : Loads d ig lib) (hl' : Loads d' ig lib') (b : TopLevel.Base R) (t : TopLevel.Top R)
    (ho : (TopLevel.step b t (.restart lib.graph)).2 = true) (u : Str) :
    (TopLevel.step b t (.restart lib'.graph)).2 = true ∧
    (∀ v, TopLevel.GetsScore b (TopLevel.step b t (.restart lib.graph)).1 u v ↔
      TopLevel.GetsScore b (TopLevel.step b t (.restart lib'.graph)).1 u v) ∧
    (∀ v, TopLevel.GetsTrials b (TopLevel.step b t (.restart lib.graph)).1 u v ↔
      TopLevel.GetsTrials b (TopLevel.step b t (.restart lib'.graph)).1 u v) ∧
    ∀ v, TopLevel.GetsSuperseded b (TopLevel.step b t (.restart lib.graph)).1 u v ↔
      TopLevel.GetsSuperseded b (TopLevel.step b t (.restart lib'.graph)).1 u v := by
  by_cases hv : (TopLevel.schedulerOptions t.prefs).verify = true
  swap
  · rw [show TopLevel.step b t (.restart lib.graph) = (t, false) by simp only [TopLevel.step]; rw [if_neg hv]] at ho
    cases ho
  rcases TopLevel.step_restart b t lib.graph with e | ⟨-, e⟩
  · rw [e] at ho; cases ho
  rcases TopLevel.step_restart b t lib'.graph with e' | ⟨-, e'⟩
  · have : (TopLevel.step b t (.restart lib'.graph)).2 = true := by simp only [TopLevel.step]; rw [if_pos hv]
    rw [e'] at this; cases this
  rw [e, e']
  refine ⟨rfl, ?_⟩
  have key := order_library_scores h hg hl hl' (TopLevel.Top.sys (TopLevel.step b t (.restart lib.graph)).1 |>.world
    (TopLevel.Top.config b (TopLevel.step b t (.restart lib.graph)).1)) {} u
  rw [e] at key
  refine ⟨key.1, fun v => ?_, key.2.2.2⟩
  unfold TopLevel.GetsTrials
  change (match lib.graph.getUnitType u with | some .course => _ | some .lesson => _ | _ => v = none) ↔
    (match lib'.graph.getUnitType u with | some .course => _ | some .lesson => _ | _ => v = none)
  rw [(order_same_answers h hg hl hl').type]
  cases lib.graph.getUnitType u with
  | none => exact Iff.rfl
  | some ty =>
    cases ty with
    | course => exact key.2.2.1 v
    | lesson => exact key.2.1 v
    | exercise => exact Iff.rfl

end Trane.Library
