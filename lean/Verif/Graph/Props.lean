import Verif.Graph.Spec
import Verif.Graph.SinkLemmas
import Verif.Graph.EncLemmas
import Mathlib.Data.List.Induction

/-!
# Properties of the unit graph (C01–C05, C07–C09)

`run ops` is the graph obtained from the empty graph by an arbitrary list of calls, failed calls
included.
-/

namespace Trane.Graph
variable {ι : Type} [DecidableEq ι]

/-- A small library used by the non-vacuity examples: course 1 with lessons 10, 11 (11 depends on
10), course 2 depending on course 1, a lesson 20 of course 2, and exercises. -/
def sample : List (Op Nat) :=
  [.addCourse 1, .addDependencies 1 .course [], .addEncompassed 1 [] [],
   .addLesson 10 1, .addDependencies 10 .lesson [], .addEncompassed 10 [] [], .addExercise 100 10,
   .addLesson 11 1, .addDependencies 11 .lesson [10], .addEncompassed 11 [10] [(100, 1/2)],
   .addSuperseded 11 [10],
   .addCourse 2, .addDependencies 2 .course [1], .addLesson 20 2, .addDependencies 20 .lesson [],
   .addDependencies 20 .exercise [10], .addDependencies 20 .lesson [20]]

/-! ### C01 -/

/-- C01: `d` is reported as a dependency of `u` iff `u` is reported as a dependent of `d`. -/
theorem dependents_inverse_of_dependencies (ops : List (Op ι)) (u d : ι) :
    DependsOn (run ops) u d ↔ HasDependent (run ops) d u :=
  run_induction (P := DepInv) (fun u d => by simp [empty, Rel]) depInv_step ops u d

example : DependsOn (run sample) 11 10 ∧ HasDependent (run sample) 10 11 :=
  ⟨⟨[10], by decide +kernel, by decide⟩, ⟨[11], by decide +kernel, by decide⟩⟩

/-- C01, what the relation contains: a successful `add_dependencies(u, t, ds)` adds exactly the
pairs `(u, d)` with `d ∈ ds` and every other call leaves the relation alone. -/
theorem dependencies_after_call (ops : List (Op ι)) (o : Op ι) (u d : ι) :
    DependsOn (run (ops ++ [o])) u d ↔ DependsOn (run ops) u d ∨
      ∃ t ds, o = .addDependencies u t ds ∧ ((run ops).step o).2 = true ∧ d ∈ ds := by
  rw [run_snoc]
  change Rel _ u d ↔ Rel _ u d ∨ _
  generalize run ops = g
  cases o with
  | addCourse c =>
    rcases addCourse_cases g c with ⟨_, e⟩ | ⟨_, e⟩ <;> simp [step, e]
  | addLesson l c =>
    rcases addLesson_cases g l c with ⟨_, e⟩ | ⟨_, _, e⟩ | ⟨_, _, _, e⟩ <;> simp [step, e]
  | addExercise l c =>
    rcases addExercise_cases g l c with ⟨_, e⟩ | ⟨_, _, e⟩ | ⟨_, _, _, e⟩ <;> simp [step, e]
  | addDependencies v t ds =>
    cases h : g.verifyDependencies v t ds with
    | true =>
      simp only [step, addDependencies_ok _ _ _ _ h, rel_upd_extend, Op.addDependencies.injEq]
      refine or_congr Iff.rfl ?_
      constructor
      · rintro ⟨rfl, hd⟩; exact ⟨t, ds, ⟨rfl, rfl, rfl⟩, trivial, hd⟩
      · rintro ⟨_, _, ⟨rfl, rfl, rfl⟩, _, h⟩; exact ⟨rfl, h⟩
    | false => simp [step, addDependencies_err _ _ _ _ h]
  | addEncompassed v ds es =>
    rcases addEncompassed_cases g v ds es with ⟨_, e⟩ | ⟨_, e⟩ <;> simp [step, e]
  | setEncompassingEqualsDependency => simp [step, setEncompassingEqualsDependency]
  | addSuperseded v ss =>
    simp only [step, addSuperseded_eq]; split <;> simp
  | updateStartingLessons =>
    obtain ⟨s, st, e⟩ := updateStartingLessons_frame g
    simp [step, e]

example : ¬ DependsOn (run sample) 20 10 := by
  rintro ⟨s, hs, h⟩
  have : (run sample).getDependencies 20 = some [] := by decide +kernel
  rw [this] at hs; injection hs with hs; subst hs; simp at h

/-! ### C02 -/

/-- C02: `u` is reported as superseding `v` iff `v` is reported as superseded by `u`. -/
theorem superseded_by_inverse_of_supersedes (ops : List (Op ι)) (u v : ι) :
    Supersedes (run ops) u v ↔ SupersededBy (run ops) v u :=
  run_induction (P := SupInv) (fun u d => by simp [empty, Rel]) supInv_step ops u v

example : Supersedes (run sample) 11 10 ∧ SupersededBy (run sample) 10 11 :=
  ⟨⟨[10], by decide +kernel, by decide⟩, ⟨[11], by decide +kernel, by decide⟩⟩

/-- C02, what the relation contains: exactly the pairs passed to `add_superseded`. -/
theorem supersedes_iff_added (ops : List (Op ι)) (u v : ι) :
    Supersedes (run ops) u v ↔ ∃ ss, Op.addSuperseded u ss ∈ ops ∧ v ∈ ss := by
  induction ops using List.reverseRecOn with
  | nil => simp [Supersedes, run, runFrom, empty, getSupersedes]
  | append_singleton ops o ih =>
    rw [run_snoc]
    change Rel _ u v ↔ _
    change Rel _ u v ↔ _ at ih
    generalize run ops = g at *
    have key : ∀ g' : Graph ι, g'.sup = g.sup → (∀ ss, o ≠ .addSuperseded u ss) →
        (Rel g'.sup u v ↔ ∃ ss, Op.addSuperseded u ss ∈ ops ++ [o] ∧ v ∈ ss) := by
      intro g' e ho
      rw [e, ih]
      simp [Ne.symm (ho _)]
    cases o with
    | addCourse c =>
      rcases addCourse_cases g c with ⟨_, e⟩ | ⟨_, e⟩ <;> simp only [step, e] <;>
        exact key _ rfl (by simp)
    | addLesson l c =>
      rcases addLesson_cases g l c with ⟨_, e⟩ | ⟨_, _, e⟩ | ⟨_, _, _, e⟩ <;>
        simp only [step, e] <;> exact key _ rfl (by simp)
    | addExercise l c =>
      rcases addExercise_cases g l c with ⟨_, e⟩ | ⟨_, _, e⟩ | ⟨_, _, _, e⟩ <;>
        simp only [step, e] <;> exact key _ rfl (by simp)
    | addDependencies w t ds =>
      rcases step_addDependencies g w t ds with e | ⟨_, e⟩ <;> rw [e] <;>
        exact key _ rfl (by simp)
    | addEncompassed w ds es =>
      rcases addEncompassed_cases g w ds es with ⟨_, e⟩ | ⟨_, e⟩ <;> simp only [step, e] <;>
        exact key _ rfl (by simp)
    | setEncompassingEqualsDependency => exact key _ rfl (by simp)
    | addSuperseded w ss =>
      have e2 : (∃ s, Op.addSuperseded u s ∈ ops ++ [Op.addSuperseded w ss] ∧ v ∈ s) ↔
          (∃ s, Op.addSuperseded u s ∈ ops ∧ v ∈ s) ∨ (u = w ∧ v ∈ ss) := by
        simp only [List.mem_append, List.mem_singleton, Op.addSuperseded.injEq]
        constructor
        · rintro ⟨s, h | ⟨rfl, rfl⟩, hv⟩
          · exact Or.inl ⟨s, h, hv⟩
          · exact Or.inr ⟨rfl, hv⟩
        · rintro (⟨s, h, hv⟩ | ⟨rfl, hv⟩)
          · exact ⟨s, Or.inl h, hv⟩
          · exact ⟨ss, Or.inr ⟨rfl, rfl⟩, hv⟩
      rw [e2, ← ih]
      simp only [step, addSuperseded_eq]
      split
      · rename_i h; simp only [List.isEmpty_iff] at h; subst h; simp
      · simp only [rel_upd_extend]
    | updateStartingLessons =>
      obtain ⟨s, st, e⟩ := updateStartingLessons_frame g
      simp only [step, e]; exact key _ rfl (by simp)

/-! ### C03 -/

/-- C03: lessons and exercises are listed exactly under the container reported for them. -/
theorem containment_maps_agree (ops : List (Op ι)) :
    (∀ c l, CourseHasLesson (run ops) c l ↔ (run ops).getLessonCourse l = some c) ∧
    (∀ l e, LessonHasExercise (run ops) l e ↔ (run ops).getExerciseLesson e = some l) :=
  ⟨(contInv_run ops).lesson, (contInv_run ops).exercise⟩

/-- C03, consequence: containers are unique, and have the right types. -/
theorem containment_unique_and_typed (ops : List (Op ι)) :
    (∀ c c' l, CourseHasLesson (run ops) c l → CourseHasLesson (run ops) c' l → c = c') ∧
    (∀ l l' e, LessonHasExercise (run ops) l e → LessonHasExercise (run ops) l' e → l = l') ∧
    (∀ c l, CourseHasLesson (run ops) c l →
      (run ops).getUnitType l = some .lesson ∧ (run ops).getUnitType c = some .course) ∧
    (∀ l e, LessonHasExercise (run ops) l e →
      (run ops).getUnitType e = some .exercise ∧ (run ops).getUnitType l = some .lesson) := by
  have h := contInv_run ops
  refine ⟨?_, ?_, ?_, ?_⟩
  · intro c c' l h1 h2
    have h1 := (h.lesson c l).1 h1
    have h2 := (h.lesson c' l).1 h2
    rw [h1] at h2; injection h2
  · intro c c' l h1 h2
    have h1 := (h.exercise c l).1 h1
    have h2 := (h.exercise c' l).1 h2
    rw [h1] at h2; injection h2
  · intro c l h1; exact h.tyL l c ((h.lesson c l).1 h1)
  · intro c l h1; exact h.tyE l c ((h.exercise c l).1 h1)

example : CourseHasLesson (run sample) 1 11 ∧ LessonHasExercise (run sample) 10 100 ∧
    (run sample).getLessonCourse 11 = some 1 ∧ (run sample).getExerciseLesson 100 = some 10 :=
  ⟨⟨[11, 10], by decide +kernel, by decide⟩, ⟨[100], by decide +kernel, by decide⟩,
    by decide +kernel, by decide +kernel⟩

/-- C03: what a successful `add_lesson` / `add_exercise` records. -/
theorem containment_after_add (ops : List (Op ι)) (a b : ι) :
    (((run ops).step (.addLesson a b)).2 = true →
      (run (ops ++ [.addLesson a b])).getLessonCourse a = some b) ∧
    (((run ops).step (.addExercise a b)).2 = true →
      (run (ops ++ [.addExercise a b])).getExerciseLesson a = some b) := by
  rw [run_snoc, run_snoc]
  generalize run ops = g
  constructor
  · rcases addLesson_cases g a b with ⟨_, e⟩ | ⟨_, _, e⟩ | ⟨_, _, _, e⟩ <;>
      simp [step, e, getLessonCourse]
  · rcases addExercise_cases g a b with ⟨_, e⟩ | ⟨_, _, e⟩ | ⟨_, _, _, e⟩ <;>
      simp [step, e, getExerciseLesson]

example : ((run sample).step (.addLesson 30 2)).2 = true ∧
    ((run sample).step (.addExercise 101 10)).2 = true := by decide +kernel

/-! ### C04 -/

/-- C04: a type, once reported, is reported after every further history. -/
theorem unit_type_permanent (ops more : List (Op ι)) (u : ι) (t : UnitType)
    (h : (run ops).getUnitType u = some t) : (run (ops ++ more)).getUnitType u = some t := by
  rw [run, run_append]
  exact runFrom_induction (P := fun g => g.getUnitType u = some t)
    (fun g o hg => types_mono_step g o u t hg) _ h more

/-- C04: adding a second unit under a known id is rejected and changes nothing. -/
theorem known_id_rejected (ops : List (Op ι)) (u p : ι) (h : Known (run ops) u) :
    (run ops).step (.addCourse u) = (run ops, false) ∧
    (run ops).step (.addLesson u p) = (run ops, false) ∧
    (run ops).step (.addExercise u p) = (run ops, false) := by
  obtain ⟨t, ht⟩ := h
  have ht : ((run ops).types.find u).isSome = true := by
    rw [show (run ops).types.find u = some t from ht]; rfl
  simp [step, addCourse, addLesson, addExercise, ht]

/-- C04: a successful add gives the id its type. -/
theorem type_after_add (ops : List (Op ι)) (u p : ι) :
    (((run ops).step (.addCourse u)).2 = true →
      (run (ops ++ [.addCourse u])).getUnitType u = some .course) ∧
    (((run ops).step (.addLesson u p)).2 = true →
      (run (ops ++ [.addLesson u p])).getUnitType u = some .lesson) ∧
    (((run ops).step (.addExercise u p)).2 = true →
      (run (ops ++ [.addExercise u p])).getUnitType u = some .exercise) := by
  have hc := contInv_run (ops ++ [.addLesson u p])
  have he := contInv_run (ops ++ [.addExercise u p])
  refine ⟨?_, fun h => ?_, fun h => ?_⟩
  · rw [run_snoc]
    rcases addCourse_cases (run ops) u with ⟨_, e⟩ | ⟨_, e⟩ <;> simp [step, e, getUnitType]
  · exact (hc.tyL u p ((containment_after_add ops u p).1 h)).1
  · exact (he.tyE u p ((containment_after_add ops u p).2 h)).1

example : Known (run sample) 10 ∧ (run sample).getUnitType 100 = some .exercise :=
  ⟨⟨.lesson, by decide +kernel⟩, by decide +kernel⟩

/-! ### C05 -/

/-- C05: every weight answered by the two encompassing queries lies in `[0, 1]`. -/
theorem encompassing_weights_valid (ops : List (Op ι)) (u v : ι) (w : ℚ) :
    (∀ l, (run ops).getEncompasses u = some l → (v, w) ∈ l → 0 ≤ w ∧ w ≤ 1) ∧
    (∀ l, (run ops).getEncompassedBy u = some l → (v, w) ∈ l → 0 ≤ w ∧ w ≤ 1) := by
  have h : EncInv (run ops) := run_induction
    ⟨fun _ _ _ => rfl, fun u v w h => (not_rel_nil _ _ h).elim, fun h => (h rfl).elim⟩
    encInv_step ops
  have h1 : (0 : ℚ) ≤ 1 ∧ (1 : ℚ) ≤ 1 := ⟨by decide +kernel, by decide +kernel⟩
  constructor
  · intro l hl hm
    unfold getEncompasses at hl
    split at hl
    · cases hd : (run ops).getDependencies u with
      | none => simp [hd] at hl
      | some ds =>
        simp only [hd, Option.map_some, Option.some.injEq] at hl
        subst hl
        simp only [List.mem_map, Prod.mk.injEq] at hm
        obtain ⟨_, _, _, rfl⟩ := hm
        exact h1
    · exact h.range u v w ⟨l, hl, hm⟩
  · intro l hl hm
    unfold getEncompassedBy at hl
    split at hl
    · cases hd : (run ops).getDependents u with
      | none => simp [hd] at hl
      | some ds =>
        simp only [hd, Option.map_some, Option.some.injEq] at hl
        subst hl
        simp only [List.mem_map, Prod.mk.injEq] at hm
        obtain ⟨_, _, _, rfl⟩ := hm
        exact h1
    · have := h.cnt v u w
      have h2 : 0 < cnt (run ops).encBy u (v, w) := by
        simp only [cnt, hl, Option.getD_some, List.count_pos_iff]; exact hm
      rw [← this] at h2
      apply h.range v u w
      rw [rel_iff_getD]
      exact List.count_pos_iff.1 h2

/-- C05: `add_encompassed` is rejected exactly when an explicit weight is outside `[0, 1]`; a
rejected call changes nothing, and after an accepted one every dependency without an explicit entry
is encompassed with weight 1 and every explicit entry with its weight. -/
theorem add_encompassed_effect (ops : List (Op ι)) (u : ι) (ds : List ι) (es : List (ι × ℚ)) :
    (((run ops).step (.addEncompassed u ds es)).2 = true ↔ ∀ e ∈ es, 0 ≤ e.2 ∧ e.2 ≤ 1) ∧
    (((run ops).step (.addEncompassed u ds es)).2 = false →
      run (ops ++ [.addEncompassed u ds es]) = run ops) ∧
    (((run ops).step (.addEncompassed u ds es)).2 = true →
      ∃ l, (run (ops ++ [.addEncompassed u ds es])).getEncompasses u = some l ∧
        (∀ d ∈ ds, (∀ w, (d, w) ∉ es) → (d, 1) ∈ l) ∧ (∀ e ∈ es, e ∈ l)) := by
  rw [run_snoc]
  rcases addEncompassed_cases (run ops) u ds es with ⟨hn, e⟩ | ⟨hr, e⟩ <;> simp only [step, e]
  · refine ⟨⟨by simp, fun h => (hn h).elim⟩, fun _ => trivial, by simp⟩
  · refine ⟨by simpa using hr, by simp, fun _ => ?_⟩
    refine ⟨(((run ops).enc.find u).getD []) ++ fullEncompassed ds es, ?_, ?_, ?_⟩
    · unfold getEncompasses
      rw [if_neg]
      · simp [AMap.find_upd]
      · rw [List.isEmpty_iff]; exact upd_ne_nil (run ops).enc u [] (fun l => l ++ fullEncompassed ds es)
    · intro d hd hw
      rw [List.mem_append, mem_fullEncompassed]
      exact Or.inr (Or.inr ⟨rfl, hd, hw⟩)
    · rintro ⟨v, w⟩ hd
      rw [List.mem_append, mem_fullEncompassed]
      exact Or.inr (Or.inl hd)

example : ((run sample).step (.addEncompassed 20 [10] [(11, 1/3)])).2 = true ∧
    ((run sample).step (.addEncompassed 20 [10] [(11, 4/3)])).2 = false := by decide +kernel

/-- C05 (reverse agreement, partial): consider the calls `s` made since the last
`set_encompasing_equals_dependency` (or since the beginning).  If none of them was `add_encompassed`,
or at least one accepted `add_encompassed` named a unit, then the two encompassing queries list every
pair equally often.  Missing: histories in which every `add_encompassed` call so far was rejected or
had empty lists, for which the claim is false (`encompassing_agreement_fails`). -/
theorem encompassing_reverse_agrees_partial (pre s : List (Op ι))
    (hpre : pre = [] ∨ ∃ p, pre = p ++ [.setEncompassingEqualsDependency])
    (hs : Op.setEncompassingEqualsDependency ∉ s)
    (h : (∀ u ds es, Op.addEncompassed u ds es ∉ s) ∨
      ∃ u ds es, Op.addEncompassed u ds es ∈ s ∧ (∀ e ∈ es, 0 ≤ e.2 ∧ e.2 ≤ 1) ∧
        (ds ≠ [] ∨ es ≠ [])) :
    EncompassingAgrees (run (pre ++ s)) := by
  apply encompassing_agrees_of_maps
  have h0 : (run pre).enc = [] ∧ (run pre).encBy = [] := by
    rcases hpre with rfl | ⟨p, rfl⟩
    · exact ⟨rfl, rfl⟩
    · rw [run_snoc]; exact ⟨rfl, rfl⟩
  rcases h with h | ⟨u, ds, es, hm, hr, hne⟩
  · have := enc_stays_empty (run pre) s h0 h
    rw [run, run_append, show runFrom empty pre = run pre from rfl, this.1, this.2]
  · obtain ⟨s1, s2, rfl⟩ := List.append_of_mem hm
    have hb : (run (pre ++ (s1 ++ .addEncompassed u ds es :: s2))).encBy ≠ [] := by
      rw [← List.append_assoc, run, run_append]
      change (runFrom ((runFrom empty (pre ++ s1)).step _).1 s2).encBy ≠ []
      refine encBy_stays_nonempty _ s2 (encBy_of_accepted _ u ds es hr hne) ?_
      intro hh; exact hs (by simp [hh])
    have hE : EncInv (run (pre ++ (s1 ++ .addEncompassed u ds es :: s2))) := run_induction
      ⟨fun _ _ _ => rfl, fun u v w h => (not_rel_nil _ _ h).elim, fun h => (h rfl).elim⟩
      encInv_step _
    have ha := hE.some_enc hb
    rw [← List.isEmpty_eq_false_iff] at ha hb
    rw [ha, hb]

example : encompassCount (run sample) 11 100 (1/2) = 1 ∧
    encompassedByCount (run sample) 100 11 (1/2) = 1 ∧
    Op.addEncompassed 11 [10] [(100, (1/2 : ℚ))] ∈ sample := by
  refine ⟨by decide +kernel, by decide +kernel, by simp [sample]⟩

/-- C05: the full agreement claim is false of the code.  After a call with empty lists only one of
the two stored maps is empty, so one query falls back to the dependency relation and the other does
not. -/
theorem encompassing_agreement_fails :
    ∃ ops : List (Op Nat), ¬ EncompassingAgrees (run ops) := by
  refine ⟨[.addCourse 1, .addCourse 2, .addDependencies 2 .course [1],
    .addEncompassed 1 [] []], fun h => ?_⟩
  exact absurd (h 2 1 1) (by decide +kernel)

/-! ### C07 -/

/-- C07: after `update_starting_lessons` the starting lessons of a course are exactly its lessons
none of whose dependencies is a lesson of the same course. -/
theorem starting_lessons_exact (ops : List (Op ι)) (c l : ι)
    (hc : ∃ s, (run ops).getCourseLessons c = some s) :
    CourseStartsWith (run (ops ++ [.updateStartingLessons])) c l ↔
      CourseHasLesson (run ops) c l ∧
        ∀ d, DependsOn (run ops) l d → ¬ CourseHasLesson (run ops) c d := by
  rw [run_snoc]
  generalize run ops = g at *
  have h := (updateStarting_fold g g.courseLessons.keys).1 c
  obtain ⟨s, hs⟩ := hc
  have hs' : g.courseLessons.find c = some s := hs
  rw [if_pos ((AMap.mem_keys_iff _ _).2 ⟨s, hs⟩), hs'] at h
  simp only [CourseStartsWith, getStartingLessons, step, updateStartingLessons, h,
    Option.getD_some, Option.some.injEq, exists_eq_left', mem_startingOf, CourseHasLesson,
    getCourseLessons, hs']
  rfl

/-- C07: the call does not change the relations it reads, so both sides may be read afterwards. -/
theorem starting_lessons_frame (ops : List (Op ι)) (c l d : ι) :
    (CourseHasLesson (run (ops ++ [.updateStartingLessons])) c l ↔ CourseHasLesson (run ops) c l) ∧
    (DependsOn (run (ops ++ [.updateStartingLessons])) l d ↔ DependsOn (run ops) l d) := by
  rw [run_snoc]
  obtain ⟨s, st, e⟩ := updateStartingLessons_frame (run ops)
  simp only [step, e]
  exact ⟨Iff.rfl, Iff.rfl⟩

example : (∃ s, (run sample).getCourseLessons 1 = some s) ∧
    (run (sample ++ [.updateStartingLessons])).getStartingLessons 1 = some [10] :=
  ⟨⟨[11, 10], by decide +kernel⟩, by decide +kernel⟩

/-! ### C08 -/

/-- The discipline followed by the library loader (/repo/src/course_library.rs:351-424): each
`add_lesson` is followed by an acceptable `add_dependencies` for the same lesson, and
`update_starting_lessons` is called once, at the end. -/
structure LoaderDiscipline (ops : List (Op ι)) : Prop where
  lessonThenDeps : ∀ p l c s, ops = p ++ .addLesson l c :: s →
    ∃ t ds, Op.addDependencies l t ds ∈ s ∧ t ≠ .exercise ∧ l ∉ ds
  noStarting : Op.updateStartingLessons ∉ ops

/-- C08: after loading, the sinks are exactly the units mentioned in the dependency relation that
are not lessons with a course, have no dependencies and are not courses with a starting lesson whose
dependencies exist and are all known. -/
theorem dependency_sinks_exact (ops : List (Op ι)) (h : LoaderDiscipline ops) (u : ι) :
    let g := run (ops ++ [.updateStartingLessons])
    u ∈ g.getDependencySinks ↔
      Mentioned g u ∧ g.getLessonCourse u = none ∧ (∀ d, ¬ DependsOn g u d) ∧
      ¬ ∃ l, CourseStartsWith g u l ∧ (∃ d, DependsOn g l d) ∧ ∀ d, DependsOn g l d → Known g d := by
  have hS := sinkInv_run ops h.noStarting
  have hP := pending_run ops h.lessonThenDeps
  rw [run_snoc]
  generalize run ops = g at *
  obtain ⟨h1, h2⟩ := updateStarting_fold g g.courseLessons.keys
  have hbase : u ∈ g.sinks ↔ Touched g u ∧ g.lessonCourse.find u = none ∧
      ∀ d, ¬ Rel g.deps u d := by
    constructor
    · intro hu
      obtain ⟨a, b⟩ := hS.sound u hu
      refine ⟨a, ?_, b⟩
      cases hc : g.lessonCourse.find u with
      | none => rfl
      | some c => obtain ⟨_, _, hf, _⟩ := hP u c hu hc; simp at hf
    · rintro ⟨a, b, c⟩; exact hS.complete u a c b
  have hstart : (u ∈ g.courseLessons.keys ∧
        g.hasStartingDeps (g.startingOf ((g.courseLessons.find u).getD [])) = true) ↔
      ∃ l, CourseStartsWith (g.step .updateStartingLessons).1 u l ∧ (∃ d, Rel g.deps l d) ∧
        ∀ d, Rel g.deps l d → ∃ t, g.types.find d = some t := by
    simp only [CourseStartsWith, getStartingLessons, step, updateStartingLessons, h1, hS.noStart]
    by_cases hk : u ∈ g.courseLessons.keys
    · simp only [hk, true_and, if_true, Option.some.injEq, exists_eq_left', hasStartingDeps,
        List.any_eq_true]
      refine exists_congr fun l => and_congr Iff.rfl ?_
      simp only [getDependencies, getUnitType, Rel]
      cases g.deps.find l with
      | none => simp
      | some ds =>
        simp only [Bool.and_eq_true, List.all_eq_true, Option.some.injEq, exists_eq_left',
          Option.isSome_iff_exists, Bool.not_eq_true', List.isEmpty_eq_false_iff_exists_mem]
    · simp [hk]
  obtain ⟨s, st, e⟩ := updateStartingLessons_frame g
  have hu : u ∈ (g.step .updateStartingLessons).1.getDependencySinks ↔
      u ∈ (g.courseLessons.keys.foldl updateStartingOne g).sinks := Iff.rfl
  intro g'
  change u ∈ g'.sinks ↔ _
  rw [show (u ∈ g'.sinks ↔ _) = _ from rfl]
  have e1 : g'.deps = g.deps := by simp only [g', step, e]
  have e2 : g'.dependents = g.dependents := by simp only [g', step, e]
  have e3 : g'.types = g.types := by simp only [g', step, e]
  have e4 : g'.lessonCourse = g.lessonCourse := by simp only [g', step, e]
  simp only [Mentioned, DependsOn, Known, getDependencies, getDependents, getUnitType,
    getLessonCourse, e1, e2, e3, e4]
  rw [show u ∈ g'.sinks ↔ _ from h2 u, hbase, hstart]
  exact ⟨fun ⟨⟨a, b, c⟩, d⟩ => ⟨a, b, c, d⟩, fun ⟨a, b, c, d⟩ => ⟨⟨a, b, c⟩, d⟩⟩

/-- C08: a course or lesson that does not exist but is named as a dependency is a sink. -/
theorem missing_dependency_is_sink (ops : List (Op ι)) (h : LoaderDiscipline ops) (u d : ι)
    (hd : DependsOn (run ops) u d) (hm : ¬ Known (run ops) d) :
    d ∈ (run (ops ++ [.updateStartingLessons])).getDependencySinks := by
  refine (dependency_sinks_exact ops h d).2 ?_
  have hf := fun c l d => starting_lessons_frame ops c l d
  have hK : ∀ v, Known (run (ops ++ [.updateStartingLessons])) v ↔ Known (run ops) v := by
    intro v
    rw [run_snoc]
    obtain ⟨s, st, e⟩ := updateStartingLessons_frame (run ops)
    simp only [step, e]; rfl
  have hC := contInv_run (ops ++ [Op.updateStartingLessons])
  have hS : DepShape (run (ops ++ [.updateStartingLessons])) := run_induction
    ⟨fun u => by simp [empty, Rel], by simp [empty], by simp [empty], by simp [empty]⟩
    depShape_step _
  rw [← (hf u u d).2] at hd
  rw [← hK] at hm
  refine ⟨Or.inr ?_, ?_, ?_, ?_⟩
  · obtain ⟨s, hs, _⟩ := (dependents_inverse_of_dependencies _ u d).1 hd
    exact ⟨s, hs⟩
  · cases hc : (run (ops ++ [Op.updateStartingLessons])).getLessonCourse d with
    | none => rfl
    | some c => exact (hm ⟨_, (hC.tyL d c hc).1⟩).elim
  · rintro e ⟨s, hs, _⟩
    exact hm (hS.typed d s hs)
  · rintro ⟨l, ⟨s, hs, hl⟩, _⟩
    have hstart : CourseStartsWith (run (ops ++ [.updateStartingLessons])) d l := ⟨s, hs, hl⟩
    by_cases hk : ∃ s, (run ops).getCourseLessons d = some s
    · rw [starting_lessons_exact ops d l hk, ← (hf d l d).1] at hstart
      exact hm ⟨_, (hC.tyL l d ((hC.lesson d l).1 hstart.1)).2⟩
    · have h1 := (updateStarting_fold (run ops) (run ops).courseLessons.keys).1 d
      rw [if_neg (by rw [AMap.mem_keys_iff]; exact hk),
        (sinkInv_run ops h.noStarting).noStart] at h1
      rw [run_snoc] at hs
      simp only [getStartingLessons, step, updateStartingLessons, h1] at hs
      simp at hs

/-- A loader-disciplined history: `2` depends on the missing course `9`. -/
def sampleLoad : List (Op Nat) :=
  [.addCourse 1, .addDependencies 1 .course [], .addLesson 10 1, .addDependencies 10 .lesson [],
   .addCourse 2, .addDependencies 2 .course [9], .addLesson 20 2, .addDependencies 20 .lesson [10],
   .addCourse 3, .addDependencies 3 .course [], .addLesson 30 3, .addDependencies 30 .lesson [10]]

example : LoaderDiscipline sampleLoad := by
  constructor
  · intro p l c s h
    simp only [sampleLoad] at h
    rcases p with _ | ⟨a, _ | ⟨b, _ | ⟨c', _ | ⟨d, _ | ⟨e, _ | ⟨f, _ | ⟨g, _ | ⟨h', _ | ⟨i, _ | ⟨j, _ | ⟨k, _ | ⟨m, p⟩⟩⟩⟩⟩⟩⟩⟩⟩⟩⟩⟩ <;>
      simp at h
    · obtain ⟨_, _, ⟨rfl, rfl⟩, rfl⟩ := h; exact ⟨.lesson, [], by simp⟩
    · obtain ⟨_, _, _, _, _, _, ⟨rfl, rfl⟩, rfl⟩ := h; exact ⟨.lesson, [10], by simp⟩
    · obtain ⟨_, _, _, _, _, _, _, _, _, _, ⟨rfl, rfl⟩, rfl⟩ := h; exact ⟨.lesson, [10], by simp⟩
  · simp [sampleLoad]

example : (run (sampleLoad ++ [.updateStartingLessons])).getDependencySinks = [9, 1] ∧
    DependsOn (run sampleLoad) 2 9 ∧ (run sampleLoad).getUnitType 9 = none :=
  ⟨by decide +kernel, ⟨[9], by decide +kernel, by decide⟩, by decide +kernel⟩

/-! ### C09 -/

/-- C09: no unit is ever reported to depend on itself. -/
theorem no_self_dependency (ops : List (Op ι)) (u : ι) : ¬ DependsOn (run ops) u u := by
  have hS : DepShape (run ops) := run_induction
    ⟨fun u => by simp [empty, Rel], by simp [empty], by simp [empty], by simp [empty]⟩
    depShape_step _
  exact hS.noSelf u

/-- C09: every unit with a dependency entry is known. -/
theorem dependencies_only_of_known_units (ops : List (Op ι)) (u : ι) (s : List ι)
    (h : (run ops).getDependencies u = some s) : Known (run ops) u := by
  have hS : DepShape (run ops) := run_induction
    ⟨fun u => by simp [empty, Rel], by simp [empty], by simp [empty], by simp [empty]⟩
    depShape_step _
  exact hS.typed u s h

/-- C09: `add_dependencies` is rejected exactly when the declared type is exercise, the unit is
listed as its own dependency, or the unit is unknown; a rejected call leaves the graph unchanged. -/
theorem add_dependencies_rejection (ops : List (Op ι)) (u : ι) (t : UnitType) (ds : List ι) :
    (((run ops).step (.addDependencies u t ds)).2 = false ↔
      t = .exercise ∨ u ∈ ds ∨ ¬ Known (run ops) u) ∧
    (((run ops).step (.addDependencies u t ds)).2 = false →
      run (ops ++ [.addDependencies u t ds]) = run ops) := by
  rw [run_snoc]
  have hv := verifyDependencies_iff (run ops) u t ds
  change _ ↔ _ ∧ _ ∧ Known (run ops) u at hv
  cases h : (run ops).verifyDependencies u t ds with
  | true =>
    simp only [step, addDependencies_ok _ _ _ _ h]
    obtain ⟨a, b, c⟩ := hv.1 h
    simp [a, b, c]
  | false =>
    simp only [step, addDependencies_err _ _ _ _ h]
    refine ⟨⟨fun _ => ?_, fun _ => trivial⟩, fun _ => trivial⟩
    by_contra hh
    rw [not_or, not_or] at hh
    rw [h] at hv
    exact absurd (hv.2 ⟨hh.1, hh.2.1, not_not.1 hh.2.2⟩) (by simp)

example : ((run sample).step (.addDependencies 20 .lesson [20])).2 = false ∧
    ((run sample).step (.addDependencies 20 .lesson [10])).2 = true ∧
    (run sample).getDependencies 11 = some [10] := by decide +kernel

end Trane.Graph
