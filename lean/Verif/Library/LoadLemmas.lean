import Verif.Library.Lemmas
import Verif.Library.Spec

/-!
# From the loop invariant to the loaded library
-/

namespace Trane.Library
open Trane.Store Trane.Filters Trane.Graph

variable {α γ : Type}

/-! ### Items and manifests -/

theorem mem_items_course (cs : List (Opened α γ)) (m : CourseM α γ) :
    Item.course m ∈ cs.flatMap items ↔ HasCourse cs m := by
  simp only [List.mem_flatMap, items, HasCourse, List.mem_cons, Item.course.injEq, List.mem_map,
    reduceCtorEq, false_and, and_false, exists_false, or_false, false_or, eq_comm]

theorem mem_items_lesson (cs : List (Opened α γ)) (m : LessonM α) :
    Item.lesson m ∈ cs.flatMap items ↔ HasLesson cs m := by
  simp only [List.mem_flatMap, items, HasLesson, List.mem_cons, Item.lesson.injEq, List.mem_map,
    reduceCtorEq, and_false, exists_false, or_false, false_or, eq_comm]

theorem mem_items_exercise (cs : List (Opened α γ)) (m : ExerciseM α) :
    Item.exercise m ∈ cs.flatMap items ↔ HasExercise cs m := by
  simp only [List.mem_flatMap, items, HasExercise, List.mem_cons, Item.exercise.injEq, List.mem_map,
    reduceCtorEq, false_or, exists_eq_right]

theorem items_ids (cs : List (Opened α γ)) : (cs.flatMap items).map Item.id = unitIds cs := by
  rw [unitIds, List.map_flatMap]
  congr 1
  funext c
  simp only [items, List.map_cons, List.map_flatMap, List.map_map, Item.id]
  congr 1

theorem declares_iff (cs : List (Opened α γ)) (u : Str) (ds es ss) :
    Declares cs u ds es ss ↔ ∃ it ∈ cs.flatMap items, it.ty ≠ .exercise ∧ it.id = u ∧
      it.deps = ds ∧ it.enc = es ∧ it.sup = ss := by
  constructor
  · rintro (⟨m, hm, h⟩ | ⟨m, hm, h⟩)
    · exact ⟨.course m, (mem_items_course cs m).2 hm, by simp [Item.ty], h⟩
    · exact ⟨.lesson m, (mem_items_lesson cs m).2 hm, by simp [Item.ty], h⟩
  · rintro ⟨it, hit, hty, h⟩
    cases it with
    | course m => exact Or.inl ⟨m, (mem_items_course cs m).1 hit, h⟩
    | lesson m => exact Or.inr ⟨m, (mem_items_lesson cs m).1 hit, h⟩
    | exercise m => exact (hty rfl).elim

theorem good_iff (cs : List (Opened α γ)) :
    (∀ it ∈ cs.flatMap items, it.Good) ↔
      (∀ u, ¬ DeclaresDep cs u u) ∧
        ∀ u ds es ss, Declares cs u ds es ss → ∀ e ∈ es, 0 ≤ e.2 ∧ e.2 ≤ 1 := by
  constructor
  · intro h
    refine ⟨?_, ?_⟩
    · rintro u ⟨ds, es, ss, hd, hu⟩
      obtain ⟨it, hit, _, h1, h2, _⟩ := (declares_iff cs u ds es ss).1 hd
      exact (h it hit).1 (by rw [h1, h2]; exact hu)
    · intro u ds es ss hd
      obtain ⟨it, hit, _, h1, h2, h3, _⟩ := (declares_iff cs u ds es ss).1 hd
      rw [← h3]; exact (h it hit).2
  · rintro ⟨h1, h2⟩ it hit
    by_cases hty : it.ty = .exercise
    · cases it with
      | exercise m => simp [Item.Good, Item.deps, Item.enc]
      | course m => cases hty
      | lesson m => cases hty
    · have hd := (declares_iff cs it.id it.deps it.enc it.sup).2 ⟨it, hit, hty, rfl, rfl, rfl, rfl⟩
      exact ⟨fun hm => h1 it.id ⟨_, _, _, hd, hm⟩, h2 _ _ _ _ hd⟩

/-- A flat list splits at an element into whole blocks and the two parts of one block. -/
theorem flatMap_split {δ β : Type} (f : δ → List β) (l : List δ) (p : List β) (x : β) (s : List β)
    (h : l.flatMap f = p ++ x :: s) :
    ∃ (l1 : List δ) (d : δ) (l2 : List δ) (p' s' : List β), l = l1 ++ d :: l2 ∧
      f d = p' ++ x :: s' ∧ p = l1.flatMap f ++ p' ∧ s = s' ++ l2.flatMap f := by
  induction l generalizing p x s with
  | nil => simp at h
  | cons d l ih =>
    rw [List.flatMap_cons] at h
    rcases List.append_eq_append_iff.1 h with ⟨a, ha, hb⟩ | ⟨a, ha, hb⟩
    · obtain ⟨l1, d', l2, p', s', e1, e2, e3, e4⟩ := ih a x s hb
      exact ⟨d :: l1, d', l2, p', s', by rw [e1]; rfl, e2, by
        rw [ha, e3, List.flatMap_cons, List.append_assoc], e4⟩
    · cases a with
      | nil =>
        simp only [List.append_nil, List.nil_append] at ha hb
        obtain ⟨l1, d', l2, p', s', e1, e2, e3, e4⟩ := ih [] x s hb.symm
        exact ⟨d :: l1, d', l2, p', s', by rw [e1]; rfl, e2, by
          rw [← ha, List.flatMap_cons, List.append_assoc, ← e3, List.append_nil], e4⟩
      | cons y a =>
        simp only [List.cons_append, List.cons.injEq] at hb
        obtain ⟨rfl, hb⟩ := hb
        exact ⟨[], d, l, p, a, rfl, ha, by simp, hb⟩

/-- In a proper list every parent comes before its children. -/
theorem ordered_of_proper (cs : List (Opened α γ)) (hp : Proper cs) : Ordered (cs.flatMap items) := by
  intro p it s h
  obtain ⟨l1, c, l2, p1, s1, e1, e2, e3, _⟩ := flatMap_split items cs p it s h
  have hc : c ∈ cs := by rw [e1]; simp
  rw [items] at e2
  cases p1 with
  | nil =>
    simp only [List.nil_append, List.cons.injEq] at e2
    rw [← e2.1]; exact trivial
  | cons y p1 =>
    simp only [List.cons_append, List.cons.injEq] at e2
    obtain ⟨e2, e4⟩ := e2
    obtain ⟨k1, l, k2, p2, s2, f1, f2, f3, _⟩ := flatMap_split _ _ _ _ _ e4
    have hl : l ∈ c.lessons := by rw [f1]; simp
    obtain ⟨hlc, hle⟩ := hp c hc l hl
    cases p2 with
    | nil =>
      simp only [List.nil_append, List.cons.injEq] at f2
      rw [← f2.1]
      exact ⟨c.manifest, by rw [e3, ← e2]; simp, hlc.symm⟩
    | cons z p2 =>
      simp only [List.cons_append, List.cons.injEq] at f2
      obtain ⟨f2, f4⟩ := f2
      have hit : it ∈ l.2.map Item.exercise := by rw [f4]; simp
      obtain ⟨e, he, rfl⟩ := List.mem_map.1 hit
      exact ⟨l.1, by rw [e3, f3, ← f2]; simp, (hle e he).1.symm⟩

/-! ### The finished library -/

/-- The calls made on the graph of a library, apart from the cycle check. -/
def finalOps (its : List (Item α γ)) (flag : Bool) : List (Graph.Op Str) :=
  (its.flatMap Item.ops ++ [.updateStartingLessons]) ++
    if flag then [.setEncompassingEqualsDependency] else []

theorem finalGraph (its : List (Item α γ)) (s : Lib α γ) (flag : Bool) (h : Inv' its s flag) :
    (if flag then s.graph.updateStartingLessons.setEncompassingEqualsDependency
      else s.graph.updateStartingLessons) = run (finalOps its flag) := by
  rw [finalOps]
  cases flag with
  | true => simp only [if_true]; rw [run_snoc, run_snoc, h.graph]; rfl
  | false =>
    simp only [Bool.false_eq_true, if_false, List.append_nil]
    rw [run_snoc, h.graph]; rfl

/-- What is left unchanged by the last steps, and what happens to the encompassing graph. -/
theorem final_frame (its : List (Item α γ)) (s : Lib α γ) (flag : Bool) (h : Inv' its s flag) :
    (run (finalOps its flag)).types = s.graph.types ∧
    (run (finalOps its flag)).lessonCourse = s.graph.lessonCourse ∧
    (run (finalOps its flag)).exerciseLesson = s.graph.exerciseLesson ∧
    (run (finalOps its flag)).deps = s.graph.deps ∧
    (run (finalOps its flag)).sup = s.graph.sup ∧
    (run (finalOps its flag)).enc = (if flag then [] else s.graph.enc) := by
  rw [← finalGraph its s flag h]
  obtain ⟨si, st, e⟩ := updateStartingLessons_frame s.graph
  cases flag <;> simp [e, setEncompassingEqualsDependency]

theorem final_deps (its : List (Item α γ)) (s : Lib α γ) (flag : Bool) (h : Inv' its s flag)
    (u d : Str) : DependsOn (run (finalOps its flag)) u d ↔
      ∃ it ∈ its, it.ty ≠ .exercise ∧ it.id = u ∧ d ∈ it.deps := by
  unfold DependsOn getDependencies
  rw [(final_frame its s flag h).2.2.2.1]
  simp only [h.deps]
  constructor
  · rintro ⟨l, ⟨it, a, b, c, rfl⟩, hd⟩
    exact ⟨it, a, b, c, by simpa using hd⟩
  · rintro ⟨it, a, b, c, hd⟩
    exact ⟨_, ⟨it, a, b, c, rfl⟩, by simpa using hd⟩

theorem final_sup (its : List (Item α γ)) (s : Lib α γ) (flag : Bool) (h : Inv' its s flag)
    (u d : Str) : Supersedes (run (finalOps its flag)) u d ↔
      ∃ it ∈ its, it.ty ≠ .exercise ∧ it.id = u ∧ d ∈ it.sup := by
  unfold Supersedes getSupersedes
  rw [(final_frame its s flag h).2.2.2.2.1]
  simp only [h.sup]
  constructor
  · rintro ⟨l, ⟨it, a, b, c, rfl⟩, hd⟩
    refine ⟨it, a, fun ht => b ?_, c, by simpa using hd⟩
    cases it with
    | exercise m => rfl
    | course m => cases ht
    | lesson m => cases ht
  · rintro ⟨it, a, b, c, hd⟩
    exact ⟨_, ⟨it, a, List.ne_nil_of_mem hd, c, rfl⟩, by simpa using hd⟩

/-- The entry `get_encompasses` returns. -/
theorem final_enc (its : List (Item α γ)) (s : Lib α γ) (flag : Bool) (h : Inv' its s flag)
    (u v : Str) (w : ℚ) : (∃ l, (run (finalOps its flag)).getEncompasses u = some l ∧ (v, w) ∈ l) ↔
      ∃ it ∈ its, it.ty ≠ .exercise ∧ it.id = u ∧ (v, w) ∈ fullEncompassed it.deps it.enc := by
  obtain ⟨_, _, _, e4, _, e6⟩ := final_frame its s flag h
  unfold getEncompasses getDependencies
  rw [e6, e4]
  cases hf : flag with
  | true =>
    have hall := h.flag.1 hf
    simp only [if_true, List.isEmpty_nil, Option.map_eq_some_iff]
    constructor
    · rintro ⟨l, ⟨ds, hds, rfl⟩, hm⟩
      obtain ⟨it, a, b, c, rfl⟩ := (h.deps _ _).1 hds
      refine ⟨it, a, b, c, ?_⟩
      rw [List.mem_map] at hm
      obtain ⟨d, hd, e⟩ := hm
      rw [mem_fullEncompassed, hall it a]
      obtain ⟨rfl, rfl⟩ := Prod.mk.injEq .. ▸ e
      exact Or.inr ⟨rfl, by simpa using hd, by simp⟩
    · rintro ⟨it, a, b, c, hm⟩
      rw [mem_fullEncompassed, hall it a] at hm
      rcases hm with hm | ⟨rfl, hm, _⟩
      · simp at hm
      · exact ⟨_, ⟨_, (h.deps _ _).2 ⟨it, a, b, c, rfl⟩, rfl⟩,
          List.mem_map.2 ⟨v, by simpa using hm, rfl⟩⟩
  | false =>
    simp only [Bool.false_eq_true, if_false]
    have hne : s.graph.enc.isEmpty = false := by
      have : ¬ ∀ it ∈ its, it.enc = [] := fun hc => by
        have := h.flag.2 hc; rw [hf] at this; cases this
      push Not at this
      obtain ⟨it, hit, he⟩ := this
      have hty : it.ty ≠ .exercise := by
        cases it with
        | exercise m => exact (he rfl).elim
        | course m => simp [Item.ty]
        | lesson m => simp [Item.ty]
      have := (h.enc it.id _).2 ⟨it, hit, hty, rfl, rfl⟩
      cases hq : s.graph.enc with
      | nil => rw [hq] at this; simp at this
      | cons _ _ => rfl
    rw [hne]
    simp only [Bool.false_eq_true, if_false, h.enc]
    constructor
    · rintro ⟨l, ⟨it, a, b, c, rfl⟩, hm⟩; exact ⟨it, a, b, c, hm⟩
    · rintro ⟨it, a, b, c, hm⟩; exact ⟨_, ⟨it, a, b, c, rfl⟩, hm⟩

theorem final_rels (cs : List (Opened α γ)) (s : Lib α γ) (flag : Bool)
    (h : Inv' (cs.flatMap items) s flag) :
    (∀ u d, DependsOn (run (finalOps (cs.flatMap items) flag)) u d ↔ DeclaresDep cs u d) ∧
    (∀ u d, Supersedes (run (finalOps (cs.flatMap items) flag)) u d ↔ DeclaresSup cs u d) ∧
    (∀ u d, Encompasses (run (finalOps (cs.flatMap items) flag)) u d ↔ DeclaresEnc cs u d) := by
  refine ⟨fun u d => ?_, fun u d => ?_, fun u v => ?_⟩
  · rw [final_deps _ s flag h]
    constructor
    · rintro ⟨it, a, b, c, hd⟩
      exact ⟨_, _, _, (declares_iff ..).2 ⟨it, a, b, c, rfl, rfl, rfl⟩, hd⟩
    · rintro ⟨ds, es, ss, hd, hm⟩
      obtain ⟨it, a, b, c, rfl, _⟩ := (declares_iff ..).1 hd
      exact ⟨it, a, b, c, hm⟩
  · rw [final_sup _ s flag h]
    constructor
    · rintro ⟨it, a, b, c, hd⟩
      exact ⟨_, _, _, (declares_iff ..).2 ⟨it, a, b, c, rfl, rfl, rfl⟩, hd⟩
    · rintro ⟨ds, es, ss, hd, hm⟩
      obtain ⟨it, a, b, c, _, _, rfl⟩ := (declares_iff ..).1 hd
      exact ⟨it, a, b, c, hm⟩
  · have key : Encompasses (run (finalOps (cs.flatMap items) flag)) u v ↔
        ∃ w l, (run (finalOps (cs.flatMap items) flag)).getEncompasses u = some l ∧ (v, w) ∈ l :=
      ⟨fun ⟨l, w, x⟩ => ⟨w, l, x⟩, fun ⟨w, l, x⟩ => ⟨l, w, x⟩⟩
    rw [key]
    simp only [final_enc _ s flag h, mem_fullEncompassed]
    constructor
    · rintro ⟨w, it, a, b, c, hm⟩
      refine ⟨_, _, _, (declares_iff ..).2 ⟨it, a, b, c, rfl, rfl, rfl⟩, ?_⟩
      rcases hm with hm | ⟨_, hm, _⟩
      · exact Or.inr ⟨w, hm⟩
      · exact Or.inl hm
    · rintro ⟨ds, es, ss, hd, hm⟩
      obtain ⟨it, a, b, c, rfl, rfl, _⟩ := (declares_iff ..).1 hd
      by_cases he : ∃ w, (v, w) ∈ it.enc
      · obtain ⟨w, hw⟩ := he
        exact ⟨w, it, a, b, c, Or.inl hw⟩
      · rcases hm with hm | hm
        · exact ⟨1, it, a, b, c, Or.inr ⟨rfl, hm, fun w' hw => he ⟨w', hw⟩⟩⟩
        · exact (he hm).elim

/-- Whether the loops get through. -/
theorem loops_exact (cs : List (Opened α γ)) (hp : Proper cs) :
    (((unitIds cs).Nodup ∧ (∀ u, ¬ DeclaresDep cs u u) ∧
        ∀ u ds es ss, Declares cs u ds es ss → ∀ e ∈ es, 0 ≤ e.2 ∧ e.2 ≤ 1) →
      ∃ s flag, cs.foldlM addCourseAll ({}, true) = some (s, flag) ∧
        Inv' (cs.flatMap items) s flag) ∧
    (¬ ((unitIds cs).Nodup ∧ (∀ u, ¬ DeclaresDep cs u u) ∧
        ∀ u ds es ss, Declares cs u ds es ss → ∀ e ∈ es, 0 ≤ e.2 ∧ e.2 ≤ 1) →
      cs.foldlM addCourseAll (({}, true) : Lib α γ × Bool) = none) := by
  rw [loops_flat, ← items_ids, ← good_iff]
  exact loop_exact _ (ordered_of_proper cs hp)

/-- A loaded library comes from the loops, followed by the last steps. -/
theorem loaded_inv (o : KeyOrder Str) (fuel : Nat) (cs : List (Opened α γ)) (hp : Proper cs)
    (lib : Lib α γ) (h : processResults o fuel cs = some (some lib)) :
    ∃ s flag, Inv' (cs.flatMap items) s flag ∧
      lib = { s with graph := run (finalOps (cs.flatMap items) flag) } ∧
      lib.graph.checkCycles o fuel = some (.ok ()) := by
  obtain ⟨l1, l2⟩ := loops_exact cs hp
  by_cases hc : (unitIds cs).Nodup ∧ (∀ u, ¬ DeclaresDep cs u u) ∧
        ∀ u ds es ss, Declares cs u ds es ss → ∀ e ∈ es, 0 ≤ e.2 ∧ e.2 ≤ 1
  · obtain ⟨s, flag, e, hi⟩ := l1 hc
    refine ⟨s, flag, hi, ?_⟩
    unfold processResults at h
    rw [e] at h
    simp only [finalGraph _ s flag hi] at h
    cases hcc : (run (finalOps (cs.flatMap items) flag)).checkCycles o fuel with
    | none => rw [hcc] at h; cases h
    | some r =>
      rw [hcc] at h
      cases r with
      | error x => simp at h
      | ok x =>
        simp only [Option.some.injEq] at h
        rw [← h]
        exact ⟨rfl, hcc⟩
  · unfold processResults at h
    rw [l2 hc] at h
    simp at h

/-- The calls of the loader keep to the discipline C08 needs. -/
theorem loader_discipline (its : List (Item α γ)) (hg : ∀ it ∈ its, it.Good) :
    LoaderDiscipline (its.flatMap Item.ops) := by
  constructor
  · intro p l c s h
    obtain ⟨l1, it, l2, p', s', e1, e2, e3, e4⟩ := flatMap_split Item.ops its p _ s h
    have hit : it ∈ its := by rw [e1]; simp
    cases it with
    | course m =>
      have : (Graph.Op.addLesson l c : Graph.Op Str) ∈ Item.ops (.course m : Item α γ) := by
        rw [e2]; simp
      simp [Item.ops, Item.tail] at this
    | exercise m =>
      have : (Graph.Op.addLesson l c : Graph.Op Str) ∈ Item.ops (.exercise m : Item α γ) := by
        rw [e2]; simp
      simp [Item.ops] at this
    | lesson m =>
      cases p' with
      | cons y p' =>
        simp only [Item.ops, List.cons_append, List.cons.injEq] at e2
        have : (Graph.Op.addLesson l c : Graph.Op Str) ∈
            Item.tail m.id .lesson m.deps m.enc m.sup := by rw [e2.2]; simp
        simp [Item.tail] at this
      | nil =>
        simp only [Item.ops, List.nil_append, List.cons.injEq, Graph.Op.addLesson.injEq] at e2
        obtain ⟨⟨rfl, rfl⟩, e5⟩ := e2
        refine ⟨.lesson, m.deps, ?_, by decide, (hg _ hit).1⟩
        rw [e4, ← e5]
        simp [Item.tail]
  · intro hc
    obtain ⟨it, _, hx⟩ := List.mem_flatMap.1 hc
    cases it <;> simp [Item.ops, Item.tail] at hx

/-- The last step touches nothing but the encompassing maps. -/
theorem final_core (its : List (Item α γ)) (flag : Bool) :
    ∃ e eb, run (finalOps its flag) =
      { run (its.flatMap Item.ops ++ [.updateStartingLessons]) with enc := e, encBy := eb } := by
  rw [finalOps]
  cases flag with
  | true => simp only [if_true]; rw [run_snoc]; exact ⟨[], [], rfl⟩
  | false =>
    simp only [Bool.false_eq_true, if_false, List.append_nil]
    exact ⟨_, _, rfl⟩

end Trane.Library
