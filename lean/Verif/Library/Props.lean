import Verif.Library.LoadLemmas
import Verif.Library.DiskLemmas
import Verif.Graph.CycleFuel
import Verif.Sched.SearchSpec
import Verif.Graph.WellFormed

/-!
# Properties of opening a library (C47, C67; C05, C07 and C08 for libraries)

`openLibrary o fuel d ignored` opens the library on disk `d`; `o` is the iteration order of the hash
maps in the cycle check and `fuel` bounds its loop.  `Loads d ignored lib` says that opening returned
`Ok(lib)` for some order.
-/

namespace Trane.Library
open Trane.Store Trane.Filters Trane.Graph

variable {α γ : Type}

/-- Opening the library on the disk returns `Ok(lib)`. -/
def Loads (d : Disk α γ) (ignored : List FPath) (lib : Lib α γ) : Prop :=
  ∃ (o : KeyOrder Str) (fuel : Nat), o.Valid ∧ openLibrary o fuel d ignored = some (some lib)

theorem process_exact (cs : List (Opened α γ)) (hp : Proper cs) (o : KeyOrder Str) (ho : o.Valid) :
    ∃ N, ∀ fuel, N ≤ fuel → ∃ r, processResults o fuel cs = some r ∧
      (r.isSome = true ↔ Acceptable cs) := by
  obtain ⟨l1, l2⟩ := loops_exact cs hp
  by_cases hc : (unitIds cs).Nodup ∧ (∀ u, ¬ DeclaresDep cs u u) ∧
        ∀ u ds es ss, Declares cs u ds es ss → ∀ e ∈ es, 0 ≤ e.2 ∧ e.2 ≤ 1
  · obtain ⟨s, flag, e, hi⟩ := l1 hc
    obtain ⟨N, hN⟩ := check_cycles_exact (finalOps (cs.flatMap items) flag) o ho
    refine ⟨N, fun fuel hf => ?_⟩
    obtain ⟨r, hr, hiff⟩ := hN fuel hf
    obtain ⟨r1, r2, r3⟩ := final_rels cs s flag hi
    rw [transGen_congr r1, transGen_congr r2, transGen_congr r3] at hiff
    unfold processResults
    rw [e]
    simp only [finalGraph _ s flag hi, hr]
    cases r with
    | error x =>
      refine ⟨none, rfl, by simp, fun ha => ?_⟩
      have := hiff.2 ⟨ha.depAcyclic, ha.supAcyclic, ha.encAcyclic⟩
      cases this
    | ok x =>
      refine ⟨_, rfl, fun _ => ?_, fun _ => rfl⟩
      obtain ⟨a, b, c⟩ := hiff.1 rfl
      exact ⟨hc.1, hc.2.1, hc.2.2, a, b, c⟩
  · refine ⟨0, fun fuel _ => ⟨none, ?_, by simp, fun ha => ?_⟩⟩
    · unfold processResults
      rw [l2 hc]
    · exact (hc ⟨ha.distinct, ha.noSelf, ha.weights⟩).elim

/-- **C47, exact success condition.**  Opening a library ends, and it succeeds exactly when every
manifest can be read, has an id and names the parents it is stored under, and the manifests together
use no id twice, have no unit depending on itself, no weight outside [0, 1] and no cycle of
dependencies, superseded units or encompassed units. -/
theorem open_succeeds_iff (d : Disk α γ) (ig : List FPath) (hg : GeneratesProper d)
    (o : KeyOrder Str) (ho : o.Valid) :
    ∃ N, ∀ fuel, N ≤ fuel → ∃ r, openLibrary o fuel d ig = some r ∧
      (r.isSome = true ↔ Readable d ig ∧ ∃ cs, IsOpened d ig cs ∧ Acceptable cs) := by
  cases hc : openCourses d ig with
  | none =>
    refine ⟨0, fun fuel _ => ⟨none, by unfold openLibrary; rw [hc], by simp, ?_⟩⟩
    rintro ⟨hr, cs, hi, _⟩
    have := (openCourses_exact d ig cs).2 ⟨hr, hi⟩
    rw [hc] at this
    cases this
  | some cs =>
    obtain ⟨hr, hi⟩ := (openCourses_exact d ig cs).1 hc
    obtain ⟨N, hN⟩ := process_exact cs (opened_proper d ig hg cs hc).1 o ho
    refine ⟨N, fun fuel hf => ?_⟩
    obtain ⟨r, h1, h2⟩ := hN fuel hf
    refine ⟨r, by unfold openLibrary; rw [hc]; exact h1, h2.trans ⟨fun ha => ⟨hr, cs, hi, ha⟩, ?_⟩⟩
    rintro ⟨_, cs', hi', ha⟩
    have := (openCourses_exact d ig cs').2 ⟨hr, hi'⟩
    rw [hc] at this
    cases this
    exact ha

/-- A loaded library comes from opened courses. -/
theorem loads_inv {d : Disk α γ} {ig : List FPath} {lib : Lib α γ} (hg : GeneratesProper d)
    (h : Loads d ig lib) :
    ∃ cs s flag, openCourses d ig = some cs ∧ IsOpened d ig cs ∧
      Inv' (cs.flatMap items) s flag ∧
      lib = { s with graph := run (finalOps (cs.flatMap items) flag) } ∧ Acceptable cs := by
  obtain ⟨o, fuel, ho, h⟩ := h
  unfold openLibrary at h
  cases hc : openCourses d ig with
  | none => rw [hc] at h; cases h
  | some cs =>
    rw [hc] at h
    simp only at h
    have hp := (opened_proper d ig hg cs hc).1
    obtain ⟨s, flag, hi, e, hcc⟩ := loaded_inv o fuel cs hp lib h
    have hgood := (good_iff cs).1 hi.good
    obtain ⟨r1, r2, r3⟩ := final_rels cs s flag hi
    have hacc : ¬ HasCycle (DependsOn (run (finalOps (cs.flatMap items) flag))) ∧
        ¬ HasCycle (Supersedes (run (finalOps (cs.flatMap items) flag))) ∧
        ¬ HasCycle (Encompasses (run (finalOps (cs.flatMap items) flag))) := by
      rw [e] at hcc
      exact check_ok_acyclic _ o ho fuel hcc
    rw [transGen_congr r1, transGen_congr r2, transGen_congr r3] at hacc
    exact ⟨cs, s, flag, rfl, ((openCourses_exact d ig cs).1 hc).2, hi, e,
      ⟨by rw [← items_ids]; exact hi.nodup, hgood.1, hgood.2, hacc.1, hacc.2.1, hacc.2.2⟩⟩

section Loaded
variable {d : Disk α γ} {ig : List FPath} {lib : Lib α γ}

/-- **C47, manifests.**  In a loaded library a manifest is returned under an id exactly when the disk
holds it (read from a manifest file in the right place, or generated) and it has that id. -/
theorem library_manifests (hg : GeneratesProper d) (h : Loads d ig lib) (u : Str) :
    (∀ m, lib.getCourseManifest u = some m ↔ (∃ dir gen, DiskCourse d ig dir m gen) ∧ m.id = u) ∧
    (∀ m, lib.getLessonManifest u = some m ↔ DiskLesson d ig m ∧ m.id = u) ∧
    (∀ m, lib.getExerciseManifest u = some m ↔ DiskExercise d ig m ∧ m.id = u) := by
  obtain ⟨cs, s, flag, _, ho, hi, rfl, _⟩ := loads_inv hg h
  obtain ⟨c1, c2, c3⟩ := opened_contents d ig cs ho
  refine ⟨fun m => ?_, fun m => ?_, fun m => ?_⟩
  · rw [← c1, ← mem_items_course]; exact hi.courses u m
  · rw [← c2, ← mem_items_lesson]; exact hi.lessons u m
  · rw [← c3, ← mem_items_exercise]; exact hi.exercises u m

/-- **C47, no id twice.**  Two manifests on the disk never share an id in a library that loads: not
within a kind (the returned manifest is the only one) and not across kinds. -/
theorem library_ids_distinct (hg : GeneratesProper d) (h : Loads d ig lib) (u : Str) :
    ¬ ((lib.getCourseManifest u).isSome ∧ (lib.getLessonManifest u).isSome) ∧
    ¬ ((lib.getCourseManifest u).isSome ∧ (lib.getExerciseManifest u).isSome) ∧
    ¬ ((lib.getLessonManifest u).isSome ∧ (lib.getExerciseManifest u).isSome) := by
  obtain ⟨cs, s, flag, _, ho, hi, rfl, _⟩ := loads_inv hg h
  have key : ∀ x ∈ cs.flatMap items, ∀ y ∈ cs.flatMap items, x.id = y.id → x.ty = y.ty := by
    intro x hx y hy e
    have a := (hi.types x.id x.ty).2 ⟨x, hx, rfl, rfl⟩
    have b := (hi.types y.id y.ty).2 ⟨y, hy, rfl, rfl⟩
    rw [e, b] at a
    exact (Option.some.inj a).symm
  refine ⟨?_, ?_, ?_⟩ <;> rintro ⟨a, b⟩ <;> rw [Option.isSome_iff_exists] at a b <;>
    obtain ⟨m, hm⟩ := a <;> obtain ⟨m', hm'⟩ := b
  · obtain ⟨a1, a2⟩ := (hi.courses u m).1 hm
    obtain ⟨b1, b2⟩ := (hi.lessons u m').1 hm'
    have := key _ a1 _ b1 (a2.trans b2.symm)
    cases this
  · obtain ⟨a1, a2⟩ := (hi.courses u m).1 hm
    obtain ⟨b1, b2⟩ := (hi.exercises u m').1 hm'
    have := key _ a1 _ b1 (a2.trans b2.symm)
    cases this
  · obtain ⟨a1, a2⟩ := (hi.lessons u m).1 hm
    obtain ⟨b1, b2⟩ := (hi.exercises u m').1 hm'
    have := key _ a1 _ b1 (a2.trans b2.symm)
    cases this

/-- **C47, types.**  The graph gives a unit the type of the manifest it has, and knows no other
unit. -/
theorem library_types (hg : GeneratesProper d) (h : Loads d ig lib) (u : Str) :
    (lib.graph.getUnitType u = some .course ↔ (lib.getCourseManifest u).isSome = true) ∧
    (lib.graph.getUnitType u = some .lesson ↔ (lib.getLessonManifest u).isSome = true) ∧
    (lib.graph.getUnitType u = some .exercise ↔ (lib.getExerciseManifest u).isSome = true) := by
  obtain ⟨cs, s, flag, _, ho, hi, rfl, _⟩ := loads_inv hg h
  obtain ⟨e1, _⟩ := final_frame _ s flag hi
  unfold getUnitType
  simp only [e1, hi.types, Option.isSome_iff_exists, Lib.getCourseManifest, Lib.getLessonManifest,
    Lib.getExerciseManifest, hi.courses, hi.lessons, hi.exercises]
  refine ⟨⟨?_, fun ⟨m, a, b⟩ => ⟨_, a, b, rfl⟩⟩, ⟨?_, fun ⟨m, a, b⟩ => ⟨_, a, b, rfl⟩⟩,
    ⟨?_, fun ⟨m, a, b⟩ => ⟨_, a, b, rfl⟩⟩⟩
  all_goals
    rintro ⟨it, a, b, c⟩
    cases it with
    | course m => first | exact ⟨m, a, b⟩ | cases c
    | lesson m => first | exact ⟨m, a, b⟩ | cases c
    | exercise m => first | exact ⟨m, a, b⟩ | cases c

/-- **C47, parents.**  The graph reports the parents named in the manifests, and the parents are loaded:
every lesson has its course and every exercise its lesson, of the same course. -/
theorem library_parents (hg : GeneratesProper d) (h : Loads d ig lib) :
    (∀ l c, lib.graph.getLessonCourse l = some c ↔
      ∃ m, lib.getLessonManifest l = some m ∧ m.courseId = c) ∧
    (∀ e l, lib.graph.getExerciseLesson e = some l ↔
      ∃ m, lib.getExerciseManifest e = some m ∧ m.lessonId = l) ∧
    (∀ l m, lib.getLessonManifest l = some m → (lib.getCourseManifest m.courseId).isSome = true) ∧
    (∀ e m, lib.getExerciseManifest e = some m →
      ∃ lm, lib.getLessonManifest m.lessonId = some lm ∧ lm.courseId = m.courseId) := by
  obtain ⟨cs, s, flag, hoc, ho, hi, rfl, _⟩ := loads_inv hg h
  obtain ⟨_, e2, e3, _⟩ := final_frame _ s flag hi
  have hp := (opened_proper d ig hg cs hoc).1
  refine ⟨fun l c => ?_, fun e l => ?_, fun l m hm => ?_, fun e m hm => ?_⟩
  · unfold getLessonCourse
    simp only [e2, hi.lessonCourse, Lib.getLessonManifest, hi.lessons, and_assoc]
  · unfold getExerciseLesson
    simp only [e3, hi.exerciseLesson, Lib.getExerciseManifest, hi.exercises, and_assoc]
  · obtain ⟨a, _⟩ := (hi.lessons l m).1 hm
    obtain ⟨c, hc, x, hx, rfl⟩ := (mem_items_lesson cs m).1 a
    rw [Option.isSome_iff_exists]
    exact ⟨c.manifest, (hi.courses _ _).2
      ⟨(mem_items_course cs _).2 ⟨c, hc, rfl⟩, (hp c hc x hx).1.symm⟩⟩
  · obtain ⟨a, _⟩ := (hi.exercises e m).1 hm
    obtain ⟨c, hc, x, hx, hex⟩ := (mem_items_exercise cs m).1 a
    obtain ⟨p1, p2⟩ := hp c hc x hx
    exact ⟨x.1, (hi.lessons _ _).2 ⟨(mem_items_lesson cs _).2 ⟨c, hc, x, hx, rfl⟩,
      ((p2 m hex).1).symm⟩, by rw [p1, (p2 m hex).2]⟩

/-- The manifests of a loaded library, as a relation on ids: some course or lesson manifest with id `u`
has these dependencies, encompassed units and superseded units. -/
def Lib.Lists (lib : Lib α γ) (u : Str) (ds : List Str) (es : List (Str × ℚ)) (ss : List Str) : Prop :=
  (∃ m, lib.getCourseManifest u = some m ∧ m.deps = ds ∧ m.enc = es ∧ m.sup = ss) ∨
  (∃ m, lib.getLessonManifest u = some m ∧ m.deps = ds ∧ m.enc = es ∧ m.sup = ss)

/-- **C47, relations.**  The graph of a loaded library holds exactly the relations of the manifests:
dependencies, superseded units, and encompassed units with the listed weight, or weight 1 for a
dependency that is not listed as encompassed. -/
theorem library_relations (hg : GeneratesProper d) (h : Loads d ig lib) (u v : Str) (w : ℚ) :
    (DependsOn lib.graph u v ↔ ∃ ds es ss, lib.Lists u ds es ss ∧ v ∈ ds) ∧
    (Supersedes lib.graph u v ↔ ∃ ds es ss, lib.Lists u ds es ss ∧ v ∈ ss) ∧
    ((∃ l, lib.graph.getEncompasses u = some l ∧ (v, w) ∈ l) ↔ ∃ ds es ss, lib.Lists u ds es ss ∧
      ((v, w) ∈ es ∨ (w = 1 ∧ v ∈ ds ∧ ∀ w', (v, w') ∉ es))) := by
  obtain ⟨cs, s, flag, _, ho, hi, rfl, _⟩ := loads_inv hg h
  have key : ∀ ds es ss, Lib.Lists { s with graph := run (finalOps (cs.flatMap items) flag) } u ds es ss ↔
      ∃ it ∈ cs.flatMap items, it.ty ≠ .exercise ∧ it.id = u ∧ it.deps = ds ∧ it.enc = es ∧
        it.sup = ss := by
    intro ds es ss
    constructor
    · rintro (⟨m, hm, x⟩ | ⟨m, hm, x⟩)
      · obtain ⟨a, b⟩ := (hi.courses u m).1 hm
        exact ⟨_, a, by simp [Item.ty], b, x⟩
      · obtain ⟨a, b⟩ := (hi.lessons u m).1 hm
        exact ⟨_, a, by simp [Item.ty], b, x⟩
    · rintro ⟨it, a, b, c, x⟩
      cases it with
      | course m => exact Or.inl ⟨m, (hi.courses u m).2 ⟨a, c⟩, x⟩
      | lesson m => exact Or.inr ⟨m, (hi.lessons u m).2 ⟨a, c⟩, x⟩
      | exercise m => exact (b rfl).elim
  simp only [key, final_deps _ s flag hi, final_sup _ s flag hi, final_enc _ s flag hi,
    mem_fullEncompassed]
  refine ⟨⟨?_, ?_⟩, ⟨?_, ?_⟩, ⟨?_, ?_⟩⟩
  · rintro ⟨it, a, b, c, x⟩; exact ⟨_, _, _, ⟨it, a, b, c, rfl, rfl, rfl⟩, x⟩
  · rintro ⟨_, _, _, ⟨it, a, b, c, rfl, rfl, rfl⟩, x⟩; exact ⟨it, a, b, c, x⟩
  · rintro ⟨it, a, b, c, x⟩; exact ⟨_, _, _, ⟨it, a, b, c, rfl, rfl, rfl⟩, x⟩
  · rintro ⟨_, _, _, ⟨it, a, b, c, rfl, rfl, rfl⟩, x⟩; exact ⟨it, a, b, c, x⟩
  · rintro ⟨it, a, b, c, x⟩; exact ⟨_, _, _, ⟨it, a, b, c, rfl, rfl, rfl⟩, x⟩
  · rintro ⟨_, _, _, ⟨it, a, b, c, rfl, rfl, rfl⟩, x⟩; exact ⟨it, a, b, c, x⟩

/-- **C47, no cycles.** -/
theorem library_acyclic (hg : GeneratesProper d) (h : Loads d ig lib) :
    ¬ HasCycle (DependsOn lib.graph) ∧ ¬ HasCycle (Supersedes lib.graph) ∧
      ¬ HasCycle (Encompasses lib.graph) := by
  obtain ⟨cs, s, flag, _, ho, hi, rfl, ha⟩ := loads_inv hg h
  obtain ⟨r1, r2, r3⟩ := final_rels cs s flag hi
  rw [transGen_congr r1, transGen_congr r2, transGen_congr r3]
  exact ⟨ha.depAcyclic, ha.supAcyclic, ha.encAcyclic⟩

/-- **C05 for libraries.**  In a loaded library, `get_encompassed_by` is the exact reverse of
`get_encompasses`, with the same weights. -/
theorem library_encompassing_agrees (hg : GeneratesProper d) (h : Loads d ig lib) :
    EncompassingAgrees lib.graph := by
  obtain ⟨cs, s, flag, _, ho, hi, rfl, _⟩ := loads_inv hg h
  cases hf : flag with
  | true =>
    have := encompassing_reverse_agrees_partial (finalOps (cs.flatMap items) true) []
      (Or.inr ⟨_, rfl⟩) (by simp) (Or.inl (by simp))
    rw [List.append_nil] at this
    exact this
  | false =>
    have hne : ¬ ∀ it ∈ cs.flatMap items, it.enc = [] := fun hc => by
      have := hi.flag.2 hc; rw [hf] at this; cases this
    push Not at hne
    obtain ⟨it, hit, he⟩ := hne
    have hops : ∀ o ∈ (cs.flatMap items).flatMap Item.ops, o ≠ .setEncompassingEqualsDependency := by
      intro o ho
      obtain ⟨x, _, hx⟩ := List.mem_flatMap.1 ho
      cases x <;> simp only [Item.ops, Item.tail, List.mem_cons, List.not_mem_nil, or_false] at hx
      · rcases hx with rfl | rfl | rfl | rfl <;> simp
      · rcases hx with rfl | rfl | rfl | rfl <;> simp
      · subst hx; simp
    have hfin : finalOps (cs.flatMap items) false =
        (cs.flatMap items).flatMap Item.ops ++ [.updateStartingLessons] := by simp [finalOps]
    have := encompassing_reverse_agrees_partial [] (finalOps (cs.flatMap items) false)
      (Or.inl rfl) (by
        rw [hfin]
        intro hc
        rcases List.mem_append.1 hc with hc | hc
        · exact hops _ hc rfl
        · simp at hc)
      (Or.inr ⟨it.id, it.deps, it.enc, by
        rw [hfin]
        refine List.mem_append_left _ (List.mem_flatMap.2 ⟨it, hit, ?_⟩)
        cases it with
        | course m => simp [Item.ops, Item.tail, Item.id, Item.deps, Item.enc]
        | lesson m => simp [Item.ops, Item.tail, Item.id, Item.deps, Item.enc]
        | exercise m => exact (he rfl).elim, (hi.good it hit).2, by
          first | exact Or.inr he | exact Or.inl he⟩)
    rw [List.nil_append] at this
    exact this

/-- **C07 for libraries.**  The starting lessons of a course are its lessons whose manifests list no
lesson of the same course as a dependency. -/
theorem library_starting_lessons (hg : GeneratesProper d) (h : Loads d ig lib) (c l : Str) :
    CourseStartsWith lib.graph c l ↔ ∃ m, lib.getLessonManifest l = some m ∧ m.courseId = c ∧
      ∀ x ∈ m.deps, ∀ m', lib.getLessonManifest x = some m' → m'.courseId ≠ c := by
  have hpar := library_parents hg h
  have hrel := fun u v => (library_relations hg h u v 0).1
  have hdist := library_ids_distinct hg h l
  obtain ⟨cs, s, flag, _, ho, hi, e, _⟩ := loads_inv hg h
  have hwf : WF lib.graph := by rw [e]; exact wf_run _
  obtain ⟨en, eb, hcore⟩ := final_core (cs.flatMap items) flag
  have hgr : lib.graph = { run ((cs.flatMap items).flatMap Item.ops ++ [.updateStartingLessons])
      with enc := en, encBy := eb } := by rw [e]; exact hcore
  have hstart : CourseStartsWith lib.graph c l ↔
      CourseHasLesson lib.graph c l ∧ ∀ x, DependsOn lib.graph l x → ¬ CourseHasLesson lib.graph c x := by
    have f := fun a b x => starting_lessons_frame ((cs.flatMap items).flatMap Item.ops) a b x
    by_cases hc : ∃ s, (run ((cs.flatMap items).flatMap Item.ops)).getCourseLessons c = some s
    · have := starting_lessons_exact _ c l hc
      rw [← (f c l l).1] at this
      simp only [← (f c l _).2, ← (f c _ l).1] at this
      rw [hgr]
      exact this
    · constructor
      · intro hs
        have := hwf.startingSub c l hs
        rw [hgr] at this
        have h2 : CourseHasLesson (run ((cs.flatMap items).flatMap Item.ops)) c l :=
          (f c l l).1.1 this
        obtain ⟨s', hs', _⟩ := h2
        exact (hc ⟨s', hs'⟩).elim
      · rintro ⟨h1, _⟩
        rw [hgr] at h1
        obtain ⟨s', hs', _⟩ := (f c l l).1.1 h1
        exact (hc ⟨s', hs'⟩).elim
  rw [hstart, hwf.lesson, hpar.1]
  constructor
  · rintro ⟨⟨m, hm, hc⟩, hx⟩
    refine ⟨m, hm, hc, fun x hxd m' hm' hc' => ?_⟩
    exact hx x ((hrel l x).2 ⟨_, _, _, Or.inr ⟨m, hm, rfl, rfl, rfl⟩, hxd⟩)
      ((hwf.lesson c x).2 ((hpar.1 x c).2 ⟨m', hm', hc'⟩))
  · rintro ⟨m, hm, hc, hx⟩
    refine ⟨⟨m, hm, hc⟩, fun x hd hcl => ?_⟩
    obtain ⟨m', hm', hc'⟩ := (hpar.1 x c).1 ((hwf.lesson c x).1 hcl)
    obtain ⟨ds, es, ss, hl, hxd⟩ := (hrel l x).1 hd
    rcases hl with ⟨m2, h2, _⟩ | ⟨m2, h2, rfl, _⟩
    · exact hdist.1 ⟨by rw [h2]; rfl, by rw [hm]; rfl⟩
    · obtain rfl : m = m2 := Option.some.inj (hm.symm.trans h2)
      exact hx x hxd m' hm' hc'

/-- **C08 for libraries.**  The search starts from exactly these units: courses without dependencies,
and ids without a manifest (or of exercises) that some manifest depends on; a course is left out
if one of its starting lessons has dependencies and all of those are in the library. -/
theorem library_sinks (hg : GeneratesProper d) (h : Loads d ig lib) (u : Str) :
    u ∈ lib.graph.getDependencySinks ↔
      lib.getLessonManifest u = none ∧
      ((∃ m, lib.getCourseManifest u = some m ∧ m.deps = []) ∨
        (lib.getCourseManifest u = none ∧ ∃ v ds es ss, lib.Lists v ds es ss ∧ u ∈ ds)) ∧
      ¬ ∃ l m, CourseStartsWith lib.graph u l ∧ lib.getLessonManifest l = some m ∧ m.deps ≠ [] ∧
        ∀ x ∈ m.deps, (lib.getCourseManifest x).isSome ∨ (lib.getLessonManifest x).isSome ∨
          (lib.getExerciseManifest x).isSome := by
  have hpar := library_parents hg h
  have hrel := fun u v => (library_relations hg h u v 0).1
  have hdist := library_ids_distinct hg h
  have hty := library_types hg h
  have hst := library_starting_lessons hg h
  obtain ⟨cs, s, flag, _, ho, hi, e, _⟩ := loads_inv hg h
  have hrun : lib.graph = run (finalOps (cs.flatMap items) flag) := by rw [e]
  obtain ⟨en, eb, hcore⟩ := final_core (cs.flatMap items) flag
  have hgr : lib.graph = { run ((cs.flatMap items).flatMap Item.ops ++ [.updateStartingLessons])
      with enc := en, encBy := eb } := by rw [hrun]; exact hcore
  have hs := dependency_sinks_exact _ (loader_discipline _ hi.good) u
  have hs' : u ∈ lib.graph.getDependencySinks ↔
      Mentioned lib.graph u ∧ lib.graph.getLessonCourse u = none ∧ (∀ x, ¬ DependsOn lib.graph u x) ∧
      ¬ ∃ l, CourseStartsWith lib.graph u l ∧ (∃ x, DependsOn lib.graph l x) ∧
        ∀ x, DependsOn lib.graph l x → Known lib.graph x := by rw [hgr]; exact hs
  rw [hs']
  have hnone : lib.graph.getLessonCourse u = none ↔ lib.getLessonManifest u = none := by
    constructor
    · intro hn
      cases hm : lib.getLessonManifest u with
      | none => rfl
      | some m => rw [(hpar.1 u m.courseId).2 ⟨m, hm, rfl⟩] at hn; cases hn
    · intro hn
      cases hm : lib.graph.getLessonCourse u with
      | none => rfl
      | some c =>
        obtain ⟨m, h1, _⟩ := (hpar.1 u c).1 hm
        rw [hn] at h1; cases h1
  have hdeps : (∃ s, lib.graph.getDependencies u = some s) ↔
      (lib.getCourseManifest u).isSome ∨ (lib.getLessonManifest u).isSome := by
    have : lib.graph.getDependencies u = s.graph.deps.find u := by
      rw [hrun]; unfold getDependencies; rw [(final_frame _ s flag hi).2.2.2.1]
    rw [this]
    simp only [hi.deps, Option.isSome_iff_exists]
    constructor
    · rintro ⟨l, it, a, b, c, _⟩
      cases it with
      | course m => exact Or.inl ⟨m, by rw [e]; exact (hi.courses u m).2 ⟨a, c⟩⟩
      | lesson m => exact Or.inr ⟨m, by rw [e]; exact (hi.lessons u m).2 ⟨a, c⟩⟩
      | exercise m => exact (b rfl).elim
    · rintro (⟨m, hm⟩ | ⟨m, hm⟩) <;> rw [e] at hm
      · obtain ⟨a, b⟩ := (hi.courses u m).1 hm
        exact ⟨_, _, a, by simp [Item.ty], b, rfl⟩
      · obtain ⟨a, b⟩ := (hi.lessons u m).1 hm
        exact ⟨_, _, a, by simp [Item.ty], b, rfl⟩
  have hdpt : (∃ s, lib.graph.getDependents u = some s) ↔ ∃ v, DependsOn lib.graph v u := by
    constructor
    · rintro ⟨s', hs''⟩
      rw [hrun] at hs''
      obtain ⟨v, hv⟩ := List.exists_mem_of_ne_nil _ (dependents_ne_nil _ u s' hs'')
      refine ⟨v, ?_⟩
      rw [hrun, dependents_inverse_of_dependencies]
      exact ⟨s', hs'', hv⟩
    · rintro ⟨v, hv⟩
      rw [hrun, dependents_inverse_of_dependencies] at hv
      obtain ⟨s', hs'', _⟩ := hv
      exact ⟨s', by rw [hrun]; exact hs''⟩
  have hknown : ∀ x, Known lib.graph x ↔ (lib.getCourseManifest x).isSome ∨
      (lib.getLessonManifest x).isSome ∨ (lib.getExerciseManifest x).isSome := by
    intro x
    obtain ⟨t1, t2, t3⟩ := hty x
    rw [← t1, ← t2, ← t3]
    constructor
    · rintro ⟨t, ht⟩
      cases t
      · exact Or.inr (Or.inr ht)
      · exact Or.inr (Or.inl ht)
      · exact Or.inl ht
    · rintro (ht | ht | ht) <;> exact ⟨_, ht⟩
  have hlesson : ∀ l m x, lib.getLessonManifest l = some m → (DependsOn lib.graph l x ↔ x ∈ m.deps) := by
    intro l m x hm
    rw [hrel]
    constructor
    · rintro ⟨ds, es, ss, hl, hx⟩
      rcases hl with ⟨m2, h2, _⟩ | ⟨m2, h2, rfl, _⟩
      · exact ((hdist l).1 ⟨by rw [h2]; rfl, by rw [hm]; rfl⟩).elim
      · obtain rfl : m = m2 := Option.some.inj (hm.symm.trans h2)
        exact hx
    · intro hx
      exact ⟨_, _, _, Or.inr ⟨m, hm, rfl, rfl, rfl⟩, hx⟩
  have hstart : (∃ l, CourseStartsWith lib.graph u l ∧ (∃ x, DependsOn lib.graph l x) ∧
        ∀ x, DependsOn lib.graph l x → Known lib.graph x) ↔
      ∃ l m, CourseStartsWith lib.graph u l ∧ lib.getLessonManifest l = some m ∧ m.deps ≠ [] ∧
        ∀ x ∈ m.deps, (lib.getCourseManifest x).isSome ∨ (lib.getLessonManifest x).isSome ∨
          (lib.getExerciseManifest x).isSome := by
    constructor
    · rintro ⟨l, h1, ⟨x, hx⟩, h3⟩
      obtain ⟨m, hm, _⟩ := (hst u l).1 h1
      refine ⟨l, m, h1, hm, List.ne_nil_of_mem ((hlesson l m x hm).1 hx), fun x hx => ?_⟩
      exact (hknown x).1 (h3 x ((hlesson l m x hm).2 hx))
    · rintro ⟨l, m, h1, hm, h2, h3⟩
      obtain ⟨x, hx⟩ := List.exists_mem_of_ne_nil _ h2
      exact ⟨l, h1, ⟨x, (hlesson l m x hm).2 hx⟩,
        fun x hx => (hknown x).2 (h3 x ((hlesson l m x hm).1 hx))⟩
  rw [hstart, hnone]
  unfold Mentioned
  rw [hdeps, hdpt]
  constructor
  · rintro ⟨h1, h2, h3, h4⟩
    refine ⟨h2, ?_, h4⟩
    cases hc : lib.getCourseManifest u with
    | some m =>
      refine Or.inl ⟨m, rfl, List.eq_nil_iff_forall_not_mem.2 (fun x hx => h3 x ?_)⟩
      exact (hrel u x).2 ⟨_, _, _, Or.inl ⟨m, hc, rfl, rfl, rfl⟩, hx⟩
    | none =>
      refine Or.inr ⟨rfl, ?_⟩
      rcases h1 with h1 | h1
      · rw [hc, h2] at h1; simp at h1
      · obtain ⟨v, hv⟩ := h1
        exact ⟨v, (hrel v u).1 hv⟩
  · rintro ⟨h2, h1, h4⟩
    refine ⟨?_, h2, ?_, h4⟩
    · rcases h1 with ⟨m, hm, _⟩ | ⟨_, v, hv⟩
      · exact Or.inl (Or.inl (by rw [hm]; rfl))
      · exact Or.inr ⟨v, (hrel v u).2 hv⟩
    · intro x hx
      obtain ⟨ds, es, ss, hl, hxd⟩ := (hrel u x).1 hx
      rcases hl with ⟨m2, h3, rfl, _⟩ | ⟨m2, h3, _⟩
      · rcases h1 with ⟨m, hm, hd⟩ | ⟨hn, _⟩
        · obtain rfl : m = m2 := Option.some.inj (hm.symm.trans h3)
          rw [hd] at hxd; simp at hxd
        · rw [hn] at h3; cases h3
      · rw [h2] at h3; cases h3

/-- What the scheduler sees of a library: `e` answers as `lib` does. -/
structure Sees (lib : Lib α γ) (e : Search.Env Str) : Prop where
  graph : e.graph = lib.graph
  course : ∀ u, e.courseMeta u = (lib.getCourseManifest u).map (fun m => m.metadata.getD [])
  lesson : ∀ u, e.lessonMeta u = (lib.getLessonManifest u).map (fun m => m.metadata.getD [])
  exercise : ∀ u, e.hasExercise u = (lib.getExerciseManifest u).isSome
  dflt : e.dflt = []

/-- The search theorems (C30 to C37) assume a sane environment.  Every loaded library gives one, as
long as the empty id is not blacklisted or superseded and unknown units have no score. -/
theorem library_sane (hg : GeneratesProper d) (h : Loads d ig lib) (e : Search.Env Str)
    (he : Sees lib e) (hb : e.black [] = false) (hs : e.superseded [] = false)
    (hu : ∀ u, lib.graph.getUnitType u = none → e.score u = none ∨ e.score u = some none) :
    Search.Sane e := by
  have hty := library_types hg h
  have hpar := library_parents hg h
  have hman := library_manifests hg h
  have hids : lib.graph.getUnitType [] = none := by
    obtain ⟨cs, s, flag, hoc, ho, hi, rfl, _⟩ := loads_inv hg h
    obtain ⟨_, p1, p2, p3⟩ := opened_proper d ig hg cs hoc
    cases hq : (run (finalOps (cs.flatMap items) flag)).getUnitType [] with
    | none => rfl
    | some t =>
      have hq' : s.graph.types.find [] = some t := by
        rw [← hq, getUnitType, (final_frame _ s flag hi).1]
      obtain ⟨it, a, b, _⟩ := (hi.types _ _).1 hq'
      cases it with
      | course m => exact (p1 m ((mem_items_course cs m).1 a) b).elim
      | lesson m => exact (p2 m ((mem_items_lesson cs m).1 a) b).elim
      | exercise m => exact (p3 m ((mem_items_exercise cs m).1 a) b).elim
  have hwf : WF lib.graph := by
    obtain ⟨cs, s, flag, _, _, _, rfl, _⟩ := loads_inv hg h
    exact wf_run _
  refine ⟨by rw [he.graph]; exact hwf, ?_, ?_, ?_, ?_, ?_, ?_, ?_, ?_⟩
  · intro u
    rw [he.course, Option.isSome_map, ← (hty u).1, Search.IsCourse, he.graph]
  · intro u
    rw [he.lesson, Option.isSome_map, ← (hty u).2.1, Search.IsLesson, he.graph]
  · intro u
    rw [he.exercise, ← (hty u).2.2, he.graph]
  · intro l hl
    rw [Search.IsLesson, he.graph, (hty l).2.1, Option.isSome_iff_exists] at hl
    obtain ⟨m, hm⟩ := hl
    exact ⟨m.courseId, by rw [he.graph]; exact (hpar.1 l _).2 ⟨m, hm, rfl⟩⟩
  · rw [he.graph, he.dflt]; exact hids
  · rw [he.dflt]; exact hb
  · rw [he.dflt]; exact hs
  · intro u hx; rw [he.graph] at hx; exact hu u hx

end Loaded

/-! ### C67: ignored paths -/

/-- **C67.**  When the library root is given as an absolute path, the course manifests left out are
exactly those below an ignored path: the ignored path's components are the first components of the
manifest's path relative to the root. -/
theorem ignored_paths_exact (d : Disk α γ) (ig : List FPath) (hroot : d.root.abs = true)
    (hrel : ∀ i ∈ ig, i.abs = false) (p : Path) :
    IsCourseFile d ig p ↔ IsCourseFile d [] p ∧ ∀ i ∈ ig, ¬ noDots i.comps <+: p := by
  unfold IsCourseFile
  have key : ∀ i ∈ ig, (((entryPath d p).abs = ((d.root.absolute d.cwd).push i).abs ∧
      ((d.root.absolute d.cwd).push i).comps <+: (entryPath d p).comps) ↔ noDots i.comps <+: p) := by
    intro i hi
    simp [entryPath, FPath.absolute, hroot, FPath.push, hrel i hi, List.prefix_append_right_inj]
  simp only [List.not_mem_nil, false_imp_iff, implies_true, and_true]
  constructor
  · rintro ⟨a, b, c, x⟩; exact ⟨⟨a, b, c⟩, fun i hi hc => x i hi ((key i hi).2 hc)⟩
  · rintro ⟨⟨a, b, c⟩, x⟩; exact ⟨a, b, c, fun i hi hc => x i hi ((key i hi).1 hc)⟩

/-- When the root is given as a relative path, ignored paths have no effect at all: nothing is left
out (the code compares the relative path of the manifest with absolute ignored paths). -/
theorem ignored_paths_without_effect (d : Disk α γ) (ig : List FPath) (hroot : d.root.abs = false)
    (p : Path) : IsCourseFile d ig p ↔ IsCourseFile d [] p := by
  unfold IsCourseFile
  simp only [List.not_mem_nil, false_imp_iff, implies_true, and_true]
  constructor
  · rintro ⟨a, b, c, x⟩; exact ⟨a, b, c⟩
  · rintro ⟨a, b, c⟩
    refine ⟨a, b, c, fun i _ hc => ?_⟩
    have h1 := hc.1
    simp only [entryPath, hroot, FPath.push, FPath.absolute] at h1
    split at h1
    · rename_i hi; rw [hi] at h1; cases h1
    · simp at h1

end Trane.Library
