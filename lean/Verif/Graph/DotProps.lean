import Verif.Graph.DotSpec
import Verif.Graph.MapsOk
import Mathlib.Data.List.Count
import Mathlib.Data.List.Lex
import Mathlib.Data.Char

/-!
# The DOT drawing of the unit graph (C75)
-/

namespace Trane.Graph

open Trane.Store (Str)

/-! ### The text determines the lines -/

theorem split_quote {u v r s : Str} (hu : '"' ∉ u) (hv : '"' ∉ v)
    (h : u ++ '"' :: r = v ++ '"' :: s) : u = v ∧ r = s := by
  induction u generalizing v with
  | nil =>
    cases v with
    | nil => exact ⟨rfl, (List.cons.inj h).2⟩
    | cons b v =>
      obtain ⟨e, -⟩ := List.cons.inj h
      exact absurd (e ▸ List.mem_cons_self) hv
  | cons a u ih =>
    cases v with
    | nil =>
      obtain ⟨e, -⟩ := List.cons.inj h
      exact absurd (e ▸ List.mem_cons_self) hu
    | cons b v =>
      obtain ⟨e, h⟩ := List.cons.inj h
      obtain ⟨e', h⟩ := ih (fun m => hu (List.mem_cons_of_mem _ m))
        (fun m => hv (List.mem_cons_of_mem _ m)) h
      exact ⟨by rw [e, e'], h⟩

/-- The id with which a line begins. -/
def DotLine.fst : DotLine → Str
  | .course c => c
  | .lesson l => l
  | .arrow u _ => u

/-- What follows the first id and its closing quote. -/
def DotLine.tail : DotLine → Str
  | .course _ => ' ' :: '[' :: "color=red, style=filled]\n".toList
  | .lesson _ => ' ' :: '[' :: "color=blue, style=filled]\n".toList
  | .arrow _ v => ' ' :: '-' :: '>' :: ' ' :: '"' :: (v ++ '"' :: ['\n'])

theorem DotLine.text_eq (x : DotLine) :
    x.text = ' ' :: ' ' :: ' ' :: ' ' :: '"' :: (x.fst ++ '"' :: x.tail) := by
  cases x <;> rfl

theorem DotLine.tail_inj {x y : DotLine} (hx : x.Plain) (hy : y.Plain) {r s : Str}
    (hf : x.fst = y.fst) (h : x.tail ++ r = y.tail ++ s) : x = y ∧ r = s := by
  cases x with
  | course c =>
    cases y with
    | course c' =>
      cases (show c = c' from hf)
      exact ⟨rfl, List.append_cancel_left h⟩
    | lesson l =>
      have h1 : ("color=red, style=filled]\n".toList ++ r) =
          ("color=blue, style=filled]\n".toList ++ s) := (List.cons.inj (List.cons.inj h).2).2
      have h2 := congrArg (fun l => l[6]?) h1
      exact absurd h2 (by show ¬ (some 'r' = some 'b'); decide)
    | arrow u v => exact absurd (List.cons.inj (List.cons.inj h).2).1 (by decide)
  | lesson l =>
    cases y with
    | course c =>
      have h1 : ("color=blue, style=filled]\n".toList ++ r) =
          ("color=red, style=filled]\n".toList ++ s) := (List.cons.inj (List.cons.inj h).2).2
      have h2 := congrArg (fun l => l[6]?) h1
      exact absurd h2 (by show ¬ (some 'b' = some 'r'); decide)
    | lesson l' =>
      cases (show l = l' from hf)
      exact ⟨rfl, List.append_cancel_left h⟩
    | arrow u v => exact absurd (List.cons.inj (List.cons.inj h).2).1 (by decide)
  | arrow u v =>
    cases y with
    | course c => exact absurd (List.cons.inj (List.cons.inj h).2).1 (by decide)
    | lesson c => exact absurd (List.cons.inj (List.cons.inj h).2).1 (by decide)
    | arrow u' v' =>
      cases (show u = u' from hf)
      have h1 : (v ++ '"' :: ['\n']) ++ r = (v' ++ '"' :: ['\n']) ++ s :=
        (List.cons.inj (List.cons.inj (List.cons.inj (List.cons.inj (List.cons.inj h).2).2).2).2).2
      rw [List.append_assoc, List.append_assoc] at h1
      obtain ⟨e, h2⟩ := split_quote hx.2 hy.2 h1
      exact ⟨by rw [e], (List.cons.inj h2).2⟩

theorem lines_inj (a b : List DotLine) (ha : ∀ x ∈ a, x.Plain) (hb : ∀ x ∈ b, x.Plain)
    (h : a.flatMap DotLine.text ++ "}\n".toList = b.flatMap DotLine.text ++ "}\n".toList) :
    a = b := by
  induction a generalizing b with
  | nil =>
    cases b with
    | nil => rfl
    | cons y b =>
      rw [List.flatMap_cons, DotLine.text_eq] at h
      exact absurd (List.cons.inj h).1 (by decide)
  | cons x a ih =>
    cases b with
    | nil =>
      rw [List.flatMap_cons, DotLine.text_eq] at h
      exact absurd (List.cons.inj h).1 (by decide)
    | cons y b =>
      rw [List.flatMap_cons, List.flatMap_cons, List.append_assoc, List.append_assoc,
        DotLine.text_eq, DotLine.text_eq] at h
      have h1 : (x.fst ++ '"' :: x.tail) ++ (a.flatMap DotLine.text ++ "}\n".toList) =
          (y.fst ++ '"' :: y.tail) ++ (b.flatMap DotLine.text ++ "}\n".toList) :=
        (List.cons.inj (List.cons.inj (List.cons.inj (List.cons.inj (List.cons.inj h).2).2).2).2).2
      rw [List.append_assoc, List.append_assoc] at h1
      have px : '"' ∉ x.fst := by
        have := ha x List.mem_cons_self
        cases x <;> simp_all [DotLine.Plain, DotLine.fst]
      have py : '"' ∉ y.fst := by
        have := hb y List.mem_cons_self
        cases y <;> simp_all [DotLine.Plain, DotLine.fst]
      obtain ⟨e, h2⟩ := split_quote px py h1
      obtain ⟨e', h3⟩ := DotLine.tail_inj (ha x List.mem_cons_self) (hb y List.mem_cons_self) e h2
      rw [e', ih b (fun z hz => ha z (List.mem_cons_of_mem _ hz))
        (fun z hz => hb z (List.mem_cons_of_mem _ hz)) h3]

/-- **C75, reading.** A text shows at most one list of lines whose ids have no double quotes. -/
theorem drawing_readable (text : Str) (a b : List DotLine) (ha : Shows text a) (hb : Shows text b)
    (pa : ∀ x ∈ a, x.Plain) (pb : ∀ x ∈ b, x.Plain) : a = b :=
  lines_inj a b pa pb (List.append_cancel_left (ha.symm.trans hb))

/-! ### The lines that are written -/

/-- The lines of a lesson. -/
def lessonLines (g : Graph Str) (l : Str) : List DotLine :=
  .lesson l :: (dotSort ((g.getDependents l).getD [])).map (DotLine.arrow l)

/-- The lines of a course. -/
def courseLines (g : Graph Str) (b : Bool) (c : Str) : List DotLine :=
  .course c :: ((dotSort (dotDependents g b c)).map (DotLine.arrow c) ++
    (if b then [] else (dotSort ((g.getCourseLessons c).getD [])).flatMap (lessonLines g)))

/-- All the lines. -/
def allLines (g : Graph Str) (b : Bool) : List DotLine :=
  (dotSort g.courseLessons.keys).flatMap (courseLines g b)

theorem edge_text (u : Str) (vs : List Str) :
    (vs.map (DotLine.arrow u)).flatMap DotLine.text = vs.flatMap (dotEdge u) := by
  rw [List.flatMap_map]
  congr 1
  funext v
  rw [DotLine.text_eq]; unfold dotEdge dotQuote DotLine.fst DotLine.tail
  simp only [List.cons_append, List.append_assoc]; rfl

theorem lessonLines_text (g : Graph Str) (l : Str) :
    (lessonLines g l).flatMap DotLine.text = dotLessonPart g l := by
  unfold lessonLines dotLessonPart
  rw [List.flatMap_cons, edge_text]
  have : DotLine.text (.lesson l) = dotLesson l := by
    rw [DotLine.text_eq]; unfold dotLesson dotQuote DotLine.fst DotLine.tail
    simp only [List.cons_append, List.append_assoc]; rfl
  rw [this]

theorem courseLines_text (g : Graph Str) (b : Bool) (c : Str) :
    (courseLines g b c).flatMap DotLine.text = dotCoursePart g b c := by
  unfold courseLines dotCoursePart
  rw [List.flatMap_cons, List.flatMap_append, edge_text]
  have : DotLine.text (.course c) = dotCourse c := by
    rw [DotLine.text_eq]; unfold dotCourse dotQuote DotLine.fst DotLine.tail
    simp only [List.cons_append, List.append_assoc]; rfl
  rw [this]
  cases b with
  | true => rfl
  | false =>
    have : ((dotSort ((g.getCourseLessons c).getD [])).flatMap (lessonLines g)).flatMap
        DotLine.text = (dotSort ((g.getCourseLessons c).getD [])).flatMap (dotLessonPart g) := by
      rw [List.flatMap_assoc]
      congr 1
      funext l; exact lessonLines_text g l
    show _ ++ (_ ++ _) = _ ++ (_ ++ _)
    rw [← this]; rfl

theorem shows_allLines (g : Graph Str) (b : Bool) :
    Shows (generateDotGraph g b) (allLines g b) := by
  unfold Shows generateDotGraph allLines dotHeader dotFooter
  have : ((dotSort g.courseLessons.keys).flatMap (courseLines g b)).flatMap DotLine.text =
      (dotSort g.courseLessons.keys).flatMap (dotCoursePart g b) := by
    rw [List.flatMap_assoc]
    congr 1
    funext c; exact courseLines_text g b c
  rw [this]

/-! ### Counting -/

theorem count_flatMap_only {α β : Type} [BEq α] [LawfulBEq α] [BEq β] [LawfulBEq β]
    (l : List α) (f : α → List β) (a : β) (k : α) (h : ∀ x ∈ l, x ≠ k → a ∉ f x) :
    (l.flatMap f).count a = l.count k * (f k).count a := by
  induction l with
  | nil => simp
  | cons x l ih =>
    rw [List.flatMap_cons, List.count_append, ih (fun y hy => h y (List.mem_cons_of_mem _ hy))]
    by_cases e : x = k
    · subst e; rw [List.count_cons_self, Nat.add_mul, Nat.one_mul, Nat.add_comm]
    · rw [List.count_eq_zero_of_not_mem (h x List.mem_cons_self e), List.count_cons_of_ne e,
        Nat.zero_add]

theorem dotSort_perm (l : List Str) : (dotSort l).Perm l := List.perm_insertionSort _ _

theorem mem_dotSort (l : List Str) (x : Str) : x ∈ dotSort l ↔ x ∈ l := (dotSort_perm l).mem_iff

theorem count_arrows (u : Str) (vs : List Str) (v : Str) :
    ((vs.map (DotLine.arrow u)).count (.arrow u v)) = vs.count v :=
  List.count_map_of_injective _ _ (fun _ _ e => (DotLine.arrow.inj e).2) _

theorem arrows_only (u : Str) (vs : List Str) (x : DotLine) (h : x ∈ vs.map (DotLine.arrow u)) :
    ∃ v, x = .arrow u v := by
  obtain ⟨v, -, e⟩ := List.mem_map.1 h
  exact ⟨v, e.symm⟩

theorem mem_lessonLines {g : Graph Str} {l : Str} {x : DotLine} (h : x ∈ lessonLines g l) :
    x = .lesson l ∨ ∃ v, x = .arrow l v := by
  rcases List.mem_cons.1 h with h | h
  · exact Or.inl h
  · exact Or.inr (arrows_only _ _ _ h)

theorem mem_getD {g : Graph Str} {c l : Str} (h : l ∈ (g.getCourseLessons c).getD []) :
    CourseHasLesson g c l := by
  unfold CourseHasLesson
  cases e : g.getCourseLessons c with
  | none => rw [e] at h; cases h
  | some s => rw [e] at h; exact ⟨s, rfl, h⟩

theorem mem_courseLines {g : Graph Str} {b : Bool} {c : Str} {x : DotLine}
    (h : x ∈ courseLines g b c) :
    x = .course c ∨ (∃ v, x = .arrow c v) ∨
      ∃ l, b = false ∧ CourseHasLesson g c l ∧ (x = .lesson l ∨ ∃ v, x = .arrow l v) := by
  rcases List.mem_cons.1 h with h | h
  · exact Or.inl h
  rcases List.mem_append.1 h with h | h
  · exact Or.inr (Or.inl (arrows_only _ _ _ h))
  · cases b with
    | true => cases h
    | false =>
      obtain ⟨l, hl, hx⟩ := List.mem_flatMap.1 h
      exact Or.inr (Or.inr ⟨l, rfl, mem_getD ((mem_dotSort _ _).1 hl), mem_lessonLines hx⟩)

/-- A course with an entry has a lesson. -/
theorem lessons_ne_nil {ι : Type} [DecidableEq ι] (ops : List (Op ι)) (c : ι) (s : List ι)
    (h : (run ops).courseLessons.find c = some s) : s ≠ [] := by
  revert c s
  refine run_induction (P := fun g => ∀ u s, g.courseLessons.find u = some s → s ≠ [])
    (by simp [empty]) ?_ ops
  intro g o ih
  have key : ∀ g' : Graph ι, g'.courseLessons = g.courseLessons →
      ∀ u s, g'.courseLessons.find u = some s → s ≠ [] := by
    intro g' e; rw [e]; exact ih
  cases o with
  | addCourse c =>
    rcases addCourse_cases g c with ⟨_, e⟩ | ⟨_, e⟩ <;> rw [step, e] <;> exact key _ rfl
  | addLesson l c =>
    rcases addLesson_cases g l c with ⟨_, e⟩ | ⟨_, _, e⟩ | ⟨_, _, _, e⟩ <;> rw [step, e]
    · exact key _ rfl
    · exact key _ rfl
    · intro u s hs
      rw [AMap.find_upd] at hs
      split at hs
      · cases hs; exact List.ne_nil_of_mem (List.mem_insert_self)
      · exact ih u s hs
  | addExercise l c =>
    rcases addExercise_cases g l c with ⟨_, e⟩ | ⟨_, _, e⟩ | ⟨_, _, _, e⟩ <;> rw [step, e] <;>
      exact key _ rfl
  | addDependencies v t ds =>
    rcases step_addDependencies g v t ds with e | ⟨_, e⟩ <;> rw [e] <;> exact key _ rfl
  | addEncompassed v ds es =>
    rcases addEncompassed_cases g v ds es with ⟨_, e⟩ | ⟨_, e⟩ <;> rw [step, e] <;> exact key _ rfl
  | setEncompassingEqualsDependency => exact key _ rfl
  | addSuperseded v ss =>
    simp only [step, addSuperseded_eq]; split <;> exact key _ rfl
  | updateStartingLessons =>
    obtain ⟨s, st, e⟩ := updateStartingLessons_frame g
    rw [step, e]; exact key _ rfl

theorem mem_courses_iff (ops : List (Op Str)) (c : Str) :
    c ∈ (run ops).courseLessons.keys ↔ HasLessons (run ops) c := by
  rw [AMap.mem_keys_iff]
  constructor
  · rintro ⟨s, h⟩
    cases s with
    | nil => exact absurd rfl (lessons_ne_nil ops c [] h)
    | cons l s => exact ⟨l, l :: s, h, List.mem_cons_self⟩
  · rintro ⟨l, s, h, -⟩
    exact ⟨s, h⟩

theorem count_courses (ops : List (Op Str)) (c : Str) (h : HasLessons (run ops) c) :
    (dotSort (run ops).courseLessons.keys).count c = 1 := by
  rw [(dotSort_perm _).count_eq]
  exact List.count_eq_one_of_mem (mapsOk_run ops).courseLessons.1 ((mem_courses_iff ops c).2 h)

theorem count_answer {m : AMap Str (List Str)} (hm : SetMapOk m) (u v : Str) [Decidable
    (∃ s, m.find u = some s ∧ v ∈ s)] :
    ((m.find u).getD []).count v = if ∃ s, m.find u = some s ∧ v ∈ s then 1 else 0 := by
  by_cases h : ∃ s, m.find u = some s ∧ v ∈ s
  · rw [if_pos h]
    obtain ⟨s, e, hv⟩ := h
    rw [e]
    exact List.count_eq_one_of_mem (hm.2 u s e) hv
  · rw [if_neg h]
    apply List.count_eq_zero_of_not_mem
    intro hv
    cases e : m.find u with
    | none => rw [e] at hv; cases hv
    | some s => rw [e] at hv; exact h ⟨s, e, hv⟩

theorem course_not_in_course {ops : List (Op Str)} {u : Str} (h : HasLessons (run ops) u) :
    ¬ InCourse (run ops) u := by
  rintro ⟨c, hc⟩
  obtain ⟨l, hl⟩ := h
  have w := wf_run ops
  have a := (w.tyL _ _ ((w.lesson _ _).1 hl)).2
  have b := (w.tyL _ _ ((w.lesson _ _).1 hc)).1
  rw [a] at b; cases b

open Classical in
/-- **C75, contents.** After any history the drawing has a red node for every course with lessons
and, unless only courses are wanted, a blue node for every lesson of a course, each exactly once.
The arrows of a drawn unit lead to its dependents, to those that are courses if only courses are
wanted; a course also has an arrow to each of its starting lessons, written in addition if the
lesson names the course as a dependency as well.  There are no other lines. -/
theorem drawing_contents (ops : List (Op Str)) (coursesOnly : Bool) :
    ∃ lines, Shows (generateDotGraph (run ops) coursesOnly) lines ∧
      (∀ c, lines.count (.course c) = if HasLessons (run ops) c then 1 else 0) ∧
      (∀ l, lines.count (.lesson l) =
        if coursesOnly = false ∧ InCourse (run ops) l then 1 else 0) ∧
      (∀ u v, lines.count (.arrow u v) =
        (if HasDependent (run ops) u v ∧
            (HasLessons (run ops) u ∧
                (coursesOnly = true → (run ops).getUnitType v = some .course) ∨
              coursesOnly = false ∧ InCourse (run ops) u) then 1 else 0) +
        (if coursesOnly = false ∧ CourseStartsWith (run ops) u v then 1 else 0)) := by
  have w := wf_run ops
  have ok := mapsOk_run ops
  have hl : ∀ {c l}, CourseHasLesson (run ops) c l → HasLessons (run ops) c := fun h => ⟨_, h⟩
  refine ⟨allLines (run ops) coursesOnly, shows_allLines _ _, fun c => ?_, fun l => ?_,
    fun u v => ?_⟩
  · unfold allLines
    rw [count_flatMap_only _ _ _ c]
    · by_cases h : HasLessons (run ops) c
      · rw [if_pos h, count_courses ops c h, Nat.one_mul]
        unfold courseLines
        rw [List.count_cons_self, List.count_eq_zero_of_not_mem]
        intro hm
        rcases List.mem_append.1 hm with hm | hm
        · obtain ⟨v, e⟩ := arrows_only _ _ _ hm; cases e
        · split at hm
          · cases hm
          · obtain ⟨l, _, hx⟩ := List.mem_flatMap.1 hm
            rcases mem_lessonLines hx with e | ⟨v, e⟩ <;> cases e
      · rw [if_neg h, List.count_eq_zero_of_not_mem, Nat.zero_mul]
        rw [mem_dotSort, mem_courses_iff]; exact h
    · intro x _ hx hm
      rcases mem_courseLines hm with e | ⟨v, e⟩ | ⟨l, _, _, e | ⟨v, e⟩⟩ <;> cases e
      exact hx rfl
  · by_cases h : coursesOnly = false ∧ InCourse (run ops) l
    · obtain ⟨hb, c, hc⟩ := h
      rw [if_pos ⟨hb, c, hc⟩]
      subst hb
      unfold allLines
      rw [count_flatMap_only _ _ _ c, count_courses ops c (hl hc), Nat.one_mul]
      · unfold courseLines
        rw [List.count_cons_of_ne (by simp), List.count_append, List.count_eq_zero_of_not_mem
          (fun hm => by obtain ⟨v, e⟩ := arrows_only _ _ _ hm; cases e), Nat.zero_add]
        rw [if_neg (by decide), count_flatMap_only _ _ _ l, (dotSort_perm _).count_eq]
        · have := (count_answer ok.courseLessons c l).trans (if_pos hc)
          rw [show ((run ops).getCourseLessons c).getD [] =
            ((run ops).courseLessons.find c).getD [] from rfl, this, Nat.one_mul]
          unfold lessonLines
          rw [List.count_cons_self, List.count_eq_zero_of_not_mem]
          intro hm; obtain ⟨v, e⟩ := arrows_only _ _ _ hm; cases e
        · intro x _ hx hm
          rcases mem_lessonLines hm with e | ⟨v, e⟩ <;> cases e
          exact hx rfl
      · intro x _ hx hm
        rcases mem_courseLines hm with e | ⟨v, e⟩ | ⟨l', _, hl', e | ⟨v, e⟩⟩ <;> cases e
        have := ((w.lesson _ _).1 hc).symm.trans ((w.lesson _ _).1 hl')
        exact hx (Option.some.inj this).symm
    · rw [if_neg h]
      apply List.count_eq_zero_of_not_mem
      intro hm
      obtain ⟨c, _, hx⟩ := List.mem_flatMap.1 hm
      rcases mem_courseLines hx with e | ⟨v, e⟩ | ⟨l', hb, hl', e | ⟨v, e⟩⟩ <;> cases e
      exact h ⟨hb, c, hl'⟩
  · by_cases h : HasLessons (run ops) u
    · have hni := course_not_in_course h
      unfold allLines
      rw [count_flatMap_only _ _ _ u, count_courses ops u h, Nat.one_mul]
      · unfold courseLines
        rw [List.count_cons_of_ne (by simp), List.count_append, count_arrows,
          (dotSort_perm _).count_eq]
        have h0 : List.count (DotLine.arrow u v) (if coursesOnly = true then []
            else (dotSort (((run ops).getCourseLessons u).getD [])).flatMap
              (lessonLines (run ops))) = 0 := by
          apply List.count_eq_zero_of_not_mem
          intro hm
          split at hm
          · cases hm
          · obtain ⟨l, hl', hx⟩ := List.mem_flatMap.1 hm
            rcases mem_lessonLines hx with e | ⟨v, e⟩ <;> cases e
            exact hni ⟨u, mem_getD ((mem_dotSort _ _).1 hl')⟩
        rw [h0, Nat.add_zero]
        unfold dotDependents
        rw [List.count_append]
        congr 1
        · have hc := count_answer ok.dependents u v
          cases coursesOnly with
          | false =>
            simp only [Bool.false_eq_true, if_false, List.filter_true]
            refine hc.trans ?_
            congr 1
            apply propext
            constructor
            · intro x; exact ⟨x, Or.inl ⟨h, fun e => by cases e⟩⟩
            · intro x; exact x.1
          | true =>
            simp only [if_true]
            by_cases ht : (run ops).getUnitType v = some .course
            · rw [List.count_filter (by simpa using ht)]
              refine hc.trans ?_
              congr 1
              apply propext
              constructor
              · intro x; exact ⟨x, Or.inl ⟨h, fun _ => ht⟩⟩
              · intro x; exact x.1
            · rw [List.count_eq_zero_of_not_mem, if_neg]
              · rintro ⟨_, ⟨_, x⟩ | ⟨x, _⟩⟩
                · exact ht (x trivial)
                · cases x
              · intro hm
                exact ht (by simpa using (List.mem_filter.1 hm).2)
        · cases coursesOnly with
          | true => simp
          | false =>
            simp only [Bool.false_eq_true, if_false, true_and]
            refine (count_answer ok.startingLessons u v).trans ?_
            congr 1
      · intro x _ hx hm
        rcases mem_courseLines hm with e | ⟨v, e⟩ | ⟨l', _, hl', e | ⟨v, e⟩⟩ <;> cases e
        · exact hx rfl
        · exact hni ⟨_, hl'⟩
    · have hns : ¬ CourseStartsWith (run ops) u v := fun x => h (hl (w.startingSub _ _ x))
      have hz : (if coursesOnly = false ∧ CourseStartsWith (run ops) u v then 1 else 0) = 0 :=
        if_neg (fun x => hns x.2)
      rw [hz, Nat.add_zero]
      by_cases hi : coursesOnly = false ∧ InCourse (run ops) u
      · obtain ⟨hb, c, hc⟩ := hi
        have hcu : c ≠ u := fun e => h (e ▸ hl hc)
        subst hb
        unfold allLines
        rw [count_flatMap_only _ _ _ c, count_courses ops c (hl hc), Nat.one_mul]
        · unfold courseLines
          rw [List.count_cons_of_ne (by simp), List.count_append, List.count_eq_zero_of_not_mem
            (fun hm => by obtain ⟨v, e⟩ := arrows_only _ _ _ hm; cases e; exact hcu rfl),
            Nat.zero_add]
          rw [if_neg (by decide), count_flatMap_only _ _ _ u, (dotSort_perm _).count_eq]
          · have := (count_answer ok.courseLessons c u).trans (if_pos hc)
            rw [show ((run ops).getCourseLessons c).getD [] =
              ((run ops).courseLessons.find c).getD [] from rfl, this, Nat.one_mul]
            unfold lessonLines
            rw [List.count_cons_of_ne (by simp), count_arrows, (dotSort_perm _).count_eq]
            refine (count_answer ok.dependents u v).trans ?_
            congr 1
            apply propext
            constructor
            · intro x; exact ⟨x, Or.inr ⟨rfl, c, hc⟩⟩
            · intro x; exact x.1
          · intro x _ hx hm
            rcases mem_lessonLines hm with e | ⟨v, e⟩ <;> cases e
            exact hx rfl
        · intro x _ hx hm
          rcases mem_courseLines hm with e | ⟨v, e⟩ | ⟨l', _, hl', e | ⟨v, e⟩⟩ <;> cases e
          · exact h ((mem_courses_iff ops _).1 ((mem_dotSort _ _).1 (by assumption)))
          · have := ((w.lesson _ _).1 hc).symm.trans ((w.lesson _ _).1 hl')
            exact hx (Option.some.inj this).symm
      · rw [if_neg]
        · apply List.count_eq_zero_of_not_mem
          intro hm
          obtain ⟨c, hc, hx⟩ := List.mem_flatMap.1 hm
          rcases mem_courseLines hx with e | ⟨v, e⟩ | ⟨l', hb, hl', e | ⟨v, e⟩⟩ <;> cases e
          · exact h ((mem_courses_iff ops _).1 ((mem_dotSort _ _).1 hc))
          · exact hi ⟨hb, c, hl'⟩
        · rintro ⟨_, ⟨x, _⟩ | x⟩
          · exact h x
          · exact hi x

/-! ### The order in which the graph was built does not matter -/

theorem answers_perm {m m' : AMap Str (List Str)} (hm : SetMapOk m) (hm' : SetMapOk m') (u : Str)
    (h : ∀ v, (∃ s, m.find u = some s ∧ v ∈ s) ↔ ∃ s, m'.find u = some s ∧ v ∈ s) :
    ((m.find u).getD []).Perm ((m'.find u).getD []) := by
  refine (List.perm_ext_iff_of_nodup (setMapOk_getD m u hm) (setMapOk_getD m' u hm')).2
    (fun v => ?_)
  have key : ∀ m : AMap Str (List Str), v ∈ (m.find u).getD [] ↔
      ∃ s, m.find u = some s ∧ v ∈ s := by
    intro m
    cases e : m.find u with
    | none => simp
    | some s => simp
  rw [key, key]; exact h v

theorem dotSort_congr {a b : List Str} (h : a.Perm b) : dotSort a = dotSort b :=
  List.Perm.eq_of_pairwise (le := (· ≤ ·)) (fun _ _ _ _ => le_antisymm) (List.pairwise_insertionSort _ _)
    (List.pairwise_insertionSort _ _)
    ((List.perm_insertionSort _ _).trans (h.trans (List.perm_insertionSort _ _).symm))

/-- **C75, order.** Two histories after which the same units are lessons, dependents and starting
lessons of the same units, and have the same types, give the same text, character by character. -/
theorem drawing_determined (ops ops' : List (Op Str)) (coursesOnly : Bool)
    (hl : ∀ c l, CourseHasLesson (run ops) c l ↔ CourseHasLesson (run ops') c l)
    (hd : ∀ u v, HasDependent (run ops) u v ↔ HasDependent (run ops') u v)
    (hs : ∀ c l, CourseStartsWith (run ops) c l ↔ CourseStartsWith (run ops') c l)
    (ht : ∀ u, (run ops).getUnitType u = (run ops').getUnitType u) :
    generateDotGraph (run ops) coursesOnly = generateDotGraph (run ops') coursesOnly := by
  have ok := mapsOk_run ops
  have ok' := mapsOk_run ops'
  have pl := fun c => answers_perm ok.courseLessons ok'.courseLessons c (hl c)
  have pd := fun c => answers_perm ok.dependents ok'.dependents c (hd c)
  have ps := fun c => answers_perm ok.startingLessons ok'.startingLessons c (hs c)
  have hk : dotSort (run ops).courseLessons.keys = dotSort (run ops').courseLessons.keys := by
    apply dotSort_congr
    refine (List.perm_ext_iff_of_nodup ok.courseLessons.1 ok'.courseLessons.1).2 (fun c => ?_)
    rw [mem_courses_iff, mem_courses_iff]
    exact exists_congr (fun l => hl c l)
  have hlp : dotLessonPart (run ops) = dotLessonPart (run ops') := by
    funext l
    unfold dotLessonPart
    have := dotSort_congr (pd l)
    unfold getDependents
    rw [this]
  have hdd : ∀ c, dotSort (dotDependents (run ops) coursesOnly c) =
      dotSort (dotDependents (run ops') coursesOnly c) := by
    intro c
    apply dotSort_congr
    unfold dotDependents
    apply List.Perm.append
    · rw [show (fun d => if coursesOnly = true then
          decide ((run ops).getUnitType d = some .course) else true) =
          (fun d => if coursesOnly = true then
          decide ((run ops').getUnitType d = some .course) else true) from by
        funext d; rw [ht d]]
      exact (pd c).filter _
    · split
      · exact List.Perm.refl _
      · exact ps c
  have hcp : dotCoursePart (run ops) coursesOnly = dotCoursePart (run ops') coursesOnly := by
    funext c
    unfold dotCoursePart
    have := dotSort_congr (pl c)
    unfold getCourseLessons
    rw [hdd c, hlp, this]
  unfold generateDotGraph
  rw [hk, hcp]

end Trane.Graph
