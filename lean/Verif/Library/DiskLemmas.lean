import Verif.Library.Spec

/-!
# Lemmas about reading a library
-/

namespace Trane.Library
open Trane.Store Trane.Filters Trane.Graph

variable {α γ : Type}

theorem mapM_forall₂ {β δ : Type} (f : β → Option δ) (l : List β) (ys : List δ) :
    l.mapM f = some ys ↔ List.Forall₂ (fun x y => f x = some y) l ys := by
  induction l generalizing ys with
  | nil => simp [eq_comm]
  | cons x l ih =>
    rw [List.mapM_cons, Option.bind_eq_bind, Option.bind_eq_some_iff]
    constructor
    · rintro ⟨y, hy, h⟩
      rw [Option.bind_eq_bind, Option.bind_eq_some_iff] at h
      obtain ⟨ys', h1, h2⟩ := h
      cases h2
      exact .cons hy ((ih ys').1 h1)
    · intro h
      cases h with
      | cons h1 h2 =>
        refine ⟨_, h1, ?_⟩
        rw [(ih _).2 h2]
        rfl

theorem forall₂_mem_left {β δ : Type} {R : β → δ → Prop} {l : List β} {ys : List δ}
    (h : List.Forall₂ R l ys) {x : β} (hx : x ∈ l) : ∃ y ∈ ys, R x y := by
  induction h with
  | nil => simp at hx
  | cons h1 _ ih =>
    rcases List.mem_cons.1 hx with rfl | hx
    · exact ⟨_, by simp, h1⟩
    · obtain ⟨y, hy, hr⟩ := ih hx
      exact ⟨y, List.mem_cons_of_mem _ hy, hr⟩

theorem forall₂_mem_right {β δ : Type} {R : β → δ → Prop} {l : List β} {ys : List δ}
    (h : List.Forall₂ R l ys) {y : δ} (hy : y ∈ ys) : ∃ x ∈ l, R x y := by
  induction h with
  | nil => simp at hy
  | cons h1 _ ih =>
    rcases List.mem_cons.1 hy with rfl | hy
    · exact ⟨_, by simp, h1⟩
    · obtain ⟨x, hx, hr⟩ := ih hy
      exact ⟨x, List.mem_cons_of_mem _ hx, hr⟩

theorem forall₂_exists {β δ : Type} {R : β → δ → Prop} {l : List β}
    (h : ∀ x ∈ l, ∃ y, R x y) : ∃ ys, List.Forall₂ R l ys := by
  induction l with
  | nil => exact ⟨[], .nil⟩
  | cons x l ih =>
    obtain ⟨y, hy⟩ := h x (by simp)
    obtain ⟨ys, hys⟩ := ih (fun x hx => h x (List.mem_cons_of_mem _ hx))
    exact ⟨y :: ys, .cons hy hys⟩

theorem forall₂_imp {β δ : Type} {R S : β → δ → Prop} {l : List β} {ys : List δ}
    (h : List.Forall₂ R l ys) (hi : ∀ x ∈ l, ∀ y ∈ ys, R x y → S x y) : List.Forall₂ S l ys := by
  induction h with
  | nil => exact .nil
  | cons h1 h2 ih =>
    exact .cons (hi _ (by simp) _ (by simp) h1)
      (ih (fun x hx y hy => hi x (List.mem_cons_of_mem _ hx) y (List.mem_cons_of_mem _ hy)))

theorem forall₂_map_left {β β' δ : Type} {R : β' → δ → Prop} (f : β → β') (l : List β)
    (ys : List δ) : List.Forall₂ R (l.map f) ys ↔ List.Forall₂ (fun x y => R (f x) y) l ys := by
  simp

theorem mem_courseFiles (d : Disk α γ) (ig : List FPath) (p : Path) :
    p ∈ courseFiles d ig ↔ IsCourseFile d ig p := by
  unfold courseFiles IsCourseFile
  simp only [List.mem_filter, Bool.and_eq_true, decide_eq_true_eq, Bool.not_eq_true',
    ignoredPaths, List.any_map, List.any_eq_false, Function.comp_apply, FPath.startsWith,
    List.isPrefixOf_iff_prefix, and_assoc]

theorem mem_filesAt (d : Disk α γ) (dir : Path) (name : Str) (p : Path) :
    p ∈ filesAt d dir name ↔ IsBelow d dir name p := by
  unfold filesAt IsBelow
  simp only [List.mem_filter, Bool.and_eq_true, decide_eq_true_eq]

theorem or_eq {β : Type} (a b : Option β) : a.or b = if a.isSome then a else b := by
  cases a <;> simp

theorem runGenerator_iff (d : Disk α γ) (dir : Path) (m : CourseM α γ) (c gen) :
    runGenerator d dir m = some (c, gen) ↔ CourseIn d dir c gen m := by
  unfold runGenerator CourseIn
  cases hg : m.gen with
  | none =>
    simp only [Option.some.injEq, Prod.mk.injEq, true_and, reduceCtorEq, false_and, exists_false,
      or_false]
    exact ⟨fun ⟨a, b⟩ => ⟨a.symm, b.symm⟩, fun ⟨a, b⟩ => ⟨a.symm, b.symm⟩⟩
  | some cfg =>
    simp only [reduceCtorEq, false_and, false_or, Option.some.injEq, exists_and_left,
      exists_eq_left', Option.bind_eq_bind, Option.bind_eq_some_iff, Prod.mk.injEq, updated, or_eq]
    exact ⟨fun ⟨g, a, b, c⟩ => ⟨g, a, c.symm, by rw [← b, hg]⟩,
      fun ⟨g, a, b, c⟩ => ⟨g, a, by rw [c, hg], b.symm⟩⟩

theorem courseIn_id {d : Disk α γ} {dir : Path} {c m : CourseM α γ} {gen}
    (h : CourseIn d dir c gen m) : c.id = m.id := by
  rcases h with ⟨_, rfl, _⟩ | ⟨_, _, _, _, _, rfl⟩ <;> rfl

theorem verifyExercise_iff (l : LessonM α) (e : ExerciseM α) :
    verifyExercise l e = true ↔ e.id ≠ [] ∧ e.lessonId = l.id ∧ e.courseId = l.courseId := by
  simp [verifyExercise, and_assoc]

theorem verifyLesson_iff (c : CourseM α γ) (l : LessonM α) :
    verifyLesson c l = true ↔ l.id ≠ [] ∧ l.courseId = c.id := by
  simp [verifyLesson]

theorem openExercise_iff (d : Disk α γ) (l : LessonM α) (p : Path) (e : ExerciseM α) :
    openExercise d l p = some e ↔ d.exercise p = some e ∧ verifyExercise l e = true := by
  unfold openExercise
  rw [Option.bind_eq_bind, Option.bind_eq_some_iff]
  constructor
  · rintro ⟨a, h1, h2⟩
    split at h2
    · cases h2; exact ⟨h1, by assumption⟩
    · cases h2
  · rintro ⟨h1, h2⟩
    exact ⟨e, h1, by rw [if_pos h2]⟩

theorem openLesson_iff (d : Disk α γ) (c : CourseM α γ) (p : Path)
    (x : LessonM α × List (ExerciseM α)) :
    openLesson d c p = some x ↔ d.lesson p = some x.1 ∧ verifyLesson c x.1 = true ∧
      List.Forall₂ (fun r e => d.exercise r = some e ∧ verifyExercise x.1 e = true)
        (filesAt d p.dropLast exerciseFile) x.2 := by
  unfold openLesson processLesson
  rw [Option.bind_eq_bind, Option.bind_eq_some_iff]
  obtain ⟨l, es⟩ := x
  constructor
  · rintro ⟨a, h1, h2⟩
    split at h2
    · rename_i hv
      rw [Option.bind_eq_bind, Option.bind_eq_some_iff] at h2
      obtain ⟨es', h3, h4⟩ := h2
      cases h4
      refine ⟨h1, hv, ?_⟩
      simpa only [openExercise_iff] using (mapM_forall₂ _ _ _).1 h3
    · cases h2
  · rintro ⟨h1, h2, h3⟩
    refine ⟨l, h1, ?_⟩
    rw [if_pos h2, Option.bind_eq_bind, Option.bind_eq_some_iff]
    exact ⟨es, (mapM_forall₂ _ _ _).2 (by simpa only [openExercise_iff] using h3), rfl⟩

theorem processCourse_iff (d : Disk α γ) (dir : Path) (m : CourseM α γ) (c : Opened α γ) :
    processCourse d dir m = some c ↔ m.id ≠ [] ∧ ∃ gen found, CourseIn d dir c.manifest gen m ∧
      c.lessons = gen ++ found ∧
      List.Forall₂ (fun q l => d.lesson q = some l.1 ∧ verifyLesson c.manifest l.1 = true ∧
        List.Forall₂ (fun r e => d.exercise r = some e ∧ verifyExercise l.1 e = true)
          (filesAt d q.dropLast exerciseFile) l.2) (filesAt d dir lessonFile) found := by
  unfold processCourse
  have hv : verifyCourse m = true ↔ m.id ≠ [] := by simp [verifyCourse]
  obtain ⟨cm, cl⟩ := c
  by_cases h : verifyCourse m = true
  · rw [if_pos h]
    simp only [hv.1 h, ne_eq, not_false_eq_true, true_and]
    rw [Option.bind_eq_bind, Option.bind_eq_some_iff]
    constructor
    · rintro ⟨⟨c', gen⟩, h1, h2⟩
      simp only at h2
      rw [Option.bind_eq_bind, Option.bind_eq_some_iff] at h2
      obtain ⟨found, h3, h4⟩ := h2
      cases h4
      refine ⟨gen, found, (runGenerator_iff ..).1 h1, rfl, ?_⟩
      simpa only [openLesson_iff] using (mapM_forall₂ _ _ _).1 h3
    · rintro ⟨gen, found, h1, h2, h3⟩
      refine ⟨(cm, gen), (runGenerator_iff ..).2 h1, ?_⟩
      rw [Option.bind_eq_bind, Option.bind_eq_some_iff]
      exact ⟨found, (mapM_forall₂ _ _ _).2 (by simpa only [openLesson_iff] using h3), by rw [h2]⟩
  · rw [if_neg h]
    have : m.id = [] := by
      by_contra hc; exact h (hv.2 hc)
    simp [this]

theorem openCourses_iff (d : Disk α γ) (ig : List FPath) (cs : List (Opened α γ)) :
    openCourses d ig = some cs ↔ List.Forall₂ (fun p c => ∃ m, d.course p = some m ∧
      processCourse d p.dropLast m = some c) (courseFiles d ig) cs := by
  unfold openCourses
  rw [Option.bind_eq_bind, Option.bind_eq_some_iff]
  constructor
  · rintro ⟨ms, h1, h2⟩
    rw [mapM_forall₂] at h1 h2
    generalize courseFiles d ig = ps at h1 ⊢
    induction h1 generalizing cs with
    | nil => cases h2; exact .nil
    | cons a _ ih =>
      cases h2 with
      | cons b1 b2 =>
        refine .cons ?_ (ih _ b2)
        rw [Option.map_eq_some_iff] at a
        obtain ⟨m, a1, rfl⟩ := a
        exact ⟨m, a1, b1⟩
  · intro h
    generalize courseFiles d ig = ps at h ⊢
    induction h with
    | nil => exact ⟨[], rfl, rfl⟩
    | @cons p _ _ _ a _ ih =>
      obtain ⟨m, a1, a2⟩ := a
      obtain ⟨ms, h1, h2⟩ := ih
      refine ⟨(p.dropLast, m) :: ms, ?_, ?_⟩
      · rw [List.mapM_cons, a1, h1]; rfl
      · rw [List.mapM_cons, a2, h2]; rfl

/-- Reading succeeds exactly when every manifest is readable and right, and gives what the disk
holds. -/
theorem openCourses_exact (d : Disk α γ) (ig : List FPath) (cs : List (Opened α γ)) :
    openCourses d ig = some cs ↔ Readable d ig ∧ IsOpened d ig cs := by
  rw [openCourses_iff]
  constructor
  · intro h
    refine ⟨?_, forall₂_imp h ?_⟩
    · have key : ∀ p, IsCourseFile d ig p → ∃ c m, d.course p = some m ∧
          processCourse d p.dropLast m = some c := by
        intro p hp
        obtain ⟨c, _, m, h1, h2⟩ := forall₂_mem_left h ((mem_courseFiles d ig p).2 hp)
        exact ⟨c, m, h1, h2⟩
      refine ⟨?_, ?_, ?_, ?_⟩
      · intro p hp
        obtain ⟨c, m, h1, h2⟩ := key p hp
        exact ⟨m, h1, ((processCourse_iff ..).1 h2).1⟩
      · intro p m cfg hp hm hg
        obtain ⟨c, m', h1, h2⟩ := key p hp
        obtain rfl : m = m' := Option.some.inj (hm.symm.trans h1)
        obtain ⟨_, gen, found, hin, _⟩ := (processCourse_iff ..).1 h2
        rcases hin with ⟨hn, _⟩ | ⟨cfg', g, e1, e2, _⟩
        · rw [hg] at hn; cases hn
        · obtain rfl : cfg = cfg' := Option.some.inj (hg.symm.trans e1)
          exact ⟨g, e2⟩
      · intro p m q hp hm hq
        obtain ⟨c, m', h1, h2⟩ := key p hp
        obtain rfl : m = m' := Option.some.inj (hm.symm.trans h1)
        obtain ⟨_, gen, found, hin, _, hf⟩ := (processCourse_iff ..).1 h2
        obtain ⟨l, _, e1, e2, _⟩ := forall₂_mem_left hf ((mem_filesAt ..).2 hq)
        obtain ⟨e3, e4⟩ := (verifyLesson_iff ..).1 e2
        exact ⟨l.1, e1, e3, by rw [e4, courseIn_id hin]⟩
      · intro p m q l r hp hm hq hl hr
        obtain ⟨c, m', h1, h2⟩ := key p hp
        obtain rfl : m = m' := Option.some.inj (hm.symm.trans h1)
        obtain ⟨_, gen, found, hin, _, hf⟩ := (processCourse_iff ..).1 h2
        obtain ⟨x, _, e1, e2, e3⟩ := forall₂_mem_left hf ((mem_filesAt ..).2 hq)
        obtain rfl : l = x.1 := Option.some.inj (hl.symm.trans e1)
        obtain ⟨e, _, e4, e5⟩ := forall₂_mem_left e3 ((mem_filesAt ..).2 hr)
        exact ⟨e, e4, (verifyExercise_iff ..).1 e5⟩
    · rintro p hp c hc ⟨m, h1, h2⟩
      obtain ⟨_, gen, found, hin, hl, hf⟩ := (processCourse_iff ..).1 h2
      refine ⟨m, gen, found, h1, hin, hl, forall₂_imp hf ?_⟩
      rintro q hq l hl' ⟨a, b, c⟩
      exact ⟨a, forall₂_imp c (fun _ _ _ _ x => x.1)⟩
  · rintro ⟨hr, ho⟩
    refine forall₂_imp ho ?_
    rintro p hp c hc ⟨m, gen, found, h1, hin, hl, hf⟩
    have hp' := (mem_courseFiles d ig p).1 hp
    refine ⟨m, h1, (processCourse_iff ..).2 ?_⟩
    obtain ⟨m', h1', hne⟩ := hr.course p hp'
    obtain rfl : m = m' := Option.some.inj (h1.symm.trans h1')
    refine ⟨hne, gen, found, hin, hl, forall₂_imp hf ?_⟩
    rintro q hq l hl' ⟨a, b⟩
    have hq' := (mem_filesAt ..).1 hq
    obtain ⟨l', e1, e2, e3⟩ := hr.lesson p m q hp' h1 hq'
    obtain rfl : l.1 = l' := Option.some.inj (a.symm.trans e1)
    refine ⟨a, (verifyLesson_iff ..).2 ⟨e2, by rw [courseIn_id hin]; exact e3⟩, forall₂_imp b ?_⟩
    intro r hr' e he h
    obtain ⟨e', f1, f2⟩ := hr.exercise p m q l.1 r hp' h1 hq' a ((mem_filesAt ..).1 hr')
    obtain rfl : e = e' := Option.some.inj (h.symm.trans f1)
    exact ⟨h, (verifyExercise_iff ..).2 f2⟩

/-- A readable library has opened courses. -/
theorem isOpened_exists (d : Disk α γ) (ig : List FPath) (hr : Readable d ig) :
    ∃ cs, IsOpened d ig cs := by
  refine forall₂_exists ?_
  intro p hp
  have hp' := (mem_courseFiles d ig p).1 hp
  obtain ⟨m, hm, _⟩ := hr.course p hp'
  obtain ⟨found, hf⟩ : ∃ found : List (LessonM α × List (ExerciseM α)),
      List.Forall₂ (fun q l => d.lesson q = some l.1 ∧
          List.Forall₂ (fun r e => d.exercise r = some e) (filesAt d q.dropLast exerciseFile) l.2)
        (filesAt d p.dropLast lessonFile) found := by
    refine forall₂_exists ?_
    intro q hq
    have hq' := (mem_filesAt ..).1 hq
    obtain ⟨l, hl, _⟩ := hr.lesson p m q hp' hm hq'
    obtain ⟨es, hes⟩ : ∃ es, List.Forall₂ (fun r e => d.exercise r = some e)
        (filesAt d q.dropLast exerciseFile) es := by
      refine forall₂_exists ?_
      intro r hr'
      obtain ⟨e, he, _⟩ := hr.exercise p m q l r hp' hm hq' hl ((mem_filesAt ..).1 hr')
      exact ⟨e, he⟩
    exact ⟨(l, es), hl, hes⟩
  cases hg : m.gen with
  | none => exact ⟨⟨m, [] ++ found⟩, m, [], found, hm, Or.inl ⟨hg, rfl, rfl⟩, rfl, hf⟩
  | some cfg =>
    obtain ⟨g, hgen⟩ := hr.generates p m cfg hp' hm hg
    exact ⟨⟨_, g.lessons ++ found⟩, m, g.lessons, found, hm,
      Or.inr ⟨cfg, g, hg, hgen, rfl, rfl⟩, rfl, hf⟩

/-- What the opened courses contain. -/
theorem opened_contents (d : Disk α γ) (ig : List FPath) (cs : List (Opened α γ))
    (ho : IsOpened d ig cs) :
    (∀ m, HasCourse cs m ↔ ∃ dir gen, DiskCourse d ig dir m gen) ∧
    (∀ l, HasLesson cs l ↔ DiskLesson d ig l) ∧
    (∀ e, HasExercise cs e ↔ DiskExercise d ig e) := by
  have left : ∀ {dir c gen}, DiskCourse d ig dir c gen → ∃ o ∈ cs, o.manifest = c ∧ ∃ found,
      o.lessons = gen ++ found ∧ List.Forall₂ (fun q l => d.lesson q = some l.1 ∧
          List.Forall₂ (fun r e => d.exercise r = some e) (filesAt d q.dropLast exerciseFile) l.2)
        (filesAt d dir lessonFile) found := by
    rintro dir c gen ⟨p, m, hp, rfl, hm, hin⟩
    obtain ⟨o, hoc, m', gen', found, h1, h2, h3, h4⟩ :=
      forall₂_mem_left ho ((mem_courseFiles d ig p).2 hp)
    obtain rfl : m = m' := Option.some.inj (hm.symm.trans h1)
    have e := (runGenerator_iff ..).2 hin
    rw [(runGenerator_iff ..).2 h2] at e
    simp only [Option.some.injEq, Prod.mk.injEq] at e
    obtain ⟨e1, rfl⟩ := e
    exact ⟨o, hoc, e1, found, h3, h4⟩
  have right : ∀ o ∈ cs, ∃ dir gen found, DiskCourse d ig dir o.manifest gen ∧
      o.lessons = gen ++ found ∧ List.Forall₂ (fun q l => d.lesson q = some l.1 ∧
          List.Forall₂ (fun r e => d.exercise r = some e) (filesAt d q.dropLast exerciseFile) l.2)
        (filesAt d dir lessonFile) found := by
    intro o hoc
    obtain ⟨p, hp, m, gen, found, h1, h2, h3, h4⟩ := forall₂_mem_right ho hoc
    exact ⟨p.dropLast, gen, found, ⟨p, m, (mem_courseFiles d ig p).1 hp, rfl, h1, h2⟩, h3, h4⟩
  refine ⟨fun m => ⟨?_, ?_⟩, fun l => ⟨?_, ?_⟩, fun e => ⟨?_, ?_⟩⟩
  · rintro ⟨o, hoc, rfl⟩
    obtain ⟨dir, gen, _, h, _⟩ := right o hoc
    exact ⟨dir, gen, h⟩
  · rintro ⟨dir, gen, h⟩
    obtain ⟨o, hoc, e, _⟩ := left h
    exact ⟨o, hoc, e⟩
  · rintro ⟨o, hoc, x, hx, rfl⟩
    obtain ⟨dir, gen, found, h, hl, hf⟩ := right o hoc
    rw [hl, List.mem_append] at hx
    refine ⟨dir, o.manifest, gen, h, ?_⟩
    rcases hx with hx | hx
    · exact Or.inl ⟨x.2, hx⟩
    · obtain ⟨q, hq, e1, _⟩ := forall₂_mem_right hf hx
      exact Or.inr ⟨q, (mem_filesAt ..).1 hq, e1⟩
  · rintro ⟨dir, c, gen, h, hcase⟩
    obtain ⟨o, hoc, _, found, hl, hf⟩ := left h
    rcases hcase with ⟨es, hm⟩ | ⟨q, hq, e⟩
    · exact ⟨o, hoc, (l, es), by rw [hl]; exact List.mem_append_left _ hm, rfl⟩
    · obtain ⟨x, hx, e1, _⟩ := forall₂_mem_left hf ((mem_filesAt ..).2 hq)
      exact ⟨o, hoc, x, by rw [hl]; exact List.mem_append_right _ hx,
        (Option.some.inj (e.symm.trans e1)).symm⟩
  · rintro ⟨o, hoc, x, hx, hex⟩
    obtain ⟨dir, gen, found, h, hl, hf⟩ := right o hoc
    rw [hl, List.mem_append] at hx
    refine ⟨dir, o.manifest, gen, h, ?_⟩
    rcases hx with hx | hx
    · exact Or.inl ⟨x.1, x.2, hx, hex⟩
    · obtain ⟨q, hq, e1, e2⟩ := forall₂_mem_right hf hx
      obtain ⟨r, hr, e3⟩ := forall₂_mem_right e2 hex
      exact Or.inr ⟨q, r, (mem_filesAt ..).1 hq, (mem_filesAt ..).1 hr, e3⟩
  · rintro ⟨dir, c, gen, h, hcase⟩
    obtain ⟨o, hoc, _, found, hl, hf⟩ := left h
    rcases hcase with ⟨l, es, hm, he⟩ | ⟨q, r, hq, hr, he⟩
    · exact ⟨o, hoc, (l, es), by rw [hl]; exact List.mem_append_left _ hm, he⟩
    · obtain ⟨x, hx, e1, e2⟩ := forall₂_mem_left hf ((mem_filesAt ..).2 hq)
      obtain ⟨e', he', e3⟩ := forall₂_mem_left e2 ((mem_filesAt ..).2 hr)
      obtain rfl : e = e' := Option.some.inj (he.symm.trans e3)
      exact ⟨o, hoc, x, by rw [hl]; exact List.mem_append_right _ hx, he'⟩

/-- Opened courses are proper, and no id is empty. -/
theorem opened_proper (d : Disk α γ) (ig : List FPath) (hg : GeneratesProper d)
    (cs : List (Opened α γ)) (h : openCourses d ig = some cs) :
    Proper cs ∧ (∀ m, HasCourse cs m → m.id ≠ []) ∧ (∀ m, HasLesson cs m → m.id ≠ []) ∧
      ∀ m, HasExercise cs m → m.id ≠ [] := by
  rw [openCourses_iff] at h
  have key : ∀ c ∈ cs, c.manifest.id ≠ [] ∧ ∀ l ∈ c.lessons,
      (l.1.courseId = c.manifest.id ∧ l.1.id ≠ []) ∧
      ∀ e ∈ l.2, e.lessonId = l.1.id ∧ e.courseId = c.manifest.id ∧ e.id ≠ [] := by
    intro c hc
    obtain ⟨p, hp, m, h1, h2⟩ := forall₂_mem_right h hc
    obtain ⟨hne, gen, found, hin, hl, hf⟩ := (processCourse_iff ..).1 h2
    have hid := courseIn_id hin
    refine ⟨by rw [hid]; exact hne, fun l hlm => ?_⟩
    rw [hl, List.mem_append] at hlm
    rcases hlm with hlm | hlm
    · rcases hin with ⟨_, _, rfl⟩ | ⟨cfg, g, _, e2, rfl, _⟩
      · simp at hlm
      · obtain ⟨a, b, c'⟩ := hg cfg _ m g e2 l hlm
        rw [hid]
        exact ⟨⟨a, b⟩, c'⟩
    · obtain ⟨q, _, a, b, c'⟩ := forall₂_mem_right hf hlm
      obtain ⟨b1, b2⟩ := (verifyLesson_iff ..).1 b
      refine ⟨⟨b2, b1⟩, fun e he => ?_⟩
      obtain ⟨r, _, f1, f2⟩ := forall₂_mem_right c' he
      obtain ⟨g1, g2, g3⟩ := (verifyExercise_iff ..).1 f2
      exact ⟨g2, by rw [g3, b2], g1⟩
  refine ⟨fun c hc l hl => ?_, ?_, ?_, ?_⟩
  · obtain ⟨a, b⟩ := (key c hc).2 l hl
    exact ⟨a.1, fun e he => ⟨(b e he).1, (b e he).2.1⟩⟩
  · rintro m ⟨c, hc, rfl⟩; exact (key c hc).1
  · rintro m ⟨c, hc, l, hl, rfl⟩; exact ((key c hc).2 l hl).1.2
  · rintro m ⟨c, hc, l, hl, he⟩; exact (((key c hc).2 l hl).2 m he).2.2

end Trane.Library
