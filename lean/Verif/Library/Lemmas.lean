import Verif.Library.Model
import Verif.Graph.Props

/-!
# Lemmas about `process_results`

The nested loops are flattened into one loop over items (courses, lessons, exercises), and an
invariant ties the state after each item to the items processed so far.
-/

namespace Trane.Library
open Trane.Store Trane.Filters Trane.Graph

variable {α γ : Type}

/-- One unit of a library, with its manifest. -/
inductive Item (α γ : Type)
  | course (m : CourseM α γ)
  | lesson (m : LessonM α)
  | exercise (m : ExerciseM α)

namespace Item
def id : Item α γ → Str
  | course m => m.id | lesson m => m.id | exercise m => m.id
def ty : Item α γ → UnitType
  | course _ => .course | lesson _ => .lesson | exercise _ => .exercise
def deps : Item α γ → List Str
  | course m => m.deps | lesson m => m.deps | exercise _ => []
def enc : Item α γ → List (Str × ℚ)
  | course m => m.enc | lesson m => m.enc | exercise _ => []
def sup : Item α γ → List Str
  | course m => m.sup | lesson m => m.sup | exercise _ => []

/-- The calls that declare the relations of a course or lesson. -/
def tail {ι : Type} (u : ι) (t : UnitType) (ds : List ι) (es : List (ι × ℚ)) (ss : List ι) :
    List (Graph.Op ι) :=
  [.addDependencies u t ds, .addEncompassed u ds es, .addSuperseded u ss]

/-- The graph calls made for an item. -/
def ops : Item α γ → List (Graph.Op Str)
  | course m => .addCourse m.id :: tail m.id .course m.deps m.enc m.sup
  | lesson m => .addLesson m.id m.courseId :: tail m.id .lesson m.deps m.enc m.sup
  | exercise m => [.addExercise m.id m.lessonId]

/-- Its parent was declared before. -/
def Ready (done : List (Item α γ)) : Item α γ → Prop
  | course _ => True
  | lesson m => ∃ c, course c ∈ done ∧ c.id = m.courseId
  | exercise m => ∃ l, lesson l ∈ done ∧ l.id = m.lessonId

/-- Nothing in the item itself makes the loader reject it. -/
def Good (it : Item α γ) : Prop := it.id ∉ it.deps ∧ ∀ e ∈ it.enc, 0 ≤ e.2 ∧ e.2 ≤ 1
end Item

/-- The items of an opened course, in the order the loops visit them. -/
def items (c : Opened α γ) : List (Item α γ) :=
  .course c.manifest :: c.lessons.flatMap (fun l => .lesson l.1 :: l.2.map .exercise)

/-- One iteration for one item. -/
def addItem (s : Lib α γ × Bool) : Item α γ → Option (Lib α γ × Bool)
  | .course m => addCourseM s m
  | .lesson m => addLessonM s m
  | .exercise m => addExerciseM s m

theorem foldlM_flatMap {σ β δ : Type} (f : σ → β → Option σ) (g : δ → List β) (l : List δ) (s : σ) :
    (l.flatMap g).foldlM f s = l.foldlM (fun s x => (g x).foldlM f s) s := by
  induction l generalizing s with
  | nil => rfl
  | cons x l ih =>
    rw [List.flatMap_cons, List.foldlM_append, List.foldlM_cons]
    congr 1
    funext s'
    exact ih s'

theorem foldlM_map {σ β δ : Type} (f : σ → β → Option σ) (g : δ → β) (l : List δ) (s : σ) :
    (l.map g).foldlM f s = l.foldlM (fun s x => f s (g x)) s := by
  induction l generalizing s with
  | nil => rfl
  | cons x l ih =>
    rw [List.map_cons, List.foldlM_cons, List.foldlM_cons]
    congr 1
    funext s'
    exact ih s'

theorem addLessonAll_flat (s : Lib α γ × Bool) (l : LessonM α × List (ExerciseM α)) :
    addLessonAll s l = (Item.lesson l.1 :: l.2.map Item.exercise).foldlM addItem s := by
  rw [List.foldlM_cons, addLessonAll]
  congr 1
  funext s'
  rw [foldlM_map]
  rfl

theorem addCourseAll_flat (s : Lib α γ × Bool) (c : Opened α γ) :
    addCourseAll s c = (items c).foldlM addItem s := by
  rw [items, List.foldlM_cons, addCourseAll]
  congr 1
  funext s'
  rw [foldlM_flatMap]
  congr 1
  funext s x
  exact addLessonAll_flat s x

/-- The nested loops are one loop over the items. -/
theorem loops_flat (cs : List (Opened α γ)) (s : Lib α γ × Bool) :
    cs.foldlM addCourseAll s = (cs.flatMap items).foldlM addItem s := by
  rw [foldlM_flatMap]
  congr 1
  funext s x
  exact addCourseAll_flat s x

/-- Several graph calls, each followed by `?`. -/
def tryOps {ι : Type} [DecidableEq ι] (g : Graph ι) (ops : List (Graph.Op ι)) : Option (Graph ι) :=
  ops.foldlM tryOp g

theorem tryOps_runs {ι : Type} [DecidableEq ι] {g g' : Graph ι} {ops : List (Graph.Op ι)} (h : tryOps g ops = some g') :
    g' = runFrom g ops := by
  induction ops generalizing g with
  | nil => simpa [tryOps, runFrom, eq_comm] using h
  | cons o ops ih =>
    rw [tryOps, List.foldlM_cons, Option.bind_eq_bind, Option.bind_eq_some_iff] at h
    obtain ⟨g1, h1, h2⟩ := h
    have := ih h2
    rw [this]
    unfold tryOp at h1
    split at h1
    · cases h1; rfl
    · cases h1

theorem tryOps_cons {ι : Type} [DecidableEq ι] (g : Graph ι) (o : Graph.Op ι)
    (ops : List (Graph.Op ι)) :
    tryOps g (o :: ops) = (tryOp g o).bind (fun g => tryOps g ops) := rfl

theorem addCourseM_eq (s : Lib α γ × Bool) (m : CourseM α γ) :
    addCourseM s m = (tryOps s.1.graph (Item.ops (.course m : Item α γ))).map (fun g =>
      ({ s.1 with graph := g, courses := s.1.courses.put m.id m },
        if m.enc.isEmpty then s.2 else false)) := by
  simp only [addCourseM, Item.ops, Item.tail, tryOps, List.foldlM_cons, List.foldlM_nil]
  cases tryOp s.1.graph (.addCourse m.id) with
  | none => rfl
  | some g =>
    simp only [Option.bind_eq_bind, Option.bind_some]
    cases tryOp g (.addDependencies m.id .course m.deps) with
    | none => rfl
    | some g =>
      simp only [Option.bind_some]
      cases tryOp g (.addEncompassed m.id m.deps m.enc) with
      | none => rfl
      | some g => rfl

theorem addLessonM_eq (s : Lib α γ × Bool) (m : LessonM α) :
    addLessonM s m = (tryOps s.1.graph (Item.ops (.lesson m : Item α γ))).map (fun g =>
      ({ s.1 with graph := g, lessons := s.1.lessons.put m.id m },
        if m.enc.isEmpty then s.2 else false)) := by
  simp only [addLessonM, Item.ops, Item.tail, tryOps, List.foldlM_cons, List.foldlM_nil]
  cases tryOp s.1.graph (.addLesson m.id m.courseId) with
  | none => rfl
  | some g =>
    simp only [Option.bind_eq_bind, Option.bind_some]
    cases tryOp g (.addDependencies m.id .lesson m.deps) with
    | none => rfl
    | some g =>
      simp only [Option.bind_some]
      cases tryOp g (.addEncompassed m.id m.deps m.enc) with
      | none => rfl
      | some g => rfl

theorem addExerciseM_eq (s : Lib α γ × Bool) (m : ExerciseM α) :
    addExerciseM s m = (tryOps s.1.graph (Item.ops (.exercise m : Item α γ))).map (fun g =>
      ({ s.1 with graph := g, exercises := s.1.exercises.put m.id m }, s.2)) := by
  simp only [addExerciseM, Item.ops, tryOps, List.foldlM_cons, List.foldlM_nil]
  cases tryOp s.1.graph (.addExercise m.id m.lessonId) <;> rfl

/-- The effect of declaring the relations of a unit with a type. -/
theorem tail_effect {ι : Type} [DecidableEq ι] (g : Graph ι) (u : ι) (t : UnitType)
    (ht : t ≠ .exercise) (ds : List ι) (es : List (ι × ℚ)) (ss : List ι) (hu : ∃ t, g.types.find u = some t) :
    ((u ∉ ds ∧ ∀ e ∈ es, 0 ≤ e.2 ∧ e.2 ≤ 1) →
      ∃ g', tryOps g (Item.tail u t ds es ss) = some g' ∧ g'.types = g.types ∧
        g'.lessonCourse = g.lessonCourse ∧ g'.exerciseLesson = g.exerciseLesson ∧
        g'.courseLessons = g.courseLessons ∧ g'.lessonExercises = g.lessonExercises ∧
        g'.deps = g.deps.upd u [] (fun s => extendSet s ds) ∧
        g'.enc = g.enc.upd u [] (fun l => l ++ fullEncompassed ds es) ∧
        g'.sup = if ss.isEmpty then g.sup else g.sup.upd u [] (fun s => extendSet s ss)) ∧
    (¬ (u ∉ ds ∧ ∀ e ∈ es, 0 ≤ e.2 ∧ e.2 ≤ 1) → tryOps g (Item.tail u t ds es ss) = none) := by
  by_cases hv : g.verifyDependencies u t ds = true
  · have hds : u ∉ ds := ((verifyDependencies_iff g u t ds).1 hv).2.1
    rw [Item.tail, tryOps_cons]
    simp only [tryOp, step, addDependencies_ok g u t ds hv, if_true, Option.bind_some]
    rw [tryOps_cons]
    rcases addEncompassed_cases
      { g with
          sinks := (g.updateDependencySinks u ds).sinks
          deps := g.deps.upd u [] (fun s => extendSet s ds)
          dependents := ds.foldl (fun m d => m.upd d [] (fun s => s.insert u)) g.dependents }
      u ds es with ⟨hn, he⟩ | ⟨hn, he⟩
    · refine ⟨fun h => (hn h.2).elim, fun _ => ?_⟩
      simp only [tryOp, step, he, Bool.false_eq_true, if_false, Option.bind_none]
    · refine ⟨fun _ => ?_, fun h => (h ⟨hds, hn⟩).elim⟩
      simp only [tryOp, step, he, if_true, Option.bind_some]
      rw [tryOps_cons]
      simp only [tryOp, step, addSuperseded_eq, if_true, Option.bind_some]
      refine ⟨_, rfl, ?_⟩
      by_cases hs : ss.isEmpty = true
      · simp only [if_pos hs, and_self]
      · simp only [if_neg hs, and_self]
  · have hbad : u ∈ ds := by
      by_contra hc
      exact hv ((verifyDependencies_iff g u t ds).2 ⟨ht, hc, hu⟩)
    refine ⟨fun h => (h.1 hbad).elim, fun _ => ?_⟩
    rw [Item.tail, tryOps_cons]
    simp only [tryOp, step, addDependencies_err g u t ds (by simpa using hv), Bool.false_eq_true,
      if_false, Option.bind_none]

theorem addLesson_new {ι : Type} [DecidableEq ι] (g : Graph ι) (l c : ι)
    (hl : g.types.find l = none) (hc : g.types.find c = some .course) :
    ∃ cl, g.addLesson l c =
      ({ g with
          types := g.types.put l .lesson
          lessonCourse := g.lessonCourse.put l c
          courseLessons := cl }, true) := by
  have hne : l ≠ c := fun e => by rw [e, hc] at hl; cases hl
  have h2 : (g.types.put l .lesson).find c = some .course := by rw [AMap.find_put_ne _ _ hne, hc]
  exact ⟨g.courseLessons.upd c [] (fun s => s.insert l), by
    simp [addLesson, updateUnitType, hl, h2]⟩

theorem addExercise_new {ι : Type} [DecidableEq ι] (g : Graph ι) (e l : ι)
    (he : g.types.find e = none) (hl : g.types.find l = some .lesson) :
    ∃ le, g.addExercise e l =
      ({ g with
          types := g.types.put e .exercise
          lessonExercises := le
          exerciseLesson := g.exerciseLesson.put e l }, true) := by
  have hne : e ≠ l := fun h => by rw [h, hl] at he; cases he
  have h2 : (g.types.put e .exercise).find l = some .lesson := by rw [AMap.find_put_ne _ _ hne, hl]
  exact ⟨g.lessonExercises.upd l [] (fun s => s.insert e), by
    simp [addExercise, updateUnitType, he, h2]⟩

/-- What the state is after some items were added. -/
structure Inv' (done : List (Item α γ)) (s : Lib α γ) (flag : Bool) : Prop where
  graph : s.graph = run (done.flatMap Item.ops)
  flag : flag = true ↔ ∀ it ∈ done, it.enc = []
  nodup : (done.map Item.id).Nodup
  good : ∀ it ∈ done, it.Good
  types : ∀ u t, s.graph.types.find u = some t ↔ ∃ it ∈ done, it.id = u ∧ it.ty = t
  lessonCourse : ∀ l c, s.graph.lessonCourse.find l = some c ↔
    ∃ m, Item.lesson m ∈ done ∧ m.id = l ∧ m.courseId = c
  exerciseLesson : ∀ e l, s.graph.exerciseLesson.find e = some l ↔
    ∃ m, Item.exercise m ∈ done ∧ m.id = e ∧ m.lessonId = l
  deps : ∀ u l, s.graph.deps.find u = some l ↔
    ∃ it ∈ done, it.ty ≠ .exercise ∧ it.id = u ∧ l = extendSet [] it.deps
  enc : ∀ u l, s.graph.enc.find u = some l ↔
    ∃ it ∈ done, it.ty ≠ .exercise ∧ it.id = u ∧ l = fullEncompassed it.deps it.enc
  sup : ∀ u l, s.graph.sup.find u = some l ↔
    ∃ it ∈ done, it.sup ≠ [] ∧ it.id = u ∧ l = extendSet [] it.sup
  courses : ∀ u m, s.courses.find u = some m ↔ Item.course m ∈ done ∧ m.id = u
  lessons : ∀ u m, s.lessons.find u = some m ↔ Item.lesson m ∈ done ∧ m.id = u
  exercises : ∀ u m, s.exercises.find u = some m ↔ Item.exercise m ∈ done ∧ m.id = u
  keysC : s.courses.keys.Nodup
  keysL : s.lessons.keys.Nodup
  keysE : s.exercises.keys.Nodup

theorem inv_empty : Inv' ([] : List (Item α γ)) {} true := by
  constructor <;> simp [run, runFrom, empty, AMap.keys]

theorem find_put_iff {ν β : Type} (m : AMap Str ν) (k : Str) (v : ν) (P : β → Prop) (key : β → Str)
    (val : β → ν) (x : β) (hk : key x = k) (hv : val x = v) (hnew : ∀ y, P y → key y ≠ k)
    (h : ∀ u w, m.find u = some w ↔ ∃ y, P y ∧ key y = u ∧ val y = w) (u : Str) (w : ν) :
    (m.put k v).find u = some w ↔ ∃ y, (P y ∨ y = x) ∧ key y = u ∧ val y = w := by
  rw [AMap.find_put]
  by_cases hu : k = u
  · subst hu
    rw [if_pos rfl]
    constructor
    · intro e
      exact ⟨x, Or.inr rfl, hk, by rw [hv]; exact Option.some.inj e⟩
    · rintro ⟨y, hy | hy, h1, h2⟩
      · exact (hnew y hy h1).elim
      · subst hy; rw [← h2, hv]
  · rw [if_neg hu, h]
    constructor
    · rintro ⟨y, h1, h2⟩; exact ⟨y, Or.inl h1, h2⟩
    · rintro ⟨y, h1 | h1, h2, h3⟩
      · exact ⟨y, h1, h2, h3⟩
      · subst h1; exact (hu (hk.symm.trans h2)).elim

/-- An item is accepted exactly when its id is new and nothing in it is wrong. -/
theorem inv_step (done : List (Item α γ)) (s : Lib α γ) (flag : Bool) (it : Item α γ)
    (h : Inv' done s flag) (hr : it.Ready done) :
    ((it.id ∉ done.map Item.id ∧ it.Good) →
      ∃ s' flag', addItem (s, flag) it = some (s', flag') ∧ Inv' (done ++ [it]) s' flag') ∧
    (¬ (it.id ∉ done.map Item.id ∧ it.Good) → addItem (s, flag) it = none) := by
  have hknown : ∀ u, u ∈ done.map Item.id ↔ ∃ t, s.graph.types.find u = some t := by
    intro u
    simp only [List.mem_map, h.types]
    constructor
    · rintro ⟨it, h1, h2⟩; exact ⟨it.ty, it, h1, h2, rfl⟩
    · rintro ⟨t, it, h1, h2, _⟩; exact ⟨it, h1, h2⟩
  have hnone : ∀ u, u ∉ done.map Item.id → s.graph.types.find u = none := by
    intro u hu
    rw [hknown] at hu
    cases hf : s.graph.types.find u with
    | none => rfl
    | some t => exact (hu ⟨t, hf⟩).elim
  -- facts about fresh ids
  have fresh : it.id ∉ done.map Item.id → ∀ x ∈ done, x.id ≠ it.id := by
    intro hf x hx e
    exact hf (List.mem_map.2 ⟨x, hx, e⟩)
  have runs : ∀ g', tryOps s.graph it.ops = some g' →
      g' = run ((done ++ [it]).flatMap Item.ops) := by
    intro g' hg
    rw [tryOps_runs hg, h.graph, List.flatMap_append, List.flatMap_cons, List.flatMap_nil,
      List.append_nil, run, run, run_append]
  have nod : it.id ∉ done.map Item.id → ((done ++ [it]).map Item.id).Nodup := by
    intro hf
    rw [List.map_append, List.nodup_append]
    refine ⟨h.nodup, by simp, ?_⟩
    intro a ha b hb
    rw [List.map_cons, List.map_nil, List.mem_singleton] at hb
    subst hb
    rintro rfl
    exact hf ha
  have gd : it.Good → ∀ x ∈ done ++ [it], x.Good := by
    intro hg x hx
    rcases List.mem_append.1 hx with hx | hx
    · exact h.good x hx
    · rw [List.mem_singleton] at hx; subst hx; exact hg
  have typesNew : it.id ∉ done.map Item.id → ∀ u t,
      (s.graph.types.put it.id it.ty).find u = some t ↔
        ∃ x ∈ done ++ [it], x.id = u ∧ x.ty = t := by
    intro hf u t
    rw [find_put_iff s.graph.types it.id it.ty (fun x => x ∈ done) Item.id Item.ty it rfl rfl
      (fun y hy => fresh hf y hy) (fun u w => by rw [h.types])]
    simp only [List.mem_append, List.mem_singleton]
  have relNew : ∀ {ν : Type} (m : AMap Str (List ν)) (P : Item α γ → Prop)
      (val : Item α γ → List ν),
      it.id ∉ done.map Item.id → P it →
      (∀ u l, m.find u = some l ↔ ∃ x ∈ done, P x ∧ x.id = u ∧ l = val x) →
      ∀ (f : List ν → List ν), f [] = val it →
      ∀ u l, (m.upd it.id [] f).find u = some l ↔
        ∃ x ∈ done ++ [it], P x ∧ x.id = u ∧ l = val x := by
    intro ν m P val hf hP hm f hfv u l
    have hmn : m.find it.id = none := by
      cases hq : m.find it.id with
      | none => rfl
      | some l =>
        obtain ⟨x, hx, _, hxi, _⟩ := (hm _ _).1 hq
        exact (fresh hf x hx hxi).elim
    rw [AMap.upd, hmn, Option.getD_none, hfv,
      find_put_iff m it.id (val it) (fun x => x ∈ done ∧ P x) Item.id val it rfl rfl
        (fun y hy => fresh hf y hy.1)
        (fun u w => by
          rw [hm]
          exact ⟨fun ⟨x, a, b, c, d⟩ => ⟨x, ⟨a, b⟩, c, d.symm⟩,
            fun ⟨x, ⟨a, b⟩, c, d⟩ => ⟨x, a, b, c, d.symm⟩⟩)]
    simp only [List.mem_append, List.mem_singleton]
    constructor
    · rintro ⟨x, ⟨a, b⟩ | a, c, d⟩
      · exact ⟨x, Or.inl a, b, c, d.symm⟩
      · subst a; exact ⟨x, Or.inr rfl, hP, c, d.symm⟩
    · rintro ⟨x, a | a, b, c, d⟩
      · exact ⟨x, Or.inl ⟨a, b⟩, c, d.symm⟩
      · exact ⟨x, Or.inr a, c, d.symm⟩
  have relOld : ∀ {ν : Type} (m : AMap Str (List ν)) (P : Item α γ → Prop)
      (val : Item α γ → List ν), ¬ P it →
      (∀ u l, m.find u = some l ↔ ∃ x ∈ done, P x ∧ x.id = u ∧ l = val x) →
      ∀ u l, m.find u = some l ↔ ∃ x ∈ done ++ [it], P x ∧ x.id = u ∧ l = val x := by
    intro ν m P val hP hm u l
    rw [hm]
    simp only [List.mem_append, List.mem_singleton]
    constructor
    · rintro ⟨x, a, b⟩; exact ⟨x, Or.inl a, b⟩
    · rintro ⟨x, a | a, b⟩
      · exact ⟨x, a, b⟩
      · subst a; exact (hP b.1).elim
  have supNew : it.id ∉ done.map Item.id → ∀ u l,
      (if it.sup.isEmpty then s.graph.sup
        else s.graph.sup.upd it.id [] (fun s => extendSet s it.sup)).find u = some l ↔
        ∃ x ∈ done ++ [it], x.sup ≠ [] ∧ x.id = u ∧ l = extendSet [] x.sup := by
    intro hf
    by_cases hs : it.sup.isEmpty = true
    · rw [if_pos hs]
      exact relOld _ (fun x => x.sup ≠ []) _ (fun hc => hc (by simpa using hs)) h.sup
    · rw [if_neg hs]
      exact relNew _ (fun x => x.sup ≠ []) (fun x => extendSet [] x.sup) hf
        (by simpa using hs) h.sup _ rfl
  have flagNew : (it.ty = .exercise → it.enc = []) →
      ((if it.enc.isEmpty then flag else false) = true ↔ ∀ x ∈ done ++ [it], x.enc = []) := by
    intro _
    have : (∀ x ∈ done ++ [it], x.enc = []) ↔ (∀ x ∈ done, x.enc = []) ∧ it.enc = [] := by
      constructor
      · intro hx
        exact ⟨fun x hx' => hx x (List.mem_append_left _ hx'), hx it (by simp)⟩
      · rintro ⟨h1, h2⟩ x hx
        rcases List.mem_append.1 hx with hx | hx
        · exact h1 x hx
        · rw [List.mem_singleton] at hx; subst hx; exact h2
    rw [this]
    by_cases he : it.enc = []
    · rw [if_pos (by simp [he]), h.flag]; simp [he]
    · rw [if_neg (by simp [he])]; simp [he]
  cases it with
  | course m =>
    have hadd : addItem (s, flag) (.course m) = _ := addCourseM_eq (s, flag) m
    rw [hadd, Item.ops, tryOps_cons]
    rcases addCourse_cases s.graph m.id with ⟨⟨t, ht⟩, e⟩ | ⟨hn, e⟩
    · refine ⟨fun hc => (hc.1 ((hknown _).2 ⟨t, ht⟩)).elim, fun _ => ?_⟩
      simp only [tryOp, step, e, Bool.false_eq_true, if_false, Option.bind_none, Option.map_none]
    · have hf : m.id ∉ done.map Item.id := by
        rw [hknown]; rintro ⟨t, ht⟩; rw [hn] at ht; cases ht
      have hstep : tryOp s.graph (.addCourse m.id) =
          some { s.graph with types := s.graph.types.put m.id .course } := by
        simp only [tryOp, step, e, if_true]
      rw [hstep, Option.bind_some]
      obtain ⟨t1, t2⟩ := tail_effect { s.graph with types := s.graph.types.put m.id .course } m.id
        .course (by decide) m.deps m.enc m.sup ⟨_, AMap.find_put_self _ _ _⟩
      refine ⟨fun hc => ?_, fun hc => ?_⟩
      · obtain ⟨g', e0, e1, e2, e3, e4, e5, e6, e7, e8⟩ := t1 hc.2
        have hops : tryOps s.graph (Item.ops (.course m : Item α γ)) = some g' := by
          rw [Item.ops, tryOps_cons, hstep, Option.bind_some, e0]
        refine ⟨_, _, by rw [e0]; rfl, ?_⟩
        have hmaps : ∀ u (m' : CourseM α γ), (s.courses.put m.id m).find u = some m' ↔
            Item.course m' ∈ done ++ [.course m] ∧ m'.id = u := by
          intro u m'
          rw [find_put_iff s.courses m.id m (fun y => Item.course y ∈ done) CourseM.id (fun y => y) m
            rfl rfl (fun y hy => fresh hf _ hy) (fun u w => by
              rw [h.courses]
              exact ⟨fun ⟨a, b⟩ => ⟨w, a, b, rfl⟩, fun ⟨y, a, b, c⟩ => by subst c; exact ⟨a, b⟩⟩)]
          simp only [List.mem_append, List.mem_singleton, Item.course.injEq]
          exact ⟨fun ⟨y, a, b, c⟩ => by subst c; exact ⟨a, b⟩, fun ⟨a, b⟩ => ⟨m', a, b, rfl⟩⟩
        exact {
          graph := runs _ hops
          flag := flagNew (fun hc => by cases hc)
          nodup := nod hf
          good := gd hc.2
          types := by simp only [e1]; exact typesNew hf
          lessonCourse := fun l c => by simp only [e2]; rw [h.lessonCourse]; simp
          exerciseLesson := fun l c => by simp only [e3]; rw [h.exerciseLesson]; simp
          deps := by
            simp only [e6]
            exact relNew _ (fun x => x.ty ≠ .exercise) (fun x => extendSet [] x.deps) hf
              (by simp [Item.ty]) h.deps _ rfl
          enc := by
            simp only [e7]
            exact relNew _ (fun x => x.ty ≠ .exercise) (fun x => fullEncompassed x.deps x.enc) hf
              (by simp [Item.ty]) h.enc _ (by simp [Item.deps, Item.enc])
          sup := by simp only [e8]; exact supNew hf
          courses := hmaps
          lessons := fun u m' => by rw [h.lessons]; simp
          exercises := fun u m' => by rw [h.exercises]; simp
          keysC := AMap.nodup_keys_put _ _ _ h.keysC
          keysL := h.keysL
          keysE := h.keysE }
      · rw [t2 (fun hg => hc ⟨hf, hg⟩)]; rfl
  | lesson m =>
    obtain ⟨c0, hc0, hc0i⟩ := hr
    have hadd : addItem (s, flag) (.lesson m) = _ := addLessonM_eq (s, flag) m
    rw [hadd, Item.ops, tryOps_cons]
    have hcty : s.graph.types.find m.courseId = some .course :=
      (h.types _ _).2 ⟨_, hc0, hc0i, rfl⟩
    by_cases hf : m.id ∈ done.map Item.id
    · obtain ⟨t, ht⟩ := (hknown _).1 hf
      refine ⟨fun hc => (hc.1 hf).elim, fun _ => ?_⟩
      have : s.graph.addLesson m.id m.courseId = (s.graph, false) := by
        simp [addLesson, ht]
      simp only [tryOp, step, this, Bool.false_eq_true, if_false, Option.bind_none, Option.map_none]
    · have hn := hnone _ hf
      obtain ⟨cl, e⟩ := addLesson_new s.graph m.id m.courseId hn hcty
      have hstep : tryOp s.graph (.addLesson m.id m.courseId) =
          some { s.graph with
              types := s.graph.types.put m.id .lesson
              lessonCourse := s.graph.lessonCourse.put m.id m.courseId
              courseLessons := cl } := by
        simp only [tryOp, step, e, if_true]
      rw [hstep, Option.bind_some]
      obtain ⟨t1, t2⟩ := tail_effect { s.graph with
              types := s.graph.types.put m.id .lesson
              lessonCourse := s.graph.lessonCourse.put m.id m.courseId
              courseLessons := cl } m.id
        .lesson (by decide) m.deps m.enc m.sup ⟨_, AMap.find_put_self _ _ _⟩
      refine ⟨fun hc => ?_, fun hc => ?_⟩
      · obtain ⟨g', e0, e1, e2, e3, e4, e5, e6, e7, e8⟩ := t1 hc.2
        have hops : tryOps s.graph (Item.ops (.lesson m : Item α γ)) = some g' := by
          rw [Item.ops, tryOps_cons, hstep, Option.bind_some, e0]
        refine ⟨_, _, by rw [e0]; rfl, ?_⟩
        have hmaps : ∀ u (m' : LessonM α), (s.lessons.put m.id m).find u = some m' ↔
            Item.lesson m' ∈ done ++ [.lesson m] ∧ m'.id = u := by
          intro u m'
          rw [find_put_iff s.lessons m.id m (fun y => Item.lesson y ∈ done) LessonM.id (fun y => y) m
            rfl rfl (fun y hy => fresh hf _ hy) (fun u w => by
              rw [h.lessons]
              exact ⟨fun ⟨a, b⟩ => ⟨w, a, b, rfl⟩, fun ⟨y, a, b, c⟩ => by subst c; exact ⟨a, b⟩⟩)]
          simp only [List.mem_append, List.mem_singleton, Item.lesson.injEq]
          exact ⟨fun ⟨y, a, b, c⟩ => by subst c; exact ⟨a, b⟩, fun ⟨a, b⟩ => ⟨m', a, b, rfl⟩⟩
        exact {
          graph := runs _ hops
          flag := flagNew (fun hc => by cases hc)
          nodup := nod hf
          good := gd hc.2
          types := by simp only [e1]; exact typesNew hf
          lessonCourse := fun l c => by
            simp only [e2]
            rw [find_put_iff s.graph.lessonCourse m.id m.courseId (fun y => Item.lesson y ∈ done)
              LessonM.id LessonM.courseId m rfl rfl (fun y hy => fresh hf _ hy)
              (fun u w => by rw [h.lessonCourse])]
            simp only [List.mem_append, List.mem_singleton, Item.lesson.injEq]
          exerciseLesson := fun l c => by simp only [e3]; rw [h.exerciseLesson]; simp
          deps := by
            simp only [e6]
            exact relNew _ (fun x => x.ty ≠ .exercise) (fun x => extendSet [] x.deps) hf
              (by simp [Item.ty]) h.deps _ rfl
          enc := by
            simp only [e7]
            exact relNew _ (fun x => x.ty ≠ .exercise) (fun x => fullEncompassed x.deps x.enc) hf
              (by simp [Item.ty]) h.enc _ (by simp [Item.deps, Item.enc])
          sup := by simp only [e8]; exact supNew hf
          courses := fun u m' => by rw [h.courses]; simp
          lessons := hmaps
          exercises := fun u m' => by rw [h.exercises]; simp
          keysC := h.keysC
          keysL := AMap.nodup_keys_put _ _ _ h.keysL
          keysE := h.keysE }
      · rw [t2 (fun hg => hc ⟨hf, hg⟩)]; rfl
  | exercise m =>
    obtain ⟨l0, hl0, hl0i⟩ := hr
    have hadd : addItem (s, flag) (.exercise m) = _ := addExerciseM_eq (s, flag) m
    have hlty : s.graph.types.find m.lessonId = some .lesson :=
      (h.types _ _).2 ⟨_, hl0, hl0i, rfl⟩
    have hgood : (Item.exercise m : Item α γ).Good := by simp [Item.Good, Item.deps, Item.enc]
    rw [hadd]
    by_cases hf : m.id ∈ done.map Item.id
    · obtain ⟨t, ht⟩ := (hknown _).1 hf
      refine ⟨fun hc => (hc.1 hf).elim, fun _ => ?_⟩
      have : s.graph.addExercise m.id m.lessonId = (s.graph, false) := by
        simp [addExercise, ht]
      rw [Item.ops, tryOps_cons]
      simp only [tryOp, step, this, Bool.false_eq_true, if_false, Option.bind_none, Option.map_none]
    · have hn := hnone _ hf
      obtain ⟨le, e⟩ := addExercise_new s.graph m.id m.lessonId hn hlty
      have hops : tryOps s.graph (Item.ops (.exercise m : Item α γ)) =
          some { s.graph with
              types := s.graph.types.put m.id .exercise
              lessonExercises := le
              exerciseLesson := s.graph.exerciseLesson.put m.id m.lessonId } := by
        rw [Item.ops, tryOps_cons]
        simp only [tryOp, step, e, if_true, Option.bind_some]
        rfl
      refine ⟨fun hc => ?_, fun hc => (hc ⟨hf, hgood⟩).elim⟩
      refine ⟨_, _, by rw [hops]; rfl, ?_⟩
      have hmaps : ∀ u (m' : ExerciseM α), (s.exercises.put m.id m).find u = some m' ↔
          Item.exercise m' ∈ done ++ [.exercise m] ∧ m'.id = u := by
        intro u m'
        rw [find_put_iff s.exercises m.id m (fun y => Item.exercise y ∈ done) ExerciseM.id
          (fun y => y) m
          rfl rfl (fun y hy => fresh hf _ hy) (fun u w => by
            rw [h.exercises]
            exact ⟨fun ⟨a, b⟩ => ⟨w, a, b, rfl⟩, fun ⟨y, a, b, c⟩ => by subst c; exact ⟨a, b⟩⟩)]
        simp only [List.mem_append, List.mem_singleton, Item.exercise.injEq]
        exact ⟨fun ⟨y, a, b, c⟩ => by subst c; exact ⟨a, b⟩, fun ⟨a, b⟩ => ⟨m', a, b, rfl⟩⟩
      exact {
        graph := runs _ hops
        flag := by
          have := flagNew (fun _ => rfl)
          simpa [Item.enc] using this
        nodup := nod hf
        good := gd hc.2
        types := typesNew hf
        lessonCourse := fun l c => by rw [h.lessonCourse]; simp
        exerciseLesson := fun l c => by
          rw [find_put_iff s.graph.exerciseLesson m.id m.lessonId (fun y => Item.exercise y ∈ done)
            ExerciseM.id ExerciseM.lessonId m rfl rfl (fun y hy => fresh hf _ hy)
            (fun u w => by rw [h.exerciseLesson])]
          simp only [List.mem_append, List.mem_singleton, Item.exercise.injEq]
        deps := relOld _ (fun x => x.ty ≠ .exercise) _ (by simp [Item.ty]) h.deps
        enc := relOld _ (fun x => x.ty ≠ .exercise) _ (by simp [Item.ty]) h.enc
        sup := relOld _ (fun x => x.sup ≠ []) _ (by simp [Item.sup]) h.sup
        courses := fun u m' => by rw [h.courses]; simp
        lessons := fun u m' => by rw [h.lessons]; simp
        exercises := hmaps
        keysC := h.keysC
        keysL := h.keysL
        keysE := AMap.nodup_keys_put _ _ _ h.keysE }

/-- Every item's parent comes before it. -/
def Ordered (its : List (Item α γ)) : Prop :=
  ∀ p it s, its = p ++ it :: s → it.Ready p

/-- The loops accept exactly the item lists with distinct ids and nothing wrong in an item. -/
theorem loop_exact (its : List (Item α γ)) (ho : Ordered its) :
    (((its.map Item.id).Nodup ∧ ∀ it ∈ its, it.Good) →
      ∃ s flag, its.foldlM addItem ({}, true) = some (s, flag) ∧ Inv' its s flag) ∧
    (¬ ((its.map Item.id).Nodup ∧ ∀ it ∈ its, it.Good) →
      its.foldlM addItem (({}, true) : Lib α γ × Bool) = none) := by
  induction its using List.reverseRecOn with
  | nil => exact ⟨fun _ => ⟨_, _, rfl, inv_empty⟩, fun h => (h (by simp)).elim⟩
  | append_singleton its it ih =>
    have ho' : Ordered its := by
      intro p x s e
      exact ho p x (s ++ [it]) (by rw [e]; simp)
    have hr : it.Ready its := ho its it [] rfl
    have hiff : (((its ++ [it]).map Item.id).Nodup ∧ ∀ x ∈ its ++ [it], x.Good) ↔
        ((its.map Item.id).Nodup ∧ ∀ x ∈ its, x.Good) ∧ (it.id ∉ its.map Item.id ∧ it.Good) := by
      rw [List.map_append, List.nodup_append]
      simp only [List.map_cons, List.map_nil, List.mem_singleton, List.mem_append]
      constructor
      · rintro ⟨⟨a, b, c⟩, d⟩
        exact ⟨⟨a, fun x hx => d x (Or.inl hx)⟩, fun hm => c _ hm _ rfl rfl, d it (Or.inr rfl)⟩
      · rintro ⟨⟨a, b⟩, c, d⟩
        refine ⟨⟨a, by simp, fun x hx y hy e => c (by rw [← hy, ← e]; exact hx)⟩, ?_⟩
        rintro x (hx | rfl)
        · exact b x hx
        · exact d
    rw [hiff, List.foldlM_append]
    by_cases hp : (its.map Item.id).Nodup ∧ ∀ x ∈ its, x.Good
    · obtain ⟨s, flag, e, hi⟩ := (ih ho').1 hp
      rw [e]
      obtain ⟨s1, s2⟩ := inv_step its s flag it hi hr
      refine ⟨fun hc => ?_, fun hc => ?_⟩
      · obtain ⟨s', flag', e', hi'⟩ := s1 hc.2
        refine ⟨s', flag', ?_, hi'⟩
        simp only [Option.bind_eq_bind, Option.bind_some, List.foldlM_cons, e', List.foldlM_nil]
        rfl
      · have := s2 (fun hx => hc ⟨hp, hx⟩)
        simp only [Option.bind_eq_bind, Option.bind_some, List.foldlM_cons, this, Option.bind_none]
    · refine ⟨fun hc => (hp hc.1).elim, fun _ => ?_⟩
      rw [(ih ho').2 hp]
      rfl

end Trane.Library
