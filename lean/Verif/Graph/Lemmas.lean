import Verif.Graph.Model

/-! Helper lemmas about the graph model (field frames of the folds, relation updates). -/

namespace Trane

/-- `k` is related to `a` by a map of sets. -/
def Rel {ι α : Type} [DecidableEq ι] (m : AMap ι (List α)) (k : ι) (a : α) : Prop :=
  ∃ l, m.find k = some l ∧ a ∈ l

section Rel
variable {ι α : Type} [DecidableEq ι]

theorem rel_iff_getD (m : AMap ι (List α)) (k : ι) (a : α) :
    Rel m k a ↔ a ∈ (m.find k).getD [] := by
  unfold Rel; cases m.find k <;> simp

theorem not_rel_nil (k : ι) (a : α) : ¬ Rel ([] : AMap ι (List α)) k a := by simp [Rel]

theorem rel_upd (m : AMap ι (List α)) (k : ι) (f : List α → List α) (k' : ι) (a : α) :
    Rel (m.upd k [] f) k' a ↔
      if k = k' then a ∈ f ((m.find k).getD []) else Rel m k' a := by
  unfold Rel
  rw [AMap.find_upd]
  by_cases h : k = k' <;> simp [h]

theorem rel_upd_insert [DecidableEq α] (m : AMap ι (List α)) (k : ι) (x : α) (k' : ι) (a : α) :
    Rel (m.upd k [] (fun s => s.insert x)) k' a ↔ Rel m k' a ∨ (k' = k ∧ a = x) := by
  rw [rel_upd]
  by_cases h : k = k'
  · subst h; simp [rel_iff_getD, or_comm]
  · simp [h, Ne.symm h]

theorem rel_upd_extend [DecidableEq α] (m : AMap ι (List α)) (k : ι) (xs : List α) (k' : ι) (a : α) :
    Rel (m.upd k [] (fun s => extendSet s xs)) k' a ↔ Rel m k' a ∨ (k' = k ∧ a ∈ xs) := by
  rw [rel_upd]
  by_cases h : k = k'
  · subst h; simp [rel_iff_getD]
  · simp [h, Ne.symm h]

theorem rel_fold_insert [DecidableEq α] (m : AMap ι (List α)) (ks : List ι) (x : α) (k' : ι) (a : α) :
    Rel (ks.foldl (fun m k => m.upd k [] (fun s => s.insert x)) m) k' a ↔
      Rel m k' a ∨ (k' ∈ ks ∧ a = x) := by
  induction ks generalizing m with
  | nil => simp
  | cons k ks ih =>
    rw [List.foldl_cons, ih, rel_upd_insert]
    simp only [List.mem_cons]
    constructor
    · rintro ((h | ⟨h, h'⟩) | ⟨h, h'⟩)
      · exact Or.inl h
      · exact Or.inr ⟨Or.inl h, h'⟩
      · exact Or.inr ⟨Or.inr h, h'⟩
    · rintro (h | ⟨h | h, h'⟩)
      · exact Or.inl (Or.inl h)
      · exact Or.inl (Or.inr ⟨h, h'⟩)
      · exact Or.inr ⟨h, h'⟩

theorem keys_fold_upd {ν β : Type} (m : AMap ι ν) (ks : List β) (key : β → ι) (d : ν) (f : β → ν → ν)
    (k' : ι) :
    (∃ v, (ks.foldl (fun m k => m.upd (key k) d (f k)) m).find k' = some v) ↔
      (∃ v, m.find k' = some v) ∨ k' ∈ ks.map key := by
  induction ks generalizing m with
  | nil => simp
  | cons k ks ih =>
    rw [List.foldl_cons, ih, List.map_cons, List.mem_cons, AMap.find_upd]
    by_cases h : key k = k'
    · simp [h]
    · simp [h, Ne.symm h]

end Rel

/-- `List.insert` keeps lists duplicate free. -/
theorem nodup_insert' {α : Type} [DecidableEq α] {l : List α} (a : α) (h : l.Nodup) :
    (l.insert a).Nodup := by
  rw [List.insert]
  split
  · exact h
  · exact List.nodup_cons.2 ⟨by simp_all, h⟩

namespace Graph
variable {ι : Type} [DecidableEq ι]

theorem foldl_dependents (g : Graph ι) (u : ι) (ds : List ι) :
    ds.foldl (fun g d => { g with dependents := g.dependents.upd d [] (fun s => s.insert u) }) g
      = { g with dependents :=
            ds.foldl (fun m d => m.upd d [] (fun s => s.insert u)) g.dependents } := by
  induction ds generalizing g with
  | nil => rfl
  | cons d ds ih => rw [List.foldl_cons, ih]; rfl

theorem foldl_supBy (g : Graph ι) (u : ι) (ds : List ι) :
    ds.foldl (fun g d => { g with supBy := g.supBy.upd d [] (fun s => s.insert u) }) g
      = { g with supBy :=
            ds.foldl (fun m d => m.upd d [] (fun s => s.insert u)) g.supBy } := by
  induction ds generalizing g with
  | nil => rfl
  | cons d ds ih => rw [List.foldl_cons, ih]; rfl

theorem foldl_encBy (g : Graph ι) (u : ι) (es : List (ι × ℚ)) :
    es.foldl (fun g e => { g with encBy := g.encBy.upd e.1 [] (fun l => l ++ [(u, e.2)]) }) g
      = { g with encBy :=
            es.foldl (fun m e => m.upd e.1 [] (fun l => l ++ [(u, e.2)])) g.encBy } := by
  induction es generalizing g with
  | nil => rfl
  | cons d ds ih => rw [List.foldl_cons, ih]; rfl

theorem touchSink_frame (g : Graph ι) (u : ι) (ds : List ι) :
    ∃ s, g.touchSink u ds = { g with sinks := s } := ⟨_, rfl⟩

theorem foldl_touch_frame (g : Graph ι) (ds : List ι) :
    ∃ s, ds.foldl (fun g d => g.touchSink d []) g = { g with sinks := s } := by
  induction ds generalizing g with
  | nil => exact ⟨g.sinks, rfl⟩
  | cons d ds ih =>
    obtain ⟨s, hs⟩ := touchSink_frame g d []
    obtain ⟨s', hs'⟩ := ih (g.touchSink d [])
    exact ⟨s', by rw [List.foldl_cons, hs', hs]⟩

theorem updateDependencySinks_frame (g : Graph ι) (u : ι) (ds : List ι) :
    ∃ s, g.updateDependencySinks u ds = { g with sinks := s } := by
  obtain ⟨s, hs⟩ := touchSink_frame g u ds
  obtain ⟨s', hs'⟩ := foldl_touch_frame (g.touchSink u ds) ds
  exact ⟨s', by rw [updateDependencySinks, hs', hs]⟩

/-- The graph after a successful `addDependencies`. -/
theorem addDependencies_ok (g : Graph ι) (u : ι) (t : UnitType) (ds : List ι)
    (h : g.verifyDependencies u t ds = true) :
    g.addDependencies u t ds =
      ({ g with
          sinks := (g.updateDependencySinks u ds).sinks
          deps := g.deps.upd u [] (fun s => extendSet s ds)
          dependents := ds.foldl (fun m d => m.upd d [] (fun s => s.insert u)) g.dependents },
        true) := by
  obtain ⟨s, hs⟩ := updateDependencySinks_frame g u ds
  simp only [addDependencies, h, if_true, hs, foldl_dependents]

theorem addDependencies_err (g : Graph ι) (u : ι) (t : UnitType) (ds : List ι)
    (h : g.verifyDependencies u t ds = false) : g.addDependencies u t ds = (g, false) := by
  simp [addDependencies, h]

theorem updateStartingOne_frame (g : Graph ι) (c : ι) :
    ∃ s st, g.updateStartingOne c = { g with sinks := s, startingLessons := st } := ⟨_, _, rfl⟩

theorem updateStarting_fold_frame (g : Graph ι) (cs : List ι) :
    ∃ s st, cs.foldl updateStartingOne g = { g with sinks := s, startingLessons := st } := by
  induction cs generalizing g with
  | nil => exact ⟨g.sinks, g.startingLessons, rfl⟩
  | cons c cs ih =>
    obtain ⟨s, st, h⟩ := updateStartingOne_frame g c
    obtain ⟨s', st', h'⟩ := ih (g.updateStartingOne c)
    exact ⟨s', st', by rw [List.foldl_cons, h', h]⟩

theorem updateStartingLessons_frame (g : Graph ι) :
    ∃ s st, g.updateStartingLessons = { g with sinks := s, startingLessons := st } :=
  updateStarting_fold_frame g _

/-- Effects of giving a unit a type. -/
theorem updateUnitType_cases (g : Graph ι) (u : ι) (t : UnitType) :
    (g.types.find u = none ∧ g.updateUnitType u t = ({ g with types := g.types.put u t }, true)) ∨
    (g.types.find u = some t ∧ g.updateUnitType u t = (g, true)) ∨
    (∃ t', g.types.find u = some t' ∧ t' ≠ t ∧ g.updateUnitType u t = (g, false)) := by
  unfold updateUnitType
  cases h : g.types.find u with
  | none => simp
  | some t' =>
    by_cases ht : t' = t
    · subst ht; simp
    · right; right; exact ⟨t', rfl, ht, by simp [Ne.symm ht]⟩

/-- Effects of `addCourse`. -/
theorem addCourse_cases (g : Graph ι) (c : ι) :
    ((∃ t, g.types.find c = some t) ∧ g.addCourse c = (g, false)) ∨
    (g.types.find c = none ∧
      g.addCourse c = ({ g with types := g.types.put c .course }, true)) := by
  unfold addCourse
  cases h : g.types.find c with
  | some t => simp
  | none => simp [updateUnitType, h]

/-- Effects of `addLesson`: rejected with no change; rejected after typing the lesson; accepted. -/
theorem addLesson_cases (g : Graph ι) (l c : ι) :
    ((∃ t, g.types.find l = some t) ∧ g.addLesson l c = (g, false)) ∨
    (g.types.find l = none ∧ (∃ t, (g.types.put l .lesson).find c = some t ∧ t ≠ .course) ∧
      g.addLesson l c = ({ g with types := g.types.put l .lesson }, false)) ∨
    (g.types.find l = none ∧ ∃ ty,
      (ty = (g.types.put l .lesson).put c .course ∧ (g.types.put l .lesson).find c = none ∨
       ty = g.types.put l .lesson ∧ (g.types.put l .lesson).find c = some .course) ∧
      g.addLesson l c =
        ({ g with
            types := ty
            lessonCourse := g.lessonCourse.put l c
            courseLessons := g.courseLessons.upd c [] (fun s => s.insert l) }, true)) := by
  unfold addLesson
  cases h : g.types.find l with
  | some t => simp
  | none =>
    right
    simp only [Option.isSome_none, Bool.false_eq_true, if_false]
    have h1 : g.updateUnitType l .lesson = ({ g with types := g.types.put l .lesson }, true) := by
      simp [updateUnitType, h]
    rw [h1]
    rcases updateUnitType_cases ({ g with types := g.types.put l .lesson }) c .course with
      ⟨h2, h3⟩ | ⟨h2, h3⟩ | ⟨t', h2, h4, h3⟩
    · right; exact ⟨trivial, _, Or.inl ⟨rfl, h2⟩, by simp only [h3]⟩
    · right; exact ⟨trivial, _, Or.inr ⟨rfl, h2⟩, by simp only [h3]⟩
    · left; exact ⟨trivial, ⟨t', h2, h4⟩, by simp only [h3]⟩

/-- Effects of `addExercise`. -/
theorem addExercise_cases (g : Graph ι) (e l : ι) :
    ((∃ t, g.types.find e = some t) ∧ g.addExercise e l = (g, false)) ∨
    (g.types.find e = none ∧ (∃ t, (g.types.put e .exercise).find l = some t ∧ t ≠ .lesson) ∧
      g.addExercise e l = ({ g with types := g.types.put e .exercise }, false)) ∨
    (g.types.find e = none ∧ ∃ ty,
      (ty = (g.types.put e .exercise).put l .lesson ∧ (g.types.put e .exercise).find l = none ∨
       ty = g.types.put e .exercise ∧ (g.types.put e .exercise).find l = some .lesson) ∧
      g.addExercise e l =
        ({ g with
            types := ty
            lessonExercises := g.lessonExercises.upd l [] (fun s => s.insert e)
            exerciseLesson := g.exerciseLesson.put e l }, true)) := by
  unfold addExercise
  cases h : g.types.find e with
  | some t => simp
  | none =>
    right
    simp only [Option.isSome_none, Bool.false_eq_true, if_false]
    have h1 : g.updateUnitType e .exercise =
        ({ g with types := g.types.put e .exercise }, true) := by
      simp [updateUnitType, h]
    rw [h1]
    rcases updateUnitType_cases ({ g with types := g.types.put e .exercise }) l .lesson with
      ⟨h2, h3⟩ | ⟨h2, h3⟩ | ⟨t', h2, h4, h3⟩
    · right; exact ⟨trivial, _, Or.inl ⟨rfl, h2⟩, by simp only [h3]⟩
    · right; exact ⟨trivial, _, Or.inr ⟨rfl, h2⟩, by simp only [h3]⟩
    · left; exact ⟨trivial, ⟨t', h2, h4⟩, by simp only [h3]⟩

/-- The graph after `addEncompassed`. -/
theorem addEncompassed_cases (g : Graph ι) (u : ι) (ds : List ι) (es : List (ι × ℚ)) :
    ((¬ ∀ e ∈ es, 0 ≤ e.2 ∧ e.2 ≤ 1) ∧ g.addEncompassed u ds es = (g, false)) ∨
    ((∀ e ∈ es, 0 ≤ e.2 ∧ e.2 ≤ 1) ∧ g.addEncompassed u ds es =
      ({ g with
          enc := g.enc.upd u [] (fun l => l ++ fullEncompassed ds es)
          encBy := (fullEncompassed ds es).foldl
            (fun m e => m.upd e.1 [] (fun l => l ++ [(u, e.2)])) g.encBy }, true)) := by
  unfold addEncompassed
  by_cases h : es.all (fun e => decide (0 ≤ e.2 ∧ e.2 ≤ 1)) = true
  · right
    refine ⟨by simpa using h, ?_⟩
    simp only [h, if_true, foldl_encBy]
  · left
    refine ⟨by simpa using h, ?_⟩
    rw [if_neg h]

/-- The graph after `addSuperseded`. -/
theorem addSuperseded_eq (g : Graph ι) (u : ι) (ss : List ι) :
    g.addSuperseded u ss = if ss.isEmpty then g else
      { g with
          sup := g.sup.upd u [] (fun s => extendSet s ss)
          supBy := ss.foldl (fun m d => m.upd d [] (fun s => s.insert u)) g.supBy } := by
  unfold addSuperseded
  split
  · rfl
  · simp only [foldl_supBy]

theorem run_append (g : Graph ι) (a b : List (Op ι)) :
    runFrom g (a ++ b) = runFrom (runFrom g a) b := by simp [runFrom]

theorem run_snoc (ops : List (Op ι)) (o : Op ι) :
    run (ops ++ [o]) = ((run ops).step o).1 := by simp [run, runFrom]

/-- Induction principle: an invariant of the steps holds after every history. -/
theorem runFrom_induction {P : Graph ι → Prop} (hs : ∀ g o, P g → P (g.step o).1)
    (g : Graph ι) (h0 : P g) (ops : List (Op ι)) : P (runFrom g ops) := by
  induction ops generalizing g with
  | nil => exact h0
  | cons o ops ih => exact ih _ (hs g o h0)

theorem run_induction {P : Graph ι → Prop} (h0 : P empty) (hs : ∀ g o, P g → P (g.step o).1)
    (ops : List (Op ι)) : P (run ops) := runFrom_induction hs _ h0 ops

end Graph
end Trane
