import Verif.TestLib.Builders

/-!
# C97: test libraries
-/

namespace Trane.TestLib
open Trane.Store (Str)
open Trane.Library
open Trane.CourseBuilder
open Trane.Graph (KeyOrder HasCycle)
open Trane.Tree (Rest courseM lessonM exerciseM mentions keeps_ids Machine Holds)
open Trane.Json (Generator)
open Trane.Gen (dec dec_inj)
open Relation (TransGen)

variable {F : Type} {val : F → ℚ}

/-! ### Specification -/

/-- The unit depends on another. -/
def DependsOn (cs : List (TestCourse F)) (u v : TestId) : Prop := ∃ s, Says cs u s ∧ v ∈ s.dependencies

/-- The unit supersedes another. -/
def Replaces (cs : List (TestCourse F)) (u v : TestId) : Prop := ∃ s, Says cs u s ∧ v ∈ s.superseded

/-- The unit encompasses another, or depends on it. -/
def Encloses (cs : List (TestCourse F)) (u v : TestId) : Prop :=
  ∃ s, Says cs u s ∧ (v ∈ s.dependencies ∨ ∃ w, (v, w) ∈ s.encompassed)

/-- The ids that are mentioned are those of courses, lessons or exercises. -/
def ProperLinks (cs : List (TestCourse F)) : Prop :=
  ∀ u s, Says cs u s → (∀ v ∈ s.dependencies, v.Proper) ∧ (∀ v ∈ s.superseded, v.Proper) ∧
    ∀ e ∈ s.encompassed, e.1.Proper

/-- Nothing stands in the way of opening: weights are between 0 and 1, and there are no cycles. -/
structure Sensible (val : F → ℚ) (cs : List (TestCourse F)) : Prop where
  weights : ∀ u s, Says cs u s → ∀ e ∈ s.encompassed, 0 ≤ val e.2 ∧ val e.2 ≤ 1
  dependencies : ¬ HasCycle (DependsOn cs)
  superseded : ¬ HasCycle (Replaces cs)
  encompassed : ¬ HasCycle (Encloses cs)

/-! ### Ids -/

theorem proper_of_course {t : TestId} (h : t.isCourse = true) : t.Proper := by
  rw [eq_course h]
  intro h
  cases h

theorem proper_of_lesson {t : TestId} (h : t.isLesson = true) : t.Proper := by
  obtain ⟨n, a, b⟩ := t
  unfold TestId.isLesson at h
  unfold TestId.Proper
  cases a <;> simp_all

theorem eq_lesson {t : TestId} (h : t.isLesson = true) : TestId.mk t.course t.lesson none = t := by
  obtain ⟨n, a, b⟩ := t
  unfold TestId.isLesson at h
  cases b <;> simp_all

theorem says_proper {cs : List (TestCourse F)} (hw : WellFormedAll cs) {u : TestId} {s : Links F} (h : Says cs u s) :
    u.Proper := by
  rcases h with ⟨c, hc, rfl, _⟩ | ⟨c, hc, l, hl, rfl, _⟩
  · exact proper_of_course (hw.course c hc).course
  · exact proper_of_lesson ((hw.course c hc).lesson l hl).1

/-- The ids of a course, of its lessons and exercises. -/
def idsIn (c : TestCourse F) : List TestId :=
  c.id :: c.lessons.flatMap (fun l => l.id :: (List.range l.numExercises).map (fun i => ⟨l.id.course, l.id.lesson, some i⟩))

theorem idsIn_course {c : TestCourse F} (hw : WellFormed c) {t : TestId} (h : t ∈ idsIn c) : t.course = c.id.course := by
  rcases List.mem_cons.1 h with rfl | h
  · rfl
  · obtain ⟨l, hl, h⟩ := List.mem_flatMap.1 h
    rcases List.mem_cons.1 h with rfl | h
    · exact (hw.lesson _ hl).2
    · obtain ⟨i, _, rfl⟩ := List.mem_map.1 h
      exact (hw.lesson _ hl).2

theorem idsIn_proper {c : TestCourse F} (hw : WellFormed c) {t : TestId} (h : t ∈ idsIn c) : t.Proper := by
  rcases List.mem_cons.1 h with rfl | h
  · exact proper_of_course hw.course
  · obtain ⟨l, hl, h⟩ := List.mem_flatMap.1 h
    have h1 := (hw.lesson _ hl).1
    rcases List.mem_cons.1 h with rfl | h
    · exact proper_of_lesson h1
    · obtain ⟨i, _, rfl⟩ := List.mem_map.1 h
      unfold TestId.isLesson at h1
      unfold TestId.Proper
      cases hx : l.id.lesson <;> simp_all

theorem idsIn_nodup {c : TestCourse F} (hw : WellFormed c) : (idsIn c).Nodup := by
  unfold idsIn
  have hd := hw.distinct
  have hl := hw.lesson
  rw [List.nodup_cons]
  constructor
  · intro h
    obtain ⟨l, hl', h⟩ := List.mem_flatMap.1 h
    have h1 := (hl _ hl').1
    have h2 := hw.course
    unfold TestId.isLesson at h1
    unfold TestId.isCourse at h2
    rcases List.mem_cons.1 h with h | h
    · rw [← h] at h1
      cases hx : c.id.lesson <;> simp_all
    · obtain ⟨i, _, h⟩ := List.mem_map.1 h
      rw [← h] at h2
      simp at h2
  · generalize c.lessons = ls at hd hl
    induction ls with
    | nil => exact .nil
    | cons l ls ih =>
      rw [List.map_cons, List.nodup_cons] at hd
      rw [List.flatMap_cons, List.nodup_append]
      refine ⟨?_, ih hd.2 (fun l h => hl l (List.mem_cons_of_mem _ h)), ?_⟩
      · rw [List.nodup_cons]
        constructor
        · intro h
          obtain ⟨i, _, h⟩ := List.mem_map.1 h
          have h1 := (hl l List.mem_cons_self).1
          unfold TestId.isLesson at h1
          rw [← h] at h1
          simp at h1
        · refine List.nodup_range.map ?_
          intro a b e
          simpa using e
      · have key : ∀ (l : TestLesson F) t, t ∈ l.id :: (List.range l.numExercises).map
            (fun i => (⟨l.id.course, l.id.lesson, some i⟩ : TestId)) → t.lesson = l.id.lesson := by
          intro l t h
          rcases List.mem_cons.1 h with rfl | h
          · rfl
          · obtain ⟨i, _, rfl⟩ := List.mem_map.1 h; rfl
        intro a ha b hb e
        subst e
        obtain ⟨l', hl', hb⟩ := List.mem_flatMap.1 hb
        exact hd.1 (List.mem_map.2 ⟨l', hl', (key _ _ hb).symm.trans (key _ _ ha)⟩)

theorem all_nodup {cs : List (TestCourse F)} (hw : WellFormedAll cs) : (cs.flatMap idsIn).Nodup := by
  have hd := hw.distinct
  have hc := hw.course
  clear hw
  induction cs with
  | nil => exact .nil
  | cons c cs ih =>
    rw [List.map_cons, List.nodup_cons] at hd
    rw [List.flatMap_cons, List.nodup_append]
    refine ⟨idsIn_nodup (hc c List.mem_cons_self), ih hd.2 (fun c h => hc c (List.mem_cons_of_mem _ h)), ?_⟩
    intro a ha b hb e
    subst e
    obtain ⟨c', hc', hb⟩ := List.mem_flatMap.1 hb
    exact hd.1 (List.mem_map.2 ⟨c', hc', (idsIn_course (hc c' (List.mem_cons_of_mem _ hc')) hb).symm.trans
      (idsIn_course (hc c List.mem_cons_self) ha)⟩)

/-! ### What the builders describe -/

theorem filterMap_some {A B : Type} {f : A → Option B} {g : A → B} {xs : List A} (h : ∀ x ∈ xs, f x = some (g x)) :
    xs.filterMap f = xs.map g := by
  induction xs with
  | nil => rfl
  | cons x xs ih =>
    rw [List.filterMap_cons, h x List.mem_cons_self, List.map_cons, ih (fun x hx => h x (List.mem_cons_of_mem _ hx))]

theorem described_lessons (c : TestCourse F) : (described (courseOf val c)).lessons =
    c.lessons.map (fun l => (lessonM val (lessonManifest l),
      (List.range l.numExercises).map (fun i => exerciseM (exerciseManifest l.id i)))) := by
  unfold described
  show (c.lessons.map (lessonOf val)).filterMap _ = _
  rw [List.filterMap_map]
  refine filterMap_some (fun l _ => ?_)
  show some (lessonM val (lessonManifest l), ((List.range l.numExercises).map (exerciseBuilder l.id)).filterMap _) = _
  rw [List.filterMap_map]
  congr 2
  exact filterMap_some (fun i _ => rfl)

theorem described_ids (cs : List (TestCourse F)) :
    unitIds ((cs.map (courseOf val)).map described) = (cs.flatMap idsIn).map TestId.text := by
  unfold unitIds
  rw [List.map_map, List.flatMap_map, List.map_flatMap]
  congr 1
  funext c
  simp only [Function.comp]
  rw [described_lessons]
  unfold idsIn
  rw [List.map_cons, List.map_flatMap, List.flatMap_map]
  congr 1
  congr 1
  funext l
  simp only [List.map_cons, List.map_map]
  rfl

/-- The declarations of the manifests are what the test courses say. -/
theorem declares_iff (cs : List (TestCourse F)) (x : Str) (ds : List Str) (es : List (Str × ℚ)) (ss : List Str) :
    Declares ((cs.map (courseOf val)).map described) x ds es ss ↔ ∃ u s, Says cs u s ∧ u.text = x ∧
      ds = s.dependencies.map TestId.text ∧ es = s.encompassed.map (fun e => (e.1.text, val e.2)) ∧
      ss = s.superseded.map TestId.text := by
  constructor
  · rintro (⟨m, ⟨o, ho, rfl⟩, h1, h2, h3, h4⟩ | ⟨m, ⟨o, ho, y, hy, rfl⟩, h1, h2, h3, h4⟩)
    · rw [List.map_map] at ho
      obtain ⟨c, hc, rfl⟩ := List.mem_map.1 ho
      refine ⟨c.id, _, Or.inl ⟨c, hc, rfl, rfl⟩, h1, h2.symm, ?_, h4.symm⟩
      rw [← h3]
      show (c.encompassed.map (fun e => (e.1.text, e.2))).map _ = _
      rw [List.map_map]
      rfl
    · rw [List.map_map] at ho
      obtain ⟨c, hc, rfl⟩ := List.mem_map.1 ho
      simp only [Function.comp] at hy
      rw [described_lessons] at hy
      obtain ⟨l, hl, rfl⟩ := List.mem_map.1 hy
      refine ⟨l.id, _, Or.inr ⟨c, hc, l, hl, rfl, rfl⟩, h1, h2.symm, ?_, h4.symm⟩
      rw [← h3]
      show (l.encompassed.map (fun e => (e.1.text, e.2))).map _ = _
      rw [List.map_map]
      rfl
  · rintro ⟨u, s, ⟨c, hc, rfl, rfl⟩ | ⟨c, hc, l, hl, rfl, rfl⟩, rfl, rfl, rfl, rfl⟩
    · refine Or.inl ⟨_, ⟨described (courseOf val c), ?_, rfl⟩, rfl, rfl, ?_, rfl⟩
      · rw [List.map_map]; exact List.mem_map.2 ⟨c, hc, rfl⟩
      · show (c.encompassed.map (fun e => (e.1.text, e.2))).map _ = _
        rw [List.map_map]
        rfl
    · refine Or.inr ⟨lessonM val (lessonManifest l), ⟨described (courseOf val c), ?_, ?_⟩, rfl, rfl, ?_, rfl⟩
      · rw [List.map_map]; exact List.mem_map.2 ⟨c, hc, rfl⟩
      · rw [described_lessons]
        exact ⟨_, List.mem_map.2 ⟨l, hl, rfl⟩, rfl⟩
      · show (l.encompassed.map (fun e => (e.1.text, e.2))).map _ = _
        rw [List.map_map]
        rfl

theorem cycle_iff {R : TestId → TestId → Prop} {S : Str → Str → Prop} (hR : ∀ u v, R u v → u.Proper ∧ v.Proper)
    (hS : ∀ a b, S a b ↔ ∃ u v, u.text = a ∧ v.text = b ∧ R u v) : HasCycle R ↔ HasCycle S := by
  have up : ∀ {u v}, TransGen R u v → TransGen S u.text v.text := by
    intro u v h
    induction h with
    | single h => exact .single ((hS _ _).2 ⟨_, _, rfl, rfl, h⟩)
    | tail _ h ih => exact .tail ih ((hS _ _).2 ⟨_, _, rfl, rfl, h⟩)
  have down : ∀ {a b}, TransGen S a b → ∃ u v, u.text = a ∧ v.text = b ∧ u.Proper ∧ v.Proper ∧ TransGen R u v := by
    intro a b h
    induction h with
    | single h =>
      obtain ⟨u, v, e1, e2, h⟩ := (hS _ _).1 h
      exact ⟨u, v, e1, e2, (hR _ _ h).1, (hR _ _ h).2, .single h⟩
    | tail _ h ih =>
      obtain ⟨u, v, e1, e2, p1, p2, h1⟩ := ih
      obtain ⟨v', w, e3, e4, h⟩ := (hS _ _).1 h
      have := text_inj p2 (hR _ _ h).1 (e2.trans e3.symm)
      subst this
      exact ⟨u, w, e1, e4, p1, (hR _ _ h).2, h1.tail h⟩
  constructor
  · rintro ⟨u, h⟩; exact ⟨_, up h⟩
  · rintro ⟨a, h⟩
    obtain ⟨u, v, e1, e2, p1, p2, h⟩ := down h
    have := text_inj p1 p2 (e1.trans e2.symm)
    subst this
    exact ⟨u, h⟩

theorem acceptable_iff {cs : List (TestCourse F)} (hw : WellFormedAll cs) (hp : ProperLinks cs) :
    Acceptable ((cs.map (courseOf val)).map described) ↔ Sensible val cs := by
  have c1 : HasCycle (DependsOn cs) ↔ HasCycle (DeclaresDep ((cs.map (courseOf val)).map described)) := by
    refine cycle_iff ?_ ?_
    · rintro u v ⟨s, hs, hv⟩; exact ⟨says_proper hw hs, (hp u s hs).1 v hv⟩
    · intro a b
      constructor
      · rintro ⟨ds, es, ss, hd, hb⟩
        obtain ⟨u, s, hs, e, rfl, _⟩ := (declares_iff _ _ _ _ _).1 hd
        obtain ⟨v, hv, rfl⟩ := List.mem_map.1 hb
        exact ⟨u, v, e, rfl, s, hs, hv⟩
      · rintro ⟨u, v, rfl, rfl, s, hs, hv⟩
        exact ⟨_, _, _, (declares_iff _ _ _ _ _).2 ⟨u, s, hs, rfl, rfl, rfl, rfl⟩, List.mem_map.2 ⟨v, hv, rfl⟩⟩
  have c2 : HasCycle (Replaces cs) ↔ HasCycle (DeclaresSup ((cs.map (courseOf val)).map described)) := by
    refine cycle_iff ?_ ?_
    · rintro u v ⟨s, hs, hv⟩; exact ⟨says_proper hw hs, (hp u s hs).2.1 v hv⟩
    · intro a b
      constructor
      · rintro ⟨ds, es, ss, hd, hb⟩
        obtain ⟨u, s, hs, e, _, _, rfl⟩ := (declares_iff _ _ _ _ _).1 hd
        obtain ⟨v, hv, rfl⟩ := List.mem_map.1 hb
        exact ⟨u, v, e, rfl, s, hs, hv⟩
      · rintro ⟨u, v, rfl, rfl, s, hs, hv⟩
        exact ⟨_, _, _, (declares_iff _ _ _ _ _).2 ⟨u, s, hs, rfl, rfl, rfl, rfl⟩, List.mem_map.2 ⟨v, hv, rfl⟩⟩
  have c3 : HasCycle (Encloses cs) ↔ HasCycle (DeclaresEnc ((cs.map (courseOf val)).map described)) := by
    refine cycle_iff ?_ ?_
    · rintro u v ⟨s, hs, hv | ⟨w, hv⟩⟩
      · exact ⟨says_proper hw hs, (hp u s hs).1 v hv⟩
      · exact ⟨says_proper hw hs, (hp u s hs).2.2 _ hv⟩
    · intro a b
      constructor
      · rintro ⟨ds, es, ss, hd, hb⟩
        obtain ⟨u, s, hs, e, rfl, rfl, _⟩ := (declares_iff _ _ _ _ _).1 hd
        rcases hb with hb | ⟨w, hb⟩
        · obtain ⟨v, hv, rfl⟩ := List.mem_map.1 hb
          exact ⟨u, v, e, rfl, s, hs, Or.inl hv⟩
        · obtain ⟨⟨v, x⟩, hv, e'⟩ := List.mem_map.1 hb
          injection e' with e1 e2
          exact ⟨u, v, e, e1, s, hs, Or.inr ⟨x, hv⟩⟩
      · rintro ⟨u, v, rfl, rfl, s, hs, hv⟩
        refine ⟨_, _, _, (declares_iff _ _ _ _ _).2 ⟨u, s, hs, rfl, rfl, rfl, rfl⟩, ?_⟩
        rcases hv with hv | ⟨w, hv⟩
        · exact Or.inl (List.mem_map.2 ⟨v, hv, rfl⟩)
        · exact Or.inr ⟨val w, List.mem_map.2 ⟨(v, w), hv, rfl⟩⟩
  constructor
  · intro h
    refine ⟨?_, c1.not.2 h.depAcyclic, c2.not.2 h.supAcyclic, c3.not.2 h.encAcyclic⟩
    intro u s hs e he
    exact h.weights _ _ _ _ ((declares_iff _ _ _ _ _).2 ⟨u, s, hs, rfl, rfl, rfl, rfl⟩) (e.1.text, val e.2)
      (List.mem_map.2 ⟨e, he, rfl⟩)
  · intro h
    have hdep := c1.not.1 h.dependencies
    refine ⟨?_, fun u hu => hdep ⟨u, .single hu⟩, ?_, hdep, c2.not.1 h.superseded, c3.not.1 h.encompassed⟩
    · rw [described_ids]
      refine (all_nodup hw).map_on ?_
      intro a ha b hb e
      obtain ⟨c, hc, ha⟩ := List.mem_flatMap.1 ha
      obtain ⟨c', hc', hb⟩ := List.mem_flatMap.1 hb
      exact text_inj (idsIn_proper (hw.course c hc) ha) (idsIn_proper (hw.course c' hc') hb) e
    · intro u ds es ss hd e he
      obtain ⟨u, s, hs, _, _, rfl, _⟩ := (declares_iff _ _ _ _ _).1 hd
      obtain ⟨e, he', rfl⟩ := List.mem_map.1 he
      exact h.weights u s hs e he'

/-! ### Building and opening -/

theorem keeps_links (r : Path) : KeepsLinks (mentions r) :=
  ⟨fun _ _ => ⟨rfl, rfl, rfl, rfl⟩, fun _ _ => ⟨rfl, rfl, rfl⟩⟩

theorem builders_of {cs : List (TestCourse F)} (hw : WellFormedAll cs) :
    cs.mapM (courseBuilder val) = some (cs.map (courseOf val)) :=
  mapM_some (fun c hc => courseBuilder_of (hw.course c hc))

theorem course_dirs {cs : List (TestCourse F)} (hw : WellFormedAll cs) :
    ((cs.map (courseOf val)).map (·.dir)).Nodup := by
  rw [List.map_map]
  refine map_nodup_of hw.distinct ?_
  intro x _ y _ e
  exact dec_inj (List.append_cancel_left e)

theorem fresh_empty (parent : Path) (bs : List (CourseB Rest Generator)) : Fresh parent [] bs :=
  ⟨.nil, fun _ _ h => (nomatch h), fun _ _ _ _ h => (nomatch h)⟩

theorem sound_of {cs : List (TestCourse F)} (hw : WellFormedAll cs) {parent r : Path} {fs : FS Rest Generator}
    (h : buildAll parent [] (cs.map (courseOf val)) = (fs, true)) :
    Sound (mentions r) parent fs (cs.map (courseOf val)) where
  dirs := course_dirs hw
  tidy b hb := by
    obtain ⟨c, hc, rfl⟩ := List.mem_map.1 hb
    exact tidy_of (hw.course c hc)
  consistent b hb := by
    obtain ⟨c, hc, rfl⟩ := List.mem_map.1 hb
    exact consistent_of (hw.course c hc)
  complete b hb := by
    have := buildAll_stands h (course_dirs hw) (fresh_empty parent _).below b hb
    obtain ⟨c, hc, rfl⟩ := List.mem_map.1 hb
    exact complete_of this
  plain b hb := by
    obtain ⟨c, hc, rfl⟩ := List.mem_map.1 hb
    rfl

/-- **C97, building**: test courses with different numbers, whose lessons have different numbers too, have builders,
and these build the courses in a new directory. -/
theorem test_library_builds {cs : List (TestCourse F)} (hw : WellFormedAll cs) (parent : Path) :
    ∃ bs, cs.mapM (courseBuilder val) = some bs ∧ ∃ fs, buildAll parent [] bs = (fs, true) := by
  refine ⟨_, builders_of hw, buildAll_succeeds (course_dirs hw) ?_ (fun _ _ k hk => nomatch hk)⟩
  intro b hb
  obtain ⟨c, hc, rfl⟩ := List.mem_map.1 hb
  exact buildable_of (hw.course c hc)

/-- **C97, opening**: the library of the built courses opens exactly when the weights that the test courses give are
between 0 and 1 and what they say has no cycles. -/
theorem test_library_opens {cs : List (TestCourse F)} (hw : WellFormedAll cs) (hp : ProperLinks cs)
    {bs : List (CourseB Rest Generator)} (hb : cs.mapM (courseBuilder val) = some bs) {parent : Path}
    {fs : FS Rest Generator} (h : buildAll parent [] bs = (fs, true)) {M : Machine F} {r : Path} (hM : Holds M r fs)
    (hg : GeneratesProper M.disk) (o : KeyOrder Str) (ho : o.Valid) :
    ∃ N, ∀ fuel, N ≤ fuel → ∃ x, openLibrary o fuel M.disk [] = some x ∧ (x.isSome = true ↔ Sensible val cs) := by
  rw [builders_of hw] at hb
  injection hb with hb
  subst hb
  obtain ⟨N, hN⟩ := built_library_opens (keeps_ids r) (keeps_links r) (fresh_empty parent _) h (sound_of hw h)
    (hM.shows (buildAll_nodup h .nil)) hg o ho
  refine ⟨N, fun fuel hf => ?_⟩
  obtain ⟨x, hx, e⟩ := hN fuel hf
  exact ⟨x, hx, e.trans (acceptable_iff hw hp)⟩

/-- **C97, units**: the opened library has the courses and lessons of the test courses, and `all_test_exercises` lists
its exercises; lessons and exercises are in the lessons and courses that their ids say. -/
theorem test_library_serves {cs : List (TestCourse F)} (hw : WellFormedAll cs) {bs : List (CourseB Rest Generator)}
    (hb : cs.mapM (courseBuilder val) = some bs) {parent : Path} {fs : FS Rest Generator}
    (h : buildAll parent [] bs = (fs, true)) {M : Machine F} {r : Path} (hM : Holds M r fs)
    (hg : GeneratesProper M.disk) {lib : Lib Rest Generator} (hl : Loads M.disk [] lib) (u : Str) :
    ((lib.getCourseManifest u).isSome = true ↔ ∃ c ∈ cs, c.id.text = u) ∧
    (∀ x, (∃ m, lib.getLessonManifest u = some m ∧ m.courseId = x) ↔
      ∃ c ∈ cs, ∃ l ∈ c.lessons, l.id.text = u ∧ c.id.text = x) ∧
    (∀ x y, (∃ m, lib.getExerciseManifest u = some m ∧ m.lessonId = x ∧ m.courseId = y) ↔
      ∃ t ∈ allTestExercises cs, t.text = u ∧ (TestId.mk t.course t.lesson none).text = x ∧
        (TestId.mk t.course none none).text = y) := by
  rw [builders_of hw] at hb
  injection hb with hb
  subst hb
  obtain ⟨h1, h2, h3⟩ := built_library_serves (keeps_ids r) (keeps_links r) (fresh_empty parent _) h (sound_of hw h)
    (hM.shows (buildAll_nodup h .nil)) hg hl u
  have hcid : ∀ c ∈ cs, ∀ l ∈ c.lessons, TestId.mk l.id.course none none = c.id := by
    intro c hc l hl
    rw [((hw.course c hc).lesson l hl).2, ← eq_course (hw.course c hc).course]
  have hlid : ∀ c ∈ cs, ∀ l ∈ c.lessons, TestId.mk l.id.course l.id.lesson none = l.id := by
    intro c hc l hl
    exact eq_lesson ((hw.course c hc).lesson l hl).1
  refine ⟨?_, fun x => ?_, fun x y => ?_⟩
  · rw [Option.isSome_iff_exists]
    constructor
    · rintro ⟨m, hm⟩
      obtain ⟨b, hb, e, _⟩ := (h1 m).1 hm
      obtain ⟨c, hc, rfl⟩ := List.mem_map.1 hb
      exact ⟨c, hc, e⟩
    · rintro ⟨c, hc, e⟩
      exact ⟨_, (h1 _).2 ⟨courseOf val c, List.mem_map.2 ⟨c, hc, rfl⟩, e, rfl⟩⟩
  · constructor
    · rintro ⟨m, hm, rfl⟩
      obtain ⟨b, hb, l, hl, z, hz, e, rfl⟩ := (h2 m).1 hm
      obtain ⟨c, hc, rfl⟩ := List.mem_map.1 hb
      obtain ⟨t, ht, rfl⟩ := mem_lessons hl
      have hz' : some (lessonM val (lessonManifest t)) = some z := hz
      injection hz' with hz'
      subst hz'
      refine ⟨c, hc, t, ht, e, ?_⟩
      rw [← hcid c hc t ht]
      rfl
    · rintro ⟨c, hc, t, ht, e, rfl⟩
      refine ⟨_, (h2 _).2 ⟨courseOf val c, List.mem_map.2 ⟨c, hc, rfl⟩, lessonOf val t, List.mem_map.2 ⟨t, ht, rfl⟩, _,
        rfl, e, rfl⟩, ?_⟩
      rw [← hcid c hc t ht]
      rfl
  · constructor
    · rintro ⟨m, hm, rfl, rfl⟩
      obtain ⟨b, hb, l, hl, e, he, z, hz, e', rfl⟩ := (h3 m).1 hm
      obtain ⟨c, hc, rfl⟩ := List.mem_map.1 hb
      obtain ⟨t, ht, rfl⟩ := mem_lessons hl
      obtain ⟨i, hi, rfl⟩ := List.mem_map.1 he
      have hz' : some (exerciseM (exerciseManifest t.id i)) = some z := hz
      injection hz' with hz'
      subst hz'
      have hcc := ((hw.course c hc).lesson t ht).2
      refine ⟨⟨c.id.course, t.id.lesson, some i⟩, List.mem_flatMap.2 ⟨c, hc, List.mem_flatMap.2 ⟨t, ht,
        List.mem_map.2 ⟨i, hi, rfl⟩⟩⟩, ?_, ?_, ?_⟩
      · rw [← hcc]; exact e'
      · rw [← hcc]
        show (TestId.mk t.id.course t.id.lesson none).text = t.id.text
        rw [hlid c hc t ht]
      · rw [← hcc]
        rfl
    · rintro ⟨t', ht', rfl, rfl, rfl⟩
      obtain ⟨c, hc, ht'⟩ := List.mem_flatMap.1 ht'
      obtain ⟨t, ht, ht'⟩ := List.mem_flatMap.1 ht'
      obtain ⟨i, hi, rfl⟩ := List.mem_map.1 ht'
      have hcc := ((hw.course c hc).lesson t ht).2
      refine ⟨_, (h3 _).2 ⟨courseOf val c, List.mem_map.2 ⟨c, hc, rfl⟩, lessonOf val t, List.mem_map.2 ⟨t, ht, rfl⟩,
        exerciseBuilder t.id i, List.mem_map.2 ⟨i, hi, rfl⟩, _, rfl, ?_, rfl⟩, ?_, ?_⟩
      · rw [← hcc]; rfl
      · rw [← hcc, hlid c hc t ht]
        rfl
      · rw [← hcc]
        rfl

/-- **C97, manifests**: what the opened library says about the courses and lessons is what the test courses say, and the
exercises are flashcards. -/
theorem test_library_manifests {cs : List (TestCourse F)} (hw : WellFormedAll cs) {bs : List (CourseB Rest Generator)}
    (hb : cs.mapM (courseBuilder val) = some bs) {parent : Path} {fs : FS Rest Generator}
    (h : buildAll parent [] bs = (fs, true)) {M : Machine F} {r : Path} (hM : Holds M r fs)
    (hg : GeneratesProper M.disk) {lib : Lib Rest Generator} (hl : Loads M.disk [] lib) :
    (∀ c ∈ cs, ∃ m material, lib.getCourseManifest c.id.text = some m ∧ m.id = c.id.text ∧
      m.deps = c.dependencies.map TestId.text ∧ m.sup = c.superseded.map TestId.text ∧
      m.enc = c.encompassed.map (fun e => (e.1.text, val e.2)) ∧ m.metadata = some c.metadata ∧ m.gen = none ∧
      m.rest = .course ("Course ".toList ++ c.id.text) (some ("Description for course ".toList ++ c.id.text)) none
        (some (.markdown material))) ∧
    (∀ c ∈ cs, ∀ l ∈ c.lessons, ∃ m material instructions, lib.getLessonManifest l.id.text = some m ∧
      m.id = l.id.text ∧ m.courseId = c.id.text ∧
      m.deps = l.dependencies.map TestId.text ∧ m.sup = l.superseded.map TestId.text ∧
      m.enc = l.encompassed.map (fun e => (e.1.text, val e.2)) ∧ m.metadata = some l.metadata ∧
      m.rest = .lesson ("Lesson ".toList ++ l.id.text) (some ("Description for lesson ".toList ++ l.id.text))
        (some (.markdown material)) (some (.markdown instructions))) ∧
    (∀ t ∈ allTestExercises cs, ∃ m front back, lib.getExerciseManifest t.text = some m ∧ m.id = t.text ∧
      m.rest = .exercise ("Exercise ".toList ++ t.text) (some ("Description for exercise ".toList ++ t.text)) false
        (.flashcard front (some back))) := by
  rw [builders_of hw] at hb
  injection hb with hb
  subst hb
  have hall := fun u => built_library_serves (keeps_ids r) (keeps_links r) (fresh_empty parent _) h (sound_of hw h)
    (hM.shows (buildAll_nodup h .nil)) hg hl u
  have hcid : ∀ c ∈ cs, ∀ l ∈ c.lessons, TestId.mk l.id.course none none = c.id := by
    intro c hc l hl
    rw [((hw.course c hc).lesson l hl).2, ← eq_course (hw.course c hc).course]
  refine ⟨fun c hc => ?_, fun c hc l hl => ?_, fun t ht => ?_⟩
  · refine ⟨_, _, ((hall c.id.text).1 _).2 ⟨courseOf val c, List.mem_map.2 ⟨c, hc, rfl⟩, rfl, rfl⟩, rfl, rfl, rfl, ?_,
      rfl, rfl, rfl⟩
    show (c.encompassed.map (fun e => (e.1.text, e.2))).map (fun e => (e.1, val e.2)) = _
    rw [List.map_map]
    rfl
  · refine ⟨_, _, _, ((hall l.id.text).2.1 _).2 ⟨courseOf val c, List.mem_map.2 ⟨c, hc, rfl⟩, lessonOf val l,
      List.mem_map.2 ⟨l, hl, rfl⟩, _, rfl, rfl, rfl⟩, rfl, ?_, rfl, rfl, ?_, rfl, rfl⟩
    · show (TestId.mk l.id.course none none).text = _
      rw [hcid c hc l hl]
    · show (l.encompassed.map (fun e => (e.1.text, e.2))).map (fun e => (e.1, val e.2)) = _
      rw [List.map_map]
      rfl
  · obtain ⟨c, hc, ht⟩ := List.mem_flatMap.1 ht
    obtain ⟨l, hl, ht⟩ := List.mem_flatMap.1 ht
    obtain ⟨i, hi, rfl⟩ := List.mem_map.1 ht
    have hcc := ((hw.course c hc).lesson l hl).2
    rw [← hcc]
    exact ⟨_, _, _, ((hall _).2.2 _).2 ⟨courseOf val c, List.mem_map.2 ⟨c, hc, rfl⟩, lessonOf val l,
      List.mem_map.2 ⟨l, hl, rfl⟩, exerciseBuilder l.id i, List.mem_map.2 ⟨i, hi, rfl⟩, _, rfl, rfl, rfl⟩, rfl, rfl⟩

end Trane.TestLib
