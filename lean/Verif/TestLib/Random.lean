import Verif.TestLib.Props

/-!
# C97: random libraries
-/

namespace Trane.TestLib
open Trane.Store (Str)
open Trane.Library
open Trane.CourseBuilder
open Trane.Graph (KeyOrder HasCycle)
open Trane.Tree (Rest Machine Holds)
open Trane.Json (Generator)
open Relation (TransGen)

variable {F : Type} {val : F → ℚ}

/-! ### Specification -/

/-- The ranges are not empty. -/
structure RandomLibrary.Valid (R : RandomLibrary) : Prop where
  courseDependencies : R.courseDependencies.1 ≤ R.courseDependencies.2
  lessonsPerCourse : R.lessonsPerCourse.1 ≤ R.lessonsPerCourse.2
  lessonDependencies : R.lessonDependencies.1 ≤ R.lessonDependencies.2
  exercisesPerLesson : R.exercisesPerLesson.1 ≤ R.exercisesPerLesson.2

/-- Dependencies of the unit with number `i`, for a range: earlier units, none twice, no more than the range allows, and
some if there are earlier units and the range asks for some. -/
structure DependencyShape (r : Nat × Nat) (i : Nat) (ds : List Nat) : Prop where
  earlier : ∀ d ∈ ds, d < i
  once : ds.Nodup
  most : ds.length ≤ r.2
  least : 1 ≤ r.1 → 1 ≤ i → ds ≠ []

/-- A lesson of a random library. -/
structure LessonShape (R : RandomLibrary) (i j : Nat) (l : TestLesson F) : Prop where
  id : l.id = ⟨i, some j, none⟩
  exercises : R.exercisesPerLesson.1 ≤ l.numExercises ∧ l.numExercises ≤ R.exercisesPerLesson.2
  dependencies : ∃ ds, l.dependencies = ds.map (fun d => ⟨i, some d, none⟩) ∧
    DependencyShape R.lessonDependencies j ds
  others : l.encompassed = [] ∧ l.superseded = [] ∧ l.metadata = []

/-- A course of a random library. -/
structure CourseShape (R : RandomLibrary) (i : Nat) (c : TestCourse F) : Prop where
  id : c.id = ⟨i, none, none⟩
  number : R.lessonsPerCourse.1 ≤ c.lessons.length ∧ c.lessons.length ≤ R.lessonsPerCourse.2
  lessons : ∀ j l, c.lessons[j]? = some l → LessonShape R i j l
  dependencies : ∃ ds, c.dependencies = ds.map (fun d => ⟨d, none, none⟩) ∧ DependencyShape R.courseDependencies i ds
  others : c.encompassed = [] ∧ c.superseded = [] ∧ c.metadata = []

/-- A random library. -/
structure LibraryShape (R : RandomLibrary) (cs : List (TestCourse F)) : Prop where
  number : cs.length = R.numCourses
  courses : ∀ i c, cs[i]? = some c → CourseShape R i c

/-! ### Drawing -/

section
variable {draws : Nat → Nat}

theorem between_range {r : Nat × Nat} {k n k' : Nat} (h : between draws r k = some (n, k')) : r.1 ≤ n ∧ n ≤ r.2 := by
  unfold between at h
  split at h
  · cases h
  · injection h with h
    injection h with h1 h2
    have := Nat.mod_lt (draws k) (show 0 < r.2 - r.1 + 1 by omega)
    omega

theorem between_some {r : Nat × Nat} (h : r.1 ≤ r.2) (k : Nat) : ∃ n k', between draws r k = some (n, k') := by
  unfold between
  rw [if_neg (by omega)]
  exact ⟨_, _, rfl⟩

theorem between_none {r : Nat × Nat} (h : ¬ r.1 ≤ r.2) (k : Nat) : between draws r k = none := by
  unfold between
  rw [if_pos (by omega)]

theorem pick_shape {b : Nat} (n : Nat) (acc : List Nat) (k : Nat) (hn : acc.Nodup) (hb : ∀ x ∈ acc, x < b) (h0 : 0 < b ∨ n = 0) :
    ((pick draws b n acc k).1).Nodup ∧ (∀ x ∈ (pick draws b n acc k).1, x < b) ∧
      (pick draws b n acc k).1.length ≤ acc.length + n ∧ (acc ≠ [] ∨ 0 < n → (pick draws b n acc k).1 ≠ []) := by
  induction n generalizing acc k with
  | zero => exact ⟨hn, hb, by simp [pick], by rintro (h | h); exacts [h, absurd h (by omega)]⟩
  | succ n ih =>
    have hb0 : 0 < b := by omega
    unfold pick
    simp only
    by_cases hc : acc.contains (draws k % b) = true
    · rw [if_pos hc]
      obtain ⟨h1, h2, h3, h4⟩ := ih acc (k + 1) hn hb (Or.inl hb0)
      refine ⟨h1, h2, by omega, fun _ => h4 (Or.inl ?_)⟩
      rintro rfl
      simp at hc
    · rw [if_neg hc]
      have hx : draws k % b ∉ acc := by simpa using hc
      obtain ⟨h1, h2, h3, h4⟩ := ih (acc ++ [draws k % b]) (k + 1)
        (by rw [List.nodup_append]; exact ⟨hn, by simp, by rintro a ha x hx' rfl; rw [List.mem_singleton] at hx'; exact hx (hx' ▸ ha)⟩)
        (by
          intro x hx
          rcases List.mem_append.1 hx with hx | hx
          · exact hb x hx
          · rw [List.mem_singleton.1 hx]; exact Nat.mod_lt _ hb0)
        (Or.inl hb0)
      refine ⟨h1, h2, ?_, fun _ => h4 (Or.inl (by simp))⟩
      rw [List.length_append] at h3
      simp only [List.length_cons, List.length_nil] at h3
      omega

theorem dependencies_shape {r : Nat × Nat} {i k : Nat} {ds : List Nat} {k' : Nat}
    (h : dependencies draws r i k = some (ds, k')) : DependencyShape r i ds := by
  unfold dependencies at h
  cases hb : between draws r k with
  | none => rw [hb] at h; cases h
  | some nk =>
    obtain ⟨n, k1⟩ := nk
    rw [hb] at h
    have h' : some (pick draws i (min n i) [] k1) = some (ds, k') := h
    injection h' with h'
    obtain ⟨hlo, hhi⟩ := between_range hb
    obtain ⟨h1, h2, h3, h4⟩ := pick_shape (draws := draws) (b := i) (min n i) [] k1 .nil (by simp) (by omega)
    rw [h'] at h1 h2 h3 h4
    refine ⟨h2, h1, ?_, fun a b => h4 (Or.inr (by omega))⟩
    simp only [List.length_nil] at h3
    show ds.length ≤ r.2
    omega

theorem dependencies_some {r : Nat × Nat} (h : r.1 ≤ r.2) (i k : Nat) :
    ∃ ds k', dependencies draws r i k = some (ds, k') := by
  unfold dependencies
  obtain ⟨n, k1, hb⟩ := between_some (draws := draws) h k
  rw [hb]
  exact ⟨_, _, rfl⟩

theorem dependencies_none {r : Nat × Nat} (h : ¬ r.1 ≤ r.2) (i k : Nat) : dependencies draws r i k = none := by
  unfold dependencies
  rw [between_none h]
  rfl

/-! ### Lessons and courses -/

theorem randomLessons_succ {R : RandomLibrary} {c n j k : Nat} {ls : List (TestLesson F)} {k' : Nat}
    (h : randomLessons draws F R c (n + 1) j k = some (ls, k')) :
    ∃ m k1 ds k2 rest, between draws R.exercisesPerLesson k = some (m, k1) ∧
      dependencies draws R.lessonDependencies j k1 = some (ds, k2) ∧
      randomLessons draws F R c n (j + 1) k2 = some (rest, k') ∧
      ls = { id := ⟨c, some j, none⟩, dependencies := ds.map (fun d => ⟨c, some d, none⟩), numExercises := m } :: rest := by
  rw [randomLessons] at h
  simp only [Option.bind_eq_bind, Option.bind_eq_some_iff] at h
  obtain ⟨⟨m, k1⟩, hm, ⟨ds, k2⟩, hd, ⟨rest, k3⟩, hr, h⟩ := h
  injection h with h
  injection h with h1 h2
  subst h2
  exact ⟨m, k1, ds, k2, rest, hm, hd, hr, h1.symm⟩

theorem randomLessons_shape {R : RandomLibrary} {c n j k : Nat} {ls : List (TestLesson F)} {k' : Nat}
    (h : randomLessons draws F R c n j k = some (ls, k')) :
    ls.length = n ∧ ∀ x l, ls[x]? = some l → LessonShape R c (j + x) l := by
  induction n generalizing j k ls k' with
  | zero =>
    rw [randomLessons] at h
    injection h with h
    injection h with h _
    subst h
    exact ⟨rfl, by simp⟩
  | succ n ih =>
    obtain ⟨m, k1, ds, k2, rest, hm, hd, hr, rfl⟩ := randomLessons_succ h
    obtain ⟨h1, h2⟩ := ih hr
    refine ⟨by simp [h1], ?_⟩
    intro x l hx
    cases x with
    | zero =>
      simp only [List.getElem?_cons_zero, Option.some.injEq] at hx
      subst hx
      exact ⟨rfl, between_range hm, ⟨ds, rfl, dependencies_shape hd⟩, rfl, rfl, rfl⟩
    | succ x =>
      rw [List.getElem?_cons_succ] at hx
      rw [show j + (x + 1) = j + 1 + x by omega]
      exact h2 x l hx

theorem randomCourses_succ {R : RandomLibrary} {n i k : Nat} {cs : List (TestCourse F)} {k' : Nat}
    (h : randomCourses draws F R (n + 1) i k = some (cs, k')) :
    ∃ m k1 ls k2 ds k3 rest, between draws R.lessonsPerCourse k = some (m, k1) ∧
      randomLessons draws F R i m 0 k1 = some (ls, k2) ∧
      dependencies draws R.courseDependencies i k2 = some (ds, k3) ∧
      randomCourses draws F R n (i + 1) k3 = some (rest, k') ∧
      cs = { id := ⟨i, none, none⟩, dependencies := ds.map (fun d => ⟨d, none, none⟩), lessons := ls } :: rest := by
  rw [randomCourses] at h
  simp only [Option.bind_eq_bind, Option.bind_eq_some_iff] at h
  obtain ⟨⟨m, k1⟩, hm, ⟨ls, k2⟩, hl, ⟨ds, k3⟩, hd, ⟨rest, k4⟩, hr, h⟩ := h
  injection h with h
  injection h with h1 h2
  subst h2
  exact ⟨m, k1, ls, k2, ds, k3, rest, hm, hl, hd, hr, h1.symm⟩

theorem randomCourses_shape {R : RandomLibrary} {n i k : Nat} {cs : List (TestCourse F)} {k' : Nat}
    (h : randomCourses draws F R n i k = some (cs, k')) :
    cs.length = n ∧ ∀ x c, cs[x]? = some c → CourseShape R (i + x) c := by
  induction n generalizing i k cs k' with
  | zero =>
    rw [randomCourses] at h
    injection h with h
    injection h with h _
    subst h
    exact ⟨rfl, by simp⟩
  | succ n ih =>
    obtain ⟨m, k1, ls, k2, ds, k3, rest, hm, hl, hd, hr, rfl⟩ := randomCourses_succ h
    obtain ⟨h1, h2⟩ := ih hr
    refine ⟨by simp [h1], ?_⟩
    intro x c hx
    cases x with
    | zero =>
      simp only [List.getElem?_cons_zero, Option.some.injEq] at hx
      subst hx
      obtain ⟨l1, l2⟩ := randomLessons_shape hl
      refine ⟨rfl, ?_, ?_, ⟨ds, rfl, dependencies_shape hd⟩, rfl, rfl, rfl⟩
      · show _ ≤ ls.length ∧ ls.length ≤ _
        rw [l1]
        exact between_range hm
      · intro j l hj
        have := l2 j l hj
        rwa [Nat.zero_add] at this
    | succ x =>
      rw [List.getElem?_cons_succ] at hx
      rw [show i + (x + 1) = i + 1 + x by omega]
      exact h2 x c hx

theorem randomLessons_some {R : RandomLibrary} (hv : R.Valid) (c n j k : Nat) :
    ∃ ls k', randomLessons draws F R c n j k = some (ls, k') := by
  induction n generalizing j k with
  | zero => exact ⟨_, _, rfl⟩
  | succ n ih =>
    obtain ⟨m, k1, h1⟩ := between_some (draws := draws) hv.exercisesPerLesson k
    obtain ⟨ds, k2, h2⟩ := dependencies_some (draws := draws) hv.lessonDependencies j k1
    obtain ⟨ls, k3, h3⟩ := ih (j + 1) k2
    rw [randomLessons, h1, Option.bind_eq_bind, Option.bind_some]
    simp only [h2, h3, Option.bind_eq_bind, Option.bind_some]
    exact ⟨_, _, rfl⟩

theorem randomCourses_some {R : RandomLibrary} (hv : R.Valid) (n i k : Nat) :
    ∃ cs k', randomCourses draws F R n i k = some (cs, k') := by
  induction n generalizing i k with
  | zero => exact ⟨_, _, rfl⟩
  | succ n ih =>
    obtain ⟨m, k1, h1⟩ := between_some (draws := draws) hv.lessonsPerCourse k
    obtain ⟨ls, k2, h2⟩ := randomLessons_some (F := F) (draws := draws) hv i m 0 k1
    obtain ⟨ds, k3, h3⟩ := dependencies_some (draws := draws) hv.courseDependencies i k2
    obtain ⟨cs, k4, h4⟩ := ih (i + 1) k3
    rw [randomCourses, h1, Option.bind_eq_bind, Option.bind_some]
    simp only [h2, h3, h4, Option.bind_eq_bind, Option.bind_some]
    exact ⟨_, _, rfl⟩

/-- **C97, random libraries**: whatever is drawn, the library has the given number of courses, with numbers of lessons
and exercises in the given ranges, and dependencies on earlier units only. -/
theorem random_shape {R : RandomLibrary} {cs : List (TestCourse F)} (h : generateLibrary draws F R = some cs) :
    LibraryShape R cs := by
  unfold generateLibrary at h
  rw [Option.map_eq_some_iff] at h
  obtain ⟨⟨cs', k⟩, h, e⟩ := h
  have e' : cs' = cs := e
  subst e'
  obtain ⟨h1, h2⟩ := randomCourses_shape h
  exact ⟨h1, fun i c hi => by have := h2 i c hi; rwa [Nat.zero_add] at this⟩

/-- **C97, random libraries**: with ranges that are not empty a library is generated. -/
theorem random_generates {R : RandomLibrary} (hv : R.Valid) : ∃ cs, generateLibrary draws F R = some cs := by
  unfold generateLibrary
  obtain ⟨cs, k, h⟩ := randomCourses_some (F := F) (draws := draws) hv R.numCourses 0 0
  rw [h]
  exact ⟨cs, rfl⟩

/-- **C97, random libraries**: if there are courses and lessons to generate, empty ranges make it panic. -/
theorem random_panics {R : RandomLibrary} (hc : 1 ≤ R.numCourses) (hl : 1 ≤ R.lessonsPerCourse.1) (hv : ¬ R.Valid) :
    generateLibrary draws F R = none := by
  cases h : generateLibrary draws F R with
  | none => rfl
  | some cs =>
    exfalso
    apply hv
    unfold generateLibrary at h
    rw [Option.map_eq_some_iff] at h
    obtain ⟨⟨cs', k⟩, h, _⟩ := h
    obtain ⟨n, hn⟩ : ∃ n, R.numCourses = n + 1 := ⟨R.numCourses - 1, by omega⟩
    rw [hn] at h
    obtain ⟨m, k1, ls, k2, ds, k3, rest, h1, h2, h3, _⟩ := randomCourses_succ h
    have hm := between_range h1
    obtain ⟨n', hn'⟩ : ∃ n, m = n + 1 := ⟨m - 1, by omega⟩
    rw [hn'] at h2
    obtain ⟨m', k1', ds', k2', rest', h4, h5, _⟩ := randomLessons_succ h2
    have hm' := between_range h4
    refine ⟨?_, by omega, ?_, by omega⟩
    · by_contra hx
      rw [dependencies_none hx] at h3
      cases h3
    · by_contra hx
      rw [dependencies_none hx] at h5
      cases h5

end

/-! ### Opening -/

theorem shape_wellFormed {R : RandomLibrary} {cs : List (TestCourse F)} (h : LibraryShape R cs) : WellFormedAll cs := by
  constructor
  · intro c hc
    obtain ⟨i, hi⟩ := List.mem_iff_getElem?.1 hc
    have hs := h.courses i c hi
    refine ⟨by rw [hs.id]; rfl, ?_, ?_⟩
    · intro l hl
      obtain ⟨j, hj⟩ := List.mem_iff_getElem?.1 hl
      rw [(hs.lessons j l hj).id, hs.id]
      exact ⟨rfl, rfl⟩
    · rw [List.nodup_iff_getElem?_ne_getElem?]
      intro a b hab hb
      rw [List.getElem?_map, List.getElem?_map]
      intro e
      rw [List.length_map] at hb
      rw [List.getElem?_eq_getElem hb, List.getElem?_eq_getElem (by omega : a < c.lessons.length)] at e
      simp only [Option.map_some, Option.some.injEq] at e
      rw [(hs.lessons a _ (List.getElem?_eq_getElem (by omega))).id,
        (hs.lessons b _ (List.getElem?_eq_getElem hb)).id] at e
      simp at e
      omega
  · rw [List.nodup_iff_getElem?_ne_getElem?]
    intro a b hab hb
    rw [List.getElem?_map, List.getElem?_map]
    intro e
    rw [List.length_map] at hb
    rw [List.getElem?_eq_getElem hb, List.getElem?_eq_getElem (by omega : a < cs.length)] at e
    simp only [Option.map_some, Option.some.injEq] at e
    rw [(h.courses a _ (List.getElem?_eq_getElem (by omega))).id,
      (h.courses b _ (List.getElem?_eq_getElem hb)).id] at e
    simp at e
    omega

/-- What a random library says: only dependencies, on units of the same kind with smaller numbers. -/
theorem shape_says {R : RandomLibrary} {cs : List (TestCourse F)} (h : LibraryShape R cs) {u : TestId} {s : Links F}
    (hs : Says cs u s) : s.encompassed = [] ∧ s.superseded = [] ∧ ∀ v ∈ s.dependencies, v.Proper ∧
      v.course + v.lesson.getD 0 < u.course + u.lesson.getD 0 := by
  rcases hs with ⟨c, hc, rfl, rfl⟩ | ⟨c, hc, l, hl, rfl, rfl⟩
  · obtain ⟨i, hi⟩ := List.mem_iff_getElem?.1 hc
    have hs := h.courses i c hi
    obtain ⟨ds, hd, hsh⟩ := hs.dependencies
    refine ⟨hs.others.1, hs.others.2.1, ?_⟩
    intro v hv
    simp only [hd] at hv
    obtain ⟨d, hd, rfl⟩ := List.mem_map.1 hv
    refine ⟨proper_of_course rfl, ?_⟩
    rw [hs.id]
    simpa using hsh.earlier d hd
  · obtain ⟨i, hi⟩ := List.mem_iff_getElem?.1 hc
    have hs := h.courses i c hi
    obtain ⟨j, hj⟩ := List.mem_iff_getElem?.1 hl
    have hs := hs.lessons j l hj
    obtain ⟨ds, hd, hsh⟩ := hs.dependencies
    refine ⟨hs.others.1, hs.others.2.1, ?_⟩
    intro v hv
    simp only [hd] at hv
    obtain ⟨d, hd, rfl⟩ := List.mem_map.1 hv
    refine ⟨proper_of_lesson rfl, ?_⟩
    rw [hs.id]
    have := hsh.earlier d hd
    simp
    omega

theorem no_cycle {A : Type} {R : A → A → Prop} (f : A → Nat) (h : ∀ a b, R a b → f b < f a) : ¬ HasCycle R := by
  have key : ∀ {a b}, TransGen R a b → f b < f a := by
    intro a b hab
    induction hab with
    | single hr => exact h _ _ hr
    | tail _ hr ih => exact (h _ _ hr).trans ih
  rintro ⟨a, ha⟩
  exact absurd (key ha) (lt_irrefl _)

theorem shape_links {R : RandomLibrary} {cs : List (TestCourse F)} (h : LibraryShape R cs) : ProperLinks cs := by
  intro u s hs
  obtain ⟨h1, h2, h3⟩ := shape_says h hs
  rw [h1, h2]
  exact ⟨fun v hv => (h3 v hv).1, fun _ h => (nomatch h), fun _ h => (nomatch h)⟩

theorem shape_sensible {R : RandomLibrary} {cs : List (TestCourse F)} (h : LibraryShape R cs) : Sensible val cs where
  weights u s hs := by
    rw [(shape_says h hs).1]
    exact fun _ h => (nomatch h)
  dependencies := no_cycle (fun t => t.course + t.lesson.getD 0) (by
    rintro u v ⟨s, hs, hv⟩
    exact ((shape_says h hs).2.2 v hv).2)
  superseded := by
    rintro ⟨u, hu⟩
    have : ∀ a b, ¬ Replaces cs a b := by
      rintro a b ⟨s, hs, hb⟩
      rw [(shape_says h hs).2.1] at hb
      cases hb
    cases hu with
    | single h => exact this _ _ h
    | tail _ h => exact this _ _ h
  encompassed := no_cycle (fun t => t.course + t.lesson.getD 0) (by
    rintro u v ⟨s, hs, hv | ⟨w, hv⟩⟩
    · exact ((shape_says h hs).2.2 v hv).2
    · rw [(shape_says h hs).1] at hv
      cases hv)

/-- **C97, random libraries**: they can be built in a new directory, and then open. -/
theorem random_opens {draws : Nat → Nat} {R : RandomLibrary} {cs : List (TestCourse F)}
    (h : generateLibrary draws F R = some cs) (parent : Path) :
    ∃ bs, cs.mapM (courseBuilder val) = some bs ∧ ∃ fs, buildAll parent [] bs = (fs, true) ∧
      ∀ (M : Machine F) (r : Path), Holds M r fs → GeneratesProper M.disk → ∀ o : KeyOrder Str, o.Valid →
        ∃ N, ∀ fuel, N ≤ fuel → ∃ lib, openLibrary o fuel M.disk [] = some (some lib) := by
  have hs := random_shape h
  have hw := shape_wellFormed hs
  obtain ⟨bs, hb, fs, hf⟩ := test_library_builds (val := val) hw parent
  refine ⟨bs, hb, fs, hf, ?_⟩
  intro M r hM hg o ho
  obtain ⟨N, hN⟩ := test_library_opens hw (shape_links hs) hb hf hM hg o ho
  refine ⟨N, fun fuel hfu => ?_⟩
  obtain ⟨x, hx, hiff⟩ := hN fuel hfu
  obtain ⟨lib, rfl⟩ := Option.isSome_iff_exists.1 (hiff.2 (shape_sensible hs))
  exact ⟨lib, hx⟩

end Trane.TestLib
