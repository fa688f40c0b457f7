import Verif.Gen.Literacy
import Verif.Gen.Accept
import Verif.Library.ListingProps

/-!
# C53: the literacy generator
-/

namespace Trane.Gen.Literacy
open Trane.Store Trane.Library Trane.Gen Trane.Graph Trane.Filters

variable {α γ : Type}

/-! ### Specification -/

/-- The id of the reading or dictation lesson made from the directory `s.lesson`: the course id, `s`
and the kind, separated by `::`. -/
def lessonIdOf (c s : Str) (k : Kind) : Str := c ++ "::".toList ++ s ++ "::".toList ++ k.tag

/-- A reference in a lesson file: a short id of a lesson of the course stands for the lesson of the
given kind, anything else for itself. -/
def Means (c : Str) (short : List Str) (k : Kind) (ref id : Str) : Prop :=
  (ref ∈ short ∧ id = lessonIdOf c ref k) ∨ (ref ∉ short ∧ id = ref)

/-- `m` is the manifest of the lesson of kind `k` for the directory `s.lesson` with contents `l`. -/
structure IsLesson (c : Str) (short : List Str) (s : Str) (l : Lesson) (k : Kind) (m : LessonM α) :
    Prop where
  id : m.id = lessonIdOf c s k
  course : m.courseId = c
  /-- A reading lesson depends on what the lesson names. -/
  readingDeps : k = .reading → ∀ x, x ∈ m.deps ↔ ∃ d ∈ l.deps, Means c short .reading d x
  /-- A dictation lesson depends on its reading lesson and on the dictation lessons of the named
  lessons of the course. -/
  dictationDeps : k = .dictation → ∀ x, x ∈ m.deps ↔
    x = lessonIdOf c s .reading ∨ ∃ d ∈ l.deps, d ∈ short ∧ x = lessonIdOf c d .dictation
  enc : ∀ x w, (x, w) ∈ m.enc ↔ ∃ d, (d, w) ∈ l.enc ∧ Means c short k d x
  sup : ∀ x, x ∈ m.sup ↔ ∃ d ∈ l.sup, Means c short k d x
  metadata : m.metadata = some [("literacy_lesson".toList, [k.tag])]

/-- The one exercise of a lesson. -/
def IsExercise (c : Str) (m : LessonM α) (es : List (ExerciseM α)) : Prop :=
  ∃ e, es = [e] ∧ e.id = m.id ++ "::exercise".toList ∧ e.lessonId = m.id ∧ e.courseId = c

/-! ### Lemmas -/

theorem mem_sortIds' (l : List Str) (u : Str) : u ∈ sortIds' l ↔ u ∈ l :=
  (List.perm_insertionSort _ l).mem_iff

theorem mem_sortEnc (l : List (Str × ℚ)) (u : Str × ℚ) : u ∈ sortEnc l ↔ u ∈ l :=
  (List.perm_insertionSort _ l).mem_iff

theorem fullId_mem (k : Kind) (c : Str) {short : List Str} {s : Str} (h : s ∈ short) :
    fullId k c short s = lessonIdOf c s k := by
  unfold fullId
  rw [if_pos h]
  simp [tagged, lessonIdOf]

theorem means_iff (k : Kind) (c : Str) (short : List Str) (r x : Str) :
    Means c short k r x ↔ x = fullId k c short r := by
  unfold Means
  by_cases h : r ∈ short
  · simp [h, fullId_mem]
  · simp [h, fullId]

theorem fullId_ne (k : Kind) (c : Str) {short : List Str} {s : Str} (h : s ∈ short) :
    fullId k c short s ≠ s := by
  rw [fullId_mem k c h]
  intro e
  have := congrArg List.length e
  simp [lessonIdOf] at this
  omega

theorem lessonIdOf_ne_course (c s : Str) (k : Kind) : lessonIdOf c s k ≠ c := by
  intro e
  have := congrArg List.length e
  simp [lessonIdOf] at this

/-- The last character tells the kinds of ids apart. -/
theorem getLast_lessonIdOf (c s : Str) (k : Kind) :
    (lessonIdOf c s k).getLast? = (match k with | .reading => some 'g' | .dictation => some 'n') := by
  unfold lessonIdOf
  rw [List.getLast?_append]
  cases k <;> rfl

theorem lessonIdOf_inj {c s s' : Str} {k k' : Kind} (h : lessonIdOf c s k = lessonIdOf c s' k') :
    s = s' ∧ k = k' := by
  have h1 := getLast_lessonIdOf c s k
  rw [h, getLast_lessonIdOf] at h1
  have hk : k = k' := by cases k <;> cases k' <;> simp_all
  subst hk
  unfold lessonIdOf at h
  have := List.append_cancel_right (List.append_cancel_right h)
  exact ⟨List.append_cancel_left this, rfl⟩

theorem lesson_ne_exercise (c s s' : Str) (k k' : Kind) :
    lessonIdOf c s k ≠ lessonIdOf c s' k' ++ "::exercise".toList := by
  intro h
  have h1 := getLast_lessonIdOf c s k
  rw [h, List.getLast?_append] at h1
  have h2 : "::exercise".toList.getLast? = some 'e' := rfl
  rw [h2, Option.some_or] at h1
  cases k <;> · revert h1; decide

theorem isLesson_reading (R : Rest α γ) (c : CourseM α γ) (short : List Str) (s : Str) (l : Lesson)
    (hs : s ∈ short) : IsLesson c.id short s l .reading (reading R c short s l).1 := by
  refine ⟨fullId_mem _ _ hs, rfl, fun _ x => ?_, (fun h => by cases h), fun x w => ?_, fun x => ?_, rfl⟩
  · simp only [reading, mem_sortIds', List.mem_map, means_iff, eq_comm]
  · simp only [reading, mem_sortEnc, List.mem_map, means_iff, Prod.mk.injEq, Prod.exists]
    constructor
    · rintro ⟨a, b, h, rfl, rfl⟩; exact ⟨a, h, rfl⟩
    · rintro ⟨d, h, rfl⟩; exact ⟨d, w, h, rfl, rfl⟩
  · simp only [reading, mem_sortIds', List.mem_map, means_iff, eq_comm]

theorem isLesson_dictation (R : Rest α γ) (c : CourseM α γ) (short : List Str) (s : Str) (l : Lesson)
    (hs : s ∈ short) : IsLesson c.id short s l .dictation (dictation R c short s l).1 := by
  refine ⟨fullId_mem _ _ hs, rfl, (fun h => by cases h), fun _ x => ?_, fun x w => ?_, fun x => ?_, rfl⟩
  · simp only [dictation, mem_sortIds', List.mem_append, List.mem_singleton, List.mem_filterMap,
      fullId_mem Kind.reading c.id hs]
    constructor
    · rintro (⟨d, hd, h⟩ | h)
      · split at h
        · cases h
        · rename_i hne
          injection h with h
          right
          by_cases hm : d ∈ short
          · exact ⟨d, hd, hm, by rw [← h, fullId_mem _ _ hm]⟩
          · exact (hne (by unfold fullId; rw [if_neg hm])).elim
      · exact Or.inl h
    · rintro (h | ⟨d, hd, hm, rfl⟩)
      · exact Or.inr h
      · left
        refine ⟨d, hd, ?_⟩
        rw [if_neg (fullId_ne _ _ hm), fullId_mem _ _ hm]
  · simp only [dictation, mem_sortEnc, List.mem_map, means_iff, Prod.mk.injEq, Prod.exists]
    constructor
    · rintro ⟨a, b, h, rfl, rfl⟩; exact ⟨a, h, rfl⟩
    · rintro ⟨d, h, rfl⟩; exact ⟨d, w, h, rfl, rfl⟩
  · simp only [dictation, mem_sortIds', List.mem_map, means_iff, eq_comm]

theorem isExercise (R : Rest α γ) (c : CourseM α γ) (short : List Str) (s : Str) (l : Lesson) :
    IsExercise c.id (reading R c short s l).1 (reading R c short s l).2 ∧
    IsExercise c.id (dictation R c short s l).1 (dictation R c short s l).2 := by
  constructor <;> exact ⟨_, rfl, by simp [exerciseOf, tagged, reading, dictation], rfl, rfl⟩

/-! ### Properties of the generated manifests -/

variable (R : Rest α γ) (dict : Bool) (c : CourseM α γ) (ls : AMap Str Lesson) (ins : Option α)

/-- **C53, every generated lesson** is the reading lesson of a lesson of the course or, if dictation is
enabled, its dictation lesson, with exactly one exercise. -/
theorem lessons_sound (m : LessonM α) (es : List (ExerciseM α))
    (h : (m, es) ∈ (generated R dict c ls ins).lessons) :
    ∃ s l k, (s, l) ∈ ls ∧ (k = .reading ∨ dict = true) ∧ IsLesson c.id ls.keys s l k m ∧
      IsExercise c.id m es := by
  simp only [generated, List.mem_flatMap] at h
  obtain ⟨⟨s, l⟩, hm, h⟩ := h
  have hk : s ∈ ls.keys := List.mem_map.2 ⟨(s, l), hm, rfl⟩
  unfold manifests at h
  obtain ⟨e1, e2⟩ := isExercise R c ls.keys s l
  split at h
  · rename_i hd
    simp only [List.mem_cons, List.not_mem_nil, or_false] at h
    rcases h with h | h
    · cases h
      exact ⟨s, l, .reading, hm, Or.inl rfl, isLesson_reading R c _ s l hk, e1⟩
    · cases h
      exact ⟨s, l, .dictation, hm, Or.inr hd, isLesson_dictation R c _ s l hk, e2⟩
  · simp only [List.mem_singleton] at h
    cases h
    exact ⟨s, l, .reading, hm, Or.inl rfl, isLesson_reading R c _ s l hk, e1⟩

/-- **C53, every lesson of the course** gets a reading lesson and, if enabled, a dictation lesson. -/
theorem lessons_complete (s : Str) (l : Lesson) (k : Kind) (hm : (s, l) ∈ ls)
    (hk : k = .reading ∨ dict = true) :
    ∃ m es, (m, es) ∈ (generated R dict c ls ins).lessons ∧ IsLesson c.id ls.keys s l k m ∧
      IsExercise c.id m es := by
  have hs : s ∈ ls.keys := List.mem_map.2 ⟨(s, l), hm, rfl⟩
  obtain ⟨e1, e2⟩ := isExercise R c ls.keys s l
  simp only [generated, List.mem_flatMap]
  cases k with
  | reading =>
    refine ⟨_, _, ⟨(s, l), hm, ?_⟩, isLesson_reading R c _ s l hs, e1⟩
    unfold manifests
    split <;> simp
  | dictation =>
    have hd : dict = true := by rcases hk with h | h; cases h; exact h
    refine ⟨_, _, ⟨(s, l), hm, ?_⟩, isLesson_dictation R c _ s l hs, e2⟩
    unfold manifests
    rw [if_pos hd]
    simp

/-- **C53, distinct ids**: the course, its lessons and their exercises, whatever characters the short
ids contain. -/
theorem ids_distinct (hn : ls.keys.Nodup) :
    (unitIds [(⟨c, (generated R dict c ls ins).lessons⟩ : Opened α γ)]).Nodup := by
  simp only [unitIds, List.flatMap_cons, List.flatMap_nil, List.append_nil]
  rw [List.nodup_cons]
  constructor
  · intro h
    obtain ⟨⟨m, es⟩, hx, h⟩ := List.mem_flatMap.1 h
    obtain ⟨s, l, k, _, _, hl, e, rfl, he, _⟩ := lessons_sound R dict c ls ins m es hx
    simp only [List.map_cons, List.map_nil, List.mem_cons, List.not_mem_nil, or_false] at h
    rcases h with h | h
    · rw [hl.id] at h; exact lessonIdOf_ne_course _ _ _ h.symm
    · rw [he, hl.id] at h
      have := congrArg List.length h
      simp [lessonIdOf] at this
  · simp only [generated, List.flatMap_assoc]
    have hnd : ls.Nodup := List.Nodup.of_map _ hn
    refine nodup_flatMap_disjoint _ _ hnd (fun x hx => ?_) ?_
    · have hs : x.1 ∈ ls.keys := List.mem_map.2 ⟨x, hx, rfl⟩
      unfold manifests
      split
      · simp only [List.flatMap_cons, List.flatMap_nil, List.append_nil, reading, dictation, exerciseOf,
          List.map_cons, List.map_nil, fullId_mem _ _ hs, tagged]
        have r1 := lesson_ne_exercise c.id x.1 x.1
        have r2 : lessonIdOf c.id x.1 .reading ≠ lessonIdOf c.id x.1 .dictation :=
          fun h => by have := (lessonIdOf_inj h).2; cases this
        have e := r1 .reading .reading
        have e' := r1 .reading .dictation
        have e'' := r1 .dictation .dictation
        have e3 := r1 .dictation .reading
        simp only [List.nodup_cons, List.cons_append, List.nil_append, List.mem_cons, List.not_mem_nil,
          or_false, not_or, List.nodup_nil, and_true, not_false_iff]
        refine ⟨⟨e, r2, e'⟩, ⟨e3.symm, ?_⟩, e''⟩
        intro h
        exact r2 (List.append_cancel_right h)
      · simp only [List.flatMap_cons, List.flatMap_nil, List.append_nil, reading, exerciseOf,
          List.map_cons, List.map_nil, fullId_mem _ _ hs, tagged, List.nodup_cons, List.mem_singleton,
          List.not_mem_nil, not_false_iff, List.nodup_nil, and_true]
        exact lesson_ne_exercise c.id x.1 x.1 .reading .reading
    · have key : ∀ x ∈ ls, ∀ z, z ∈ (manifests R dict c ls.keys x).flatMap
          (fun l => l.1.id :: l.2.map (·.id)) →
          ∃ k, z = lessonIdOf c.id x.1 k ∨ z = lessonIdOf c.id x.1 k ++ "::exercise".toList := by
        intro x hx z hz
        have hs : x.1 ∈ ls.keys := List.mem_map.2 ⟨x, hx, rfl⟩
        obtain ⟨y, hy, hz⟩ := List.mem_flatMap.1 hz
        have hy' : y = reading R c ls.keys x.1 x.2 ∨ y = dictation R c ls.keys x.1 x.2 := by
          unfold manifests at hy
          split at hy
          · simpa using hy
          · left; simpa using hy
        rcases hy' with rfl | rfl
        · simp only [reading, exerciseOf, fullId_mem _ _ hs, List.map_cons, List.map_nil,
            List.mem_cons, List.not_mem_nil, or_false] at hz
          refine ⟨.reading, hz.imp id fun h => ?_⟩
          rw [h]; simp [tagged]
        · simp only [dictation, exerciseOf, fullId_mem _ _ hs, List.map_cons, List.map_nil,
            List.mem_cons, List.not_mem_nil, or_false] at hz
          refine ⟨.dictation, hz.imp id fun h => ?_⟩
          rw [h]; simp [tagged]
      intro x hx y hy z hz hz'
      have inj : x.1 = y.1 → x = y := fun e => List.inj_on_of_nodup_map hn hx hy e
      obtain ⟨k, h⟩ := key x hx z hz
      obtain ⟨k', h'⟩ := key y hy z hz'
      rcases h with rfl | rfl <;> rcases h' with h' | h'
      · exact inj (lessonIdOf_inj h').1
      · exact (lesson_ne_exercise _ _ _ _ _ h').elim
      · exact (lesson_ne_exercise _ _ _ _ _ h'.symm).elim
      · exact inj (lessonIdOf_inj (List.append_cancel_right h')).1

/-- The generator meets the assumption of the library theorems. -/
theorem proper (m : LessonM α) (es : List (ExerciseM α))
    (h : (m, es) ∈ (generated R dict c ls ins).lessons) :
    m.courseId = c.id ∧ m.id ≠ [] ∧ ∀ e ∈ es, e.lessonId = m.id ∧ e.courseId = c.id ∧ e.id ≠ [] := by
  obtain ⟨s, l, k, _, _, hl, e, rfl, he, h1, h2⟩ := lessons_sound R dict c ls ins m es h
  refine ⟨hl.course, by rw [hl.id]; simp [lessonIdOf], fun e' h' => ?_⟩
  rw [List.mem_singleton] at h'
  subst h'
  exact ⟨h1, h2, by rw [he]; simp⟩

/-! ### Cycles -/

/-- Lesson `a` of the course names lesson `b` of the course through `f`, by its short id or by the full id
of one of the lessons generated from it. -/
def Names (c : Str) (ls : AMap Str Lesson) (f : Lesson → Str → Prop) (a b : Str) : Prop :=
  ∃ l, (a, l) ∈ ls ∧ b ∈ ls.keys ∧ ∃ d, f l d ∧ (d = b ∨ ∃ k, d = lessonIdOf c b k)

theorem no_cycle_generated (gs : List (LessonM α × List (ExerciseM α))) (c : Str) (ls : AMap Str Lesson)
    (f : Lesson → Str → Prop) (g : LessonM α → Str → Prop)
    (hgen : ∀ x ∈ gs, ∃ s k, s ∈ ls.keys ∧ x.1.id = lessonIdOf c s k)
    (hedge : ∀ x ∈ gs, ∀ a k b k', x.1.id = lessonIdOf c a k → b ∈ ls.keys →
      g x.1 (lessonIdOf c b k') → Names c ls f a b ∨ (a = b ∧ k = .dictation ∧ k' = .reading))
    (hacyc : ¬ HasCycle (Names c ls f)) : ¬ HasCycle (LessonRel gs g) := by
  rintro ⟨u, hu⟩
  have hout : ∀ v w, LessonRel gs g v w → ∃ s k, s ∈ ls.keys ∧ v = lessonIdOf c s k := by
    rintro v w ⟨x, hx, rfl, _⟩
    exact hgen x hx
  have hstart : ∃ s k, s ∈ ls.keys ∧ u = lessonIdOf c s k := by
    obtain ⟨w, hw, _⟩ := Relation.TransGen.head'_iff.1 hu
    exact hout _ _ hw
  obtain ⟨a, k, ha, rfl⟩ := hstart
  have key : ∀ v, Relation.TransGen (LessonRel gs g) (lessonIdOf c a k) v →
      ∀ b k', b ∈ ls.keys → v = lessonIdOf c b k' →
      Relation.TransGen (Names c ls f) a b ∨ (a = b ∧ k = .dictation ∧ k' = .reading) := by
    intro v hv
    induction hv with
    | single h =>
      rintro b k' hb rfl
      obtain ⟨x, hx, hid, hg⟩ := h
      exact (hedge x hx a k b k' hid hb hg).imp .single id
    | @tail w v _ h ih =>
      rintro b k' hb rfl
      obtain ⟨s, k'', hs, rfl⟩ := hout _ _ h
      obtain ⟨x, hx, hid, hg⟩ := h
      rcases ih s k'' hs rfl with h1 | ⟨h0, h1, h1'⟩ <;>
        rcases hedge x hx s k'' b k' hid hb hg with h2 | ⟨h2, h3, h4⟩
      · exact Or.inl (h1.tail h2)
      · subst h2; exact Or.inl h1
      · exact Or.inl (.single (h0 ▸ h2))
      · rw [h1'] at h3; cases h3
  rcases key _ hu a k ha rfl with h | ⟨_, h1, h2⟩
  · exact hacyc ⟨a, h⟩
  · rw [h1] at h2; cases h2

theorem names_of_means {c : Str} {ls : AMap Str Lesson} {f : Lesson → Str → Prop} {s : Str} {l : Lesson}
    (hm : (s, l) ∈ ls) {k k' : Kind} {d b : Str} (hd : f l d) (hb : b ∈ ls.keys)
    (h : Means c ls.keys k d (lessonIdOf c b k')) : Names c ls f s b := by
  refine ⟨l, hm, hb, d, hd, ?_⟩
  rcases h with ⟨_, h⟩ | ⟨_, h⟩
  · exact Or.inl (lessonIdOf_inj h).1.symm
  · exact Or.inr ⟨k', h.symm⟩

theorem generated_from (m : LessonM α × List (ExerciseM α))
    (h : m ∈ (generated R dict c ls ins).lessons) :
    ∃ s k, s ∈ ls.keys ∧ m.1.id = lessonIdOf c.id s k := by
  obtain ⟨s, l, k, hm, _, hl, _⟩ := lessons_sound R dict c ls ins m.1 m.2 h
  exact ⟨s, k, List.mem_map.2 ⟨(s, l), hm, rfl⟩, hl.id⟩

theorem deps_edge (x : LessonM α × List (ExerciseM α)) (hx : x ∈ (generated R dict c ls ins).lessons)
    (f : Lesson → Str → Prop) (hf : ∀ l d, d ∈ l.deps → f l d)
    (a : Str) (k : Kind) (b : Str) (k' : Kind) (hid : x.1.id = lessonIdOf c.id a k) (hb : b ∈ ls.keys)
    (h : lessonIdOf c.id b k' ∈ x.1.deps) :
    Names c.id ls f a b ∨ (a = b ∧ k = .dictation ∧ k' = .reading) := by
  obtain ⟨s, l, k2, hm, _, hl, _⟩ := lessons_sound R dict c ls ins x.1 x.2 hx
  obtain ⟨rfl, rfl⟩ := lessonIdOf_inj (hid.symm.trans hl.id)
  cases k with
  | reading =>
    obtain ⟨d, hd, hmean⟩ := (hl.readingDeps rfl _).1 h
    exact Or.inl (names_of_means hm (hf l d hd) hb hmean)
  | dictation =>
    rcases (hl.dictationDeps rfl _).1 h with h | ⟨d, hd, hds, h⟩
    · obtain ⟨h1, h2⟩ := lessonIdOf_inj h
      exact Or.inr ⟨h1.symm, rfl, h2⟩
    · exact Or.inl ⟨l, hm, hb, d, hf l d hd, Or.inl (lessonIdOf_inj h).1.symm⟩

/-- **C53, acyclic dependencies**: if the lessons of the course do not name each other in a cycle, the
generated reading and dictation lessons have no cyclic dependencies. -/
theorem dependencies_acyclic (hacyc : ¬ HasCycle (Names c.id ls (fun l d => d ∈ l.deps))) :
    ¬ HasCycle (LessonRel (generated R dict c ls ins).lessons (fun m v => v ∈ m.deps)) :=
  no_cycle_generated _ c.id ls _ _ (generated_from R dict c ls ins)
    (fun x hx a k b k' hid hb h =>
      deps_edge R dict c ls ins x hx _ (fun _ _ h => h) a k b k' hid hb h) hacyc

theorem enc_edge (x : LessonM α × List (ExerciseM α)) (hx : x ∈ (generated R dict c ls ins).lessons)
    (f : Lesson → Str → Prop) (hf : ∀ l d w, (d, w) ∈ l.enc → f l d)
    (a : Str) (k : Kind) (b : Str) (k' : Kind) (hid : x.1.id = lessonIdOf c.id a k) (hb : b ∈ ls.keys)
    (w : ℚ) (h : (lessonIdOf c.id b k', w) ∈ x.1.enc) : Names c.id ls f a b := by
  obtain ⟨s, l, k2, hm, _, hl, _⟩ := lessons_sound R dict c ls ins x.1 x.2 hx
  obtain ⟨rfl, rfl⟩ := lessonIdOf_inj (hid.symm.trans hl.id)
  obtain ⟨d, hd, hmean⟩ := (hl.enc _ _).1 h
  exact names_of_means hm (hf l d w hd) hb hmean

/-- Likewise for dependencies and encompassed lessons together. -/
theorem encompassed_acyclic
    (hacyc : ¬ HasCycle (Names c.id ls (fun l d => d ∈ l.deps ∨ ∃ w, (d, w) ∈ l.enc))) :
    ¬ HasCycle (LessonRel (generated R dict c ls ins).lessons
      (fun m v => v ∈ m.deps ∨ ∃ w, (v, w) ∈ m.enc)) := by
  refine no_cycle_generated _ c.id ls _ _ (generated_from R dict c ls ins) ?_ hacyc
  rintro x hx a k b k' hid hb (h | ⟨w, h⟩)
  · exact deps_edge R dict c ls ins x hx _ (fun _ _ h => Or.inl h) a k b k' hid hb h
  · exact Or.inl (enc_edge R dict c ls ins x hx _ (fun _ _ w h => Or.inr ⟨w, h⟩) a k b k' hid hb w h)

/-- Likewise for superseded lessons. -/
theorem superseded_acyclic (hacyc : ¬ HasCycle (Names c.id ls (fun l d => d ∈ l.sup))) :
    ¬ HasCycle (LessonRel (generated R dict c ls ins).lessons (fun m v => v ∈ m.sup)) := by
  refine no_cycle_generated _ c.id ls _ _ (generated_from R dict c ls ins) ?_ hacyc
  intro x hx a k b k' hid hb h
  obtain ⟨s, l, k2, hm, _, hl, _⟩ := lessons_sound R dict c ls ins x.1 x.2 hx
  obtain ⟨rfl, rfl⟩ := lessonIdOf_inj (hid.symm.trans hl.id)
  obtain ⟨d, hd, hmean⟩ := (hl.sup _).1 h
  exact Or.inl (names_of_means hm hd hb hmean)

theorem means_course {c : Str} {short : List Str} {k : Kind} {d : Str} (h : Means c short k d c) :
    d = c := by
  rcases h with ⟨_, h⟩ | ⟨_, h⟩
  · exact (lessonIdOf_ne_course _ _ _ h.symm).elim
  · exact h.symm

/-- **C53, the library accepts the generated course**: if the lessons name each other without cycles, none
of them names the course, and the weights are valid, the generated course meets every condition for
opening a library. -/
theorem acceptable (hn : ls.keys.Nodup)
    (hdep : ¬ HasCycle (Names c.id ls (fun l d => d ∈ l.deps ∨ ∃ w, (d, w) ∈ l.enc)))
    (hsup : ¬ HasCycle (Names c.id ls (fun l d => d ∈ l.sup)))
    (hself : ∀ x ∈ ls, c.id ∉ x.2.deps ∧ (∀ w, (c.id, w) ∉ x.2.enc) ∧ c.id ∉ x.2.sup)
    (hw : ∀ x ∈ ls, ∀ e ∈ x.2.enc, 0 ≤ e.2 ∧ e.2 ≤ 1)
    (hc : c.id ∉ c.deps ∧ (∀ w, (c.id, w) ∉ c.enc) ∧ c.id ∉ c.sup)
    (hcw : ∀ e ∈ c.enc, 0 ≤ e.2 ∧ e.2 ≤ 1) :
    Acceptable [(⟨c, (generated R dict c ls ins).lessons⟩ : Opened α γ)] := by
  have hdep' : ¬ HasCycle (Names c.id ls (fun l d => d ∈ l.deps)) := by
    rintro ⟨u, hu⟩
    refine hdep ⟨u, Relation.TransGen.mono ?_ u u hu⟩
    rintro a b ⟨l, h1, h2, d, h3, h4⟩
    exact ⟨l, h1, h2, d, Or.inl h3, h4⟩
  refine acceptable_course c _ (ids_distinct R dict c ls ins hn) ?_
    (dependencies_acyclic R dict c ls ins hdep') (encompassed_acyclic R dict c ls ins hdep)
    (superseded_acyclic R dict c ls ins hsup) ?_ hc hcw
  · intro x hx
    obtain ⟨s, l, k, hm, _, hl, _⟩ := lessons_sound R dict c ls ins x.1 x.2 hx
    obtain ⟨h1, h2, h3⟩ := hself _ hm
    refine ⟨fun h => ?_, fun w h => ?_, fun h => ?_⟩
    · cases k with
      | reading =>
        obtain ⟨d, hd, hmean⟩ := (hl.readingDeps rfl _).1 h
        exact h1 (means_course hmean ▸ hd)
      | dictation =>
        rcases (hl.dictationDeps rfl _).1 h with h | ⟨d, _, _, h⟩
        · exact lessonIdOf_ne_course _ _ _ h.symm
        · exact lessonIdOf_ne_course _ _ _ h.symm
    · obtain ⟨d, hd, hmean⟩ := (hl.enc _ _).1 h
      exact h2 w (means_course hmean ▸ hd)
    · obtain ⟨d, hd, hmean⟩ := (hl.sup _).1 h
      exact h3 (means_course hmean ▸ hd)
  · intro x hx e he
    obtain ⟨s, l, k, hm, _, hl, _⟩ := lessons_sound R dict c ls ins x.1 x.2 hx
    obtain ⟨d, hd, _⟩ := (hl.enc e.1 e.2).1 he
    exact hw _ hm (d, e.2) hd

end Trane.Gen.Literacy
