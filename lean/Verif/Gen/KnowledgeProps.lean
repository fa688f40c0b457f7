import Verif.Gen.KnowledgeFiles
import Verif.Gen.Accept
import Verif.Library.ListingProps

/-!
# C52: the lessons and exercises of a knowledge base course
-/

namespace Trane.Gen.Knowledge
open Trane.Store Trane.Library Trane.Gen Trane.Graph Trane.Filters
open Trane.Gen.Literacy (stripSuffix stripSuffix_iff foldlM_isSome)

variable {α γ : Type}

/-! ### Specification -/

/-- The full id of the lesson of the directory `s.lesson`. -/
def lessonIdOf (c s : Str) : Str := c ++ "::".toList ++ s

/-- The full id of the exercise of `x.front.md` in the directory `s.lesson`. -/
def exerciseIdOf (c s x : Str) : Str := c ++ "::".toList ++ s ++ "::".toList ++ x

/-- A reference in a lesson file: the short id of a lesson of the course stands for its full id,
anything else for itself. -/
def Means (c : Str) (short : List Str) (ref id : Str) : Prop :=
  (ref ∈ short ∧ id = lessonIdOf c ref) ∨ (ref ∉ short ∧ id = ref)

/-- `m` is the manifest of the lesson `s.lesson` with contents `l`. -/
structure IsLesson (R : Rest α) (c : Str) (short : List Str) (s : Str) (l : Lesson) (m : LessonM α) :
    Prop where
  id : m.id = lessonIdOf c s
  course : m.courseId = c
  deps : List.Forall₂ (Means c short) l.deps m.deps
  enc : List.Forall₂ (fun a b => Means c short a.1 b.1 ∧ a.2 = b.2) l.enc m.enc
  sup : List.Forall₂ (Means c short) l.sup m.sup
  metadata : m.metadata = l.metadata
  rest : ∃ name, (l.name = some name ∨ l.name = none ∧ name = "Lesson ".toList ++ s) ∧
    m.rest = R.lesson name l.descr l.hasInstr l.hasMaterial

/-- The flashcard of an exercise: its texts if inlined, else the names of its files. -/
def IsCard (inlined : Bool) (e : Exercise) (a : Card) : Prop :=
  (inlined = true ∧ ∃ f, e.front = some f ∧
    ((e.back = none ∧ a = .inline f none) ∨ ∃ b, e.back = some (some b) ∧ a = .inline f (some b))) ∨
  (inlined = false ∧ ((e.back = none ∧ a = .paths (e.shortId ++ ".front.md".toList) none) ∨
    (e.back ≠ none ∧
      a = .paths (e.shortId ++ ".front.md".toList) (some (e.shortId ++ ".back.md".toList)))))

/-- `m` is the manifest of the exercise `e` of the lesson `l` with short id `s`. -/
structure IsExercise (R : Rest α) (inlined : Bool) (c s : Str) (l : Lesson) (e : Exercise)
    (m : ExerciseM α) : Prop where
  id : m.id = exerciseIdOf c s e.shortId
  lesson : m.lessonId = lessonIdOf c s
  course : m.courseId = c
  rest : ∃ name type a,
    (e.name = some name ∨ e.name = none ∧ name = "Exercise ".toList ++ e.shortId) ∧
    (e.type = some type ∨ e.type = none ∧ l.defaultType = some type ∨
      e.type = none ∧ l.defaultType = none ∧ type = "Procedural".toList) ∧
    IsCard inlined e a ∧ m.rest = R.exercise s name e.descr type a

/-- `s.lesson` is a directory of the course with the given files. -/
def LessonDir (dirs : List (Str × List (Str × Content))) (s : Str) (files : List (Str × Content)) :
    Prop := (s ++ ".lesson".toList, files) ∈ dirs

/-! ### Lemmas -/

theorem tagged_lesson (c s : Str) : tagged c [s] = lessonIdOf c s := by simp [tagged, lessonIdOf]

theorem tagged_exercise (c s x : Str) : tagged c [s, x] = exerciseIdOf c s x := by
  simp [tagged, exerciseIdOf]

theorem means_toFull (c : Str) (short : List Str) (r : Str) : Means c short r (toFull c short r) := by
  unfold Means toFull
  by_cases h : r ∈ short
  · rw [if_pos h, tagged_lesson]; exact Or.inl ⟨h, rfl⟩
  · rw [if_neg h]; exact Or.inr ⟨h, rfl⟩

theorem forall₂_map {A B : Type} (P : A → B → Prop) (f : A → B) (xs : List A) (h : ∀ x, P x (f x)) :
    List.Forall₂ P xs (xs.map f) := by
  induction xs with
  | nil => exact .nil
  | cons x xs ih => exact .cons (h x) ih

theorem isLesson_manifest (R : Rest α) (c : Str) (short : List Str) (l : Lesson) :
    IsLesson R c short l.shortId l (lessonManifest R c (convert c short l)) := by
  refine ⟨tagged_lesson _ _, rfl, forall₂_map _ _ _ (means_toFull c short),
    forall₂_map _ _ _ (fun x => ⟨means_toFull c short x.1, rfl⟩),
    forall₂_map _ _ _ (means_toFull c short), rfl, ?_⟩
  cases hn : l.name with
  | none => exact ⟨_, Or.inr ⟨rfl, rfl⟩, by simp [lessonManifest, convert, hn]⟩
  | some n => exact ⟨n, Or.inl rfl, by simp [lessonManifest, convert, hn]⟩

theorem isCard_of {inlined : Bool} {e : Exercise} {a : Card} (h : card inlined e = some a) :
    IsCard inlined e a := by
  unfold card at h
  cases inlined with
  | true =>
    rw [if_pos rfl] at h
    left
    refine ⟨rfl, ?_⟩
    split at h
    · rename_i f hf hb
      injection h with h
      exact ⟨f, hf, Or.inl ⟨hb, h.symm⟩⟩
    · rename_i f b hf hb
      injection h with h
      exact ⟨f, hf, Or.inr ⟨b, hb, h.symm⟩⟩
    · cases h
  | false =>
    rw [if_neg (by decide)] at h
    injection h with h
    right
    refine ⟨rfl, ?_⟩
    cases hb : e.back with
    | none => rw [hb] at h; exact Or.inl ⟨rfl, h.symm⟩
    | some b => rw [hb] at h; exact Or.inr ⟨by simp, h.symm⟩

theorem isExercise_of {R : Rest α} {inlined : Bool} {c : Str} (l : Lesson) {e : Exercise}
    {m : ExerciseM α} (h : exerciseManifest R inlined c l.shortId l.defaultType e = some m) :
    IsExercise R inlined c l.shortId l e m := by
  unfold exerciseManifest at h
  rw [Option.bind_eq_bind, Option.bind_eq_some_iff] at h
  obtain ⟨a, ha, h⟩ := h
  injection h with h
  subst h
  refine ⟨tagged_exercise _ _ _, tagged_lesson _ _, rfl,
    e.name.getD ("Exercise ".toList ++ e.shortId), e.type.getD (l.defaultType.getD "Procedural".toList), a,
    ?_, ?_, isCard_of ha, rfl⟩
  · cases e.name <;> simp
  · cases e.type <;> cases l.defaultType <;> simp

/-! ### The lesson directories -/

theorem openLessons_fold (order : Groups → Groups) (dirs : List (Str × List (Str × Content)))
    (hn : (dirs.map (·.1)).Nodup) (m0 : Lessons) (hm0 : m0.keys.Nodup) (m : Lessons)
    (h : dirs.foldlM (fun m d =>
      match stripSuffix lessonSuffix d.1 with
      | some s => (openLesson order s d.2).map (fun l => AMap.put m s l)
      | none => some m) m0 = some m) :
    m.keys.Nodup ∧ (∀ s files, LessonDir dirs s files → (openLesson order s files).isSome = true) ∧
    ∀ s l, m.find s = some l ↔ (∃ files, LessonDir dirs s files ∧ openLesson order s files = some l) ∨
      ((∀ files, ¬ LessonDir dirs s files) ∧ m0.find s = some l) := by
  induction dirs generalizing m0 with
  | nil =>
    have : m0 = m := by simpa using h
    subst this
    exact ⟨hm0, by simp [LessonDir], by simp [LessonDir]⟩
  | cons d dirs ih =>
    rw [List.foldlM_cons, Option.bind_eq_bind, Option.bind_eq_some_iff] at h
    obtain ⟨m1, h1, h2⟩ := h
    rw [List.map_cons, List.nodup_cons] at hn
    have hnot : ∀ fs, (d.1, fs) ∉ dirs := fun ct hm => hn.1 (List.mem_map.2 ⟨_, hm, rfl⟩)
    have hstep : (m1 = m0 ∧ ∀ (s : Str) files, (s ++ ".lesson".toList, files) ≠ d) ∨
        ∃ s l, d.1 = s ++ ".lesson".toList ∧ openLesson order s d.2 = some l ∧ m1 = m0.put s l := by
      cases hs : stripSuffix lessonSuffix d.1 with
      | none =>
        rw [hs] at h1
        injection h1 with h1
        refine Or.inl ⟨h1.symm, ?_⟩
        rintro s files rfl
        have := (stripSuffix_iff lessonSuffix _ s).2 (rfl : s ++ ".lesson".toList = s ++ lessonSuffix)
        rw [this] at hs
        cases hs
      | some s =>
        rw [hs] at h1
        have hd := (stripSuffix_iff _ _ _).1 hs
        dsimp only at h1
        rw [Option.map_eq_some_iff] at h1
        obtain ⟨l, hl, rfl⟩ := h1
        exact Or.inr ⟨s, l, hd, hl, rfl⟩
    have hdir : ∀ s files, LessonDir (d :: dirs) s files ↔
        (s ++ ".lesson".toList, files) = d ∨ LessonDir dirs s files := by
      intro s files
      unfold LessonDir
      rw [List.mem_cons]
    rcases hstep with ⟨rfl, hno⟩ | ⟨s, l, hd, hl, rfl⟩
    · obtain ⟨r1, r2, r3⟩ := ih hn.2 _ hm0 h2
      have hdir' : ∀ s files, LessonDir (d :: dirs) s files ↔ LessonDir dirs s files := fun s files => by
        rw [hdir]; exact ⟨fun h => h.resolve_left (hno s files), Or.inr⟩
      simp only [hdir']
      exact ⟨r1, r2, r3⟩
    · obtain ⟨r1, r2, r3⟩ := ih hn.2 _ (AMap.nodup_keys_put _ _ _ hm0) h2
      have hnod : ∀ files, ¬ LessonDir dirs s files := fun files h => hnot files (hd ▸ h)
      refine ⟨r1, ?_, ?_⟩
      · intro s' files hs'
        rcases (hdir _ _).1 hs' with h | h
        · have e1 := congrArg Prod.fst h
          have e2 := congrArg Prod.snd h
          have : s' = s := List.append_cancel_right (e1.trans hd)
          subst this
          rw [show files = d.2 from e2, hl]; rfl
        · exact r2 _ _ h
      · intro s' l'
        rw [r3]
        by_cases hs : s' = s
        · subst hs
          rw [AMap.find_put_self]
          have hthis : LessonDir (d :: dirs) s' d.2 := (hdir _ _).2 (Or.inl (by rw [← hd]))
          constructor
          · rintro (⟨files, hf, _⟩ | ⟨_, h⟩)
            · exact (hnod files hf).elim
            · injection h with h
              subst h
              exact Or.inl ⟨d.2, hthis, hl⟩
          · rintro (⟨files, hf, h⟩ | ⟨h, _⟩)
            · right
              refine ⟨hnod, ?_⟩
              rcases (hdir _ _).1 hf with e | e
              · rw [← hl, ← h, ← show files = d.2 from congrArg Prod.snd e]
              · exact (hnod files e).elim
            · exact (h _ hthis).elim
        · rw [AMap.find_put_ne _ _ (Ne.symm hs)]
          have hdir' : ∀ files, LessonDir (d :: dirs) s' files ↔ LessonDir dirs s' files :=
            fun files => by
              rw [hdir]
              refine ⟨fun h => h.resolve_left ?_, Or.inr⟩
              intro e
              exact hs (List.append_cancel_right ((congrArg Prod.fst e).trans hd))
          simp only [hdir']

theorem openLessons_exact (order : Groups → Groups) (dirs : List (Str × List (Str × Content)))
    (hn : (dirs.map (·.1)).Nodup) (m : Lessons) (h : openLessons order dirs = some m) :
    m.keys.Nodup ∧ (∀ s files, LessonDir dirs s files → (openLesson order s files).isSome = true) ∧
    ∀ s l, (s, l) ∈ m ↔ ∃ files, LessonDir dirs s files ∧ openLesson order s files = some l := by
  obtain ⟨r1, r2, r3⟩ := openLessons_fold order dirs hn [] (by simp [AMap.keys]) m h
  refine ⟨r1, r2, fun s l => ?_⟩
  have : (s, l) ∈ m ↔ m.find s = some l := ⟨AMap.find_of_mem r1, AMap.mem_of_find⟩
  rw [this, r3]
  simp [AMap.find]

theorem openLessons_succeeds_iff (order : Groups → Groups) (dirs : List (Str × List (Str × Content))) :
    (openLessons order dirs).isSome = true ↔
      ∀ s files, LessonDir dirs s files → (openLesson order s files).isSome = true := by
  unfold openLessons
  rw [foldlM_isSome _ (fun d => ∀ s, d.1 = s ++ ".lesson".toList →
    (openLesson order s d.2).isSome = true)]
  · constructor
    · rintro h s files h2; exact h _ h2 s rfl
    · rintro h ⟨n, fs⟩ hd s rfl; exact h s fs hd
  · intro m d
    cases hs : stripSuffix lessonSuffix d.1 with
    | none =>
      simp only [Option.isSome_some, true_iff]
      intro s he
      rw [(stripSuffix_iff lessonSuffix _ s).2 he] at hs
      cases hs
    | some s =>
      have hd := (stripSuffix_iff _ _ _).1 hs
      dsimp only
      rw [Option.isSome_map]
      constructor
      · intro h s' h'
        rw [List.append_cancel_right (h'.symm.trans hd : s' ++ ".lesson".toList = s ++ lessonSuffix)]
        exact h
      · intro h; exact h s hd

/-! ### The generated course -/

variable (R : Rest α) (inlined : Bool) (order : Groups → Groups) (order' : Lessons → Lessons)
  (dirs : List (Str × List (Str × Content))) (c : CourseM α γ)

theorem generate_parts {g : Generated α} (h : generate R inlined order order' dirs c = some g) :
    ∃ ls, openLessons order dirs = some ls ∧
      (order' ls).mapM (manifests R inlined c.id ls.keys) = some g.lessons ∧
      g.metadata = none ∧ g.instructions = none := by
  unfold generate at h
  simp only [Option.bind_eq_bind, Option.bind_eq_some_iff, Option.some.injEq] at h
  obtain ⟨ls, h1, ms, h2, rfl⟩ := h
  exact ⟨ls, h1, h2, rfl, rfl⟩

theorem manifests_parts {short : List Str} {x : Str × (Lesson × List Exercise)}
    {y : LessonM α × List (ExerciseM α)} (h : manifests R inlined c.id short x = some y) :
    IsLesson R c.id short x.2.1.shortId x.2.1 y.1 ∧
      List.Forall₂ (IsExercise R inlined c.id x.2.1.shortId x.2.1) x.2.2 y.2 := by
  unfold manifests at h
  simp only [Option.bind_eq_bind, Option.bind_eq_some_iff, Option.some.injEq] at h
  obtain ⟨es, h1, rfl⟩ := h
  refine ⟨isLesson_manifest R c.id short x.2.1, ?_⟩
  exact (mapM_forall₂ _ _ _ h1).imp (fun e m h => isExercise_of x.2.1 h)

/-- **C52, the generated course**: there is exactly one lesson for every directory `s.lesson`; it holds
what its files say, with short ids of lessons of the course replaced by full ids and other references
unchanged; its exercises are those of its front files. -/
theorem generate_exact (horder : ∀ m, (order m).Perm m) (horder' : ∀ m, (order' m).Perm m)
    (hn : (dirs.map (·.1)).Nodup) (hfiles : ∀ d ∈ dirs, (d.2.map (·.1)).Nodup) (g : Generated α)
    (h : generate R inlined order order' dirs c = some g) :
    ∃ short : List Str, (∀ s, s ∈ short ↔ ∃ files, LessonDir dirs s files) ∧
      (∀ m es, (m, es) ∈ g.lessons → ∃ s files l exs, LessonDir dirs s files ∧ LessonFrom files s l ∧
        ExercisesFrom files exs ∧ IsLesson R c.id short s l m ∧
        List.Forall₂ (IsExercise R inlined c.id s l) exs es) ∧
      (∀ s files, LessonDir dirs s files → ∃ m es, (m, es) ∈ g.lessons ∧ m.id = lessonIdOf c.id s) ∧
      (g.lessons.map (fun x => x.1.id)).Nodup ∧ g.metadata = none ∧ g.instructions = none := by
  obtain ⟨ls, h1, h2, h3, h4⟩ := generate_parts R inlined order order' dirs c h
  obtain ⟨r1, r2, r3⟩ := openLessons_exact order dirs hn ls h1
  have hmem : ∀ s l, (s, l) ∈ order' ls ↔
      ∃ files, LessonDir dirs s files ∧ openLesson order s files = some l :=
    fun s l => by rw [(horder' ls).mem_iff, r3]
  have hfrom : ∀ x ∈ order' ls, ∃ files, LessonDir dirs x.1 files ∧
      LessonFrom files x.1 x.2.1 ∧ ExercisesFrom files x.2.2 := by
    rintro ⟨s, l, es⟩ hx
    obtain ⟨files, hf, ho⟩ := (hmem _ _).1 hx
    exact ⟨files, hf, openLesson_exact order horder s files (hfiles _ hf) l es ho⟩
  have hin := mapM_mem _ _ _ h2
  refine ⟨ls.keys, fun s => ?_, ?_, ?_, ?_, h3, h4⟩
  · unfold AMap.keys
    rw [List.mem_map]
    constructor
    · rintro ⟨⟨s', l⟩, hm, rfl⟩
      obtain ⟨files, hf, _⟩ := (r3 _ _).1 hm
      exact ⟨files, hf⟩
    · rintro ⟨files, hf⟩
      obtain ⟨l, hl⟩ := Option.isSome_iff_exists.1 (r2 s files hf)
      exact ⟨(s, l), (r3 _ _).2 ⟨files, hf, hl⟩, rfl⟩
  · intro m es hm
    obtain ⟨x, hx, hman⟩ := (hin (m, es)).1 hm
    obtain ⟨files, f1, f2, f3⟩ := hfrom x hx
    obtain ⟨p1, p2⟩ := manifests_parts R inlined c hman
    rw [f2.shortId] at p1 p2
    exact ⟨x.1, files, x.2.1, x.2.2, f1, f2, f3, p1, p2⟩
  · intro s files hf
    obtain ⟨l, hl⟩ := Option.isSome_iff_exists.1 (r2 s files hf)
    have hx := (hmem s l).2 ⟨files, hf, hl⟩
    obtain ⟨y, hy⟩ := Option.isSome_iff_exists.1 ((mapM_isSome _ _).1 (by rw [h2]; rfl) _ hx)
    obtain ⟨p1, p2⟩ := manifests_parts R inlined c hy
    obtain ⟨files', _, f2, _⟩ := hfrom _ hx
    refine ⟨y.1, y.2, (hin y).2 ⟨_, hx, hy⟩, ?_⟩
    rw [p1.id, f2.shortId]
  · have hk : ((order' ls).map Prod.fst).Nodup := ((horder' ls).map Prod.fst).nodup_iff.2 r1
    have hF := mapM_forall₂ _ _ _ h2
    have e : g.lessons.map (fun x => x.1.id) = ((order' ls).map Prod.fst).map (lessonIdOf c.id) := by
      have key : ∀ (xs : List (Str × (Lesson × List Exercise))) (ys : List (LessonM α × List (ExerciseM α))),
          (∀ x ∈ xs, x ∈ order' ls) →
          List.Forall₂ (fun x y => manifests R inlined c.id ls.keys x = some y) xs ys →
          ys.map (fun x => x.1.id) = (xs.map Prod.fst).map (lessonIdOf c.id) := by
        intro xs ys hsub h
        induction h with
        | nil => rfl
        | @cons x y xs ys hxy _ ih =>
          obtain ⟨files', _, f2, _⟩ := hfrom x (hsub _ List.mem_cons_self)
          rw [List.map_cons, List.map_cons, List.map_cons,
            ih (fun x hx => hsub x (List.mem_cons_of_mem _ hx)),
            (manifests_parts R inlined c hxy).1.id, f2.shortId]
      exact key _ _ (fun _ h => h) hF
    rw [e]
    refine hk.map (fun a b h => ?_)
    exact List.append_cancel_left h

/-- The generator meets the assumption of the library theorems. -/
theorem proper (g : Generated α) (h : generate R inlined order order' dirs c = some g)
    (m : LessonM α) (es : List (ExerciseM α)) (hm : (m, es) ∈ g.lessons) :
    m.courseId = c.id ∧ m.id ≠ [] ∧ ∀ e ∈ es, e.lessonId = m.id ∧ e.courseId = c.id ∧ e.id ≠ [] := by
  obtain ⟨ls, h1, h2, _, _⟩ := generate_parts R inlined order order' dirs c h
  obtain ⟨x, hx, hman⟩ := (mapM_mem _ _ _ h2 (m, es)).1 hm
  obtain ⟨p1, p2⟩ := manifests_parts R inlined c hman
  refine ⟨p1.course, by rw [p1.id]; simp [lessonIdOf], fun e he => ?_⟩
  obtain ⟨e', _, he'⟩ := forall₂_right p2 e he
  exact ⟨by rw [p1.id]; exact he'.lesson, he'.course, by rw [he'.id]; simp [exerciseIdOf]⟩

/-! ### Distinct ids -/

theorem lessonIdOf_inj {c s s' : Str} (h : lessonIdOf c s = lessonIdOf c s') : s = s' :=
  List.append_cancel_left h

theorem split_plain {s s' x x' : Str} (hs : Plain s) (hs' : Plain s')
    (h : s ++ "::".toList ++ x = s' ++ "::".toList ++ x') : s = s' ∧ x = x' := by
  have h1 := takeWhile_plain s ("::".toList ++ x) hs (Or.inr ⟨_, rfl⟩)
  have h2 := takeWhile_plain s' ("::".toList ++ x') hs' (Or.inr ⟨_, rfl⟩)
  rw [← List.append_assoc, h, List.append_assoc, h2] at h1
  subst h1
  exact ⟨rfl, List.append_cancel_left h⟩

theorem lesson_ne_exercise {c s s' x : Str} (hs : Plain s) : lessonIdOf c s ≠ exerciseIdOf c s' x := by
  intro h
  unfold lessonIdOf exerciseIdOf at h
  rw [List.append_assoc, List.append_assoc, List.append_assoc, List.append_assoc] at h
  have h' := List.append_cancel_left (List.append_cancel_left h)
  apply hs
  rw [h']
  simp

/-- **C52, distinct ids (partial)**: if the short ids of the lessons contain no colon, the course, its lessons
and their exercises have distinct ids.  Missing: short ids with colons, for which it is false (`ids_clash`). -/
theorem ids_distinct_partial (horder : ∀ m, (order m).Perm m) (horder' : ∀ m, (order' m).Perm m)
    (hn : (dirs.map (·.1)).Nodup) (hfiles : ∀ d ∈ dirs, (d.2.map (·.1)).Nodup)
    (hplain : ∀ s files, LessonDir dirs s files → Plain s) (g : Generated α)
    (h : generate R inlined order order' dirs c = some g) :
    (unitIds [(⟨c, g.lessons⟩ : Opened α γ)]).Nodup := by
  obtain ⟨short, _, hsound, _, hnd, _⟩ :=
    generate_exact R inlined order order' dirs c horder horder' hn hfiles g h
  have hkey : ∀ x ∈ g.lessons, ∃ s, Plain s ∧ x.1.id = lessonIdOf c.id s ∧
      (∀ e ∈ x.2, ∃ y, e.id = exerciseIdOf c.id s y) ∧ (x.2.map (·.id)).Nodup := by
    rintro ⟨m, es⟩ hx
    obtain ⟨s, files, l, exs, h1, h2, h3, h4, h5⟩ := hsound m es hx
    refine ⟨s, hplain s files h1, h4.id, fun e he => ?_, ?_⟩
    · obtain ⟨e', _, he'⟩ := forall₂_right h5 e he
      exact ⟨_, he'.id⟩
    · have e : es.map (·.id) = (exs.map (·.shortId)).map (exerciseIdOf c.id s) := by
        rw [List.map_map]
        exact forall₂_map_eq _ _ (fun a b h => h.id) h5
      show (es.map (·.id)).Nodup
      rw [e]
      exact h3.distinct.map (fun a b h => List.append_cancel_left h)
  simp only [unitIds, List.flatMap_cons, List.flatMap_nil, List.append_nil]
  rw [List.nodup_cons]
  constructor
  · intro h
    obtain ⟨x, hx, h⟩ := List.mem_flatMap.1 h
    obtain ⟨s, _, hid, hex, _⟩ := hkey x hx
    rcases List.mem_cons.1 h with h | h
    · rw [hid] at h
      have := congrArg List.length h
      simp [lessonIdOf] at this
    · obtain ⟨e, he, h⟩ := List.mem_map.1 h
      obtain ⟨y, hy⟩ := hex e he
      rw [hy] at h
      have := congrArg List.length h
      simp [exerciseIdOf] at this
  · have hnd' : g.lessons.Nodup := List.Nodup.of_map _ hnd
    refine nodup_flatMap_disjoint _ _ hnd' (fun x hx => ?_) ?_
    · obtain ⟨s, hp, hid, hex, hn⟩ := hkey x hx
      rw [List.nodup_cons]
      refine ⟨fun h => ?_, hn⟩
      obtain ⟨e, he, h⟩ := List.mem_map.1 h
      obtain ⟨y, hy⟩ := hex e he
      rw [hid, hy] at h
      exact lesson_ne_exercise hp h.symm
    · intro x hx y hy z hz hz'
      obtain ⟨s, hp, hid, hex, _⟩ := hkey x hx
      obtain ⟨s', hp', hid', hex', _⟩ := hkey y hy
      have inj : s = s' → x = y := fun e => List.inj_on_of_nodup_map hnd hx hy (by rw [hid, hid', e])
      rcases List.mem_cons.1 hz with h | h <;> rcases List.mem_cons.1 hz' with h' | h'
      · exact inj (lessonIdOf_inj (hid.symm.trans (h.symm.trans (h'.trans hid'))))
      · obtain ⟨e, he, h'⟩ := List.mem_map.1 h'
        obtain ⟨w, hw⟩ := hex' e he
        exact (lesson_ne_exercise hp (hid.symm.trans (h.symm.trans (h'.symm.trans hw)))).elim
      · obtain ⟨e, he, h⟩ := List.mem_map.1 h
        obtain ⟨w, hw⟩ := hex e he
        exact (lesson_ne_exercise hp' (hid'.symm.trans (h'.symm.trans (h.symm.trans hw)))).elim
      · obtain ⟨e, he, h⟩ := List.mem_map.1 h
        obtain ⟨w, hw⟩ := hex e he
        obtain ⟨e', he', h'⟩ := List.mem_map.1 h'
        obtain ⟨w', hw'⟩ := hex' e' he'
        have h0 := hw.symm.trans (h.trans (h'.symm.trans hw'))
        unfold exerciseIdOf at h0
        simp only [List.append_assoc] at h0
        have h1 := List.append_cancel_left (List.append_cancel_left h0)
        rw [← List.append_assoc, ← List.append_assoc] at h1
        exact inj (split_plain hp hp' h1).1

/-! ### When generation succeeds -/

theorem step_isSome (l : Lesson) (f : File × Content) :
    (lessonStep l f).isSome = true ↔ LessonReadable f.1 f.2 := by
  obtain ⟨k, ct⟩ := f
  cases k <;> simp [lessonStep, LessonReadable, Option.isSome_iff_ne_none]

theorem exStep_isSome (e : Exercise) (f : File × Content) :
    (exStep e f).isSome = true ↔ ExReadable false f.1 f.2 := by
  obtain ⟨k, ct⟩ := f
  cases k <;> simp [exStep, ExReadable, Option.isSome_iff_ne_none]

/-- **C69, when a directory can be opened**. -/
theorem openLesson_succeeds_iff (horder : ∀ m, (order m).Perm m) (s : Str)
    (files : List (Str × Content)) :
    (openLesson order s files).isSome = true ↔ DirReadable false files := by
  rw [openLesson_eq]
  have h1 : (createLesson s ((recognised files).filter (fun f => f.1.exercise = none))).isSome = true ↔
      ∀ k ct, Has files k ct → k.exercise = none → LessonReadable k ct := by
    unfold createLesson
    rw [foldlM_isSome _ _ step_isSome]
    constructor
    · intro h k ct hk he
      exact h (k, ct) ((mem_lesson_files files k he ct).2 hk)
    · rintro h ⟨k, ct⟩ hk
      rw [List.mem_filter, mem_recognised] at hk
      exact h k ct hk.1 (by simpa using hk.2)
  have h2 : ((order (((groups (recognised files)).del []).filter hasFront)).mapM
      (fun e => createExercise e.1 e.2)).isSome = true ↔
      ∀ x, x ≠ [] → (∃ ct, Has files (.front x) ct) →
        ∀ k ct, Has files k ct → k.exercise = some x → ExReadable false k ct := by
    rw [mapM_isSome]
    have hmem : ∀ x g, (x, g) ∈ order (((groups (recognised files)).del []).filter hasFront) ↔
        x ≠ [] ∧ g = (recognised files).filter (fun f => f.1.exercise = some x) ∧
          ∃ ct, Has files (.front x) ct := by
      intro x g
      rw [(horder _).mem_iff, mem_groups]
      simp only [mem_recognised]
    constructor
    · intro h x hx hf k ct hk he
      have := h _ ((hmem x _).2 ⟨hx, rfl, hf⟩)
      unfold createExercise at this
      rw [foldlM_isSome _ _ exStep_isSome] at this
      exact this (k, ct) ((mem_exercise_files files k x he ct).2 hk)
    · rintro h ⟨x, g⟩ hx
      obtain ⟨hne, rfl, hf⟩ := (hmem x g).1 hx
      unfold createExercise
      rw [foldlM_isSome _ _ exStep_isSome]
      rintro ⟨k, ct⟩ hk
      rw [List.mem_filter, mem_recognised] at hk
      exact h x hne hf k ct hk.1 (by simpa using hk.2)
  unfold DirReadable
  rw [← h1, ← h2]
  cases createLesson s ((recognised files).filter (fun f => f.1.exercise = none)) with
  | none => simp
  | some l =>
    cases (order (((groups (recognised files)).del []).filter hasFront)).mapM
      (fun e => createExercise e.1 e.2) with
    | none => simp
    | some es => simp

/-- A directory has one file of each kind. -/
theorem has_unique {files : List (Str × Content)} (hn : (files.map (·.1)).Nodup) {k : File}
    {ct ct' : Content} (h : Has files k ct) (h' : Has files k ct') : ct = ct' := by
  have := List.inj_on_of_nodup_map hn h.1 h'.1 rfl
  exact congrArg Prod.snd this

theorem card_isSome (e : Exercise) : (card inlined e).isSome = true ↔
    (inlined = true → e.front ≠ none ∧ e.back ≠ some none) := by
  unfold card
  cases inlined with
  | false => simp
  | true =>
    cases hf : e.front with
    | none => simp
    | some f =>
      cases hb : e.back with
      | none => simp
      | some b => cases b <;> simp

/-- **C69, when the course can be generated**: exactly when every file that matters can be read. -/
theorem generate_succeeds_iff (horder : ∀ m, (order m).Perm m) (horder' : ∀ m, (order' m).Perm m)
    (hn : (dirs.map (·.1)).Nodup) (hfiles : ∀ d ∈ dirs, (d.2.map (·.1)).Nodup) :
    (generate R inlined order order' dirs c).isSome = true ↔
      ∀ s files, LessonDir dirs s files → DirReadable inlined files := by
  have hweak : ∀ files, DirReadable inlined files → DirReadable false files := by
    rintro files ⟨h1, h2⟩
    refine ⟨h1, fun x hx hf k ct hk he => ?_⟩
    have := h2 x hx hf k ct hk he
    cases k <;> simp_all [ExReadable]
  have hcards : ∀ files es, (files.map (·.1)).Nodup → ExercisesFrom files es →
      DirReadable false files →
      ((∀ e ∈ es, (card inlined e).isSome = true) ↔ DirReadable inlined files) := by
    intro files es hnf hes hr
    constructor
    · intro h
      refine ⟨hr.1, fun x hx hf k ct hk he => ?_⟩
      obtain ⟨e, hee, rfl⟩ := hes.all x hx hf
      have hc := (card_isSome inlined e).1 (h e hee)
      have hef := hes.from_files e hee
      have hb := hr.2 _ hx hf k ct hk he
      rcases exercise_kinds he with rfl | rfl | rfl | rfl | rfl
      · intro hi
        obtain ⟨ct', h1, h2⟩ := hef.front
        rw [has_unique hnf hk h1, ← h2]
        exact (hc hi).1
      · intro hi hmd
        rcases hef.back with ⟨ct', h1, h2⟩ | ⟨h1, _⟩
        · rw [← has_unique hnf hk h1, hmd] at h2
          exact (hc hi).2 h2
        · exact h1 ct hk
      · exact hb
      · exact hb
      · exact hb
    · intro h e hee
      have hef := hes.from_files e hee
      rw [card_isSome]
      intro hi
      obtain ⟨ct, h1, h2⟩ := hef.front
      have hr' := h.2 _ hef.nonempty ⟨ct, h1⟩
      refine ⟨by rw [h2]; exact hr' _ ct h1 rfl hi, ?_⟩
      rcases hef.back with ⟨ct', h3, h4⟩ | ⟨_, h4⟩
      · rw [h4]
        intro h5
        injection h5 with h5
        exact hr' _ ct' h3 rfl hi h5
      · rw [h4]; simp
  have hman : ∀ short x, (manifests R inlined c.id short x).isSome = true ↔
      ∀ e ∈ x.2.2, (card inlined e).isSome = true := by
    intro short x
    unfold manifests
    have : ∀ y : Option (List (ExerciseM α)), ((y.bind fun es =>
        some (lessonManifest R c.id (convert c.id short x.2.1), es)).isSome = true ↔ y.isSome = true) := by
      intro y; cases y <;> simp
    simp only [Option.bind_eq_bind, this]
    rw [mapM_isSome]
    refine forall₂_congr (fun e _ => ?_)
    unfold exerciseManifest
    cases card inlined e <;> simp
  unfold generate
  cases ho : openLessons order dirs with
  | none =>
    simp only [Option.bind_eq_bind, Option.bind_none, Option.isSome_none, Bool.false_eq_true, false_iff]
    intro h
    have := (openLessons_succeeds_iff order dirs).2 (fun s files hd =>
      (openLesson_succeeds_iff order horder s files).2 (hweak files (h s files hd)))
    rw [ho] at this
    cases this
  | some ls =>
    obtain ⟨r1, r2, r3⟩ := openLessons_exact order dirs hn ls ho
    have e : ∀ y : Option (List (LessonM α × List (ExerciseM α))),
        ((y.bind fun ms => some ({ lessons := ms, metadata := none, instructions := none } :
          Generated α)).isSome = true ↔ y.isSome = true) := by
      intro y; cases y <;> simp
    simp only [Option.bind_eq_bind, Option.bind_some, e]
    rw [mapM_isSome]
    have hx : ∀ x ∈ order' ls, ∃ files, LessonDir dirs x.1 files ∧ openLesson order x.1 files = some x.2 :=
      fun x hx => (r3 _ _).1 ((horder' ls).mem_iff.1 hx)
    constructor
    · intro h s files hd
      have hr := (openLesson_succeeds_iff order horder s files).1 (r2 s files hd)
      obtain ⟨l, hl⟩ := Option.isSome_iff_exists.1 (r2 s files hd)
      have hm := (horder' ls).mem_iff.2 ((r3 s l).2 ⟨files, hd, hl⟩)
      have hes := (openLesson_exact order horder s files (hfiles _ hd) l.1 l.2 hl).2
      exact (hcards files l.2 (hfiles _ hd) hes hr).1 ((hman _ _).1 (h _ hm))
    · intro h x hxm
      obtain ⟨files, hd, hl⟩ := hx x hxm
      have hes := (openLesson_exact order horder x.1 files (hfiles _ hd) x.2.1 x.2.2 hl).2
      exact (hman _ _).2 ((hcards files x.2.2 (hfiles _ hd) hes (hweak _ (h _ _ hd))).2 (h _ _ hd))

/-! ### Cycles -/

/-- Lesson `a` of the course names lesson `b` of the course through `f`, by its short or full id. -/
def Names (dirs : List (Str × List (Str × Content))) (c : Str) (f : Lesson → Str → Prop) (a b : Str) :
    Prop :=
  ∃ files l, LessonDir dirs a files ∧ LessonFrom files a l ∧ (∃ files', LessonDir dirs b files') ∧
    ∃ d, f l d ∧ (d = b ∨ d = lessonIdOf c b)

theorem forall₂_mem {A B : Type} {P : A → B → Prop} {xs : List A} {ys : List B}
    (h : List.Forall₂ P xs ys) {y : B} (hy : y ∈ ys) : ∃ x ∈ xs, P x y := forall₂_right h y hy

theorem means_course {c : Str} {short : List Str} {d : Str} (h : Means c short d c) : d = c := by
  rcases h with ⟨_, h⟩ | ⟨_, h⟩
  · have := congrArg List.length h
    simp [lessonIdOf] at this
  · exact h.symm

theorem no_cycle_generated (gs : List (LessonM α × List (ExerciseM α))) (c : Str) (short : List Str)
    (N : Str → Str → Prop) (g : LessonM α → Str → Prop)
    (hgen : ∀ x ∈ gs, ∃ s ∈ short, x.1.id = lessonIdOf c s)
    (hedge : ∀ x ∈ gs, ∀ a b, x.1.id = lessonIdOf c a → b ∈ short → g x.1 (lessonIdOf c b) → N a b)
    (hacyc : ¬ HasCycle N) : ¬ HasCycle (LessonRel gs g) := by
  rintro ⟨u, hu⟩
  have hout : ∀ v w, LessonRel gs g v w → ∃ s ∈ short, v = lessonIdOf c s := by
    rintro v w ⟨x, hx, rfl, _⟩
    exact hgen x hx
  obtain ⟨a, ha, rfl⟩ : ∃ s ∈ short, u = lessonIdOf c s := by
    obtain ⟨w, hw, _⟩ := Relation.TransGen.head'_iff.1 hu
    exact hout _ _ hw
  have key : ∀ v, Relation.TransGen (LessonRel gs g) (lessonIdOf c a) v →
      ∀ b ∈ short, v = lessonIdOf c b → Relation.TransGen N a b := by
    intro v hv
    induction hv with
    | single h =>
      rintro b hb rfl
      obtain ⟨x, hx, hid, hg⟩ := h
      exact .single (hedge x hx a b hid hb hg)
    | @tail w v _ h ih =>
      rintro b hb rfl
      obtain ⟨s, hs, rfl⟩ := hout _ _ h
      obtain ⟨x, hx, hid, hg⟩ := h
      exact (ih s hs rfl).tail (hedge x hx s b hid hb hg)
  exact hacyc ⟨a, key _ hu a ha rfl⟩

/-- **C52, the library accepts the generated course**: if the lessons name each other without cycles, none
of them names the course, their short ids contain no colon and the weights are valid, the generated
course meets every condition for opening a library. -/
theorem acceptable (horder : ∀ m, (order m).Perm m) (horder' : ∀ m, (order' m).Perm m)
    (hn : (dirs.map (·.1)).Nodup) (hfiles : ∀ d ∈ dirs, (d.2.map (·.1)).Nodup)
    (hplain : ∀ s files, LessonDir dirs s files → Plain s) (g : Generated α)
    (h : generate R inlined order order' dirs c = some g)
    (hdep : ¬ HasCycle (Names dirs c.id (fun l d => d ∈ l.deps ∨ ∃ w, (d, w) ∈ l.enc)))
    (hsup : ¬ HasCycle (Names dirs c.id (fun l d => d ∈ l.sup)))
    (hself : ∀ s files l, LessonDir dirs s files → LessonFrom files s l →
      c.id ∉ l.deps ∧ (∀ w, (c.id, w) ∉ l.enc) ∧ c.id ∉ l.sup)
    (hw : ∀ s files l, LessonDir dirs s files → LessonFrom files s l →
      ∀ e ∈ l.enc, 0 ≤ e.2 ∧ e.2 ≤ 1)
    (hc : c.id ∉ c.deps ∧ (∀ w, (c.id, w) ∉ c.enc) ∧ c.id ∉ c.sup)
    (hcw : ∀ e ∈ c.enc, 0 ≤ e.2 ∧ e.2 ≤ 1) :
    Acceptable [(⟨c, g.lessons⟩ : Opened α γ)] := by
  obtain ⟨short, hshort, hsound, _, _, _⟩ :=
    generate_exact R inlined order order' dirs c horder horder' hn hfiles g h
  have hgen : ∀ x ∈ g.lessons, ∃ s ∈ short, x.1.id = lessonIdOf c.id s := by
    rintro ⟨m, es⟩ hx
    obtain ⟨s, files, l, exs, h1, _, _, h4, _⟩ := hsound m es hx
    exact ⟨s, (hshort s).2 ⟨files, h1⟩, h4.id⟩
  have hmean : ∀ (f : Lesson → Str → Prop) s files l d b, LessonDir dirs s files → LessonFrom files s l →
      f l d → b ∈ short → Means c.id short d (lessonIdOf c.id b) → Names dirs c.id f s b := by
    intro f s files l d b h1 h2 h3 hb h4
    refine ⟨files, l, h1, h2, (hshort b).1 hb, d, h3, ?_⟩
    rcases h4 with ⟨_, h⟩ | ⟨_, h⟩
    · exact Or.inl (lessonIdOf_inj h).symm
    · exact Or.inr h.symm
  have edgeD : ∀ (f : Lesson → Str → Prop), (∀ l d, d ∈ l.deps → f l d) → ∀ x ∈ g.lessons, ∀ a b,
      x.1.id = lessonIdOf c.id a → b ∈ short → lessonIdOf c.id b ∈ x.1.deps → Names dirs c.id f a b := by
    rintro f hf ⟨m, es⟩ hx a b hid hb hd
    obtain ⟨s, files, l, exs, h1, h2, _, h4, _⟩ := hsound m es hx
    obtain rfl := lessonIdOf_inj (hid.symm.trans h4.id)
    obtain ⟨d, hd, hm⟩ := forall₂_right h4.deps _ hd
    exact hmean f _ files l d b h1 h2 (hf l d hd) hb hm
  have edgeE : ∀ (f : Lesson → Str → Prop), (∀ l d w, (d, w) ∈ l.enc → f l d) → ∀ x ∈ g.lessons,
      ∀ a b w, x.1.id = lessonIdOf c.id a → b ∈ short → (lessonIdOf c.id b, w) ∈ x.1.enc →
      Names dirs c.id f a b := by
    rintro f hf ⟨m, es⟩ hx a b w hid hb hd
    obtain ⟨s, files, l, exs, h1, h2, _, h4, _⟩ := hsound m es hx
    obtain rfl := lessonIdOf_inj (hid.symm.trans h4.id)
    obtain ⟨d, hd, hm, _⟩ := forall₂_right h4.enc _ hd
    exact hmean f _ files l d.1 b h1 h2 (hf l d.1 d.2 hd) hb hm
  have edgeS : ∀ x ∈ g.lessons, ∀ a b,
      x.1.id = lessonIdOf c.id a → b ∈ short → lessonIdOf c.id b ∈ x.1.sup →
      Names dirs c.id (fun l d => d ∈ l.sup) a b := by
    rintro ⟨m, es⟩ hx a b hid hb hd
    obtain ⟨s, files, l, exs, h1, h2, _, h4, _⟩ := hsound m es hx
    obtain rfl := lessonIdOf_inj (hid.symm.trans h4.id)
    obtain ⟨d, hd, hm⟩ := forall₂_right h4.sup _ hd
    exact hmean _ _ files l d b h1 h2 hd hb hm
  have hdep' : ¬ HasCycle (Names dirs c.id (fun l d => d ∈ l.deps)) := by
    rintro ⟨u, hu⟩
    refine hdep ⟨u, Relation.TransGen.mono ?_ u u hu⟩
    rintro a b ⟨files, l, h1, h2, h3, d, h4, h5⟩
    exact ⟨files, l, h1, h2, h3, d, Or.inl h4, h5⟩
  refine acceptable_course c _
    (ids_distinct_partial R inlined order order' dirs c horder horder' hn hfiles hplain g h) ?_
    (no_cycle_generated _ c.id short _ _ hgen (edgeD _ (fun _ _ h => h)) hdep')
    (no_cycle_generated _ c.id short _ _ hgen ?_ hdep)
    (no_cycle_generated _ c.id short _ _ hgen edgeS hsup) ?_ hc hcw
  · rintro ⟨m, es⟩ hx
    obtain ⟨s, files, l, exs, h1, h2, _, h4, _⟩ := hsound m es hx
    obtain ⟨s1, s2, s3⟩ := hself s files l h1 h2
    refine ⟨fun hd => ?_, fun w hd => ?_, fun hd => ?_⟩
    · obtain ⟨d, hd, hm⟩ := forall₂_right h4.deps _ hd
      exact s1 (means_course hm ▸ hd)
    · obtain ⟨⟨d, w'⟩, hd, hm, _⟩ := forall₂_right h4.enc _ hd
      exact s2 w' (means_course hm ▸ hd)
    · obtain ⟨d, hd, hm⟩ := forall₂_right h4.sup _ hd
      exact s3 (means_course hm ▸ hd)
  · rintro x hx a b hid hb (hd | ⟨w, hd⟩)
    · exact edgeD _ (fun _ _ h => Or.inl h) x hx a b hid hb hd
    · exact edgeE _ (fun _ _ w h => Or.inr ⟨w, h⟩) x hx a b w hid hb hd
  · rintro ⟨m, es⟩ hx e he
    obtain ⟨s, files, l, exs, h1, h2, _, h4, _⟩ := hsound m es hx
    obtain ⟨d, hd, _, hm⟩ := forall₂_right h4.enc _ he
    rw [← hm]
    exact hw s files l h1 h2 d hd

/-! ### Courses to which the theorems apply -/

section Sample

/-- Keeps only the name of a lesson or exercise. -/
def sampleRest : Rest Str := { lesson := fun n _ _ _ => n, exercise := fun _ n _ _ _ => n }

def basicsFiles : List (Str × Content) :=
  [ ("q1.front.md".toList, { md := some "2+2".toList }),
    ("q1.back.md".toList, { md := some "4".toList }),
    ("q1.name.json".toList, { text := some "Sum".toList }),
    ("q2.front.md".toList, { md := some "1+1".toList }),
    ("q3.back.md".toList, {}),
    (".front.md".toList, {}) ]

def moreDeps : Content := { ids := some ["basics".toList, "other".toList] }

def moreFiles : List (Str × Content) :=
  [ ("lesson.dependencies.json".toList, moreDeps),
    ("q1.front.md".toList, { md := some "3*3".toList }) ]

def sampleDirs : List (Str × List (Str × Content)) :=
  [ ("basics".toList ++ ".lesson".toList, basicsFiles), ("more".toList ++ ".lesson".toList, moreFiles),
    ("images".toList, []) ]

def sampleCourse : CourseM Str Nat :=
  { id := "kb".toList, deps := [], enc := [], sup := [], metadata := none, rest := [],
    instructions := none, gen := none }

example : (sampleDirs.map (·.1)).Nodup ∧ ∀ d ∈ sampleDirs, (d.2.map (·.1)).Nodup := by decide +kernel

/-- The generated lessons and their dependencies. -/
example : (generate sampleRest true id id sampleDirs sampleCourse).map
      (fun g => g.lessons.map (fun x => (x.1.id, x.1.deps))) =
    some [("kb::basics".toList, []), ("kb::more".toList, ["kb::basics".toList, "other".toList])] := by
  decide +kernel

/-- Their exercises and the names of these. -/
example : (generate sampleRest true id id sampleDirs sampleCourse).map
      (fun g => g.lessons.flatMap (fun x => x.2.map (fun e => [e.id, e.rest]))) =
    some [["kb::basics::q1".toList, "Sum".toList], ["kb::basics::q2".toList, "Exercise q2".toList],
      ["kb::more::q1".toList, "Exercise q1".toList]] := by decide +kernel

theorem sample_dirs {s : Str} {files : List (Str × Content)} (h : LessonDir sampleDirs s files) :
    s = "basics".toList ∧ files = basicsFiles ∨ s = "more".toList ∧ files = moreFiles := by
  unfold LessonDir sampleDirs at h
  rcases List.mem_cons.1 h with h | h
  · exact Or.inl ⟨List.append_cancel_right (congrArg Prod.fst h), congrArg Prod.snd h⟩
  rcases List.mem_cons.1 h with h | h
  · exact Or.inr ⟨List.append_cancel_right (congrArg Prod.fst h), congrArg Prod.snd h⟩
  rw [List.mem_singleton] at h
  have h3 : (s ++ ".lesson".toList).getLast? = "images".toList.getLast? :=
    congrArg List.getLast? (congrArg Prod.fst h)
  have h4 : ".lesson".toList.getLast? = some 'n' := rfl
  rw [List.getLast?_append, h4, Option.some_or] at h3
  exact absurd h3 (by decide +kernel)

theorem not_has {files : List (Str × Content)} {k : File}
    (h : k.fileName ∉ files.map Prod.fst) (ct : Content) : ¬ Has files k ct :=
  fun hk => h (List.mem_map_of_mem (f := Prod.fst) hk.1)

theorem listFrom_nil {X : Type} {files : List (Str × Content)} {k : File}
    {val : Content → Option (List X)} {l : List X} (h : ListFrom files k val l)
    (hk : k.fileName ∉ files.map Prod.fst) : l = [] := by
  rcases h with ⟨ct, h1, _⟩ | ⟨_, h⟩
  · exact (not_has hk ct h1).elim
  · exact h

theorem no_file1 : File.enc.fileName ∉ basicsFiles.map Prod.fst := by decide +kernel
theorem no_file2 : File.sup.fileName ∉ basicsFiles.map Prod.fst := by decide +kernel
theorem no_file3 : File.deps.fileName ∉ basicsFiles.map Prod.fst := by decide +kernel
theorem no_file4 : File.enc.fileName ∉ moreFiles.map Prod.fst := by decide +kernel
theorem no_file5 : File.sup.fileName ∉ moreFiles.map Prod.fst := by decide +kernel
theorem more_nodup : (moreFiles.map (·.1)).Nodup := by decide +kernel

/-- What the lessons of the sample refer to. -/
theorem sample_lesson {s : Str} {files : List (Str × Content)} {l : Lesson}
    (h : LessonDir sampleDirs s files) (hl : LessonFrom files s l) :
    l.enc = [] ∧ l.sup = [] ∧ (s = "basics".toList ∧ l.deps = [] ∨
      s = "more".toList ∧ l.deps = ["basics".toList, "other".toList]) := by
  rcases sample_dirs h with ⟨h1, rfl⟩ | ⟨h1, rfl⟩
  · exact ⟨listFrom_nil hl.enc no_file1, listFrom_nil hl.sup no_file2,
      Or.inl ⟨h1, listFrom_nil hl.deps no_file3⟩⟩
  · refine ⟨listFrom_nil hl.enc no_file4, listFrom_nil hl.sup no_file5, Or.inr ⟨h1, ?_⟩⟩
    have hin : Has moreFiles .deps moreDeps :=
      ⟨List.mem_cons_self, by rintro (h | h) <;> cases h⟩
    rcases hl.deps with ⟨ct, h2, h3⟩ | ⟨hno, _⟩
    · rw [has_unique more_nodup h2 hin] at h3
      injection h3 with h3
      exact h3.symm
    · exact (hno _ hin).elim

/-- The hypotheses of `acceptable` hold for the sample. -/
example : ∃ g, generate sampleRest true id id sampleDirs sampleCourse = some g ∧
    Acceptable [(⟨sampleCourse, g.lessons⟩ : Opened Str Nat)] := by
  obtain ⟨g, hg⟩ := Option.isSome_iff_exists.1
    (show (generate sampleRest true id id sampleDirs sampleCourse).isSome = true by decide +kernel)
  refine ⟨g, hg, acceptable sampleRest true id id sampleDirs sampleCourse (fun _ => .refl _)
    (fun _ => .refl _) (by decide +kernel) (by decide +kernel) ?_ g hg ?_ ?_ ?_ ?_ (by simp [sampleCourse])
    (by simp [sampleCourse])⟩
  · intro s files h
    rcases sample_dirs h with ⟨rfl, _⟩ | ⟨rfl, _⟩ <;> · unfold Plain; decide +kernel
  · refine no_cycle_of_rank _ "kb".toList (fun u => if u = "basics".toList then 0 else 1) ?_ ?_
    · rintro u ⟨files, l, _, _, ⟨files', h⟩, _⟩
      rcases sample_dirs h with ⟨h, _⟩ | ⟨h, _⟩ <;> exact absurd h (by decide +kernel)
    · rintro u v - ⟨files, l, h1, h2, ⟨files', h3⟩, d, h4, h5⟩
      obtain ⟨e1, _, e3⟩ := sample_lesson h1 h2
      rw [e1] at h4
      simp only [List.not_mem_nil, exists_false, or_false] at h4
      rcases e3 with ⟨_, e⟩ | ⟨rfl, e⟩
      · rw [e] at h4; cases h4
      · rw [e] at h4
        simp only [List.mem_cons, List.not_mem_nil, or_false] at h4
        rcases sample_dirs h3 with ⟨rfl, _⟩ | ⟨rfl, _⟩
        · decide +kernel
        · rcases h4 with rfl | rfl <;> rcases h5 with h | h <;> exact absurd h (by decide +kernel)
  · rintro ⟨u, hu⟩
    obtain ⟨w, ⟨files, l, h1, h2, _, d, h4, _⟩, _⟩ := Relation.TransGen.head'_iff.1 hu
    rw [(sample_lesson h1 h2).2.1] at h4
    cases h4
  · intro s files l h1 h2
    obtain ⟨e1, e2, e3⟩ := sample_lesson h1 h2
    rw [e1, e2]
    refine ⟨?_, by simp, by simp⟩
    rcases e3 with ⟨_, e⟩ | ⟨_, e⟩ <;> rw [e] <;> decide +kernel
  · intro s files l h1 h2
    rw [(sample_lesson h1 h2).1]
    simp

/-- Two directories whose ids clash: a lesson gets the id of an exercise of another lesson. -/
def clashDirs : List (Str × List (Str × Content)) :=
  [ ("a.lesson".toList, [("b.front.md".toList, {})]), ("a::b.lesson".toList, []) ]

/-- **C52 is false for short ids with colons**: distinct directories and files then give the same id to a
lesson and an exercise. -/
theorem ids_clash : ∃ g, generate sampleRest false id id clashDirs sampleCourse = some g ∧
    (clashDirs.map (·.1)).Nodup ∧ ¬ (unitIds [(⟨sampleCourse, g.lessons⟩ : Opened Str Nat)]).Nodup := by
  refine ⟨_, rfl, by decide +kernel, by decide +kernel⟩

/-- A directory named just `.lesson` is also a lesson, with an empty short id. -/
example : (generate sampleRest false id id [(".lesson".toList, [])] sampleCourse).map
    (fun g => g.lessons.map (fun x => x.1.id)) = some ["kb::".toList] := by decide +kernel

end Sample

end Trane.Gen.Knowledge
