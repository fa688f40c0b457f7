import Verif.Gen.BuilderProps
import Mathlib.Data.List.Perm.Basic
import Mathlib.Data.List.TakeWhile

/-!
# C73: whole courses written by the knowledge base builders
-/

namespace Trane.Gen.Builder
open Trane.Store Trane.Library Trane.Gen Trane.Filters Trane.Gen.Knowledge
open Trane.Gen.Literacy (stripSuffix stripSuffix_iff)

variable {α γ : Type} {parse : Str → Content}

/-! ### Specification -/

/-- `m` is the manifest of the exercise that `e` describes, in the lesson `s` of course `c`. -/
structure SimpleExerciseBuilt (R : Rest α) (inlined : Bool) (c s : Str) (e : SimpleExercise)
    (m : ExerciseM α) : Prop where
  id : m.id = exerciseIdOf c s e.shortId
  lesson : m.lessonId = lessonIdOf c s
  course : m.courseId = c
  rest : m.rest = R.exercise s ("Exercise ".toList ++ e.shortId) none "Procedural".toList
    (if inlined then .inline (joinLines e.front) (if e.back = [] then none else some (joinLines e.back))
      else .paths (e.shortId ++ ".front.md".toList)
        (if e.back = [] then none else some (e.shortId ++ ".back.md".toList)))

/-- `m` is the manifest of the lesson that `l` describes, with the exercises `es`. -/
structure SimpleLessonBuilt (R : Rest α) (inlined : Bool) (c : Str) (short : List Str) (l : SimpleLesson)
    (m : LessonM α) (es : List (ExerciseM α)) : Prop where
  id : m.id = lessonIdOf c l.shortId
  course : m.courseId = c
  deps : List.Forall₂ (Means c short) l.deps m.deps
  enc : List.Forall₂ (fun a b => Means c short a.1 b.1 ∧ a.2 = b.2) l.enc m.enc
  sup : List.Forall₂ (Means c short) l.sup m.sup
  metadata : m.metadata = l.metadata
  rest : ∃ hi hm : Bool, (hi = true ↔ ∃ a ∈ l.additional, a.name = "lesson.instructions.md".toList) ∧
    (hm = true ↔ ∃ a ∈ l.additional, a.name = "lesson.material.md".toList) ∧
    m.rest = R.lesson ("Lesson ".toList ++ l.shortId) none hi hm
  exercises : ∃ xs : List SimpleExercise, xs.Perm l.exercises ∧
    List.Forall₂ (SimpleExerciseBuilt R inlined c l.shortId) xs es

/-- What the round trip asks of a simple lesson: no slashes in short ids, and no further files that look
like files of the generator. -/
structure SimpleTidy (l : SimpleLesson) : Prop where
  slash : '/' ∉ l.shortId
  exercises : ∀ e ∈ l.exercises, '/' ∉ e.shortId
  additional : PlainAssets l.additional

/-- The ids of a simple course are in order: short ids are not empty, those of the lessons are distinct,
and so are those of the exercises of each lesson. -/
def ValidIds (c : SimpleCourse α γ) : Prop :=
  (c.lessons.map (·.shortId)).Nodup ∧ ∀ l ∈ c.lessons, l.shortId ≠ [] ∧
    (l.exercises.map (·.shortId)).Nodup ∧ ∀ e ∈ l.exercises, e.shortId ≠ []

/-- The files written for a lesson, other than property files. -/
def fileNames (l : SimpleLesson) : List Str :=
  l.additional.map (·.name) ++ l.exercises.flatMap (fun e =>
    (e.shortId ++ ".front.md".toList) :: (if e.back = [] then [] else [e.shortId ++ ".back.md".toList]))

/-! ### From simple lessons to builders -/

theorem exerciseBuilder_some {e : SimpleExercise} {b : ExerciseB} (h : exerciseBuilder e = some b) :
    e.shortId ≠ [] ∧ b.shortId = e.shortId ∧ b.name = none ∧ b.descr = none ∧ b.type = none ∧
      FlashCard b (joinLines e.front) (if e.back = [] then none else some (joinLines e.back)) := by
  unfold exerciseBuilder at h
  split at h
  · cases h
  · rename_i hne
    injection h with h
    subst h
    refine ⟨hne, rfl, rfl, rfl, rfl, ?_⟩
    unfold FlashCard
    dsimp only
    split <;> rfl

theorem lessonBuilder_some {l : SimpleLesson} {b : LessonB} (h : lessonBuilder l = some b) :
    l.shortId ≠ [] ∧ (l.exercises.map (·.shortId)).Nodup ∧ ∃ es,
      List.Forall₂ (fun e b => exerciseBuilder e = some b) l.exercises es ∧
      b = { shortId := l.shortId, deps := l.deps, enc := l.enc, sup := l.sup, metadata := l.metadata,
            exercises := es, assets := l.additional } := by
  unfold lessonBuilder at h
  split at h
  · cases h
  · rename_i hne
    split at h
    · cases h
    · rename_i hnd
      rw [Option.map_eq_some_iff] at h
      obtain ⟨es, hes, rfl⟩ := h
      exact ⟨hne, not_not.1 hnd, es, mapM_forall₂ _ _ _ hes, rfl⟩

theorem ids_eq {xs : List SimpleExercise} {es : List ExerciseB}
    (h : List.Forall₂ (fun e b => exerciseBuilder e = some b) xs es) :
    es.map (·.shortId) = xs.map (·.shortId) :=
  forall₂_map_eq (fun x : SimpleExercise => x.shortId) (fun b : ExerciseB => b.shortId)
    (fun _ _ h => (exerciseBuilder_some h).2.1) h

theorem tidy_of_simple {l : SimpleLesson} {b : LessonB} (h : lessonBuilder l = some b)
    (ht : SimpleTidy l) : Tidy b := by
  obtain ⟨hne, hnd, es, hes, rfl⟩ := lessonBuilder_some h
  refine ⟨ht.slash, ht.additional, ?_, ?_⟩
  · show (es.map (·.shortId)).Nodup
    rw [ids_eq hes]; exact hnd
  · intro e he
    obtain ⟨x, hx, hxe⟩ := forall₂_right hes e he
    obtain ⟨h1, h2, h3, h4, h5, h6⟩ := exerciseBuilder_some hxe
    exact ⟨h2 ▸ h1, h2 ▸ ht.exercises x hx, ⟨_, _, h6⟩, fun _ => ⟨h3, h4⟩⟩

theorem simple_of_built (R : Rest α) (inlined : Bool) {c : Str} {short : List Str} {l : SimpleLesson}
    {b : LessonB} (hb : lessonBuilder l = some b) {m : LessonM α} {es : List (ExerciseM α)}
    (h : LessonBuilt R inlined c short b m es) : SimpleLessonBuilt R inlined c short l m es := by
  obtain ⟨hne, hnd, bs, hbs, rfl⟩ := lessonBuilder_some hb
  refine ⟨h.id, h.course, h.deps, h.enc, h.sup, h.metadata, h.rest, ?_⟩
  obtain ⟨bs', hperm, hF⟩ := h.exercises
  obtain ⟨w, hw1, hw2⟩ := List.perm_comp_forall₂ hperm (List.Forall₂.flip hbs)
  refine ⟨w, hw2, forall₂_comp (S := SimpleExerciseBuilt R inlined c l.shortId) ?_ hw1.flip hF⟩
  intro x b m hx hm
  obtain ⟨h1, h2, h3, h4, h5, h6⟩ := exerciseBuilder_some hx
  obtain ⟨f, bk, hfb, hr⟩ := hm.rest
  obtain ⟨rfl, rfl⟩ := flashCard_inj hfb h6
  refine ⟨by rw [hm.id, h2], hm.lesson, hm.course, ?_⟩
  rw [hr, h3, h4, h5, h2]
  split
  · rfl
  · congr 2
    split <;> rfl

/-! ### The directories -/

theorem rebuild_nodup {ds : AMap Str Dir} {ls : List LessonB} (h : ds.keys.Nodup) :
    (rebuildLessons parse ds ls).1.keys.Nodup := by
  induction ls generalizing ds with
  | nil => exact h
  | cons l ls ih =>
    unfold rebuildLessons
    dsimp only
    split
    · exact ih (AMap.nodup_keys_put _ _ _ h)
    · exact AMap.nodup_keys_put _ _ _ h

theorem lessonDir_inj {s s' : Str} (h : lessonDir s = lessonDir s') : s = s' :=
  List.append_cancel_right h

theorem rebuild_find {ds ds' : AMap Str Dir} {ls : List LessonB} (hn : (ls.map (·.shortId)).Nodup)
    (h : rebuildLessons parse ds ls = (ds', true)) :
    (∀ l ∈ ls, ∃ d, buildLesson parse [] l = (d, true) ∧ ds'.find (lessonDir l.shortId) = some d) ∧
      ∀ n, (∀ l ∈ ls, lessonDir l.shortId ≠ n) → ds'.find n = ds.find n := by
  induction ls generalizing ds with
  | nil =>
    have : ds = ds' := congrArg Prod.fst h
    subst this
    exact ⟨by simp, by simp⟩
  | cons l ls ih =>
    rw [List.map_cons, List.nodup_cons] at hn
    unfold rebuildLessons at h
    dsimp only at h
    split at h
    · rename_i hok
      obtain ⟨h1, h2⟩ := ih hn.2 h
      constructor
      · intro l' hl'
        rcases List.mem_cons.1 hl' with rfl | hl'
        · refine ⟨(buildLesson parse [] l').1, by rw [← hok], ?_⟩
          rw [h2, AMap.find_put_self]
          intro l'' hl'' he
          exact hn.1 (List.mem_map.2 ⟨l'', hl'', lessonDir_inj he⟩)
        · exact h1 l' hl'
      · intro n hno
        rw [h2 n (fun l' hl' => hno l' (List.mem_cons_of_mem _ hl')),
          AMap.find_put_ne _ _ (hno l List.mem_cons_self)]
    · injection h with _ h
      cases h

/-- Into fresh directories, building and rebuilding are the same. -/
theorem build_eq_rebuild {ds : AMap Str Dir} {ls : List LessonB} (hn : (ls.map (·.shortId)).Nodup)
    (hno : ∀ l ∈ ls, ds.find (lessonDir l.shortId) = none) :
    buildLessons parse ds ls = rebuildLessons parse ds ls := by
  induction ls generalizing ds with
  | nil => rfl
  | cons l ls ih =>
    rw [List.map_cons, List.nodup_cons] at hn
    unfold buildLessons rebuildLessons
    rw [hno l List.mem_cons_self]
    dsimp only [Option.getD_none]
    rw [ih hn.2]
    intro l' hl'
    rw [AMap.find_put_ne]
    · exact hno l' (List.mem_cons_of_mem _ hl')
    · intro he
      exact hn.1 (List.mem_map.2 ⟨l', hl', (lessonDir_inj he).symm⟩)

theorem slash_lessonDir (s : Str) : '/' ∈ lessonDir s ↔ '/' ∈ s := by
  unfold lessonDir
  rw [List.mem_append]
  have : '/' ∉ lessonSuffix := by decide +kernel
  simp [this]

theorem lessonDir_listing {c : CourseDir α γ} (hn : c.dirs.keys.Nodup) (s : Str)
    (files : List (Str × Content)) : LessonDir (listing c) s files ↔
      '/' ∉ s ∧ ∃ d, c.dirs.find (lessonDir s) = some d ∧ files = listed d := by
  unfold LessonDir listing
  rw [List.mem_map]
  constructor
  · rintro ⟨⟨n, d⟩, hm, he⟩
    rw [List.mem_filter] at hm
    injection he with h1 h2
    have h1 : n = lessonDir s := h1
    subst h1
    refine ⟨?_, d, AMap.find_of_mem hn hm.1, h2.symm⟩
    have := hm.2
    simp only [List.contains_eq_mem, Bool.not_eq_true', decide_eq_false_iff_not] at this
    rwa [slash_lessonDir] at this
  · rintro ⟨hs, d, hf, rfl⟩
    refine ⟨(lessonDir s, d), List.mem_filter.2 ⟨AMap.mem_of_find hf, ?_⟩, rfl⟩
    simp only [List.contains_eq_mem, Bool.not_eq_true', decide_eq_false_iff_not]
    rwa [slash_lessonDir]

theorem listing_nodup {c : CourseDir α γ} (hn : c.dirs.keys.Nodup) : ((listing c).map (·.1)).Nodup := by
  unfold listing
  rw [List.map_map]
  exact (List.Sublist.map _ List.filter_sublist).nodup hn

theorem rebuild_built {ds ds' : AMap Str Dir} {ls : List LessonB} (hds : ds.keys.Nodup)
    (hn : (ls.map (·.shortId)).Nodup) (hs : ∀ l ∈ ls, '/' ∉ l.shortId)
    (hstale : ∀ s, (∃ d, ds.find (lessonDir s) = some d) → '/' ∉ s → ∃ l ∈ ls, l.shortId = s)
    (h : rebuildLessons parse ds ls = (ds', true)) (m : Option (CourseM α γ)) :
    Built parse (listing ({ dirs := ds', manifest := m } : CourseDir α γ)) ls := by
  have hds' : ds'.keys.Nodup := by
    have := rebuild_nodup (parse := parse) (ls := ls) hds
    rw [h] at this
    exact this
  obtain ⟨h1, h2⟩ := rebuild_find hn h
  constructor
  · intro l hl
    obtain ⟨d, hd, hf⟩ := h1 l hl
    exact ⟨d, hd, (lessonDir_listing hds' _ _).2 ⟨hs l hl, d, hf, rfl⟩⟩
  · intro s files hd
    obtain ⟨hsl, d, hf, _⟩ := (lessonDir_listing hds' _ _).1 hd
    by_contra hno
    have hf' : ds.find (lessonDir s) = some d := by
      rw [← h2 (lessonDir s) (fun l hl he => hno ⟨l, hl, lessonDir_inj he⟩)]
      exact hf
    exact hno (hstale s ⟨d, hf'⟩ hsl)

/-- The listed directories have distinct file names. -/
def Sane (ds : AMap Str Dir) : Prop := ds.keys.Nodup ∧ ∀ n d, ds.find n = some d → d.keys.Nodup

theorem sane_files {c : CourseDir α γ} (h : Sane c.dirs) :
    ∀ d ∈ listing c, (d.2.map (·.1)).Nodup := by
  intro x hx
  unfold listing at hx
  obtain ⟨⟨n, d⟩, hm, rfl⟩ := List.mem_map.1 hx
  have := h.2 n d (AMap.find_of_mem h.1 (List.mem_filter.1 hm).1)
  exact (List.Sublist.map _ List.filter_sublist).nodup this

theorem rebuild_sane {ds : AMap Str Dir} {ls : List LessonB} (h : Sane ds) :
    Sane (rebuildLessons parse ds ls).1 := by
  induction ls generalizing ds with
  | nil => exact h
  | cons l ls ih =>
    have h' : Sane (ds.put (lessonDir l.shortId) (buildLesson parse [] l).1) := by
      refine ⟨AMap.nodup_keys_put _ _ _ h.1, fun n d hd => ?_⟩
      rw [AMap.find_put] at hd
      split at hd
      · injection hd with hd
        subst hd
        exact writeAll_nodup (by simp [AMap.keys])
      · exact h.2 n d hd
    unfold rebuildLessons
    dsimp only
    split
    · exact ih h'
    · exact h'

/-- **C73, simple courses**: a simple course built successfully in a directory without lessons of other
courses, and then opened, holds exactly the lessons and exercises of its configuration.  The manifest
written is that of the configuration, with the encompassed units of the configuration if it lists any. -/
theorem simple_round_trip (hp : ∀ t, (parse t).md = some t) (R : Rest α) (inlined : Bool)
    (order : Groups → Groups) (order' : Lessons → Lessons) (horder : ∀ m, (order m).Perm m)
    (horder' : ∀ m, (order' m).Perm m) (root root' : CourseDir α γ) (hroot : Sane root.dirs)
    (c : SimpleCourse α γ) (htidy : ∀ l ∈ c.lessons, SimpleTidy l)
    (hstale : ∀ s, (∃ d, root.dirs.find (s ++ ".lesson".toList) = some d) → '/' ∉ s →
      ∃ l ∈ c.lessons, l.shortId = s)
    (h : buildSimple parse root c = (root', true)) :
    ∃ m g, root'.manifest = some m ∧
      m = (if c.enc = [] then c.manifest else { c.manifest with enc := c.enc }) ∧
      generate R inlined order order' (listing root') m = some g ∧
      g.metadata = none ∧ g.instructions = none ∧
      ∃ ls, ls.Perm c.lessons ∧ List.Forall₂ (fun l y =>
        SimpleLessonBuilt R inlined c.manifest.id (c.lessons.map (·.shortId)) l y.1 y.2) ls g.lessons := by
  unfold buildSimple at h
  split at h
  · injection h with _ h; cases h
  · rename_i bs hbs
    unfold lessonBuilders at hbs
    split at hbs
    · cases hbs
    · rename_i hnd
      have hF := mapM_forall₂ _ _ _ hbs
      have hids : bs.map (·.shortId) = c.lessons.map (·.shortId) :=
        forall₂_map_eq _ _ (fun l b h => by
          obtain ⟨_, _, _, _, rfl⟩ := lessonBuilder_some h
          rfl) hF
      have hbn : (bs.map (·.shortId)).Nodup := by rw [hids]; exact not_not.1 hnd
      have hbt : ∀ b ∈ bs, Tidy b := by
        intro b hb
        obtain ⟨l, hl, hlb⟩ := forall₂_right hF b hb
        exact tidy_of_simple hlb (htidy l hl)
      dsimp only at h
      split at h
      · rename_i hok
        injection h with h _
        subst h
        have hrb : rebuildLessons parse root.dirs bs = ((rebuildLessons parse root.dirs bs).1, true) := by
          rw [← hok]
        have hbuilt := rebuild_built (α := α) (γ := γ) hroot.1 hbn (fun b hb => (hbt b hb).slash)
          (by
            intro s hd hs
            obtain ⟨l, hl, rfl⟩ := hstale s hd hs
            have : l.shortId ∈ bs.map (·.shortId) := by
              rw [hids]; exact List.mem_map.2 ⟨l, hl, rfl⟩
            obtain ⟨b, hb, he⟩ := List.mem_map.1 this
            exact ⟨b, hb, he⟩) hrb (some (finalManifest c))
        have hsane := rebuild_sane (parse := parse) (ls := bs) hroot
        obtain ⟨g, hg, hm, hi, ls', hperm, hF'⟩ := generate_built hp R inlined order order' horder
          horder' _ (listing_nodup hsane.1) (sane_files hsane) (finalManifest c) bs hbn hbt hbuilt
        refine ⟨finalManifest c, g, rfl, rfl, hg, hm, hi, ?_⟩
        obtain ⟨w, hw1, hw2⟩ := List.perm_comp_forall₂ hperm (List.Forall₂.flip hF)
        refine ⟨w, hw2, forall₂_comp ?_ hw1.flip hF'⟩
        intro l b y hlb hy
        have hid : (finalManifest c).id = c.manifest.id := by
          unfold finalManifest; split <;> rfl
        rw [hid, hids] at hy
        exact simple_of_built R inlined hlb hy
      · injection h with _ h; cases h

/-- **C73, general courses**: a course built successfully from tidy lesson builders with distinct short
ids, and then opened, holds exactly their lessons and exercises. -/
theorem course_round_trip (hp : ∀ t, (parse t).md = some t) (R : Rest α) (inlined : Bool)
    (order : Groups → Groups) (order' : Lessons → Lessons) (horder : ∀ m, (order m).Perm m)
    (horder' : ∀ m, (order' m).Perm m) (existing : Bool) (ls : List LessonB) (m : CourseM α γ)
    (hn : (ls.map (·.shortId)).Nodup) (htidy : ∀ l ∈ ls, Tidy l) (root : Option (CourseDir α γ))
    (h : buildCourse parse existing ls m = (root, true)) :
    ∃ d g, root = some d ∧ d.manifest = some m ∧
      generate R inlined order order' (listing d) m = some g ∧ g.metadata = none ∧
      g.instructions = none ∧ ∃ ls', ls'.Perm ls ∧ List.Forall₂
        (fun l y => LessonBuilt R inlined m.id (ls.map (·.shortId)) l y.1 y.2) ls' g.lessons := by
  unfold buildCourse at h
  split at h
  · injection h with _ h; cases h
  · rw [build_eq_rebuild hn (by simp)] at h
    dsimp only at h
    split at h
    · rename_i hok
      injection h with h _
      subst h
      have hrb : rebuildLessons parse [] ls = ((rebuildLessons parse [] ls).1, true) := by rw [← hok]
      have hbuilt := rebuild_built (α := α) (γ := γ) (by simp [AMap.keys]) hn
        (fun l hl => (htidy l hl).slash) (by rintro s ⟨d, hd⟩; simp at hd) hrb (some m)
      have hsane := rebuild_sane (parse := parse) (ls := ls) (ds := [])
        ⟨by simp [AMap.keys], by simp⟩
      obtain ⟨g, hg, h1, h2, h3⟩ := generate_built hp R inlined order order' horder horder' _
        (listing_nodup hsane.1) (sane_files hsane) m ls hn htidy hbuilt
      exact ⟨_, g, rfl, rfl, hg, h1, h2, h3⟩
    · injection h with _ h; cases h

/-! ### When building succeeds -/

theorem put_same {κ ν : Type} [DecidableEq κ] {m : AMap κ ν} {k : κ} {v : ν} (h : m.find k = some v) :
    m.put k v = m := by
  induction m with
  | nil => simp at h
  | cons e m ih =>
    obtain ⟨a, b⟩ := e
    unfold AMap.find at h
    unfold AMap.put
    split at h
    · rename_i he
      injection h with h
      subst he h
      simp
    · rename_i he
      rw [if_neg he, ih h]

/-- **C73, ids are checked first**: if the ids are not in order, building fails and writes nothing. -/
theorem invalid_writes_nothing (root : CourseDir α γ) (c : SimpleCourse α γ) (h : ¬ ValidIds c) :
    buildSimple parse root c = (root, false) := by
  unfold buildSimple
  have : lessonBuilders c = none := by
    by_contra hne
    obtain ⟨bs, hbs⟩ := Option.ne_none_iff_exists'.1 hne
    apply h
    unfold lessonBuilders at hbs
    split at hbs
    · cases hbs
    · rename_i hnd
      refine ⟨not_not.1 hnd, fun l hl => ?_⟩
      obtain ⟨b, hb⟩ := Option.isSome_iff_exists.1 ((mapM_isSome _ _).1 (by rw [hbs]; rfl) l hl)
      obtain ⟨h1, h2, es, hes, _⟩ := lessonBuilder_some hb
      refine ⟨h1, h2, ?_⟩
      intro e he
      obtain ⟨b', _, hb'⟩ := forall₂_right hes.flip e he
      exact (exerciseBuilder_some hb').1
  rw [this]

/-- **C73, building again**: building a second time what was built changes nothing. -/
theorem rebuild_same (root root' : CourseDir α γ) (c : SimpleCourse α γ)
    (h : buildSimple parse root c = (root', true)) : buildSimple parse root' c = (root', true) := by
  unfold buildSimple at h ⊢
  split at h
  · injection h with _ h; cases h
  · rename_i bs hbs
    dsimp only at h ⊢
    split at h
    · rename_i hok
      injection h with h _
      subst h
      have hrb : rebuildLessons parse root.dirs bs = ((rebuildLessons parse root.dirs bs).1, true) := by
        rw [← hok]
      have hbn : (bs.map (·.shortId)).Nodup := by
        unfold lessonBuilders at hbs
        split at hbs
        · cases hbs
        · rename_i hnd
          rw [forall₂_map_eq (fun l : SimpleLesson => l.shortId) (fun b : LessonB => b.shortId)
            (fun l b h => by obtain ⟨_, _, _, _, rfl⟩ := lessonBuilder_some h; rfl)
            (mapM_forall₂ _ _ _ hbs)]
          exact not_not.1 hnd
      have key : ∀ (ls : List LessonB) (ds : AMap Str Dir), (∀ l ∈ ls, ∃ d,
          buildLesson parse [] l = (d, true) ∧ ds.find (lessonDir l.shortId) = some d) →
          rebuildLessons parse ds ls = (ds, true) := by
        intro ls ds
        induction ls with
        | nil => intro _; rfl
        | cons l ls ih =>
          intro hall
          obtain ⟨d, h1, h2⟩ := hall l List.mem_cons_self
          unfold rebuildLessons
          rw [h1]
          dsimp only
          rw [if_pos rfl, put_same h2]
          exact ih (fun l' hl' => hall l' (List.mem_cons_of_mem _ hl'))
      rw [key bs _ (rebuild_find hbn hrb).1]
      rfl
    · injection h with _ h; cases h

/-! ### Exactly when building succeeds -/

/-- A file name that stays in the directory it is written to. -/
def PlainName (n : Str) : Prop := n ≠ [] ∧ n ≠ ".".toList ∧ n ≠ "..".toList ∧ '/' ∉ n

theorem not_prefix_slash {n k : Str} (h : '/' ∉ k) : (n ++ "/".toList).isPrefixOf k = false := by
  rw [Bool.eq_false_iff]
  intro hp
  rw [List.isPrefixOf_iff_prefix] at hp
  obtain ⟨t, rfl⟩ := hp
  exact h (by simp)

theorem isDir_plain {d : Dir} (hd : ∀ n ∈ d.keys, '/' ∉ n) (n : Str) : isDir d n = false := by
  unfold isDir
  rw [Bool.eq_false_iff]
  intro h
  obtain ⟨e, he, hp⟩ := List.any_eq_true.1 h
  rw [not_prefix_slash (hd e.1 (List.mem_map.2 ⟨e, he, rfl⟩))] at hp
  cases hp

theorem write_asset_plain {d : Dir} (hd : ∀ n ∈ d.keys, '/' ∉ n) {a : Asset} (ha : PlainName a.name) :
    write parse d (.asset a) = if a.name ∈ d.keys then (d, false)
      else (d.put a.name (parse a.contents), true) := by
  have hb : blocked d a.name = false := by
    unfold blocked
    rw [Bool.eq_false_iff]
    intro h
    obtain ⟨e, he, hp⟩ := List.any_eq_true.1 h
    rw [not_prefix_slash ha.2.2.2] at hp
    cases hp
  have hm : d.any (fun e => decide (e.1 = a.name)) = decide (a.name ∈ d.keys) := by
    rw [Bool.eq_iff_iff, List.any_eq_true, decide_eq_true_iff]
    unfold AMap.keys
    rw [List.mem_map]
    simp
  have hx : pathExists d a.name = decide (a.name ∈ d.keys) := by
    unfold pathExists
    rw [isDir_plain hd, hm]
    have e1 : decide (a.name = []) = false := decide_eq_false ha.1
    have e2 : decide (a.name = ".".toList) = false := decide_eq_false ha.2.1
    have e3 : decide (a.name = "..".toList) = false := decide_eq_false ha.2.2.1
    rw [e1, e2, e3]
    simp
  unfold write
  dsimp only
  rw [hb, hx, Bool.or_false]
  by_cases h : a.name ∈ d.keys <;> simp [h]

theorem write_json_plain {d : Dir} (hd : ∀ n ∈ d.keys, '/' ∉ n) {n : Str} (hn : '/' ∉ n) (ct : Content) :
    write parse d (.json n ct) = (d.put n ct, true) := by
  have hpar : parent n = [] := by
    unfold parent
    rw [List.reverse_eq_nil_iff, List.dropWhile_eq_nil_iff]
    intro x hx
    rw [List.mem_reverse] at hx
    simp only [ne_eq, decide_not, Bool.not_eq_true', decide_eq_false_iff_not]
    rintro rfl
    exact hn hx
  unfold write
  dsimp only
  rw [isDir_plain hd]
  unfold parentExists
  rw [hpar]
  simp

theorem writeAll_plain (as : List Asset) (js : List (Str × Content)) (has : ∀ a ∈ as, PlainName a.name)
    (hjs : ∀ j ∈ js, '/' ∉ j.1) (d : Dir) (hd : ∀ n ∈ d.keys, '/' ∉ n) :
    (writeAll parse d (as.map .asset ++ js.map (fun j => .json j.1 j.2))).2 = true ↔
      (as.map (·.name)).Nodup ∧ ∀ a ∈ as, a.name ∉ d.keys := by
  induction as generalizing d with
  | nil =>
    simp only [List.map_nil, List.nil_append, List.nodup_nil, List.not_mem_nil, false_imp_iff,
      implies_true, and_true, iff_true]
    induction js generalizing d with
    | nil => rfl
    | cons j js ih =>
      rw [List.map_cons]
      unfold writeAll
      rw [write_json_plain hd (hjs j List.mem_cons_self)]
      dsimp only
      refine ih (fun j hj => hjs j (List.mem_cons_of_mem _ hj)) _ ?_
      intro n hn
      rcases (AMap.mem_keys_put _ _ _ _).1 hn with rfl | hn
      · exact hjs j List.mem_cons_self
      · exact hd n hn
  | cons a as ih =>
    rw [List.map_cons, List.cons_append]
    unfold writeAll
    rw [write_asset_plain hd (has a List.mem_cons_self), List.map_cons, List.nodup_cons]
    by_cases hm : a.name ∈ d.keys
    · rw [if_pos hm]
      dsimp only
      constructor
      · intro h; cases h
      · rintro ⟨_, h⟩; exact (h a List.mem_cons_self hm).elim
    · rw [if_neg hm]
      dsimp only
      rw [ih (fun a ha => has a (List.mem_cons_of_mem _ ha)) _ ?_]
      · constructor
        · rintro ⟨h1, h2⟩
          refine ⟨⟨?_, h1⟩, ?_⟩
          · intro h
            obtain ⟨a', ha', he⟩ := List.mem_map.1 h
            exact h2 a' ha' ((AMap.mem_keys_put _ _ _ _).2 (Or.inl he))
          · intro a' ha'
            rcases List.mem_cons.1 ha' with rfl | ha'
            · exact hm
            · exact fun h => h2 a' ha' ((AMap.mem_keys_put _ _ _ _).2 (Or.inr h))
        · rintro ⟨⟨h1, h2⟩, h3⟩
          refine ⟨h2, fun a' ha' h => ?_⟩
          rcases (AMap.mem_keys_put _ _ _ _).1 h with he | h
          · exact h1 (List.mem_map.2 ⟨a', ha', he⟩)
          · exact h3 a' (List.mem_cons_of_mem _ ha') h
      · intro n hn
        rcases (AMap.mem_keys_put _ _ _ _).1 hn with rfl | hn
        · exact (has a List.mem_cons_self).2.2.2
        · exact hd n hn

/-- The assets written for a simple lesson. -/
def simpleAssets (l : SimpleLesson) : List Asset :=
  l.additional ++ l.exercises.flatMap (fun e => ⟨e.shortId ++ frontSuffix, joinLines e.front⟩ ::
    (if e.back = [] then [] else [⟨e.shortId ++ backSuffix, joinLines e.back⟩]))

theorem names_simpleAssets (l : SimpleLesson) : (simpleAssets l).map (·.name) = fileNames l := by
  unfold simpleAssets fileNames
  rw [List.map_append, List.map_flatMap]
  congr 1
  refine List.flatMap_congr (fun e _ => ?_)
  split <;> rfl

/-- The property files of a simple lesson. -/
def simpleProps (l : SimpleLesson) : List (Str × Content) :=
  (if l.deps = [] then [] else [(depsFile, { ids := some l.deps })]) ++
  (if l.sup = [] then [] else [(supFile, { ids := some l.sup })]) ++
  (if l.enc = [] then [] else [(encFile, { weights := some l.enc })]) ++
  l.metadata.toList.map (fun x => (metadataFile, { metadata := some x }))

theorem simple_writes {l : SimpleLesson} {b : LessonB} (h : lessonBuilder l = some b) :
    lessonWrites b = (simpleAssets l).map .asset ++
      (simpleProps l).map (fun j => .json j.1 j.2) := by
  obtain ⟨_, _, es, hes, rfl⟩ := lessonBuilder_some h
  have he : es.flatMap exerciseWrites = (l.exercises.flatMap (fun e =>
      (⟨e.shortId ++ frontSuffix, joinLines e.front⟩ : Asset) ::
        (if e.back = [] then [] else [⟨e.shortId ++ backSuffix, joinLines e.back⟩]))).map Write.asset := by
    clear h
    generalize l.exercises = xs at hes
    induction hes with
    | nil => rfl
    | cons hx _ ih =>
      rw [List.flatMap_cons, List.flatMap_cons, List.map_append, ih]
      congr 1
      unfold exerciseBuilder at hx
      split at hx
      · cases hx
      · injection hx with hx
        subst hx
        simp [exerciseWrites]
  unfold lessonWrites simpleAssets simpleProps
  dsimp only
  rw [he]
  simp only [Option.toList_none, List.map_nil, List.append_nil, List.map_append, List.append_assoc,
    List.map_map]
  congr 2
  congr 1
  · split <;> rfl
  congr 1
  · split <;> rfl
  congr 1
  split <;> rfl

theorem rebuild_ok_iff (ds : AMap Str Dir) (ls : List LessonB) :
    (rebuildLessons parse ds ls).2 = true ↔ ∀ l ∈ ls, (buildLesson parse [] l).2 = true := by
  induction ls generalizing ds with
  | nil => simp [rebuildLessons]
  | cons l ls ih =>
    unfold rebuildLessons
    dsimp only
    rw [List.forall_mem_cons]
    split
    · rename_i hok
      rw [ih]
      exact ⟨fun h => ⟨hok, h⟩, fun h => h.2⟩
    · rename_i hok
      exact ⟨(fun h => by cases h), fun h => (hok h.1).elim⟩

/-- **C73, exactly when building succeeds (partial)**: the ids are in order and no two files of a lesson
have the same name.  Missing: file names with slashes, empty or made of dots. -/
theorem builds_iff_partial (root : CourseDir α γ) (c : SimpleCourse α γ)
    (hnames : ∀ l ∈ c.lessons, ∀ n ∈ fileNames l, PlainName n) :
    (buildSimple parse root c).2 = true ↔ ValidIds c ∧ ∀ l ∈ c.lessons, (fileNames l).Nodup := by
  by_cases hv : ValidIds c
  · have hlb : ∀ l ∈ c.lessons, (lessonBuilder l).isSome = true := by
      intro l hl
      obtain ⟨h1, h2, h3⟩ := hv.2 l hl
      unfold lessonBuilder
      rw [if_neg h1, if_neg (not_not.2 h2), Option.isSome_map, mapM_isSome]
      intro e he
      unfold exerciseBuilder
      rw [if_neg (h3 e he)]
      rfl
    obtain ⟨bs, hbs⟩ := Option.isSome_iff_exists.1 ((mapM_isSome lessonBuilder c.lessons).2 hlb)
    have hb : lessonBuilders c = some bs := by
      unfold lessonBuilders
      rw [if_neg (not_not.2 hv.1)]
      exact hbs
    have hF := mapM_forall₂ _ _ _ hbs
    have hone : ∀ l ∈ c.lessons, ∀ b, lessonBuilder l = some b →
        ((buildLesson parse [] b).2 = true ↔ (fileNames l).Nodup) := by
      intro l hl b hlb
      unfold buildLesson
      rw [simple_writes hlb, writeAll_plain]
      · rw [names_simpleAssets]
        simp [AMap.keys]
      · intro a ha
        refine hnames l hl a.name ?_
        rw [← names_simpleAssets]
        exact List.mem_map.2 ⟨a, ha, rfl⟩
      · intro j hj
        unfold simpleProps at hj
        simp only [List.mem_append, List.mem_map] at hj
        rcases hj with ((hj | hj) | hj) | ⟨x, _, rfl⟩
        · split at hj
          · cases hj
          · rw [List.mem_singleton.1 hj]; show '/' ∉ depsFile; decide +kernel
        · split at hj
          · cases hj
          · rw [List.mem_singleton.1 hj]; show '/' ∉ supFile; decide +kernel
        · split at hj
          · cases hj
          · rw [List.mem_singleton.1 hj]; show '/' ∉ encFile; decide +kernel
        · show '/' ∉ metadataFile
          decide +kernel
      · simp [AMap.keys]
    unfold buildSimple
    rw [hb]
    dsimp only
    have : (if (rebuildLessons parse root.dirs bs).2 = true then
        (({ dirs := (rebuildLessons parse root.dirs bs).1, manifest := some (finalManifest c) } :
          CourseDir α γ), true)
        else ({ root with dirs := (rebuildLessons parse root.dirs bs).1 }, false)).2 =
        (rebuildLessons parse root.dirs bs).2 := by
      split
      · rename_i h; exact h.symm
      · rename_i h; rw [Bool.not_eq_true] at h; exact h.symm
    rw [this, rebuild_ok_iff]
    constructor
    · intro h
      refine ⟨hv, fun l hl => ?_⟩
      obtain ⟨b, hb, hlb⟩ := forall₂_right hF.flip l hl
      exact (hone l hl b hlb).1 (h b hb)
    · rintro ⟨_, h⟩ b hb
      obtain ⟨l, hl, hlb⟩ := forall₂_right hF b hb
      exact (hone l hl b hlb).2 (h l hl)
  · rw [invalid_writes_nothing root c hv]
    constructor
    · intro h; cases h
    · rintro ⟨h, _⟩; exact (hv h).elim

/-- **C73, files are kept**: after building, each further file of a lesson is in its directory with its
contents, unless it has the name of a property file that the lesson needs. -/
theorem additional_kept (root root' : CourseDir α γ) (c : SimpleCourse α γ)
    (h : buildSimple parse root c = (root', true)) (l : SimpleLesson) (hl : l ∈ c.lessons) (a : Asset)
    (ha : a ∈ l.additional)
    (hprop : (a.name = "lesson.dependencies.json".toList → l.deps = []) ∧
      (a.name = "lesson.superseded.json".toList → l.sup = []) ∧
      (a.name = "lesson.encompassed.json".toList → l.enc = []) ∧
      (a.name = "lesson.metadata.json".toList → l.metadata = none)) :
    ∃ d, root'.dirs.find (l.shortId ++ ".lesson".toList) = some d ∧
      d.find a.name = some (parse a.contents) := by
  unfold buildSimple at h
  split at h
  · injection h with _ h; cases h
  · rename_i bs hbs
    dsimp only at h
    split at h
    · rename_i hok
      injection h with h _
      subst h
      have hrb : rebuildLessons parse root.dirs bs = ((rebuildLessons parse root.dirs bs).1, true) := by
        rw [← hok]
      unfold lessonBuilders at hbs
      split at hbs
      · cases hbs
      · rename_i hnd
        have hF := mapM_forall₂ _ _ _ hbs
        have hbn : (bs.map (·.shortId)).Nodup := by
          rw [forall₂_map_eq (fun l : SimpleLesson => l.shortId) (fun b : LessonB => b.shortId)
            (fun l b h => by obtain ⟨_, _, _, _, rfl⟩ := lessonBuilder_some h; rfl) hF]
          exact not_not.1 hnd
        obtain ⟨b, hb, hlb⟩ := forall₂_right hF.flip l hl
        obtain ⟨d, hd, hf⟩ := (rebuild_find hbn hrb).1 b hb
        have hid : b.shortId = l.shortId := by
          obtain ⟨_, _, _, _, rfl⟩ := lessonBuilder_some hlb; rfl
        rw [hid] at hf
        refine ⟨d, hf, ?_⟩
        unfold buildLesson at hd
        rw [simple_writes hlb] at hd
        have hpn : ∀ j ∈ simpleProps l, j.1 ≠ a.name := by
          intro j hj he
          unfold simpleProps at hj
          simp only [List.mem_append, List.mem_map] at hj
          rcases hj with ((hj | hj) | hj) | ⟨x, hx, rfl⟩
          · split at hj
            · cases hj
            · rename_i hne
              rw [List.mem_singleton.1 hj] at he
              exact hne (hprop.1 he.symm)
          · split at hj
            · cases hj
            · rename_i hne
              rw [List.mem_singleton.1 hj] at he
              exact hne (hprop.2.1 he.symm)
          · split at hj
            · cases hj
            · rename_i hne
              rw [List.mem_singleton.1 hj] at he
              exact hne (hprop.2.2.1 he.symm)
          · rw [hprop.2.2.2 he.symm] at hx
            cases hx
        have hmem : a ∈ simpleAssets l := List.mem_append_left _ ha
        generalize simpleAssets l = as at hd hmem
        generalize simpleProps l = js at hd hpn
        have key : ∀ (as : List Asset) (d0 : Dir), (a ∈ as ∨ d0.find a.name = some (parse a.contents)) →
            writeAll parse d0 (as.map .asset ++ js.map (fun j => .json j.1 j.2)) = (d, true) →
            d.find a.name = some (parse a.contents) := by
          intro as
          induction as with
          | nil =>
            intro d0 h0 hw
            have h0 : d0.find a.name = some (parse a.contents) := by simpa using h0
            obtain ⟨ct, hct⟩ := writeAll_find hw (Or.inr ⟨_, h0⟩)
            rcases writeAll_find_some hw hct with ⟨w, hw', hp, _⟩ | ⟨_, h1⟩
            · rw [List.map_nil, List.nil_append] at hw'
              obtain ⟨j, hj, rfl⟩ := List.mem_map.1 hw'
              exact (hpn j hj hp).elim
            · rw [hct, ← h1, h0]
          | cons x as ih =>
            intro d0 h0 hw
            obtain ⟨hx, hw'⟩ := writeAll_cons_ok hw
            refine ih _ ?_ hw'
            rcases h0 with h0 | h0
            · rcases List.mem_cons.1 h0 with rfl | h0
              · exact Or.inr (AMap.find_put_self _ _ _)
              · exact Or.inl h0
            · right
              rw [AMap.find_put]
              split
              · rename_i he
                have := asset_new hx
                rw [show x.name = a.name from he, h0] at this
                cases this
              · exact h0
        exact key as [] (Or.inl hmem) hd
    · injection h with _ h; cases h

end Trane.Gen.Builder
