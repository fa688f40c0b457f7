import Verif.Tree.Model
import Verif.Library.AssetsProps
import Verif.Library.Props
import Verif.Json.GrammarProps

/-!
# A library opened from texts (C90)

The specification says with a grammar of JSON what the text of a manifest stands for, and with a
relation where a relative path in it leads.
-/

namespace Trane.Tree
open Trane.Store (Str)
open Trane.Library
open Trane.Assets (Files isAbsolute join BasicAsset ExerciseAsset resolved)
open Trane.Json (Document depth Generator)

variable {F : Type}

/-! ### Specification -/

/-- Following the parts of a path from a directory one arrives at something. -/
inductive Leads (t : Tree) : Path → List Str → Path → Prop
  | arrive {p : Path} : exist t p = true → Leads t p [] p
  | stay {p q : Path} {n : Str} {ns : List Str} : isDir t p = true → n = [] ∨ n = ['.'] → Leads t p ns q →
      Leads t p (n :: ns) q
  | up {p q : Path} {ns : List Str} : isDir t p = true → Leads t p.dropLast ns q → Leads t p (['.', '.'] :: ns) q
  | down {p q : Path} {n : Str} {ns : List Str} : isDir t p = true → n ≠ [] → n ≠ ['.'] → n ≠ ['.', '.'] →
      Leads t (p ++ [n]) ns q → Leads t p (n :: ns) q

/-- The path `s` in a manifest in the directory `p` is served as `s'`: absolute paths are kept, others are
followed from the directory of the manifest. -/
def ServedAs (t : Tree) (p : Path) (s s' : Str) : Prop :=
  (isAbsolute s = true ∧ s' = s) ∨ (isAbsolute s = false ∧ ∃ q, Leads t p (split s) q ∧ s' = render q)

/-- The paths in two optional assets. -/
def assetPaths (a b : Option BasicAsset) : List Str := a.elim [] BasicAsset.paths ++ b.elim [] BasicAsset.paths

/-- The file at the path `p` of the library has a text that is JSON for the value `v`. -/
def HasText (M : Machine F) (r p : Path) (v : Json.Json) : Prop :=
  M.home = some r ∧ ∃ text, M.tree.find (r ++ p) = some text ∧ Document v text ∧ depth v < 128

/-- The file at `p` is read as the course manifest `m`. -/
def CourseText (M : Machine F) (p : Path) (m : CourseM Rest Generator) : Prop :=
  ∃ r v m0 f, HasText M r p v ∧ Json.decCourse M.floats v = some m0 ∧
    (∀ s ∈ assetPaths m0.instructions m0.material, ServedAs M.tree (r ++ p.dropLast) s (f s)) ∧
    m = { id := m0.id, deps := m0.dependencies, enc := m0.encompassed.map (fun e => (e.1, M.val e.2)),
          sup := m0.superseded, metadata := m0.metadata, gen := m0.generator
          instructions := (m0.instructions.map (BasicAsset.mapPaths f)).map .asset
          rest := .course m0.name m0.description m0.authors (m0.material.map (BasicAsset.mapPaths f)) }

/-- The file at `p` is read as the lesson manifest `m`. -/
def LessonText (M : Machine F) (p : Path) (m : LessonM Rest) : Prop :=
  ∃ r v m0 f, HasText M r p v ∧ Json.decLessonManifest M.floats v = some m0 ∧
    (∀ s ∈ assetPaths m0.instructions m0.material, ServedAs M.tree (r ++ p.dropLast) s (f s)) ∧
    m = { id := m0.id, courseId := m0.courseId, deps := m0.dependencies
          enc := m0.encompassed.map (fun e => (e.1, M.val e.2)), sup := m0.superseded, metadata := m0.metadata
          rest := .lesson m0.name m0.description (m0.material.map (BasicAsset.mapPaths f))
            (m0.instructions.map (BasicAsset.mapPaths f)) }

/-- The file at `p` is read as the exercise manifest `m`. -/
def ExerciseText (M : Machine F) (p : Path) (m : ExerciseM Rest) : Prop :=
  ∃ r v m0 f, HasText M r p v ∧ Json.decExercise v = some m0 ∧
    (∀ s ∈ m0.asset.paths, ServedAs M.tree (r ++ p.dropLast) s (f s)) ∧
    m = { id := m0.id, lessonId := m0.lessonId, courseId := m0.courseId
          rest := .exercise m0.name m0.description m0.declarative (m0.asset.mapPaths f) }

/-- There is a file at the path `p` of the library. -/
def HasFile (M : Machine F) (p : Path) : Prop := ∃ r, M.home = some r ∧ r ++ p ∈ M.tree.keys

/-! ### Lemmas -/

theorem leads_iff {t : Tree} {p q : Path} {ns : List Str} : Leads t p ns q ↔ resolve t p ns = some q := by
  constructor
  · intro h
    induction h with
    | arrive h => unfold resolve follow; simp [h]
    | stay hd hn _ ih => rw [← ih]; unfold resolve; rw [follow, if_pos hd, if_pos hn]
    | up hd _ ih =>
      rw [← ih]; unfold resolve
      rw [follow, if_pos hd, if_neg (by decide), if_pos rfl]
    | down hd h1 h2 h3 _ ih =>
      rw [← ih]; unfold resolve
      rw [follow, if_pos hd, if_neg (by simp [h1, h2]), if_neg h3]
  · intro h
    induction ns generalizing p with
    | nil =>
      have h0 : (if exist t p = true then some p else none) = some q := h
      split at h0
      · rename_i he; rw [← Option.some.inj h0]; exact .arrive he
      · cases h0
    | cons n ns ih =>
      unfold resolve at h
      rw [follow] at h
      by_cases hd : isDir t p = true
      · rw [if_pos hd] at h
        by_cases h1 : n = [] ∨ n = ['.']
        · rw [if_pos h1] at h
          exact .stay hd h1 (ih h)
        · rw [if_neg h1] at h
          by_cases h2 : n = ['.', '.']
          · rw [if_pos h2] at h
            subst h2
            exact .up hd (ih h)
          · rw [if_neg h2] at h
            exact .down hd (fun e => h1 (.inl e)) (fun e => h1 (.inr e)) h2 (ih h)
      · rw [if_neg hd] at h
        cases h

theorem absolute_append {a b : Str} (ha : a ≠ []) : isAbsolute (a ++ b) = isAbsolute a := by
  cases a with
  | nil => exact absurd rfl ha
  | cons c a => rfl

theorem join_ne {a b : Str} (ha : a ≠ []) : join a b ≠ [] := by
  unfold join
  split
  · rename_i h; intro e; rw [e] at h; simp [isAbsolute] at h
  · split <;> simp [ha]

theorem start_join {cwd : Path} {a b : Str} (ha : a ≠ []) (hb : isAbsolute b = false) :
    start cwd (join a b) = start cwd a := by
  unfold start join
  rw [hb]
  simp only [Bool.false_eq_true, if_false]
  split
  · rw [absolute_append ha]
  · rw [absolute_append ha]

theorem follow_join {t : Tree} {cwd : Path} {a b : Str} (ha : a ≠ []) (hb : isAbsolute b = false) :
    follow t (start cwd (join a b)) (split (join a b)) =
      (follow t (start cwd a) (split a)).bind (fun q => follow t q (split b)) := by
  rw [start_join ha hb]
  generalize start cwd a = s
  unfold join
  rw [hb]
  simp only [Bool.false_eq_true, if_false]
  by_cases he : a.getLast? = some '/'
  · have e1 : (a.isEmpty || a.getLast? == some '/') = true := by simp [he]
    rw [if_pos e1]
    obtain ⟨a', rfl⟩ : ∃ a', a = a' ++ ['/'] := by
      rw [List.getLast?_eq_some_iff] at he
      exact he
    have h1 : a' ++ ['/'] ++ b = a' ++ '/' :: b := by simp
    have h2 : split (a' ++ ['/']) = split a' ++ [[]] := split_append a' []
    rw [h1, split_append, h2, follow_append, follow_append]
    cases follow t s (split a') with
    | none => rfl
    | some q =>
      show follow t q (split b) = (follow t q [[]]).bind _
      rw [follow]
      cases hb' : split b with
      | nil => exact absurd hb' (split_ne b)
      | cons n ns =>
        by_cases hd : isDir t q = true
        · simp [hd, follow]
        · simp [hd, follow]
  · have e1 : ¬ (a.isEmpty || a.getLast? == some '/') = true := by simp [he, ha]
    rw [if_neg e1, split_append, follow_append]

section
variable {M : Machine F} {r : Path}

theorem root_ne (h : M.home = some r) : M.root ≠ [] := by
  intro e
  unfold Machine.home Machine.place at h
  rw [e] at h
  cases h

theorem dirText_ne (h : M.home = some r) (dir : Path) : M.dirText dir ≠ [] := by
  unfold Machine.dirText
  have : ∀ (dir : Path) (s : Str), s ≠ [] → dir.foldl join s ≠ [] := by
    intro dir
    induction dir with
    | nil => intro s hs; exact hs
    | cons n dir ih => intro s hs; exact ih _ (join_ne hs)
  exact this dir _ (root_ne h)

theorem not_absolute_name {n : Str} (h : GoodName n) : isAbsolute n = false := by
  unfold isAbsolute
  cases n with
  | nil => rfl
  | cons c n =>
    have : c ≠ '/' := fun e => h.2.1 (by simp [e])
    simp [this]

/-- The text of a directory of the library leads to it. -/
theorem follow_dirText (h : M.home = some r) {dir k : Path} (hk : k ∈ M.tree.keys) (hd : r ++ dir <+: k) :
    follow M.tree (start M.cwd (M.dirText dir)) (split (M.dirText dir)) = some (r ++ dir) := by
  induction dir using List.reverseRecOn with
  | nil =>
    have h0 := h
    unfold Machine.home Machine.place at h0
    split at h0
    · cases h0
    · unfold resolve at h0
      show follow M.tree (start M.cwd M.root) (split M.root) = _
      split at h0
      · rename_i q hq
        split at h0
        · rw [hq, h0, List.append_nil]
        · cases h0
      · cases h0
  | append_singleton dir n ih =>
    have hn : GoodName n := M.good k hk n (hd.subset (by simp))
    have e : M.dirText (dir ++ [n]) = join (M.dirText dir) n := by
      unfold Machine.dirText; rw [List.foldl_append]; rfl
    have hd' : r ++ dir <+: k := by
      rw [← List.append_assoc] at hd
      exact (List.prefix_append _ _).trans hd
    rw [e, follow_join (dirText_ne h dir) (not_absolute_name hn), ih hd', Option.bind_some, split_name hn.2.1]
    have hdir : isDir M.tree (r ++ dir) = true := by
      refine isDir_of_prefix hk hd' (fun e => ?_)
      have := hd.length_le
      rw [e] at this
      simp at this
    rw [follow, if_pos hdir, if_neg (by simp [hn.1, hn.2.2.1]), if_neg hn.2.2.2, List.append_assoc]
    rfl

/-- A relative path is followed from the directory of the manifest. -/
theorem canonicalize_below (h : M.home = some r) {dir k : Path} (hk : k ∈ M.tree.keys) (hd : r ++ dir <+: k) {s : Str}
    (hs : isAbsolute s = false) :
    M.files.canonicalize (join (M.dirText dir) s) = (resolve M.tree (r ++ dir) (split s)).map render := by
  show canonicalize M.tree M.cwd _ = _
  unfold canonicalize
  have : (join (M.dirText dir) s).isEmpty = false := by simp [join_ne (dirText_ne h dir)]
  rw [this]
  simp only [Bool.false_eq_true, if_false]
  congr 1
  unfold resolve
  rw [follow_join (dirText_ne h dir) hs, follow_dirText h hk hd]
  rfl

theorem resolved_iff (h : M.home = some r) {dir k : Path} (hk : k ∈ M.tree.keys) (hd : r ++ dir <+: k) (s s' : Str) :
    ServedAs M.tree (r ++ dir) s s' ↔
      (isAbsolute s = true ∨ M.files.exist (join (M.dirText dir) s) = true) ∧ s' = resolved M.files (M.dirText dir) s := by
  unfold ServedAs resolved Files.exist
  cases hs : isAbsolute s with
  | true => simp
  | false =>
    rw [canonicalize_below h hk hd hs]
    simp only [Bool.false_eq_true, false_and, false_or, true_and, if_false, leads_iff]
    cases resolve M.tree (r ++ dir) (split s) with
    | none => simp
    | some q => simp

theorem BasicAsset.mapPaths_congr {f g : Str → Str} {a : BasicAsset} (h : ∀ s ∈ a.paths, f s = g s) :
    a.mapPaths f = a.mapPaths g := by
  cases a with
  | markdown p => simp only [BasicAsset.mapPaths, h p (by simp [BasicAsset.paths])]
  | _ => rfl

theorem option_mapPaths_congr {f g : Str → Str} {a : Option BasicAsset} (h : ∀ s ∈ a.elim [] BasicAsset.paths, f s = g s) :
    a.map (BasicAsset.mapPaths f) = a.map (BasicAsset.mapPaths g) := by
  cases a with
  | none => rfl
  | some a => exact congrArg some (BasicAsset.mapPaths_congr h)

theorem ExerciseAsset.mapPaths_congr {f g : Str → Str} {a : ExerciseAsset} (h : ∀ s ∈ a.paths, f s = g s) :
    a.mapPaths f = a.mapPaths g := by
  cases a with
  | basic a =>
    simp only [ExerciseAsset.mapPaths]
    rw [BasicAsset.mapPaths_congr h]
  | flashcard x b =>
    cases b with
    | none => simp only [ExerciseAsset.mapPaths, Option.map_none, h x (by simp [ExerciseAsset.paths])]
    | some y =>
      simp only [ExerciseAsset.mapPaths, Option.map_some, h x (by simp [ExerciseAsset.paths]),
        h y (by simp [ExerciseAsset.paths])]
  | soundSlice l d b =>
    cases b with
    | none => rfl
    | some y => simp only [ExerciseAsset.mapPaths, Option.map_some, h y (by simp [ExerciseAsset.paths])]
  | _ => rfl

theorem key_of_find {t : Tree} {p : Path} {s : Str} (h : t.find p = some s) : p ∈ t.keys :=
  (AMap.mem_keys_iff _ _).mpr ⟨s, h⟩

theorem below_file {r p : Path} : r ++ p.dropLast <+: r ++ p :=
  (List.prefix_append_right_inj r).mpr (List.dropLast_prefix p)

theorem readAs_iff {α : Type} (d : Json.Json → Option α) (s : Str) (x : α) :
    Json.readAs d s = some x ↔ ∃ v, Document v s ∧ depth v < 128 ∧ d v = some x := by
  unfold Json.readAs
  simp only [Option.bind_eq_some_iff, Json.parse_iff, and_assoc]

theorem contents_iff (p : Path) (s : Str) : M.contents p = some s ↔ ∃ r, M.home = some r ∧ M.tree.find (r ++ p) = some s := by
  unfold Machine.contents
  cases M.home with
  | none => simp
  | some r => simp

end

/-! ### Theorems -/

/-- **C90, course manifests.** -/
theorem course_text_iff (M : Machine F) (p : Path) (m : CourseM Rest Generator) :
    M.disk.course p = some m ↔ CourseText M p m := by
  show M.readCourse p = some m ↔ _
  unfold Machine.readCourse normalizeCourse CourseText HasText
  simp only [Option.bind_eq_bind, Option.bind_eq_some_iff, contents_iff, readAs_iff, Assets.unit_normalized_iff,
    Option.pure_def, Option.some.injEq]
  constructor
  · rintro ⟨s, ⟨r, hr, hs⟩, m0, ⟨v, hv, hd, hm⟩, m1, ⟨u, ⟨hp, rfl⟩, rfl⟩, rfl⟩
    exact ⟨r, v, m0, resolved M.files (M.dirText p.dropLast), ⟨hr, s, hs, hv, hd⟩, hm,
      fun x hx => (resolved_iff hr (key_of_find hs) below_file x _).mpr ⟨hp x hx, rfl⟩, rfl⟩
  · rintro ⟨r, v, m0, f, ⟨hr, s, hs, hv, hd⟩, hm, hf, rfl⟩
    have hall := fun x hx => (resolved_iff hr (key_of_find hs) below_file x _).mp (hf x hx)
    refine ⟨s, ⟨r, hr, hs⟩, m0, ⟨v, hv, hd, hm⟩, _, ⟨_, ⟨fun x hx => (hall x hx).1, rfl⟩, rfl⟩, ?_⟩
    have h1 := option_mapPaths_congr (a := m0.instructions) (f := f) (g := resolved M.files (M.dirText p.dropLast))
      fun x hx => (hall x (List.mem_append_left _ hx)).2
    have h2 := option_mapPaths_congr (a := m0.material) (f := f) (g := resolved M.files (M.dirText p.dropLast))
      fun x hx => (hall x (List.mem_append_right _ hx)).2
    rw [h1, h2]
    rfl

/-- **C90, lesson manifests.** -/
theorem lesson_text_iff (M : Machine F) (p : Path) (m : LessonM Rest) :
    M.disk.lesson p = some m ↔ LessonText M p m := by
  show M.readLesson p = some m ↔ _
  unfold Machine.readLesson normalizeLesson LessonText HasText
  simp only [Option.bind_eq_bind, Option.bind_eq_some_iff, contents_iff, readAs_iff, Assets.unit_normalized_iff,
    Option.pure_def, Option.some.injEq]
  constructor
  · rintro ⟨s, ⟨r, hr, hs⟩, m0, ⟨v, hv, hd, hm⟩, m1, ⟨u, ⟨hp, rfl⟩, rfl⟩, rfl⟩
    exact ⟨r, v, m0, resolved M.files (M.dirText p.dropLast), ⟨hr, s, hs, hv, hd⟩, hm,
      fun x hx => (resolved_iff hr (key_of_find hs) below_file x _).mpr ⟨hp x hx, rfl⟩, rfl⟩
  · rintro ⟨r, v, m0, f, ⟨hr, s, hs, hv, hd⟩, hm, hf, rfl⟩
    have hall := fun x hx => (resolved_iff hr (key_of_find hs) below_file x _).mp (hf x hx)
    refine ⟨s, ⟨r, hr, hs⟩, m0, ⟨v, hv, hd, hm⟩, _, ⟨_, ⟨fun x hx => (hall x hx).1, rfl⟩, rfl⟩, ?_⟩
    have h1 := option_mapPaths_congr (a := m0.instructions) (f := f) (g := resolved M.files (M.dirText p.dropLast))
      fun x hx => (hall x (List.mem_append_left _ hx)).2
    have h2 := option_mapPaths_congr (a := m0.material) (f := f) (g := resolved M.files (M.dirText p.dropLast))
      fun x hx => (hall x (List.mem_append_right _ hx)).2
    rw [h1, h2]
    rfl

/-- **C90, exercise manifests.** -/
theorem exercise_text_iff (M : Machine F) (p : Path) (m : ExerciseM Rest) :
    M.disk.exercise p = some m ↔ ExerciseText M p m := by
  show M.readExercise p = some m ↔ _
  unfold Machine.readExercise normalizeExercise ExerciseText HasText
  simp only [Option.bind_eq_bind, Option.bind_eq_some_iff, contents_iff, readAs_iff, Assets.exercise_normalized_iff,
    Option.pure_def, Option.some.injEq]
  constructor
  · rintro ⟨s, ⟨r, hr, hs⟩, m0, ⟨v, hv, hd, hm⟩, m1, ⟨u, ⟨hp, rfl⟩, rfl⟩, rfl⟩
    exact ⟨r, v, m0, resolved M.files (M.dirText p.dropLast), ⟨hr, s, hs, hv, hd⟩, hm,
      fun x hx => (resolved_iff hr (key_of_find hs) below_file x _).mpr ⟨hp x hx, rfl⟩, rfl⟩
  · rintro ⟨r, v, m0, f, ⟨hr, s, hs, hv, hd⟩, hm, hf, rfl⟩
    have hall := fun x hx => (resolved_iff hr (key_of_find hs) below_file x _).mp (hf x hx)
    refine ⟨s, ⟨r, hr, hs⟩, m0, ⟨v, hv, hd, hm⟩, _, ⟨_, ⟨fun x hx => (hall x hx).1, rfl⟩, rfl⟩, ?_⟩
    rw [ExerciseAsset.mapPaths_congr fun x hx => (hall x hx).2]
    rfl

/-- The walk below a directory of the library finds exactly the files below it. -/
theorem walk_iff (M : Machine F) (dir p : Path) : p ∈ M.disk.walk dir ↔ HasFile M p ∧ dir <+: p := by
  show p ∈ M.walk dir ↔ _
  unfold Machine.walk HasFile
  cases M.home with
  | none => simp
  | some r =>
    rw [(M.perm _).mem_iff, List.mem_map]
    simp only [List.mem_filter, List.isPrefixOf_iff_prefix, Option.some.injEq, exists_eq_left']
    constructor
    · rintro ⟨k, ⟨hk, q, rfl⟩, rfl⟩
      rw [List.append_assoc, List.drop_left]
      rw [List.append_assoc] at hk
      exact ⟨hk, List.prefix_append _ _⟩
    · rintro ⟨hk, hd⟩
      exact ⟨r ++ p, ⟨hk, (List.prefix_append_right_inj r).mpr hd⟩, List.drop_left⟩

end Trane.Tree
