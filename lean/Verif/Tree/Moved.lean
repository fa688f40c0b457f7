import Verif.Tree.GenServed
import Verif.Library.Alike

/-!
# A library that is moved or copied to another place (C101): specification and lemmas
-/

namespace Trane.Tree
open Trane.Store (Str)
open Trane.Library
open Trane.Assets (Files isAbsolute join BasicAsset ExerciseAsset normalizePath normalizeOptional normalizeAsset)
open Trane.Json (readAs Generator)
open Trane.Gen

variable {F : Type}

/-! ### Specification -/

/-- The library that `M` opens in the directory `r` and the one that `M'` opens in `r'` consist of the same files, which
the two machines list in the same order.  The roots are given as absolute paths. -/
structure Moved (M M' : Machine F) (r r' : Path) : Prop where
  home : M.home = some r
  home' : M'.home = some r'
  absolute : isAbsolute M.libraryRoot = true
  absolute' : isAbsolute M'.libraryRoot = true
  dir : isDir M.tree r = true
  dir' : isDir M'.tree r' = true
  same : ∀ p, M'.tree.find (r' ++ p) = M.tree.find (r ++ p)
  walk : ∀ dir, M'.walk dir = M.walk dir
  names : ∀ p, M'.names (r' ++ p) = M.names (r ++ p)
  floats : M'.floats = M.floats
  val : M'.val = M.val

/-- Following the parts `ns` of a path from the directory `p` one does not climb out of the directory in which `p` is
counted. -/
def Stays : Path → List Str → Prop
  | _, [] => True
  | p, n :: ns =>
    if n = [] ∨ n = ['.'] then Stays p ns
    else if n = ['.', '.'] then p ≠ [] ∧ Stays p.dropLast ns
    else Stays (p ++ [n]) ns

/-- The relative paths in the manifests and in the configurations of generators do not lead out of the library, and no
passages are taken from an absolute path. -/
structure StaysInside (M : Machine F) : Prop where
  course : ∀ r p v m, HasText M r p v → p.getLast? = some courseFile → Json.decCourse M.floats v = some m →
    ∀ s ∈ assetPaths m.instructions m.material, isAbsolute s = false → Stays p.dropLast (split s)
  passages : ∀ r p v m cfg, HasText M r p v → p.getLast? = some courseFile → Json.decCourse M.floats v = some m →
    m.generator = some (.transcription cfg) →
    isAbsolute cfg.passageDir = false ∧ Stays p.dropLast (split cfg.passageDir)
  lesson : ∀ r p v m, HasText M r p v → p.getLast? = some lessonFile → Json.decLessonManifest M.floats v = some m →
    ∀ s ∈ assetPaths m.instructions m.material, isAbsolute s = false → Stays p.dropLast (split s)
  exercise : ∀ r p v m, HasText M r p v → p.getLast? = some exerciseFile → Json.decExercise v = some m →
    ∀ s ∈ m.asset.paths, isAbsolute s = false → Stays p.dropLast (split s)

/-- The path `s` served by `M` and the path `s'` served by `M'`: the same text, the same place in the two directories, or
the same names below the two roots. -/
inductive SamePlace (M M' : Machine F) (r r' : Path) : Str → Str → Prop
  | text (s : Str) : SamePlace M M' r r' s s
  | place (q : Path) : exist M.tree (r ++ q) = true → SamePlace M M' r r' (render (r ++ q)) (render (r' ++ q))
  | below (ns : Path) : SamePlace M M' r r' (M.dirText ns) (M'.dirText ns)

/-- The same assets up to the paths in them. -/
inductive BasicLike (P : Str → Str → Prop) : BasicAsset → BasicAsset → Prop
  | markdown {s s' : Str} : P s s' → BasicLike P (.markdown s) (.markdown s')
  | inlined (c : Str) : BasicLike P (.inlined c) (.inlined c)
  | inlinedUnique (c : Str) : BasicLike P (.inlinedUnique c) (.inlinedUnique c)

/-- The same assets of exercises up to the paths in them. -/
inductive AssetLike (P : Str → Str → Prop) : ExerciseAsset → ExerciseAsset → Prop
  | basic {a b : BasicAsset} : BasicLike P a b → AssetLike P (.basic a) (.basic b)
  | flashcard {f f' : Str} {b b' : Option Str} : P f f' → Both P b b' → AssetLike P (.flashcard f b) (.flashcard f' b')
  | inlineFlashcard (f : Str) (b : Option Str) : AssetLike P (.inlineFlashcard f b) (.inlineFlashcard f b)
  | literacy (d : Bool) (x y : List (Str × Option Str)) : AssetLike P (.literacy d x y) (.literacy d x y)
  | soundSlice (l : Str) (d : Option Str) {b b' : Option Str} : Both P b b' →
      AssetLike P (.soundSlice l d b) (.soundSlice l d b')
  | transcription (c : Str) (l : Option Str) : AssetLike P (.transcription c l) (.transcription c l)

/-- The same parts of manifests up to the paths in them. -/
inductive RestLike (P : Str → Str → Prop) : Rest → Rest → Prop
  | course (n : Str) (d : Option Str) (a : Option (List Str)) {m m' : Option BasicAsset} : Both (BasicLike P) m m' →
      RestLike P (.course n d a m) (.course n d a m')
  | lesson (n : Str) (d : Option Str) {m m' i i' : Option BasicAsset} : Both (BasicLike P) m m' → Both (BasicLike P) i i' →
      RestLike P (.lesson n d m i) (.lesson n d m' i')
  | exercise (n : Str) (d : Option Str) (k : Bool) {a a' : ExerciseAsset} : AssetLike P a a' →
      RestLike P (.exercise n d k a) (.exercise n d k a')
  | asset {a a' : BasicAsset} : BasicLike P a a' → RestLike P (.asset a) (.asset a')

/-! ### Lemmas -/

theorem basicLike_refl {P : Str → Str → Prop} (h : ∀ s, P s s) (a : BasicAsset) : BasicLike P a a := by
  cases a with
  | markdown s => exact .markdown (h s)
  | inlined c => exact .inlined c
  | inlinedUnique c => exact .inlinedUnique c

theorem both_refl {β : Type} {R : β → β → Prop} (h : ∀ x, R x x) (o : Option β) : Both R o o := by
  cases o with
  | none => trivial
  | some x => exact h x

theorem assetLike_refl {P : Str → Str → Prop} (h : ∀ s, P s s) (a : ExerciseAsset) : AssetLike P a a := by
  cases a with
  | basic a => exact .basic (basicLike_refl h a)
  | flashcard f b => exact .flashcard (h f) (both_refl h b)
  | inlineFlashcard f b => exact .inlineFlashcard f b
  | literacy d x y => exact .literacy d x y
  | soundSlice l d b => exact .soundSlice l d (both_refl h b)
  | transcription c l => exact .transcription c l

theorem restLike_refl {P : Str → Str → Prop} (h : ∀ s, P s s) (x : Rest) : RestLike P x x := by
  cases x with
  | course n d a m => exact .course n d a (both_refl (basicLike_refl h) m)
  | lesson n d m i => exact .lesson n d (both_refl (basicLike_refl h) m) (both_refl (basicLike_refl h) i)
  | exercise n d k a => exact .exercise n d k (assetLike_refl h a)
  | asset a => exact .asset (basicLike_refl h a)

theorem restLike_name {P : Str → Str → Prop} {x y : Rest} (h : RestLike P x y) : y.name = x.name := by
  cases h <;> rfl

section
variable {M M' : Machine F} {r r' : Path}

theorem Moved.symm (h : Moved M M' r r') : Moved M' M r' r where
  home := h.home'
  home' := h.home
  absolute := h.absolute'
  absolute' := h.absolute
  dir := h.dir'
  dir' := h.dir
  same p := (h.same p).symm
  walk d := (h.walk d).symm
  names p := (h.names p).symm
  floats := h.floats.symm
  val := h.val.symm

theorem moved_key (h : Moved M M' r r') (p : Path) : r' ++ p ∈ M'.tree.keys ↔ r ++ p ∈ M.tree.keys := by
  rw [AMap.mem_keys_iff, AMap.mem_keys_iff, h.same]

theorem moved_below (h : Moved M M' r r') (p : Path) :
    (∃ k ∈ M'.tree.keys, r' ++ p <+: k) ↔ ∃ k ∈ M.tree.keys, r ++ p <+: k := by
  constructor
  · rintro ⟨k, hk, q, rfl⟩
    rw [List.append_assoc, moved_key h, ← List.append_assoc] at hk
    exact ⟨_, hk, List.prefix_append _ _⟩
  · rintro ⟨k, hk, q, rfl⟩
    rw [List.append_assoc, ← moved_key h, ← List.append_assoc] at hk
    exact ⟨_, hk, List.prefix_append _ _⟩

theorem moved_entry (h : Moved M M' r r') (p : Path) (n : Str) : Entry M'.tree (r' ++ p) n ↔ Entry M.tree (r ++ p) n := by
  unfold Entry
  rw [List.append_assoc, List.append_assoc]
  exact moved_below h _

theorem moved_isDir (h : Moved M M' r r') (p : Path) : isDir M'.tree (r' ++ p) = isDir M.tree (r ++ p) := by
  by_cases hp : p = []
  · subst hp; rw [List.append_nil, List.append_nil, h.dir, h.dir']
  · rw [Bool.eq_iff_iff, isDir_iff, isDir_iff]
    simp only [List.append_eq_nil_iff, hp, and_false, false_or, moved_entry h]

theorem moved_exist (h : Moved M M' r r') (p : Path) : exist M'.tree (r' ++ p) = exist M.tree (r ++ p) := by
  unfold exist; rw [moved_isDir h, h.same]

theorem follow_stays (h : Moved M M' r r') {p : Path} {ns : List Str} (hs : Stays p ns) :
    ∃ x : Option Path, follow M.tree (r ++ p) ns = x.map (r ++ ·) ∧ follow M'.tree (r' ++ p) ns = x.map (r' ++ ·) := by
  induction ns generalizing p with
  | nil => exact ⟨some p, rfl, rfl⟩
  | cons n ns ih =>
    rw [follow, follow, moved_isDir h]
    by_cases hd : isDir M.tree (r ++ p) = true
    · rw [if_pos hd, if_pos hd]
      unfold Stays at hs
      by_cases h1 : n = [] ∨ n = ['.']
      · rw [if_pos h1, if_pos h1]
        rw [if_pos h1] at hs
        exact ih hs
      · rw [if_neg h1, if_neg h1]
        rw [if_neg h1] at hs
        by_cases h2 : n = ['.', '.']
        · rw [if_pos h2, if_pos h2]
          rw [if_pos h2] at hs
          rw [List.dropLast_append_of_ne_nil hs.1, List.dropLast_append_of_ne_nil hs.1]
          exact ih hs.2
        · rw [if_neg h2, if_neg h2]
          rw [if_neg h2] at hs
          rw [List.append_assoc, List.append_assoc]
          exact ih hs
    · rw [if_neg hd, if_neg hd]
      exact ⟨none, rfl, rfl⟩

theorem resolve_stays (h : Moved M M' r r') {p : Path} {ns : List Str} (hs : Stays p ns) :
    ∃ x : Option Path, resolve M.tree (r ++ p) ns = x.map (r ++ ·) ∧ resolve M'.tree (r' ++ p) ns = x.map (r' ++ ·) := by
  obtain ⟨x, h1, h2⟩ := follow_stays h hs
  unfold resolve
  rw [h1, h2]
  cases x with
  | none => exact ⟨none, rfl, rfl⟩
  | some q =>
    simp only [Option.map_some]
    rw [moved_exist h]
    by_cases he : exist M.tree (r ++ q) = true
    · exact ⟨some q, by simp [he], by simp [he]⟩
    · exact ⟨none, by simp [he], by simp [he]⟩

theorem normalizePath_moved (h : Moved M M' r r') {dir : Path} (hk : ∃ k ∈ M.tree.keys, r ++ dir <+: k) {s : Str}
    (hs : isAbsolute s = false → Stays dir (split s)) :
    Both (SamePlace M M' r r') (normalizePath M.files (M.dirText dir) s) (normalizePath M'.files (M'.dirText dir) s) := by
  unfold normalizePath
  cases ha : isAbsolute s with
  | true => exact .text s
  | false =>
    obtain ⟨k, hk1, hk2⟩ := hk
    obtain ⟨k', hk1', hk2'⟩ := (moved_below h dir).mpr ⟨k, hk1, hk2⟩
    simp only [Bool.false_eq_true, if_false]
    rw [canonicalize_below h.home hk1 hk2 ha, canonicalize_below h.home' hk1' hk2' ha]
    obtain ⟨x, h1, h2⟩ := resolve_stays h (hs ha)
    rw [h1, h2]
    cases x with
    | none => trivial
    | some q => exact .place q (resolve_exist h1)

theorem basic_moved (h : Moved M M' r r') {dir : Path} (hk : ∃ k ∈ M.tree.keys, r ++ dir <+: k) {a : BasicAsset}
    (hs : ∀ s ∈ a.paths, isAbsolute s = false → Stays dir (split s)) :
    Both (BasicLike (SamePlace M M' r r')) (a.normalize M.files (M.dirText dir)) (a.normalize M'.files (M'.dirText dir)) := by
  cases a with
  | markdown s =>
    exact both_map (normalizePath_moved h hk (hs s (by simp [BasicAsset.paths]))) (fun x y hxy => .markdown hxy)
  | inlined c => exact .inlined c
  | inlinedUnique c => exact .inlinedUnique c

theorem normalizeAsset_moved (h : Moved M M' r r') {dir : Path} (hk : ∃ k ∈ M.tree.keys, r ++ dir <+: k)
    {a : Option BasicAsset} (hs : ∀ s ∈ a.elim [] BasicAsset.paths, isAbsolute s = false → Stays dir (split s)) :
    Both (Both (BasicLike (SamePlace M M' r r'))) (normalizeAsset M.files (M.dirText dir) a)
      (normalizeAsset M'.files (M'.dirText dir) a) := by
  cases a with
  | none => trivial
  | some a => exact both_map (basic_moved h hk hs) (fun x y hxy => hxy)

theorem normalizeOptional_moved (h : Moved M M' r r') {dir : Path} (hk : ∃ k ∈ M.tree.keys, r ++ dir <+: k)
    {o : Option Str} (hs : ∀ s, o = some s → isAbsolute s = false → Stays dir (split s)) :
    Both (Both (SamePlace M M' r r')) (normalizeOptional M.files (M.dirText dir) o)
      (normalizeOptional M'.files (M'.dirText dir) o) := by
  cases o with
  | none => trivial
  | some s => exact both_map (normalizePath_moved h hk (hs s rfl)) (fun x y hxy => hxy)

theorem asset_moved (h : Moved M M' r r') {dir : Path} (hk : ∃ k ∈ M.tree.keys, r ++ dir <+: k) {a : ExerciseAsset}
    (hs : ∀ s ∈ a.paths, isAbsolute s = false → Stays dir (split s)) :
    Both (AssetLike (SamePlace M M' r r')) (a.normalize M.files (M.dirText dir)) (a.normalize M'.files (M'.dirText dir)) := by
  cases a with
  | basic a => exact both_map (basic_moved h hk hs) (fun x y hxy => .basic hxy)
  | flashcard f b =>
    refine both_bind (normalizePath_moved h hk (hs f (by simp [ExerciseAsset.paths]))) (fun x y hxy _ _ => ?_)
    refine both_bind (normalizeOptional_moved (o := b) h hk (fun s e => hs s (by subst e; simp [ExerciseAsset.paths])))
      (fun b b' hb _ _ => .flashcard hxy hb)
  | inlineFlashcard f b => exact .inlineFlashcard f b
  | literacy d x y => exact .literacy d x y
  | transcription c l => exact .transcription c l
  | soundSlice l d b =>
    cases b with
    | none => exact .soundSlice l d trivial
    | some p =>
      exact both_map (normalizePath_moved h hk (hs p (by simp [ExerciseAsset.paths])))
        (fun x y hxy => .soundSlice (b := some x) (b' := some y) l d hxy)

/-! ### Reading the manifests -/

theorem contents_moved (h : Moved M M' r r') (p : Path) : M'.contents p = M.contents p := by
  unfold Machine.contents; rw [h.home, h.home']; exact h.same p

theorem hasText_of {p : Path} {text : Str} {α : Type} {d : Json.Json → Option α} {m : α} (hr : M.home = some r)
    (hc : M.contents p = some text) (hm : readAs d text = some m) :
    ∃ v, HasText M r p v ∧ d v = some m := by
  obtain ⟨v, h1, h2, h3⟩ := (readAs_iff d text m).mp hm
  obtain ⟨r0, hr0, hf⟩ := (contents_iff p text).mp hc
  rw [hr] at hr0
  cases hr0
  exact ⟨v, ⟨hr, text, hf, h1, h2⟩, h3⟩

theorem key_below {p : Path} {text : Str} (hr : M.home = some r) (hc : M.contents p = some text) :
    ∃ k ∈ M.tree.keys, r ++ p.dropLast <+: k := by
  obtain ⟨r0, hr0, hf⟩ := (contents_iff p text).mp hc
  rw [hr] at hr0
  cases hr0
  exact ⟨_, key_of_find hf, below_file⟩

theorem course_moved (h : Moved M M' r r') (hi : StaysInside M) {p : Path} (hp : p.getLast? = some courseFile) :
    Both (CourseM.Like (RestLike (SamePlace M M' r r'))) (M.readCourse p) (M'.readCourse p) := by
  unfold Machine.readCourse
  rw [contents_moved h, h.floats, h.val]
  refine both_bind (both_refl (R := fun x y => y = x) (fun _ => rfl) (M.contents p)) (fun x y hxy hc _ => ?_)
  subst hxy
  refine both_bind (both_refl (R := fun x y => y = x) (fun _ => rfl) _) (fun m m' hm hd _ => ?_)
  subst hm
  obtain ⟨v, hv, hdec⟩ := hasText_of h.home hc hd
  have hst := hi.course r p v _ hv hp hdec
  have hk := key_below h.home hc
  have h1 := normalizeAsset_moved (a := m'.instructions) h hk (fun s hs => hst s (List.mem_append_left _ hs))
  have h2 := normalizeAsset_moved (a := m'.material) h hk (fun s hs => hst s (List.mem_append_right _ hs))
  refine both_bind (R := fun u u' => ∃ i i' t t', u = { m' with instructions := i, material := t } ∧
      u' = { m' with instructions := i', material := t' } ∧ Both (BasicLike (SamePlace M M' r r')) i i' ∧
      Both (BasicLike (SamePlace M M' r r')) t t') ?_ ?_
  · unfold normalizeCourse Assets.UnitManifest.normalize
    refine both_bind (R := fun u u' => u.rest = m' ∧ u'.rest = m' ∧
      Both (BasicLike (SamePlace M M' r r')) u.instructions u'.instructions ∧
      Both (BasicLike (SamePlace M M' r r')) u.material u'.material) ?_ ?_
    · exact both_bind h1 (fun i i' hi _ _ => both_bind h2 (fun t t' ht _ _ => ⟨rfl, rfl, hi, ht⟩))
    · rintro u u' ⟨_, _, hu, hu'⟩ _ _
      exact ⟨_, _, _, _, rfl, rfl, hu, hu'⟩
  · rintro u u' ⟨i, i', t, t', rfl, rfl, hii, htt⟩ _ _
    refine ⟨rfl, rfl, rfl, rfl, rfl, rfl, ?_, .course _ _ _ htt⟩
    exact both_map hii (fun x y hxy => .asset hxy)

theorem lesson_moved (h : Moved M M' r r') (hi : StaysInside M) {p : Path} (hp : p.getLast? = some lessonFile) :
    Both (LessonM.Like (RestLike (SamePlace M M' r r'))) (M.readLesson p) (M'.readLesson p) := by
  unfold Machine.readLesson
  rw [contents_moved h, h.floats, h.val]
  refine both_bind (both_refl (R := fun x y => y = x) (fun _ => rfl) (M.contents p)) (fun x y hxy hc _ => ?_)
  subst hxy
  refine both_bind (both_refl (R := fun x y => y = x) (fun _ => rfl) _) (fun m m' hm hd _ => ?_)
  subst hm
  obtain ⟨v, hv, hdec⟩ := hasText_of h.home hc hd
  have hst := hi.lesson r p v _ hv hp hdec
  have hk := key_below h.home hc
  have h1 := normalizeAsset_moved (a := m'.instructions) h hk (fun s hs => hst s (List.mem_append_left _ hs))
  have h2 := normalizeAsset_moved (a := m'.material) h hk (fun s hs => hst s (List.mem_append_right _ hs))
  refine both_bind (R := fun u u' => ∃ i i' t t', u = { m' with instructions := i, material := t } ∧
      u' = { m' with instructions := i', material := t' } ∧ Both (BasicLike (SamePlace M M' r r')) i i' ∧
      Both (BasicLike (SamePlace M M' r r')) t t') ?_ ?_
  · unfold normalizeLesson Assets.UnitManifest.normalize
    refine both_bind (R := fun u u' => u.rest = m' ∧ u'.rest = m' ∧
      Both (BasicLike (SamePlace M M' r r')) u.instructions u'.instructions ∧
      Both (BasicLike (SamePlace M M' r r')) u.material u'.material) ?_ ?_
    · exact both_bind h1 (fun i i' hi _ _ => both_bind h2 (fun t t' ht _ _ => ⟨rfl, rfl, hi, ht⟩))
    · rintro u u' ⟨_, _, hu, hu'⟩ _ _
      exact ⟨_, _, _, _, rfl, rfl, hu, hu'⟩
  · rintro u u' ⟨i, i', t, t', rfl, rfl, hii, htt⟩ _ _
    exact ⟨rfl, rfl, rfl, rfl, rfl, rfl, .lesson _ _ htt hii⟩

theorem exercise_moved (h : Moved M M' r r') (hi : StaysInside M) {p : Path} (hp : p.getLast? = some exerciseFile) :
    Both (ExerciseM.Like (RestLike (SamePlace M M' r r'))) (M.readExercise p) (M'.readExercise p) := by
  unfold Machine.readExercise
  rw [contents_moved h]
  refine both_bind (both_refl (R := fun x y => y = x) (fun _ => rfl) (M.contents p)) (fun x y hxy hc _ => ?_)
  subst hxy
  refine both_bind (both_refl (R := fun x y => y = x) (fun _ => rfl) _) (fun m m' hm hd _ => ?_)
  subst hm
  obtain ⟨v, hv, hdec⟩ := hasText_of h.home hc hd
  have hst := hi.exercise r p v _ hv hp hdec
  have hk := key_below h.home hc
  have h1 := asset_moved (a := m'.asset) h hk hst
  refine both_bind (R := fun u u' => ∃ a a', u = { m' with asset := a } ∧ u' = { m' with asset := a' } ∧
      AssetLike (SamePlace M M' r r') a a') ?_ ?_
  · unfold normalizeExercise Assets.ExerciseManifest.normalize
    refine both_bind (R := fun u u' => AssetLike (SamePlace M M' r r') u.asset u'.asset)
      (both_map h1 (fun x y hxy => hxy)) ?_
    intro u u' hu _ _
    exact ⟨_, _, rfl, rfl, hu⟩
  · rintro u u' ⟨a, a', rfl, rfl, ha⟩ _ _
    exact ⟨rfl, rfl, rfl, .exercise _ _ _ ha⟩

/-! ### The generators -/

theorem subdirs_moved (h : Moved M M' r r') {C : Type} (p : Path) (content : Str → Option Str → C) :
    M'.subdirs (r' ++ p) content = M.subdirs (r ++ p) content := by
  unfold Machine.subdirs
  have hd : ∀ n, isDir M'.tree (r' ++ p ++ [n]) = isDir M.tree (r ++ p ++ [n]) := fun n => by
    rw [List.append_assoc, List.append_assoc, moved_isDir h]
  have hn : ∀ n, M'.names (r' ++ p ++ [n]) = M.names (r ++ p ++ [n]) := fun n => by
    rw [List.append_assoc, List.append_assoc, h.names]
  have hf : ∀ n f, M'.tree.find (r' ++ p ++ [n, f]) = M.tree.find (r ++ p ++ [n, f]) := fun n f => by
    rw [List.append_assoc, List.append_assoc, h.same]
  simp only [moved_isDir h, h.names, hd, hn, hf]

theorem lessons_refl {P : Str → Str → Prop} (hP : ∀ s, P s s) (ls : List (LessonM Rest × List (ExerciseM Rest))) :
    List.Forall₂ (LikeLessons (RestLike P)) ls ls :=
  forall₂_same (fun x _ => ⟨⟨rfl, rfl, rfl, rfl, rfl, rfl, restLike_refl hP _⟩,
    forall₂_same (fun e _ => ⟨rfl, rfl, rfl, restLike_refl hP _⟩)⟩)

theorem generated_refl {P : Str → Str → Prop} (hP : ∀ s, P s s) (g : Generated Rest) : Generated.Like (RestLike P) g g :=
  ⟨lessons_refl hP _, rfl, both_refl (restLike_refl hP) _⟩

theorem knowledge_manifests_moved {P : Str → Str → Prop} (hP : ∀ s, P s s) {R R' : Knowledge.Rest Rest}
    (hl : R'.lesson = R.lesson) (he : ∀ s n d t a, RestLike P (R.exercise s n d t a) (R'.exercise s n d t a))
    (inlined : Bool) (c : Str) (short : List Str) (x : Str × (Knowledge.Lesson × List Knowledge.Exercise)) :
    Both (LikeLessons (RestLike P)) (Knowledge.manifests R inlined c short x) (Knowledge.manifests R' inlined c short x) := by
  unfold Knowledge.manifests
  refine both_bind (R := List.Forall₂ (ExerciseM.Like (RestLike P))) ?_ ?_
  · refine both_mapM (R := fun _ _ => True) (forall₂_same (fun e _ => ?_))
    unfold Knowledge.exerciseManifest
    refine both_bind (both_refl (R := fun x y => y = x) (fun _ => rfl) _) (fun a a' ha _ _ => ?_)
    subst ha
    exact ⟨rfl, rfl, rfl, he _ _ _ _ _⟩
  · intro es es' hes _ _
    refine ⟨⟨rfl, rfl, rfl, rfl, rfl, rfl, ?_⟩, hes⟩
    unfold Knowledge.lessonManifest
    rw [hl]
    exact restLike_refl hP _

theorem knowledge_moved {P : Str → Str → Prop} (hP : ∀ s, P s s) {R R' : Knowledge.Rest Rest}
    (hl : R'.lesson = R.lesson) (he : ∀ s n d t a, RestLike P (R.exercise s n d t a) (R'.exercise s n d t a))
    (inlined : Bool) (o : Knowledge.Groups → Knowledge.Groups) (o' : Knowledge.Lessons → Knowledge.Lessons)
    (dirs : List (Str × List (Str × Knowledge.Content))) {c c' : CourseM Rest Generator} (hc : c'.id = c.id) :
    Both (Generated.Like (RestLike P)) (Knowledge.generate R inlined o o' dirs c)
      (Knowledge.generate R' inlined o o' dirs c') := by
  unfold Knowledge.generate
  rw [hc]
  refine both_bind (both_refl (R := fun x y => y = x) (fun _ => rfl) _) (fun ls ls' hls _ _ => ?_)
  subst hls
  refine both_bind (R := List.Forall₂ (LikeLessons (RestLike P))) ?_ (fun ms ms' hms _ _ => ⟨hms, rfl, trivial⟩)
  exact both_mapM (R := fun _ _ => True) (forall₂_same (fun x _ => knowledge_manifests_moved hP hl he inlined _ _ x))

theorem card_moved (dir : Path) (s : Str) (a : Knowledge.Card) :
    AssetLike (SamePlace M M' r r') (Machine.cardAsset (join (M.dirText dir) s) a)
      (Machine.cardAsset (join (M'.dirText dir) s) a) := by
  have e : ∀ (N : Machine F) f, join (join (N.dirText dir) s) f = N.dirText (dir ++ [s, f]) := fun N f => by
    rw [dirText_append]; rfl
  cases a with
  | inline f b => exact .inlineFlashcard f b
  | paths f b =>
    unfold Machine.cardAsset
    refine .flashcard ?_ ?_
    · rw [e, e]; exact .below _
    · cases b with
      | none => trivial
      | some b => show SamePlace M M' r r' (join _ b) (join _ b); rw [e, e]; exact .below _

theorem literacy_same {c c' : CourseM Rest Generator} (hid : c'.id = c.id) (hm : c'.metadata = c.metadata)
    (hn : c'.rest.name = c.rest.name) (b : Bool) (o : AMap Str Literacy.Lesson → AMap Str Literacy.Lesson)
    (dirs : List (Str × List (Str × Literacy.Content))) (i : Option (Option Rest)) :
    Literacy.generate literacyRest b o dirs i c' = Literacy.generate literacyRest b o dirs i c := by
  have h1 : ∀ l k, literacyName c' l k = literacyName c l k := fun l k => by unfold literacyName; rw [hid, hn]
  have h2 : ∀ l k id, Literacy.exerciseOf literacyRest c' l k id = Literacy.exerciseOf literacyRest c l k id :=
    fun l k id => by unfold Literacy.exerciseOf literacyRest; rw [hid]; simp only [h1]
  have h3 : ∀ s k l, Literacy.reading literacyRest c' s k l = Literacy.reading literacyRest c s k l :=
    fun s k l => by unfold Literacy.reading; simp only [h2, hid]; simp only [literacyRest, h1]
  have h4 : ∀ s k l, Literacy.dictation literacyRest c' s k l = Literacy.dictation literacyRest c s k l :=
    fun s k l => by unfold Literacy.dictation; simp only [h2, hid]; simp only [literacyRest, h1]
  have h5 : ∀ s, Literacy.manifests literacyRest b c' s = Literacy.manifests literacyRest b c s :=
    fun s => by funext e; unfold Literacy.manifests; simp only [h3, h4]
  unfold Literacy.generate Literacy.generated
  simp only [h5, hm]

theorem place_joined (hr : M.home = some r) {dir : Path} (hk : ∃ k ∈ M.tree.keys, r ++ dir <+: k) {s : Str}
    (hs : isAbsolute s = false) : M.place (join (M.dirText dir) s) = resolve M.tree (r ++ dir) (split s) := by
  obtain ⟨k, hk1, hk2⟩ := hk
  unfold Machine.place
  have : (join (M.dirText dir) s).isEmpty = false := by simp [join_ne (dirText_ne hr dir)]
  rw [this]
  simp only [Bool.false_eq_true, if_false]
  unfold resolve
  rw [follow_join (dirText_ne hr dir) hs, follow_dirText hr hk1 hk2]
  rfl

theorem passages_moved (h : Moved M M' r r') {dir : Path} (hk : ∃ k ∈ M.tree.keys, r ++ dir <+: k) {s : Str}
    (ha : isAbsolute s = false) (hs : Stays dir (split s)) : M'.passageEntries dir s = M.passageEntries dir s := by
  unfold Machine.passageEntries
  rw [place_joined h.home hk ha, place_joined h.home' ((moved_below h dir).mpr hk) ha]
  obtain ⟨x, h1, h2⟩ := resolve_stays h hs
  rw [h1, h2]
  cases x with
  | none => rfl
  | some q =>
    simp only [Option.map_some, Option.bind_some]
    have hf : ∀ n, M'.tree.find (r' ++ q ++ [n]) = M.tree.find (r ++ q ++ [n]) := fun n => by
      rw [List.append_assoc, List.append_assoc, h.same]
    rw [moved_isDir h, h.names]
    simp only [hf]

theorem openDirectory_same {f g : Str → Option (List Transcription.Entry)} {cfg : Transcription.Config}
    (h : f cfg.passageDir = g cfg.passageDir) : Transcription.openDirectory f cfg = Transcription.openDirectory g cfg := by
  unfold Transcription.openDirectory; rw [h]

theorem gen_moved (h : Moved M M' r r') (X : Outside) (prefs : Json.UserPreferences) {dir : Path}
    (hk : ∃ k ∈ M.tree.keys, r ++ dir <+: k) {c c' : CourseM Rest Generator}
    (hc : CourseM.Like (RestLike (SamePlace M M' r r')) c c') (cfg : Generator)
    (hst : ∀ t, cfg = .transcription t → isAbsolute t.passageDir = false ∧ Stays dir (split t.passageDir)) :
    Both (Generated.Like (RestLike (SamePlace M M' r r'))) (M.gen X prefs cfg dir c) (M'.gen X prefs cfg dir c') := by
  obtain ⟨c1, c2, c3, c4, c5, c6, c7, c8⟩ := hc
  have hn := restLike_name c8
  have hP : ∀ s, SamePlace M M' r r' s s := .text
  cases cfg with
  | knowledgeBase inlined =>
    unfold Machine.gen
    rw [h.home, h.home']
    simp only [Option.bind_some]
    have hw : M'.knowledgeContent = M.knowledgeContent := by
      funext n t
      unfold Machine.knowledgeContent
      have : M'.weightsOf = M.weightsOf := by funext t; unfold Machine.weightsOf; rw [h.floats, h.val]
      rw [this]
    rw [subdirs_moved h, hw]
    refine both_bind (both_refl (R := fun x y => y = x) (fun _ => rfl) _) (fun dirs dirs' hd _ _ => ?_)
    subst hd
    have he : ∀ s n d t a, RestLike (SamePlace M M' r r') ((M.knowledgeRest dir).exercise s n d t a)
        ((M'.knowledgeRest dir).exercise s n d t a) := by
      intro s n d t a
      unfold Machine.knowledgeRest
      exact .exercise n d _ (card_moved dir _ a)
    have hl : (M'.knowledgeRest dir).lesson = (M.knowledgeRest dir).lesson := by
      unfold Machine.knowledgeRest; rfl
    exact knowledge_moved (R := M.knowledgeRest dir) (R' := M'.knowledgeRest dir) hP hl he inlined X.exerciseOrder
      X.lessonOrder dirs' c1
  | literacy b =>
    unfold Machine.gen
    rw [h.home, h.home']
    simp only [Option.bind_some]
    have hw : M'.literacyContent X = M.literacyContent X := by
      funext n t
      unfold Machine.literacyContent
      have : M'.weightsOf = M.weightsOf := by funext t; unfold Machine.weightsOf; rw [h.floats, h.val]
      rw [this]
    rw [subdirs_moved h, hw, c6, List.append_assoc, List.append_assoc, h.same]
    simp only [literacy_same c1 c5 hn]
    exact both_refl (generated_refl hP) _
  | musicPiece a p =>
    unfold Machine.gen Music.generate
    dsimp only
    rw [c1, hn]
    exact generated_refl hP _
  | transcription cfg =>
    obtain ⟨ha, hs⟩ := hst cfg rfl
    unfold Machine.gen Transcription.generate
    dsimp only
    rw [openDirectory_same (passages_moved h hk ha hs), c1, c5, c6, hn]
    refine both_bind (both_refl (R := fun x y => y = x) (fun _ => rfl) _) (fun ps ps' hps _ _ => ?_)
    subst hps
    refine ⟨lessons_refl hP _, rfl, ?_⟩
    have : c'.instructions.isNone = c.instructions.isNone := by
      cases h1 : c.instructions <;> cases h2 : c'.instructions <;> simp only [h1, h2] at c7 ⊢ <;>
        first | rfl | exact c7.elim
    show Both _ (if c.instructions.isNone then _ else _) (if c'.instructions.isNone then _ else _)
    rw [this]
    exact both_refl (restLike_refl hP) _

/-! ### The configuration and the ignored paths -/

theorem configHome_of_absolute (ha : isAbsolute M.libraryRoot = true) : M.configHome = M.home :=
  config_beside_library M (.inl ha)

theorem configContents_moved (h : Moved M M' r r') (p : Path) : M'.configContents p = M.configContents p := by
  unfold Machine.configContents
  rw [configHome_of_absolute h.absolute, configHome_of_absolute h.absolute', h.home, h.home']
  exact h.same p

theorem prefs_moved (h : Moved M M' r r') : M'.prefs = M.prefs := by
  unfold Machine.prefs; rw [configContents_moved h]

theorem components_absolute (s : Str) : (components s).abs = isAbsolute s := by
  unfold components; cases isAbsolute s <;> rfl

theorem courseFiles_of_absolute (ha : isAbsolute M.libraryRoot = true) (ig : List Str)
    (hig : ∀ i ∈ ig, isAbsolute i = false) : courseFiles M.disk (ig.map components) =
      (M.walk []).filter (fun p => 2 ≤ p.length && p.getLast? = some courseFile &&
        !ig.any (fun i => (noDots (components i).comps).isPrefixOf p)) := by
  unfold courseFiles
  refine List.filter_congr (fun p _ => ?_)
  congr 2
  unfold ignoredPaths
  rw [List.any_map, List.any_map]
  rw [Bool.eq_iff_iff, List.any_eq_true, List.any_eq_true]
  refine exists_congr (fun i => and_congr_right (fun hi => ?_))
  have hr : M.root = M.libraryRoot := by unfold Machine.root join; rw [if_pos ha]
  have h1 : (M.disk.root).abs = true := by
    show (components M.root).abs = true
    rw [components_absolute, hr, ha]
  have h2 : (components i).abs = false := by rw [components_absolute]; exact hig i hi
  simp only [Function.comp_apply]
  unfold FPath.absolute FPath.push entryPath FPath.startsWith
  simp only [h1, h2, if_true, Bool.false_eq_true, if_false, decide_true, Bool.true_and, List.isPrefixOf_iff_prefix,
    List.prefix_append_right_inj]

end

end Trane.Tree
