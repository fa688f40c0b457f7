import Verif.Library.Model
import Verif.Library.Assets
import Verif.Json.Serde

/-!
# A library as texts in a tree of files

The model of the library (Verif/Library/Model.lean) takes what reading a manifest gives as a parameter.
Here that parameter is computed: from the contents of the files, the reader of JSON (Verif/Json) and
the normalization of paths (Verif/Library/Assets.lean) on a tree of files.

The file system has no symbolic links, names and contents are valid UTF-8, and every file can be read.
Directories without files in them do not exist.
-/

namespace Trane.Tree
open Trane.Store (Str)
open Trane.Library (Path FPath Disk CourseM LessonM ExerciseM Generated)
open Trane.Assets (Files isAbsolute join BasicAsset ExerciseAsset)
open Trane.Json (readAs decCourse decLessonManifest decExercise Floats Generator)

/-! ### Files -/

/-- The files of the machine with their contents, by their paths from the root of the file system. -/
abbrev Tree := AMap Path Str

/-- Whether the path is a directory. As in /repo/src/course_library.rs:459. -/
def isDir (t : Tree) (p : Path) : Bool := p = [] || t.any (fun e => p.isPrefixOf e.1 && e.1 ≠ p)

/-- Whether there is something at the path. As in /repo/src/data.rs:264. -/
def exist (t : Tree) (p : Path) : Bool := isDir t p || (t.find p).isSome

/-- What a name in a directory may be. -/
def GoodName (n : Str) : Prop := n ≠ [] ∧ '/' ∉ n ∧ n ≠ ['.'] ∧ n ≠ ['.', '.']

/-- The names in the tree are names. -/
def GoodTree (t : Tree) : Prop := ∀ p ∈ t.keys, ∀ n ∈ p, GoodName n

/-- The parts of a path between the slashes. -/
def split : Str → List Str
  | [] => [[]]
  | '/' :: s => [] :: split s
  | c :: s =>
    match split s with
    | [] => [[c]]
    | n :: ns => (c :: n) :: ns

/-- Following a path from a directory, without looking at where it leads: `realpath(3)`. -/
def follow (t : Tree) : Path → List Str → Option Path
  | p, [] => some p
  | p, n :: ns =>
    if isDir t p then
      if n = [] ∨ n = ['.'] then follow t p ns
      else if n = ['.', '.'] then follow t p.dropLast ns
      else follow t (p ++ [n]) ns
    else none

/-- Following a path to something that is there. -/
def resolve (t : Tree) (p : Path) (ns : List Str) : Option Path :=
  match follow t p ns with
  | some q => if exist t q then some q else none
  | none => none

/-- The text of an absolute path. -/
def render : Path → Str
  | [] => ['/']
  | p => p.flatMap (fun n => '/' :: n)

/-- Where a path starts. -/
def start (cwd : Path) (s : Str) : Path := if isAbsolute s then [] else cwd

/-- `Path::canonicalize`. As in /repo/src/data.rs:193. -/
def canonicalize (t : Tree) (cwd : Path) (s : Str) : Option Str :=
  if s.isEmpty then none else (resolve t (start cwd s) (split s)).map render

/-- `Path::components`: empty parts are dropped, and `.` except at the beginning of a relative path.
As in /repo/src/course_library.rs:438-472. -/
def components (s : Str) : FPath :=
  let ns := split s
  if isAbsolute s then ⟨true, ns.filter (fun n => n ≠ [] && n ≠ ['.'])⟩
  else ⟨false, (ns.take 1).filter (fun n => n ≠ []) ++ (ns.drop 1).filter (fun n => n ≠ [] && n ≠ ['.'])⟩

/-! ### Manifests -/

/-- The parts of manifests the library does not look at. -/
inductive Rest
  | course (name : Str) (description : Option Str) (authors : Option (List Str)) (material : Option BasicAsset)
  | lesson (name : Str) (description : Option Str) (material instructions : Option BasicAsset)
  | exercise (name : Str) (description : Option Str) (declarative : Bool) (asset : ExerciseAsset)
  | asset (a : BasicAsset)

variable {F : Type}

/-- A course manifest as the library keeps it.  `val` is the value of a weight.
/repo/src/course_library.rs:357-379. -/
def courseM (val : F → ℚ) (m : Json.CourseManifest F) : CourseM Rest Generator :=
  ⟨m.id, m.dependencies, m.encompassed.map (fun e => (e.1, val e.2)), m.superseded, m.metadata,
    m.instructions.map .asset, m.generator, .course m.name m.description m.authors m.material⟩

/-- A lesson manifest as the library keeps it. /repo/src/course_library.rs:381-401. -/
def lessonM (val : F → ℚ) (m : Json.LessonManifest F) : LessonM Rest :=
  ⟨m.id, m.dependencies, m.encompassed.map (fun e => (e.1, val e.2)), m.superseded, m.courseId, m.metadata,
    .lesson m.name m.description m.material m.instructions⟩

/-- An exercise manifest as the library keeps it. /repo/src/course_library.rs:402-409. -/
def exerciseM (m : Json.ExerciseManifest) : ExerciseM Rest :=
  ⟨m.id, m.lessonId, m.courseId, .exercise m.name m.description m.declarative m.asset⟩

/-- /repo/src/data.rs:434-449. -/
def normalizeCourse (fs : Files) (wd : Str) (m : Json.CourseManifest F) : Option (Json.CourseManifest F) := do
  let u ← (Assets.UnitManifest.mk m m.instructions m.material).normalize fs wd
  return { m with instructions := u.instructions, material := u.material }

/-- /repo/src/data.rs:547-558. -/
def normalizeLesson (fs : Files) (wd : Str) (m : Json.LessonManifest F) : Option (Json.LessonManifest F) := do
  let u ← (Assets.UnitManifest.mk m m.instructions m.material).normalize fs wd
  return { m with instructions := u.instructions, material := u.material }

/-- /repo/src/data.rs:782-788. -/
def normalizeExercise (fs : Files) (wd : Str) (m : Json.ExerciseManifest) : Option Json.ExerciseManifest := do
  let x ← (Assets.ExerciseManifest.mk m m.asset).normalize fs wd
  return { m with asset := x.asset }

/-! ### The tree is a file system as the model of assets assumes it -/

theorem isDir_of_prefix {t : Tree} {p k : Path} (hk : k ∈ t.keys) (hp : p <+: k) (hne : k ≠ p) : isDir t p = true := by
  unfold isDir
  rw [Bool.or_eq_true, List.any_eq_true]
  obtain ⟨e, he, rfl⟩ := List.mem_map.mp hk
  exact .inr ⟨e, he, by rw [Bool.and_eq_true, List.isPrefixOf_iff_prefix]; exact ⟨hp, by simpa using hne⟩⟩

theorem exist_iff {t : Tree} {p : Path} : exist t p = true ↔ p = [] ∨ ∃ k ∈ t.keys, p <+: k := by
  unfold exist isDir
  rw [Bool.or_eq_true, Bool.or_eq_true, List.any_eq_true, decide_eq_true_eq]
  constructor
  · rintro ((h | ⟨e, he, h⟩) | h)
    · exact .inl h
    · rw [Bool.and_eq_true, List.isPrefixOf_iff_prefix] at h
      exact .inr ⟨e.1, List.mem_map.mpr ⟨e, he, rfl⟩, h.1⟩
    · obtain ⟨x, hx⟩ := Option.isSome_iff_exists.mp h
      exact .inr ⟨p, (AMap.mem_keys_iff _ _).mpr ⟨x, hx⟩, List.prefix_refl _⟩
  · rintro (h | ⟨k, hk, h⟩)
    · exact .inl (.inl h)
    · by_cases e : k = p
      · subst e
        obtain ⟨x, hx⟩ := (AMap.mem_keys_iff _ _).mp hk
        exact .inr (by rw [hx]; rfl)
      · obtain ⟨e', he, rfl⟩ := List.mem_map.mp hk
        exact .inl (.inr ⟨e', he, by rw [Bool.and_eq_true, List.isPrefixOf_iff_prefix]; exact ⟨h, by simpa using e⟩⟩)

theorem follow_append (t : Tree) (p : Path) (xs ys : List Str) :
    follow t p (xs ++ ys) = (follow t p xs).bind (fun q => follow t q ys) := by
  induction xs generalizing p with
  | nil => rfl
  | cons n ns ih =>
    rw [List.cons_append, follow, follow]
    split
    · split
      · exact ih _
      · split <;> exact ih _
    · rfl

/-- Names lead into the directories they name. -/
theorem follow_names {t : Tree} {p : Path} {ns : List Str} (hn : ∀ n ∈ ns, GoodName n)
    (h : ∀ q, q <+: ns → q ≠ ns → isDir t (p ++ q) = true) : follow t p ns = some (p ++ ns) := by
  induction ns generalizing p with
  | nil => simp [follow]
  | cons n ns ih =>
    obtain ⟨g1, _, g3, g4⟩ := hn n (by simp)
    have h0 := h [] (List.nil_prefix) (by simp)
    rw [List.append_nil] at h0
    rw [follow, if_pos h0, if_neg (by simp [g1, g3]), if_neg g4, ih (fun m hm => hn m (List.mem_cons_of_mem _ hm)),
      List.append_assoc]
    · rfl
    · intro q hq hne
      rw [List.append_assoc]
      refine h (n :: q) ((List.prefix_cons_inj n).mpr hq) (by simpa using hne)

theorem split_ne (s : Str) : split s ≠ [] := by
  cases s with
  | nil => simp [split]
  | cons c s =>
    by_cases hc : c = '/'
    · subst hc; simp [split]
    · rw [split]
      · split <;> simp
      · intro h; exact hc h

theorem split_cons {c : Char} (hc : c ≠ '/') (s : Str) : ∃ n ns, split s = n :: ns ∧ split (c :: s) = (c :: n) :: ns := by
  cases h : split s with
  | nil => exact absurd h (split_ne s)
  | cons n ns =>
    refine ⟨n, ns, rfl, ?_⟩
    rw [split]
    · rw [h]
    · intro h; exact hc h

theorem split_append (a b : Str) : split (a ++ '/' :: b) = split a ++ split b := by
  induction a with
  | nil => simp [split]
  | cons c a ih =>
    by_cases hc : c = '/'
    · subst hc
      rw [List.cons_append, split, split, ih]
      rfl
    · obtain ⟨n, ns, h1, h2⟩ := split_cons hc a
      obtain ⟨n', ns', h1', h2'⟩ := split_cons hc (a ++ '/' :: b)
      rw [List.cons_append, h2, h2']
      rw [ih, h1, List.cons_append] at h1'
      injection h1' with e1 e2
      rw [List.cons_append, e1, e2]

theorem split_name {n : Str} (h : '/' ∉ n) : split n = [n] := by
  induction n with
  | nil => rfl
  | cons c n ih =>
    have hc : c ≠ '/' := fun e => h (by simp [e])
    obtain ⟨m, ms, h1, h2⟩ := split_cons hc n
    rw [ih (fun e => h (List.mem_cons_of_mem _ e))] at h1
    injection h1 with e1 e2
    rw [h2, ← e1, ← e2]

theorem split_render {p : Path} (hp : ∀ n ∈ p, '/' ∉ n) (hne : p ≠ []) : split (render p) = [] :: p := by
  have key : ∀ (q : Path) (n : Str), '/' ∉ n → (∀ m ∈ q, '/' ∉ m) →
      split (n ++ q.flatMap (fun n => '/' :: n)) = n :: q := by
    intro q
    induction q with
    | nil => intro n hn _; simp [split_name hn]
    | cons m q ih =>
      intro n hn hq
      rw [List.flatMap_cons, List.cons_append, split_append, split_name hn,
        ih m (hq m (by simp)) (fun k hk => hq k (List.mem_cons_of_mem _ hk))]
      rfl
  cases p with
  | nil => exact absurd rfl hne
  | cons n p =>
    have := key (n :: p) [] (by simp) hp
    rw [List.nil_append] at this
    exact this

theorem render_absolute (p : Path) : isAbsolute (render p) = true := by
  cases p <;> simp [render, isAbsolute]

theorem names_of_exist {t : Tree} (ht : GoodTree t) {p : Path} (h : exist t p = true) : ∀ n ∈ p, GoodName n := by
  rcases exist_iff.mp h with rfl | ⟨k, hk, hp⟩
  · simp
  · exact fun n hn => ht k hk n (hp.subset hn)

/-- Something that exists is found by its path. -/
theorem follow_exist {t : Tree} (ht : GoodTree t) {p : Path} (h : exist t p = true) : follow t [] p = some p := by
  have := follow_names (t := t) (p := []) (names_of_exist ht h) (fun q hq hne => by
    rcases exist_iff.mp h with rfl | ⟨k, hk, hp⟩
    · exact absurd (List.prefix_nil.mp hq) hne
    · rw [List.nil_append]
      refine isDir_of_prefix hk (hq.trans hp) (fun e => hne ?_)
      subst e
      exact hq.eq_of_length_le hp.length_le)
  rwa [List.nil_append] at this

theorem canonicalize_render {t : Tree} (ht : GoodTree t) (cwd : Path) {p : Path} (h : exist t p = true) :
    canonicalize t cwd (render p) = some (render p) := by
  have hs : start cwd (render p) = [] := by unfold start; rw [render_absolute]; rfl
  have hne : (render p).isEmpty = false := by cases p <;> simp [render]
  unfold canonicalize
  rw [hne, hs]
  have : resolve t [] (split (render p)) = some p := by
    unfold resolve
    have hd : isDir t [] = true := by simp [isDir]
    by_cases e : p = []
    · subst e
      have : follow t [] (split (render [])) = some [] := by
        show follow t [] [[], []] = some []
        rw [follow, if_pos hd, if_pos (.inl rfl), follow, if_pos hd, if_pos (.inl rfl)]
        rfl
      rw [this]
      simp [h]
    · rw [split_render (fun n hn => (names_of_exist ht h n hn).2.1) e, follow, if_pos hd, if_pos (.inl rfl),
        follow_exist ht h]
      simp [h]
  rw [this]
  rfl

theorem resolve_exist {t : Tree} {p q : Path} {ns : List Str} (h : resolve t p ns = some q) : exist t q = true := by
  unfold resolve at h
  split at h
  · split at h
    · rename_i hq; rw [← Option.some.inj h]; exact hq
    · cases h
  · cases h

/-- The file system that assets see. /repo/src/data.rs:185-197. -/
def files (t : Tree) (ht : GoodTree t) (cwd : Path) : Files where
  canonicalize := canonicalize t cwd
  absolute p q h := by
    unfold canonicalize at h
    split at h
    · cases h
    · obtain ⟨r, _, rfl⟩ := Option.map_eq_some_iff.mp h
      exact render_absolute r
  stable p q h := by
    unfold canonicalize at h
    split at h
    · cases h
    · obtain ⟨r, hr, rfl⟩ := Option.map_eq_some_iff.mp h
      exact canonicalize_render ht cwd (resolve_exist hr)

/-! ### The disk -/

/-- A machine with a library: the files, the current directory, the working directory and the root as given
by the caller (the arguments of `Trane::new_local`), the order in which a directory walk returns the files,
and how weights are read. /repo/src/lib.rs:308-330. -/
structure Machine (F : Type) where
  tree : Tree
  good : GoodTree tree
  cwd : Path
  workingDir : Str
  libraryRoot : Str
  order : List Path → List Path
  perm : ∀ l, (order l).Perm l
  floats : Floats F
  val : F → ℚ
  /-- The generators. -/
  generate : Generator → Path → CourseM Rest Generator → Option (Generated Rest)

namespace Machine
variable (M : Machine F)

/-- The root of the library, /repo/src/lib.rs:320. -/
def root : Str := join M.workingDir M.libraryRoot

/-- Where a path leads. -/
def place (s : Str) : Option Path := if s.isEmpty then none else resolve M.tree (start M.cwd s) (split s)

/-- The directory with the courses. -/
def home : Option Path := M.place M.root

/-- The directory in which `.trane` is: the path is not taken from the working directory given,
/repo/src/lib.rs:247,313-317. -/
def configHome : Option Path := M.place M.libraryRoot

/-- `WalkDir` below a directory of the library, without the directories. /repo/src/course_library.rs:453-458. -/
def walk (dir : Path) : List Path :=
  match M.home with
  | none => []
  | some r => M.order ((M.tree.keys.filter (fun p => (r ++ dir).isPrefixOf p)).map (fun p => p.drop r.length))

/-- `entry.path().parent()` for a file in a directory of the library. As in /repo/src/course_library.rs:480-493. -/
def dirText (dir : Path) : Str := dir.foldl join M.root

/-- The contents of a file of the library. /repo/src/course_library.rs:177-182. -/
def contents (p : Path) : Option Str :=
  match M.home with
  | none => none
  | some r => M.tree.find (r ++ p)

/-- The contents of a file of the configuration. -/
def configContents (p : Path) : Option Str :=
  match M.configHome with
  | none => none
  | some r => M.tree.find (r ++ p)

/-- What assets see. -/
def files : Files := Tree.files M.tree M.good M.cwd

/-- Opening and normalizing a course manifest, /repo/src/course_library.rs:177-182,477-480. -/
def readCourse (p : Path) : Option (CourseM Rest Generator) := do
  let s ← M.contents p
  let m ← readAs (decCourse M.floats) s
  let m ← normalizeCourse M.files (M.dirText p.dropLast) m
  return courseM M.val m

/-- Opening and normalizing a lesson manifest, /repo/src/course_library.rs:177-182,334-336. -/
def readLesson (p : Path) : Option (LessonM Rest) := do
  let s ← M.contents p
  let m ← readAs (decLessonManifest M.floats) s
  let m ← normalizeLesson M.files (M.dirText p.dropLast) m
  return lessonM M.val m

/-- Opening and normalizing an exercise manifest, /repo/src/course_library.rs:177-182,266-269. -/
def readExercise (p : Path) : Option (ExerciseM Rest) := do
  let s ← M.contents p
  let m ← readAs decExercise s
  let m ← normalizeExercise M.files (M.dirText p.dropLast) m
  return exerciseM m

/-- The disk as the library sees it. /repo/src/course_library.rs:427-496. -/
def disk : Disk Rest Generator where
  cwd := M.cwd
  root := components M.root
  walk := M.walk
  course := M.readCourse
  lesson := M.readLesson
  exercise := M.readExercise
  generate := M.generate

end Machine

end Trane.Tree
