import Verif.Library.ShuffleProps
import Verif.Gen.Shuffle
import Verif.Tree.GenServed

/-!
# C103: the order in which files are listed does not matter, for libraries of texts
-/

namespace Trane.Tree
open Trane.Store (Str)
open Trane.Library
open Trane.Json (readAs Generator UserPreferences decUserPreferences)
open Trane.Gen

variable {F : Type}

/-! ### Specification -/

/-- The same machine, on which the entries of directories are returned in another order. The order is that of
`read_dir` and of `WalkDir`, /repo/src/course_library.rs:434-436. -/
def Machine.listing (M : Machine F) (order : List Path → List Path) (perm : ∀ l, (order l).Perm l) : Machine F :=
  { M with order := order, perm := perm }

/-- Two runs of the program: the iteration orders of hash maps can differ, and nothing else that is not computed. -/
structure SameProgram (X X' : Outside) : Prop where
  examples : X'.examples = X.examples
  exceptions : X'.exceptions = X.exceptions
  courseInstructions : X'.courseInstructions = X.courseInstructions
  lessonInstructions : X'.lessonInstructions = X.lessonInstructions

/-! ### Lemmas -/

section
variable {M : Machine F} {order : List Path → List Path} {perm : ∀ l, (order l).Perm l}

theorem names_listing (p : Path) : (M.names p).Perm ((M.listing order perm).names p) := by
  refine (List.perm_ext_iff_of_nodup nodup_names nodup_names).mpr (fun n => ?_)
  rw [mem_names, mem_names]
  rfl

theorem subdirs_listing {C : Type} (p : Path) (content : Str → Option Str → C) :
    Both SameDirs (M.subdirs p content) ((M.listing order perm).subdirs p content) := by
  unfold Machine.subdirs
  change Both _ (if isDir M.tree p then _ else _) (if isDir M.tree p then _ else _)
  split
  · have hp := (names_listing (M := M) (order := order) (perm := perm) p).filter (fun n => isDir M.tree (p ++ [n]))
    refine ⟨_, hp.map _, ?_⟩
    change List.Forall₂ _ (List.map _ (((M.listing order perm).names p).filter (fun n => isDir M.tree (p ++ [n]))))
      (List.map _ (((M.listing order perm).names p).filter (fun n => isDir M.tree (p ++ [n]))))
    rw [List.forall₂_map_left_iff, List.forall₂_map_right_iff]
    exact List.forall₂_same.mpr (fun n _ => ⟨rfl, (names_listing (p ++ [n])).map _⟩)
  · trivial

theorem passageEntries_listing (dir : Path) (pd : Str) :
    Both List.Perm (M.passageEntries dir pd) ((M.listing order perm).passageEntries dir pd) := by
  unfold Machine.passageEntries
  change Both _ ((M.place (Assets.join (M.dirText dir) pd)).bind _) ((M.place (Assets.join (M.dirText dir) pd)).bind _)
  cases M.place (Assets.join (M.dirText dir) pd) with
  | none => trivial
  | some q =>
    change Both _ (if isDir M.tree q then _ else _) (if isDir M.tree q then _ else _)
    split
    · exact (names_listing q).map _
    · trivial

theorem gen_listing {X X' : Outside} (hX : X.Fair) (hX' : X'.Fair) (h : SameProgram X X') (prefs : UserPreferences)
    (cfg : Generator) (dir : Path) (c : CourseM Rest Generator) :
    Both SameGenerated (M.gen X prefs cfg dir c) ((M.listing order perm).gen X' prefs cfg dir c) := by
  have hc : M.literacyContent X = M.literacyContent X' := by
    unfold Machine.literacyContent
    rw [h.examples, h.exceptions]
  cases cfg with
  | knowledgeBase inlined =>
    change Both _ (M.home.bind _) (M.home.bind _)
    cases M.home with
    | none => trivial
    | some r =>
      rw [Option.bind_some, Option.bind_some]
      refine both_bind (subdirs_listing (M := M) (order := order) (perm := perm) (r ++ dir) M.knowledgeContent) ?_
      intro dirs dirs' hd e e'
      obtain ⟨n1, n2, -⟩ := subdirs_some e
      obtain ⟨n3, n4, -⟩ := subdirs_some e'
      exact Knowledge.generate_same (M.knowledgeRest dir) inlined hX.exercises hX.lessons hX'.exercises hX'.lessons hd n1 n2 n3 n4 c
  | literacy b =>
    change Both _ (M.home.bind _) (M.home.bind _)
    cases M.home with
    | none => trivial
    | some r =>
      rw [Option.bind_some, Option.bind_some, hc]
      refine both_bind (subdirs_listing (M := M) (order := order) (perm := perm) (r ++ dir) (M.literacyContent X')) ?_
      intro dirs dirs' hd e e'
      obtain ⟨n1, n2, -⟩ := subdirs_some e
      obtain ⟨n3, n4, -⟩ := subdirs_some e'
      exact Literacy.generate_same literacyRest _ hX.literacy hX'.literacy hd n1 n2 n3 n4 _ c
  | musicPiece a p => exact ⟨shuffled_of_perm (fun _ => ⟨rfl, List.Perm.refl _⟩) (List.Perm.refl _), sameMetadata_refl _, rfl⟩
  | transcription cfg =>
    unfold Machine.gen
    rw [h.courseInstructions, h.lessonInstructions]
    exact Transcription.generate_same _ _ _ _ (passageEntries_listing dir) cfg _ c

theorem disk_listing {X X' : Outside} (hX : X.Fair) (hX' : X'.Fair) (h : SameProgram X X') :
    SameFiles (M.real X).disk ((M.listing order perm).real X').disk := by
  refine ⟨rfl, rfl, ?_, rfl, rfl, rfl, ?_⟩
  · intro dir
    change (M.walk dir).Perm ((M.listing order perm).walk dir)
    unfold Machine.walk
    change List.Perm (match M.home with | none => _ | some r => _) (match M.home with | none => _ | some r => _)
    cases M.home with
    | none => exact List.Perm.nil
    | some r => exact (M.perm _).trans (perm _).symm
  · intro cfg dir c
    exact gen_listing hX hX' h M.prefs cfg dir c

end

/-! ### Theorems -/

variable (M : Machine F) {order : List Path → List Path} {perm : ∀ l, (order l).Perm l} {X X' : Outside} {ig : List FPath}

/-- **C103, opening a library of texts**: whether it opens does not depend on the order in which its files are listed,
nor on the iteration order of hash maps. -/
theorem listing_opens_iff (hX : X.Fair) (hX' : X'.Fair) (h : SameProgram X X') :
    (∃ lib, Opens (M.real X) lib) ↔ ∃ lib, Opens ((M.listing order perm).real X') lib := by
  have key := fun ig => order_opens_iff (ig := ig) (disk_listing (M := M) (order := order) (perm := perm) hX hX' h) (real_proper M X)
  constructor
  · rintro ⟨lib, text, prefs, h1, h2, h3⟩
    obtain ⟨lib', h3⟩ := (key _).1 ⟨lib, h3⟩
    exact ⟨lib', text, prefs, h1, h2, h3⟩
  · rintro ⟨lib, text, prefs, h1, h2, h3⟩
    obtain ⟨lib', h3⟩ := (key _).2 ⟨lib, h3⟩
    exact ⟨lib', text, prefs, h1, h2, h3⟩

/-- **C103, answers of a library of texts**: nor do its answers. -/
theorem listing_same_answers (hX : X.Fair) (hX' : X'.Fair) (h : SameProgram X X') {lib lib' : Lib Rest Generator}
    (hl : Opens (M.real X) lib) (hl' : Opens ((M.listing order perm).real X') lib') : AnswerAlike lib lib' := by
  obtain ⟨text, prefs, h1, h2, h3⟩ := hl
  obtain ⟨text', prefs', h1', h2', h3'⟩ := hl'
  have e : some text = some text' := h1.symm.trans h1'
  cases e
  rw [h2] at h2'
  cases h2'
  exact order_same_answers (disk_listing (M := M) (order := order) (perm := perm) hX hX' h) (real_proper M X) h3 h3'

end Trane.Tree
