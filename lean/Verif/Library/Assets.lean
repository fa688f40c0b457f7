import Verif.Store.Table

/-!
# Assets and their paths

Models the `NormalizePaths` and `VerifyPaths` implementations of /repo/src/data.rs.  Paths are strings.
The file system is known through `canonicalize`; `Path::exists` holds of the paths that can be
canonicalized.  All paths are assumed to be valid UTF-8, so the `unwrap_or` of line 195 is not needed.
-/

namespace Trane.Assets

open Trane.Store (Str)

/-- `Path::is_absolute` on Unix. As in /repo/src/data.rs:187. -/
def isAbsolute (p : Str) : Bool := p.head? == some '/'

/-- `Path::join`: an absolute path replaces the working directory. As in /repo/src/data.rs:187-195. -/
def join (wd p : Str) : Str :=
  if isAbsolute p then p
  else if wd.isEmpty || wd.getLast? == some '/' then wd ++ p
  else wd ++ '/' :: p

/-- The file system: `canonicalize` gives an absolute path that names the same file. As in /repo/src/data.rs:193. -/
structure Files where
  canonicalize : Str → Option Str
  absolute : ∀ p q, canonicalize p = some q → isAbsolute q = true
  stable : ∀ p q, canonicalize p = some q → canonicalize q = some q

/-- `Path::exists`. As in /repo/src/data.rs:264. -/
def Files.exist (F : Files) (p : Str) : Bool := (F.canonicalize p).isSome

/-- /repo/src/data.rs:185-197 `normalize_path`. -/
def normalizePath (F : Files) (wd p : Str) : Option Str :=
  if isAbsolute p then some p else F.canonicalize (join wd p)

/-- `BasicAsset`, /repo/src/data.rs:221-242. -/
inductive BasicAsset
  | markdown (path : Str)
  | inlined (content : Str)
  | inlinedUnique (content : Str)
  deriving DecidableEq

/-- /repo/src/data.rs:244-256. -/
def BasicAsset.normalize (F : Files) (wd : Str) : BasicAsset → Option BasicAsset
  | .inlined c => some (.inlined c)
  | .inlinedUnique c => some (.inlinedUnique c)
  | .markdown p => (normalizePath F wd p).map .markdown

/-- /repo/src/data.rs:258-268. -/
def BasicAsset.verify (F : Files) (wd : Str) : BasicAsset → Bool
  | .inlined _ | .inlinedUnique _ => true
  | .markdown p => F.exist (join wd p)

/-- `ExerciseAsset`, /repo/src/data.rs:588-662; the type of a literacy lesson is a truth value and the
link of a transcription its text. -/
inductive ExerciseAsset
  | basic (a : BasicAsset)
  | flashcard (front : Str) (back : Option Str)
  | inlineFlashcard (front : Str) (back : Option Str)
  | literacy (dictation : Bool) (examples exceptions : List (Str × Option Str))
  | soundSlice (link : Str) (description : Option Str) (backup : Option Str)
  | transcription (content : Str) (link : Option Str)
  deriving DecidableEq

/-- /repo/src/data.rs:677-681: the back of a flashcard. -/
def normalizeOptional (F : Files) (wd : Str) : Option Str → Option (Option Str)
  | some b => (normalizePath F wd b).map some
  | none => some none

/-- /repo/src/data.rs:664-708. -/
def ExerciseAsset.normalize (F : Files) (wd : Str) : ExerciseAsset → Option ExerciseAsset
  | .basic a => (a.normalize F wd).map .basic
  | .flashcard front back => do
    let front ← normalizePath F wd front
    let back ← normalizeOptional F wd back
    return .flashcard front back
  | .inlineFlashcard f b => some (.inlineFlashcard f b)
  | .literacy d x y => some (.literacy d x y)
  | .transcription c l => some (.transcription c l)
  | .soundSlice l d backup =>
    match backup with
    | none => some (.soundSlice l d none)
    | some p => (normalizePath F wd p).map (fun q => .soundSlice l d (some q))

/-- /repo/src/data.rs:710-742. -/
def ExerciseAsset.verify (F : Files) (wd : Str) : ExerciseAsset → Bool
  | .basic a => a.verify F wd
  | .flashcard front back =>
    match back with
    | some b => F.exist (join wd front) && F.exist (join wd b)
    | none => F.exist (join wd front)
  | .inlineFlashcard _ _ => true
  | .literacy _ _ _ => true
  | .transcription _ _ => true
  | .soundSlice _ _ backup =>
    match backup with
    | none => true
    | some p => F.exist (join wd p)

/-- `CourseManifest`, /repo/src/data.rs:352-432, and `LessonManifest`, lines 482-545: the two assets and
everything else. -/
structure UnitManifest (β : Type) where
  rest : β
  instructions : Option BasicAsset
  material : Option BasicAsset

/-- /repo/src/data.rs:437-442, 443-446, 550-552 and 553-555. -/
def normalizeAsset (F : Files) (wd : Str) : Option BasicAsset → Option (Option BasicAsset)
  | none => some none
  | some a => (a.normalize F wd).map some

/-- /repo/src/data.rs:454-457, 458-461, 563-566 and 567-570. -/
def verifyAsset (F : Files) (wd : Str) : Option BasicAsset → Bool
  | none => true
  | some a => a.verify F wd

/-- /repo/src/data.rs:434-449 and 547-558, which do the same. -/
def UnitManifest.normalize {β : Type} (F : Files) (wd : Str) (m : UnitManifest β) :
    Option (UnitManifest β) := do
  let i ← normalizeAsset F wd m.instructions
  let t ← normalizeAsset F wd m.material
  return { m with instructions := i, material := t }

/-- /repo/src/data.rs:451-464 and 560-573. -/
def UnitManifest.verify {β : Type} (F : Files) (wd : Str) (m : UnitManifest β) : Bool :=
  verifyAsset F wd m.instructions && verifyAsset F wd m.material

/-- `ExerciseManifest`, /repo/src/data.rs:745-780. -/
structure ExerciseManifest (β : Type) where
  rest : β
  asset : ExerciseAsset

/-- /repo/src/data.rs:782-788. -/
def ExerciseManifest.normalize {β : Type} (F : Files) (wd : Str) (m : ExerciseManifest β) :
    Option (ExerciseManifest β) :=
  (m.asset.normalize F wd).map (fun a => { m with asset := a })

/-- /repo/src/data.rs:790-794. -/
def ExerciseManifest.verify {β : Type} (F : Files) (wd : Str) (m : ExerciseManifest β) : Bool :=
  m.asset.verify F wd

end Trane.Assets
