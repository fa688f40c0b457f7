import Verif.Library.Assets
import Mathlib.Data.List.Basic

/-!
# Paths of assets (C77)

The specification lists the paths an object mentions and says what replacing them means.
-/

namespace Trane.Assets

open Trane.Store (Str)

variable {β : Type}

/-! ### Specification -/

def BasicAsset.paths : BasicAsset → List Str
  | .markdown p => [p]
  | _ => []

def BasicAsset.mapPaths (f : Str → Str) : BasicAsset → BasicAsset
  | .markdown p => .markdown (f p)
  | a => a

def ExerciseAsset.paths : ExerciseAsset → List Str
  | .basic a => a.paths
  | .flashcard front back => front :: back.toList
  | .soundSlice _ _ backup => backup.toList
  | _ => []

def ExerciseAsset.mapPaths (f : Str → Str) : ExerciseAsset → ExerciseAsset
  | .basic a => .basic (a.mapPaths f)
  | .flashcard front back => .flashcard (f front) (back.map f)
  | .soundSlice l d backup => .soundSlice l d (backup.map f)
  | a => a

def UnitManifest.paths (m : UnitManifest β) : List Str :=
  (m.instructions.elim [] BasicAsset.paths) ++ (m.material.elim [] BasicAsset.paths)

def UnitManifest.mapPaths (f : Str → Str) (m : UnitManifest β) : UnitManifest β :=
  { m with
    instructions := m.instructions.map (BasicAsset.mapPaths f)
    material := m.material.map (BasicAsset.mapPaths f) }

def ExerciseManifest.paths (m : ExerciseManifest β) : List Str := m.asset.paths

def ExerciseManifest.mapPaths (f : Str → Str) (m : ExerciseManifest β) : ExerciseManifest β :=
  { m with asset := m.asset.mapPaths f }

/-- The absolute path that a mentioned path stands for. -/
def resolved (F : Files) (wd p : Str) : Str :=
  if isAbsolute p then p else (F.canonicalize (join wd p)).getD p

/-- A mentioned path is acceptable: it is absolute or there is a file. -/
def Resolvable (F : Files) (wd p : Str) : Prop :=
  isAbsolute p = true ∨ F.exist (join wd p) = true

/-! ### Lemmas -/

theorem normalizePath_iff (F : Files) (wd p q : Str) :
    normalizePath F wd p = some q ↔ Resolvable F wd p ∧ q = resolved F wd p := by
  unfold normalizePath Resolvable resolved Files.exist
  by_cases h : isAbsolute p = true
  · rw [if_pos h, if_pos h]
    exact ⟨fun e => ⟨Or.inl h, (Option.some.inj e).symm⟩, fun e => by rw [e.2]⟩
  · rw [if_neg h, if_neg h]
    cases e : F.canonicalize (join wd p) with
    | none => simp [h]
    | some x =>
      exact ⟨fun e => ⟨Or.inr rfl, (Option.some.inj e).symm⟩, fun e => by rw [e.2]; rfl⟩

theorem basic_iff (F : Files) (wd : Str) (a b : BasicAsset) :
    a.normalize F wd = some b ↔
      (∀ p ∈ a.paths, Resolvable F wd p) ∧ b = a.mapPaths (resolved F wd) := by
  cases a with
  | markdown p =>
    simp only [BasicAsset.normalize, Option.map_eq_some_iff, normalizePath_iff, BasicAsset.paths,
      BasicAsset.mapPaths, List.forall_mem_singleton]
    constructor
    · rintro ⟨q, ⟨h, rfl⟩, rfl⟩; exact ⟨h, rfl⟩
    · rintro ⟨h, rfl⟩; exact ⟨_, ⟨h, rfl⟩, rfl⟩
  | inlined c => simp [BasicAsset.normalize, BasicAsset.paths, BasicAsset.mapPaths, eq_comm]
  | inlinedUnique c => simp [BasicAsset.normalize, BasicAsset.paths, BasicAsset.mapPaths, eq_comm]

theorem optPath_iff (F : Files) (wd : Str) (b c : Option Str) :
    normalizeOptional F wd b = some c ↔
      (∀ p ∈ b.toList, Resolvable F wd p) ∧ c = b.map (resolved F wd) := by
  unfold normalizeOptional
  cases b with
  | none => simp [eq_comm]
  | some b =>
    simp only [Option.map_eq_some_iff, normalizePath_iff, Option.toList_some,
      List.forall_mem_singleton, Option.map_some]
    constructor
    · rintro ⟨q, ⟨h, rfl⟩, rfl⟩; exact ⟨h, rfl⟩
    · rintro ⟨h, rfl⟩; exact ⟨_, ⟨h, rfl⟩, rfl⟩

theorem asset_iff (F : Files) (wd : Str) (a b : ExerciseAsset) :
    a.normalize F wd = some b ↔
      (∀ p ∈ a.paths, Resolvable F wd p) ∧ b = a.mapPaths (resolved F wd) := by
  cases a with
  | basic a =>
    simp only [ExerciseAsset.normalize, Option.map_eq_some_iff, basic_iff, ExerciseAsset.paths,
      ExerciseAsset.mapPaths]
    constructor
    · rintro ⟨q, ⟨h, rfl⟩, rfl⟩; exact ⟨h, rfl⟩
    · rintro ⟨h, rfl⟩; exact ⟨_, ⟨h, rfl⟩, rfl⟩
  | flashcard f bk =>
    unfold ExerciseAsset.normalize ExerciseAsset.paths ExerciseAsset.mapPaths
    simp only [Option.bind_eq_bind, Option.bind_eq_some_iff, normalizePath_iff, optPath_iff,
      List.forall_mem_cons, Option.pure_def, Option.some.injEq]
    constructor
    · rintro ⟨q, ⟨h, rfl⟩, c, ⟨h', rfl⟩, rfl⟩; exact ⟨⟨h, h'⟩, rfl⟩
    · rintro ⟨⟨h, h'⟩, rfl⟩; exact ⟨_, ⟨h, rfl⟩, _, ⟨h', rfl⟩, rfl⟩
  | soundSlice l d bk =>
    unfold ExerciseAsset.normalize ExerciseAsset.paths ExerciseAsset.mapPaths
    cases bk with
    | none => simp [eq_comm]
    | some p =>
      simp only [Option.map_eq_some_iff, normalizePath_iff, Option.toList_some,
        List.forall_mem_singleton, Option.map_some]
      constructor
      · rintro ⟨q, ⟨h, rfl⟩, rfl⟩; exact ⟨h, rfl⟩
      · rintro ⟨h, rfl⟩; exact ⟨_, ⟨h, rfl⟩, rfl⟩
  | inlineFlashcard f b =>
    simp [ExerciseAsset.normalize, ExerciseAsset.paths, ExerciseAsset.mapPaths, eq_comm]
  | literacy f b c =>
    simp [ExerciseAsset.normalize, ExerciseAsset.paths, ExerciseAsset.mapPaths, eq_comm]
  | transcription f b =>
    simp [ExerciseAsset.normalize, ExerciseAsset.paths, ExerciseAsset.mapPaths, eq_comm]

theorem optAsset_iff (F : Files) (wd : Str) (b c : Option BasicAsset) :
    normalizeAsset F wd b = some c ↔
      (∀ p ∈ b.elim [] BasicAsset.paths, Resolvable F wd p) ∧
        c = b.map (BasicAsset.mapPaths (resolved F wd)) := by
  unfold normalizeAsset
  cases b with
  | none => simp [eq_comm]
  | some a =>
    simp only [Option.map_eq_some_iff, basic_iff, Option.elim_some, Option.map_some]
    constructor
    · rintro ⟨q, ⟨h, rfl⟩, rfl⟩; exact ⟨h, rfl⟩
    · rintro ⟨h, rfl⟩; exact ⟨_, ⟨h, rfl⟩, rfl⟩

/-! ### Theorems -/

/-- **C77, courses and lessons.**  Normalizing succeeds exactly if every relative path that is mentioned
names an existing file, and replaces exactly these paths, by the absolute path of the file. -/
theorem unit_normalized_iff (F : Files) (wd : Str) (m m' : UnitManifest β) :
    m.normalize F wd = some m' ↔
      (∀ p ∈ m.paths, isAbsolute p = true ∨ F.exist (join wd p) = true) ∧
      m' = m.mapPaths (resolved F wd) := by
  unfold UnitManifest.normalize UnitManifest.paths
  simp only [Option.bind_eq_bind, Option.bind_eq_some_iff, optAsset_iff, Option.pure_def,
    Option.some.injEq, List.forall_mem_append]
  constructor
  · rintro ⟨i, ⟨h, rfl⟩, t, ⟨h', rfl⟩, rfl⟩; exact ⟨⟨h, h'⟩, rfl⟩
  · rintro ⟨⟨h, h'⟩, rfl⟩; exact ⟨_, ⟨h, rfl⟩, _, ⟨h', rfl⟩, rfl⟩

/-- **C77, exercises.** -/
theorem exercise_normalized_iff (F : Files) (wd : Str) (m m' : ExerciseManifest β) :
    m.normalize F wd = some m' ↔
      (∀ p ∈ m.paths, isAbsolute p = true ∨ F.exist (join wd p) = true) ∧
      m' = m.mapPaths (resolved F wd) := by
  unfold ExerciseManifest.normalize ExerciseManifest.paths
  simp only [Option.map_eq_some_iff, asset_iff]
  constructor
  · rintro ⟨q, ⟨h, rfl⟩, rfl⟩; exact ⟨h, rfl⟩
  · rintro ⟨h, rfl⟩; exact ⟨_, ⟨h, rfl⟩, rfl⟩

/-- **C77, verification.**  The check answers yes exactly if there is a file at every mentioned path,
relative ones being taken from the working directory. -/
theorem verified_iff (F : Files) (wd : Str) (u : UnitManifest β) (x : ExerciseManifest β) :
    (u.verify F wd = true ↔ ∀ p ∈ u.paths, F.exist (join wd p) = true) ∧
    (x.verify F wd = true ↔ ∀ p ∈ x.paths, F.exist (join wd p) = true) := by
  have hb : ∀ a : BasicAsset, a.verify F wd = true ↔
      ∀ p ∈ a.paths, F.exist (join wd p) = true := by
    intro a
    cases a <;> simp [BasicAsset.verify, BasicAsset.paths]
  have ho : ∀ a : Option BasicAsset, verifyAsset F wd a = true ↔
      ∀ p ∈ a.elim [] BasicAsset.paths, F.exist (join wd p) = true := by
    intro a
    cases a with
    | none => simp [verifyAsset]
    | some a => exact hb a
  constructor
  · unfold UnitManifest.verify UnitManifest.paths
    rw [Bool.and_eq_true, ho, ho, List.forall_mem_append]
  · unfold ExerciseManifest.verify ExerciseManifest.paths
    cases x.asset with
    | basic a => exact hb a
    | flashcard f b =>
      cases b <;> simp [ExerciseAsset.verify, ExerciseAsset.paths]
    | soundSlice l d b =>
      cases b <;> simp [ExerciseAsset.verify, ExerciseAsset.paths]
    | inlineFlashcard f b => simp [ExerciseAsset.verify, ExerciseAsset.paths]
    | literacy f b c => simp [ExerciseAsset.verify, ExerciseAsset.paths]
    | transcription f b => simp [ExerciseAsset.verify, ExerciseAsset.paths]

theorem resolved_absolute {F : Files} {wd p : Str} (h : Resolvable F wd p) :
    isAbsolute (resolved F wd p) = true := by
  unfold resolved
  split
  · assumption
  · rename_i c
    rcases h with h | h
    · exact absurd h c
    · obtain ⟨q, hq⟩ := Option.isSome_iff_exists.1 h
      rw [hq]; exact F.absolute _ _ hq

theorem BasicAsset.paths_map (f : Str → Str) (a : BasicAsset) :
    (a.mapPaths f).paths = a.paths.map f := by
  cases a <;> rfl

theorem ExerciseAsset.paths_map (f : Str → Str) (a : ExerciseAsset) :
    (a.mapPaths f).paths = a.paths.map f := by
  cases a with
  | basic a => exact BasicAsset.paths_map f a
  | flashcard x b => cases b <;> rfl
  | soundSlice l d b => cases b <;> rfl
  | inlineFlashcard f b => rfl
  | literacy f b c => rfl
  | transcription f b => rfl

theorem UnitManifest.paths_map (f : Str → Str) (m : UnitManifest β) :
    (m.mapPaths f).paths = m.paths.map f := by
  unfold UnitManifest.paths UnitManifest.mapPaths
  rw [List.map_append]
  have : ∀ a : Option BasicAsset, (a.map (BasicAsset.mapPaths f)).elim [] BasicAsset.paths =
      (a.elim [] BasicAsset.paths).map f := by
    intro a
    cases a with
    | none => rfl
    | some a => exact BasicAsset.paths_map f a
  rw [this, this]

theorem BasicAsset.map_id {f : Str → Str} {a : BasicAsset} (h : ∀ p ∈ a.paths, f p = p) :
    a.mapPaths f = a := by
  cases a with
  | markdown p => show BasicAsset.markdown (f p) = _; rw [h p (by simp [BasicAsset.paths])]
  | inlined c => rfl
  | inlinedUnique c => rfl

theorem ExerciseAsset.map_id {f : Str → Str} {a : ExerciseAsset} (h : ∀ p ∈ a.paths, f p = p) :
    a.mapPaths f = a := by
  cases a with
  | basic a => show ExerciseAsset.basic (a.mapPaths f) = _; rw [BasicAsset.map_id h]
  | flashcard x b =>
    show ExerciseAsset.flashcard (f x) (b.map f) = _
    rw [h x (by simp [ExerciseAsset.paths])]
    cases b with
    | none => rfl
    | some b => rw [Option.map_some, h b (by simp [ExerciseAsset.paths])]
  | soundSlice l d b =>
    show ExerciseAsset.soundSlice l d (b.map f) = _
    cases b with
    | none => rfl
    | some b => rw [Option.map_some, h b (by simp [ExerciseAsset.paths])]
  | inlineFlashcard f b => rfl
  | literacy f b c => rfl
  | transcription f b => rfl

theorem UnitManifest.map_id {f : Str → Str} {m : UnitManifest β} (h : ∀ p ∈ m.paths, f p = p) :
    m.mapPaths f = m := by
  have : ∀ a : Option BasicAsset, (∀ p ∈ a.elim [] BasicAsset.paths, f p = p) →
      a.map (BasicAsset.mapPaths f) = a := by
    intro a ha
    cases a with
    | none => rfl
    | some a => rw [Option.map_some, BasicAsset.map_id ha]
  unfold UnitManifest.paths at h
  unfold UnitManifest.mapPaths
  rw [this _ (fun p hp => h p (List.mem_append_left _ hp)),
    this _ (fun p hp => h p (List.mem_append_right _ hp))]

theorem resolved_of_absolute {F : Files} {wd p : Str} (h : isAbsolute p = true) :
    resolved F wd p = p := if_pos h

/-- **C77, absolute.**  After normalizing every mentioned path is absolute, and normalizing again
changes nothing, whatever the working directory. -/
theorem normalized_absolute (F : Files) (wd wd' : Str) (u u' : UnitManifest β)
    (x x' : ExerciseManifest β) (hu : u.normalize F wd = some u')
    (hx : x.normalize F wd = some x') :
    (∀ p ∈ u'.paths, isAbsolute p = true) ∧ u'.normalize F wd' = some u' ∧
    (∀ p ∈ x'.paths, isAbsolute p = true) ∧ x'.normalize F wd' = some x' := by
  rw [unit_normalized_iff] at hu
  rw [exercise_normalized_iff] at hx
  obtain ⟨hu, rfl⟩ := hu
  obtain ⟨hx, rfl⟩ := hx
  have au : ∀ p ∈ (u.mapPaths (resolved F wd)).paths, isAbsolute p = true := by
    intro p hp
    rw [UnitManifest.paths_map] at hp
    obtain ⟨q, hq, rfl⟩ := List.mem_map.1 hp
    exact resolved_absolute (hu q hq)
  have ax : ∀ p ∈ (x.mapPaths (resolved F wd)).paths, isAbsolute p = true := by
    intro p hp
    change p ∈ (x.asset.mapPaths (resolved F wd)).paths at hp
    rw [ExerciseAsset.paths_map] at hp
    obtain ⟨q, hq, rfl⟩ := List.mem_map.1 hp
    exact resolved_absolute (hx q hq)
  refine ⟨au, ?_, ax, ?_⟩
  · rw [unit_normalized_iff]
    exact ⟨fun p hp => Or.inl (au p hp),
      (UnitManifest.map_id fun p hp => resolved_of_absolute (au p hp)).symm⟩
  · rw [exercise_normalized_iff]
    refine ⟨fun p hp => Or.inl (ax p hp), ?_⟩
    have := ExerciseAsset.map_id (f := resolved F wd') (a := x.asset.mapPaths (resolved F wd))
      (fun p hp => resolved_of_absolute (ax p hp))
    unfold ExerciseManifest.mapPaths
    dsimp only
    rw [this]

theorem exist_resolved {F : Files} {wd wd' p : Str} (h : F.exist (join wd p) = true) :
    F.exist (join wd' (resolved F wd p)) = true := by
  have ha : isAbsolute (resolved F wd p) = true := resolved_absolute (Or.inr h)
  have : join wd' (resolved F wd p) = resolved F wd p := if_pos ha
  rw [this]
  unfold resolved
  split
  · rename_i c
    unfold join at h
    rwa [if_pos c] at h
  · obtain ⟨q, hq⟩ := Option.isSome_iff_exists.1 h
    rw [hq]
    show (F.canonicalize q).isSome = true
    rw [F.stable _ _ hq]; rfl

/-- **C77, verified manifests.**  A manifest that passes the check can be normalized, and the result
passes the check from every working directory. -/
theorem verified_normalizes (F : Files) (wd : Str) (u : UnitManifest β) (x : ExerciseManifest β)
    (hu : u.verify F wd = true) (hx : x.verify F wd = true) :
    (∃ u', u.normalize F wd = some u' ∧ ∀ wd', u'.verify F wd' = true) ∧
    (∃ x', x.normalize F wd = some x' ∧ ∀ wd', x'.verify F wd' = true) := by
  rw [(verified_iff F wd u x).1] at hu
  rw [(verified_iff F wd u x).2] at hx
  constructor
  · refine ⟨_, (unit_normalized_iff F wd u _).2 ⟨fun p hp => Or.inr (hu p hp), rfl⟩, fun wd' => ?_⟩
    rw [(verified_iff F wd' _ x).1]
    intro p hp
    rw [UnitManifest.paths_map] at hp
    obtain ⟨q, hq, rfl⟩ := List.mem_map.1 hp
    exact exist_resolved (hu q hq)
  · refine ⟨_, (exercise_normalized_iff F wd x _).2 ⟨fun p hp => Or.inr (hx p hp), rfl⟩,
      fun wd' => ?_⟩
    rw [(verified_iff F wd' u _).2]
    intro p hp
    change p ∈ (x.asset.mapPaths (resolved F wd)).paths at hp
    rw [ExerciseAsset.paths_map] at hp
    obtain ⟨q, hq, rfl⟩ := List.mem_map.1 hp
    exact exist_resolved (hx q hq)

/-! ### Concrete cases -/

/-- A file system with one file, `/c/a`, which is also reached as `/c/./a`. -/
def sampleFiles : Files where
  canonicalize p := if p = ['/', 'c', '/', 'a'] ∨ p = ['/', 'c', '/', '.', '/', 'a'] then
    some ['/', 'c', '/', 'a'] else none
  absolute := by
    intro p q h
    split at h
    · cases h; rfl
    · cases h
  stable := by
    intro p q h
    split at h
    · cases h; rfl
    · cases h

def sampleUnit : UnitManifest Unit := ⟨(), some (.markdown ['a']), some (.inlined ['x'])⟩
def sampleCard : ExerciseManifest Unit :=
  ⟨(), .flashcard ['a'] (some ['.', '/', 'a'])⟩

example : sampleUnit.verify sampleFiles ['/', 'c'] = true ∧
    sampleCard.verify sampleFiles ['/', 'c'] = true := by decide +kernel

example : (sampleCard.normalize sampleFiles ['/', 'c']).map (·.asset) =
    some (.flashcard ['/', 'c', '/', 'a'] (some ['/', 'c', '/', 'a'])) := by decide +kernel

/-- **C77, full statement fails.**  An absolute path is accepted although there is no file. -/
theorem absolute_paths_not_checked : ∃ (F : Files) (wd : Str) (m m' : ExerciseManifest Unit),
    m.normalize F wd = some m' ∧ ∀ wd', m'.verify F wd' = false := by
  refine ⟨sampleFiles, ['/', 'c'], ⟨(), .basic (.markdown ['/', 'b'])⟩, _, rfl, fun wd' => rfl⟩

end Trane.Assets
