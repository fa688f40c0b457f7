import Verif.Tree.Generators

/-!
# Files in the directory of a course: specification and lemmas
-/

namespace Trane.Tree
open Trane.Store (Str)
open Trane.Library
open Trane.Assets (join isAbsolute)
open Trane.Json (readAs)

variable {F α : Type}

/-! ### Specification -/

/-- There is a file or a directory of this name in the directory. -/
def Entry (t : Tree) (d : Path) (n : Str) : Prop := ∃ q ∈ t.keys, d ++ [n] <+: q

/-- The file has a text that is JSON for a value that is read as `x`. -/
def JsonText (t : Tree) (p : Path) (dec : Json.Json → Option α) (x : α) : Prop :=
  ∃ text v, t.find p = some text ∧ Json.Document v text ∧ Json.depth v < 128 ∧ dec v = some x

/-- The value of a file, if it is there. -/
def OptText (t : Tree) (d : Path) (n : Str) (dec : Json.Json → Option α) (o : Option α) : Prop :=
  (∃ x, JsonText t (d ++ [n]) dec x ∧ o = some x) ∨ (¬ Entry t d n ∧ o = none)

/-- The list in a file, empty if it is not there. -/
def ListText (t : Tree) (d : Path) (n : Str) (dec : Json.Json → Option (List α)) (l : List α) : Prop :=
  JsonText t (d ++ [n]) dec l ∨ (¬ Entry t d n ∧ l = [])

/-- A path, from the current directory if it is relative, leads to `q`. -/
def PathTo (M : Machine F) (s : Str) (q : Path) : Prop := s ≠ [] ∧ Leads M.tree (start M.cwd s) (split s) q

/-- The course directory `p` has a directory `s.lesson`. -/
def LessonAt (t : Tree) (p : Path) (s : Str) : Prop := ∃ n, Entry t (p ++ [s ++ ".lesson".toList]) n

/-! ### Lemmas -/

section
variable {M : Machine F}

theorem mem_names {p : Path} {n : Str} : n ∈ M.names p ↔ Entry M.tree p n := by
  have hp := M.perm ((childNames M.tree p).map (fun n => [n]))
  unfold Machine.names Entry
  rw [← mem_childNames, (hp.map _).mem_iff, List.map_map]
  have : ((fun q : Path => q.headD []) ∘ fun n => [n]) = id := rfl
  rw [this, List.map_id]

theorem nodup_names {p : Path} : (M.names p).Nodup := by
  have hp := M.perm ((childNames M.tree p).map (fun n => [n]))
  unfold Machine.names
  rw [(hp.map _).nodup_iff, List.map_map]
  have : ((fun q : Path => q.headD []) ∘ fun n => [n]) = id := rfl
  rw [this, List.map_id]
  unfold childNames
  exact List.nodup_dedup _

theorem entry_of_find {t : Tree} {d : Path} {n text : Str} (h : t.find (d ++ [n]) = some text) : Entry t d n :=
  ⟨_, key_of_find h, List.prefix_refl _⟩

theorem isDir_iff {t : Tree} {p : Path} : isDir t p = true ↔ p = [] ∨ ∃ n, Entry t p n := by
  unfold isDir Entry
  rw [Bool.or_eq_true, List.any_eq_true, decide_eq_true_eq]
  refine or_congr Iff.rfl ⟨?_, ?_⟩
  · rintro ⟨e, he, h⟩
    rw [Bool.and_eq_true, List.isPrefixOf_iff_prefix] at h
    obtain ⟨⟨q, hq⟩, hne⟩ := h
    cases q with
    | nil => rw [List.append_nil] at hq; simp [hq] at hne
    | cons n q => exact ⟨n, e.1, List.mem_map.mpr ⟨e, he, rfl⟩, q, by rw [← hq]; simp⟩
  · rintro ⟨n, k, hk, q, hq⟩
    obtain ⟨e, he, rfl⟩ := List.mem_map.mp hk
    refine ⟨e, he, ?_⟩
    rw [Bool.and_eq_true, List.isPrefixOf_iff_prefix]
    refine ⟨⟨n :: q, by rw [← hq]; simp⟩, ?_⟩
    simp only [ne_eq, decide_not, Bool.not_eq_true', decide_eq_false_iff_not]
    intro e'
    rw [e'] at hq
    have := congrArg List.length hq
    simp at this

theorem jsonText_iff {t : Tree} {p : Path} {dec : Json.Json → Option α} {x : α} :
    JsonText t p dec x ↔ (t.find p).bind (readAs dec) = some x := by
  unfold JsonText
  rw [Option.bind_eq_some_iff]
  constructor
  · rintro ⟨text, v, h1, h2, h3, h4⟩
    exact ⟨text, h1, (readAs_iff _ _ _).mpr ⟨v, h2, h3, h4⟩⟩
  · rintro ⟨text, h1, h2⟩
    obtain ⟨v, h2, h3, h4⟩ := (readAs_iff _ _ _).mp h2
    exact ⟨text, v, h1, h2, h3, h4⟩

/-- The directories of a course. -/
theorem subdirs_some {C : Type} {p : Path} {content : Str → Option Str → C} {dirs : List (Str × List (Str × C))}
    (h : M.subdirs p content = some dirs) :
    (dirs.map (·.1)).Nodup ∧ (∀ d ∈ dirs, (d.2.map (·.1)).Nodup) ∧
    ∀ n files, (n, files) ∈ dirs ↔ (∃ m, Entry M.tree (p ++ [n]) m) ∧
      files = (M.names (p ++ [n])).map (fun f => (f, content f (M.tree.find (p ++ [n, f])))) := by
  unfold Machine.subdirs at h
  split at h
  · cases h
    have hk : ∀ q, ((M.names q).map (fun f => (f, content f (M.tree.find (q ++ [f]))))).map (·.1) = M.names q := by
      intro q; rw [List.map_map]; exact List.map_id _
    refine ⟨?_, ?_, ?_⟩
    · rw [List.map_map]
      exact (List.map_id _).symm ▸ (nodup_names.filter _)
    · intro d hd
      obtain ⟨n, _, rfl⟩ := List.mem_map.mp hd
      rw [List.map_map]
      exact (List.map_id _).symm ▸ nodup_names
    · intro n files
      constructor
      · intro hm
        obtain ⟨n', hn, he⟩ := List.mem_map.mp hm
        obtain ⟨rfl, rfl⟩ := Prod.mk.inj he
        rw [List.mem_filter] at hn
        rcases isDir_iff.mp hn.2 with h | h
        · simp at h
        · exact ⟨h, rfl⟩
      · rintro ⟨⟨m, hm⟩, rfl⟩
        refine List.mem_map.mpr ⟨n, List.mem_filter.mpr ⟨?_, isDir_iff.mpr (.inr ⟨m, hm⟩)⟩, rfl⟩
        obtain ⟨k, hk, hp⟩ := hm
        exact mem_names.mpr ⟨k, hk, (List.prefix_append _ _).trans hp⟩
  · cases h

theorem dirText_append (dir : Path) (ns : Path) : M.dirText (dir ++ ns) = ns.foldl join (M.dirText dir) := by
  unfold Machine.dirText; rw [List.foldl_append]

/-- The path of a file in the directory of a course leads to it. -/
theorem pathTo_dirText {r dir : Path} (h : M.home = some r) (he : ∃ k ∈ M.tree.keys, r ++ dir <+: k) :
    PathTo M (M.dirText dir) (r ++ dir) := by
  obtain ⟨k, hk, hd⟩ := he
  refine ⟨dirText_ne h dir, ?_⟩
  rw [leads_iff]
  unfold resolve
  rw [follow_dirText h hk hd]
  simp [exist_iff.mpr (.inr ⟨k, hk, hd⟩)]

end

end Trane.Tree
