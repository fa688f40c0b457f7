import Verif.Tree.Sample
import Verif.Library.Saved
import Mathlib.Data.List.Dedup

/-!
# C90: saved filters and study sessions as texts

The files in `.trane/filters` and `.trane/study_sessions`.  A directory without files is not in the tree;
`init_config_directory` makes both directories (/repo/src/lib.rs:211-222), so an absent one counts as empty.
-/

namespace Trane.Tree
open Trane.Store (Str)
open Trane.Library (Path)
open Trane.Saved (Item)

variable {F : Type} {α : Type}

/-! ### Model -/

/-- The names in a directory. As in /repo/src/filter_manager.rs:33. -/
def childNames (t : Tree) (d : Path) : List Str :=
  (t.keys.filterMap (fun k => if d.isPrefixOf k then (k.drop d.length).head? else none)).dedup

/-- `read_dir` and the contents of what it lists, /repo/src/filter_manager.rs:32-41,
/repo/src/study_session_manager.rs:31-40.  A directory in it cannot be read as text. -/
def Machine.entries (M : Machine F) (dir : Path) : Option (List (Option Str)) :=
  M.configHome.bind fun r =>
    if r ++ dir ∈ M.tree.keys then none
    else some ((M.order ((childNames M.tree (r ++ dir)).map (fun n => [n]))).map
      (fun q => M.tree.find (r ++ dir ++ q)))

/-- `LocalFilterManager::new`, /repo/src/filter_manager.rs:30-62, or `LocalStudySessionManager::new`,
/repo/src/study_session_manager.rs:29-60, with the way its texts are read. -/
def Machine.saved (M : Machine F) (d : Json.Json → Option (Item α)) (dir : Path) : Option (AMap Str (Item α)) :=
  Saved.openManager ((M.entries dir).map (List.map (fun s => s.bind (Json.readAs d))))

/-- /repo/src/lib.rs:106,124,265-267. -/
def filtersDir : Path := [".trane".toList, "filters".toList]

/-- /repo/src/lib.rs:106,127,268-270. -/
def sessionsDir : Path := [".trane".toList, "study_sessions".toList]

/-- The saved filters. /repo/src/filter_manager.rs:29-55. -/
def Machine.savedFilters (M : Machine F) : Option (AMap Str Json.SavedFilter) := M.saved Json.decSavedFilter filtersDir

/-- The saved study sessions. /repo/src/study_session_manager.rs:29-55. -/
def Machine.savedSessions (M : Machine F) : Option (AMap Str Json.StudySession) :=
  M.saved Json.decStudySession sessionsDir

/-! ### Specification -/

/-- There is a file or a directory of this name in the directory of the configuration. -/
def IsThere (M : Machine F) (dir : Path) (n : Str) : Prop :=
  ∃ r q, M.configHome = some r ∧ q ∈ M.tree.keys ∧ r ++ dir ++ [n] <+: q

/-- The file of this name in the directory of the configuration is JSON that is read as `x`. -/
def SavedText (M : Machine F) (d : Json.Json → Option (Item α)) (dir : Path) (n : Str) (x : Item α) : Prop :=
  ∃ r text v, M.configHome = some r ∧ M.tree.find (r ++ dir ++ [n]) = some text ∧ Json.Document v text ∧
    Json.depth v < 128 ∧ d v = some x

/-! ### Lemmas -/

theorem mem_childNames {t : Tree} {d : Path} {n : Str} :
    n ∈ childNames t d ↔ ∃ q ∈ t.keys, d ++ [n] <+: q := by
  unfold childNames
  rw [List.mem_dedup, List.mem_filterMap]
  constructor
  · rintro ⟨k, hk, h⟩
    split at h
    · rename_i hp
      rw [List.isPrefixOf_iff_prefix] at hp
      obtain ⟨q, rfl⟩ := hp
      rw [List.drop_left] at h
      cases q with
      | nil => cases h
      | cons a q =>
        cases h
        exact ⟨_, hk, ⟨q, by simp⟩⟩
    · cases h
  · rintro ⟨_, hk, q, rfl⟩
    refine ⟨_, hk, ?_⟩
    rw [if_pos (by rw [List.isPrefixOf_iff_prefix, List.append_assoc]; exact List.prefix_append _ _), List.append_assoc,
      List.drop_left]
    rfl

theorem all_some {β γ : Type} {f : β → Option γ} {Q : List β} (h : ∀ q ∈ Q, ∃ x, f q = some x) :
    ∃ xs : List γ, Q.map f = xs.map some := by
  induction Q with
  | nil => exact ⟨[], rfl⟩
  | cons q Q ih =>
    obtain ⟨x, hx⟩ := h q (by simp)
    obtain ⟨xs, hxs⟩ := ih fun q hq => h q (List.mem_cons_of_mem _ hq)
    exact ⟨x :: xs, by rw [List.map_cons, hx, hxs, List.map_cons]⟩

/-- The list that the manager goes through. -/
theorem saved_list {M : Machine F} {d : Json.Json → Option (Item α)} {dir r : Path} (hr : M.configHome = some r)
    (hd : r ++ dir ∉ M.tree.keys) :
    ∃ Q : List Str, Q.Nodup ∧ (∀ n, n ∈ Q ↔ IsThere M dir n) ∧
      M.saved d dir = Saved.openManager (some (Q.map (fun n => (M.tree.find (r ++ dir ++ [n])).bind (Json.readAs d)))) := by
  have hp := M.perm ((childNames M.tree (r ++ dir)).map (fun n => [n]))
  have hone : ∀ q ∈ M.order ((childNames M.tree (r ++ dir)).map (fun n => [n])), [q.headD []] = q := by
    intro q hq
    rw [hp.mem_iff] at hq
    obtain ⟨n, _, rfl⟩ := List.mem_map.mp hq
    rfl
  refine ⟨(M.order ((childNames M.tree (r ++ dir)).map (fun n => [n]))).map (fun q => q.headD []), ?_, ?_, ?_⟩
  · rw [(hp.map _).nodup_iff, List.map_map]
    have : ((fun q : Path => q.headD []) ∘ fun n => [n]) = id := rfl
    rw [this, List.map_id]
    exact List.nodup_dedup _
  · intro n
    rw [(hp.map _).mem_iff, List.map_map]
    have : ((fun q : Path => q.headD []) ∘ fun n => [n]) = id := rfl
    rw [this, List.map_id, mem_childNames]
    unfold IsThere
    constructor
    · rintro ⟨q, hq, hpre⟩; exact ⟨r, q, hr, hq, hpre⟩
    · rintro ⟨r', q, hr', hq, hpre⟩
      rw [hr] at hr'; cases hr'
      exact ⟨q, hq, hpre⟩
  · unfold Machine.saved Machine.entries
    rw [hr, Option.bind_some, if_neg hd, Option.map_some, List.map_map, List.map_map]
    congr 2
    refine List.map_congr_left fun q hq => ?_
    simp only [Function.comp]
    rw [hone q hq]

theorem savedText_iff {M : Machine F} {d : Json.Json → Option (Item α)} {dir r : Path} (hr : M.configHome = some r)
    {n : Str} {x : Item α} :
    SavedText M d dir n x ↔ (M.tree.find (r ++ dir ++ [n])).bind (Json.readAs d) = some x := by
  unfold SavedText
  rw [Option.bind_eq_some_iff]
  simp only [readAs_iff]
  constructor
  · rintro ⟨r', t, v, h1, h2, h3⟩
    rw [hr] at h1; cases h1
    exact ⟨t, h2, v, h3⟩
  · rintro ⟨t, h2, v, h3⟩
    exact ⟨r, t, v, hr, h2, h3⟩

theorem SavedText.isThere {M : Machine F} {d : Json.Json → Option (Item α)} {dir : Path} {n : Str} {x : Item α}
    (h : SavedText M d dir n x) : IsThere M dir n := by
  obtain ⟨r, t, v, h1, h2, _⟩ := h
  exact ⟨r, _, h1, (AMap.mem_keys_iff _ _).mpr ⟨t, h2⟩, List.prefix_rfl⟩

/-! ### Theorems -/

/-- **C90, saved filters and sessions.**  They are opened exactly if everything in the directory is a file with the
text of one, and no two have the same id. -/
theorem saved_texts_open_iff (M : Machine F) (d : Json.Json → Option (Item α)) (dir : Path) :
    (M.saved d dir).isSome = true ↔
      (∃ r, M.configHome = some r ∧ r ++ dir ∉ M.tree.keys) ∧ (∀ n, IsThere M dir n → ∃ x, SavedText M d dir n x) ∧
      ∀ n n' x x', SavedText M d dir n x → SavedText M d dir n' x' → x.id = x'.id → n = n' := by
  cases hr : M.configHome with
  | none =>
    have : M.saved d dir = none := by
      unfold Machine.saved Machine.entries
      rw [hr]; rfl
    rw [this]
    simp
  | some r =>
    by_cases hd : r ++ dir ∈ M.tree.keys
    · have : M.saved d dir = none := by
        unfold Machine.saved Machine.entries
        rw [hr, Option.bind_some, if_pos hd]; rfl
      rw [this]
      simp [hd]
    obtain ⟨Q, hnd, hmem, e⟩ := saved_list (d := d) hr hd
    rw [e, Saved.open_succeeds_iff]
    simp only [Option.some.injEq, savedText_iff hr]
    constructor
    · rintro ⟨xs, hxs, hid⟩
      refine ⟨⟨r, rfl, hd⟩, fun n hn => ?_, fun n n' x x' h1 h2 h3 => ?_⟩
      · have : (M.tree.find (r ++ dir ++ [n])).bind (Json.readAs d) ∈ xs.map some := by
          rw [← hxs]; exact List.mem_map.mpr ⟨n, (hmem n).mpr hn, rfl⟩
        obtain ⟨x, _, hx⟩ := List.mem_map.mp this
        exact ⟨x, hx.symm⟩
      · have hn := (hmem n).mpr (((savedText_iff hr).mpr h1).isThere)
        have hn' := (hmem n').mpr (((savedText_iff hr).mpr h2).isThere)
        have hnd2 : (Q.map (fun n => ((M.tree.find (r ++ dir ++ [n])).bind (Json.readAs d)).map (·.id))).Nodup := by
          have : Q.map (fun n => ((M.tree.find (r ++ dir ++ [n])).bind (Json.readAs d)).map (·.id)) =
              (xs.map (·.id)).map some := by
            have := congrArg (List.map (Option.map (·.id))) hxs
            rw [List.map_map, List.map_map] at this
            rw [List.map_map]
            exact this
          rw [this]
          exact hid.map (Option.some_injective _)
        refine List.inj_on_of_nodup_map hnd2 hn hn' ?_
        rw [h1, h2, Option.map_some, Option.map_some, h3]
    · rintro ⟨_, hall, hinj⟩
      obtain ⟨xs, hxs⟩ := all_some (f := fun n => (M.tree.find (r ++ dir ++ [n])).bind (Json.readAs d)) (Q := Q)
        fun n hn => hall n ((hmem n).mp hn)
      refine ⟨xs, hxs, ?_⟩
      have h1 : (Q.map (fun n => ((M.tree.find (r ++ dir ++ [n])).bind (Json.readAs d)).map (·.id))).Nodup := by
        refine List.Nodup.map_on (fun n hn n' hn' hnn => ?_) hnd
        obtain ⟨x, hx⟩ := hall n ((hmem n).mp hn)
        obtain ⟨x', hx'⟩ := hall n' ((hmem n').mp hn')
        rw [hx, hx', Option.map_some, Option.map_some] at hnn
        exact hinj n n' x x' hx hx' (Option.some.inj hnn)
      have h2 : Q.map (fun n => ((M.tree.find (r ++ dir ++ [n])).bind (Json.readAs d)).map (·.id)) =
          (xs.map (·.id)).map some := by
        have := congrArg (List.map (Option.map (·.id))) hxs
        rw [List.map_map, List.map_map] at this
        rw [List.map_map]
        exact this
      rw [h2] at h1
      exact h1.of_map _

/-- **C90, saved filters and sessions.**  What is found under an id is what the text of a file stands for. -/
theorem saved_texts_get (M : Machine F) (d : Json.Json → Option (Item α)) (dir : Path) (m : AMap Str (Item α))
    (h : M.saved d dir = some m) (id : Str) (x : Item α) :
    Saved.get m id = some x ↔ (∃ n, SavedText M d dir n x) ∧ x.id = id := by
  obtain ⟨⟨r, hr, hd⟩, hall, _⟩ := (saved_texts_open_iff M d dir).mp (by rw [h]; rfl)
  obtain ⟨Q, hnd, hmem, e⟩ := saved_list (d := d) hr hd
  obtain ⟨xs, hxs⟩ := all_some (f := fun n => (M.tree.find (r ++ dir ++ [n])).bind (Json.readAs d)) (Q := Q) fun n hn => by
    obtain ⟨x, hx⟩ := hall n ((hmem n).mp hn)
    exact ⟨x, (savedText_iff hr).mp hx⟩
  rw [e, hxs] at h
  rw [Saved.get_exact xs m h]
  refine and_congr_left fun _ => ?_
  have h1 : x ∈ xs ↔ some x ∈ xs.map some := by simp
  rw [h1, ← hxs, List.mem_map]
  constructor
  · rintro ⟨n, _, hx⟩; exact ⟨n, (savedText_iff hr).mpr hx⟩
  · rintro ⟨n, hx⟩
    exact ⟨n, (hmem n).mpr hx.isThere, (savedText_iff hr).mp hx⟩

/-! ### Non-trivial cases -/

/-- A library with a saved filter and a session that uses it, and none in a directory of another name. -/
def savedMachine : Machine Unit where
  tree := [ (["l".toList, ".trane".toList, "filters".toList, "a.json".toList],
      "{\"id\": \"f\", \"description\": \"\", \"filter\": {\"CourseFilter\": {\"course_ids\": [\"c\"]}}}".toList),
    (["l".toList, ".trane".toList, "study_sessions".toList, "b".toList],
      "{\"id\": \"s\", \"description\": \"\", \"parts\": [{\"SavedFilter\": {\"filter_id\": \"f\", \"duration\": 5}}]}".toList) ]
  good := by unfold GoodTree; decide +kernel
  cwd := []
  workingDir := []
  libraryRoot := "/l".toList
  order := id
  perm _ := List.Perm.refl _
  floats := Json.noFloats
  val _ := 0
  generate _ _ _ := none

/-- The hypothesis of `saved_texts_get` can be met. -/
example : savedMachine.savedFilters.map (fun m => (AMap.keys m)) = some ["f".toList] ∧
    savedMachine.savedSessions.map (fun m => (AMap.keys m)) = some ["s".toList] ∧
    (savedMachine.saved Json.decSavedFilter [".trane".toList]).isNone = true := by decide +kernel

end Trane.Tree
