import Verif.Library.ListingProps

/-!
# Saved filters and study sessions (C49)

Model of `LocalFilterManager` (/repo/src/filter_manager.rs) and `LocalStudySessionManager`
(/repo/src/study_session_manager.rs), which have the same code for different payloads.

The directory is a parameter: `none` if it cannot be listed, otherwise for each entry, in listing
order, `none` if the entry cannot be read or parsed and the saved object otherwise.
-/

namespace Trane.Saved
open Trane.Store Trane.Library

/-- `SavedFilter` in /repo/src/data/filter.rs and `StudySession` there: an id, a description and a
payload. -/
structure Item (α : Type) where
  id : Str
  description : Str
  payload : α

variable {α : Type}

/-- The body of the loop, /repo/src/filter_manager.rs:36-51 and /repo/src/study_session_manager.rs:36-50. -/
def scanOne (m : AMap Str (Item α)) (entry : Option (Item α)) : Option (AMap Str (Item α)) := do
  let x ← entry
  if (m.find x.id).isSome then none else some (m.put x.id x)

/-- `scan_filters` /repo/src/filter_manager.rs:30-54, `scan_sessions`
/repo/src/study_session_manager.rs:29-53, and the constructors around them; `none` is `Err`. -/
def openManager (dir : Option (List (Option (Item α)))) : Option (AMap Str (Item α)) := do
  let entries ← dir
  entries.foldlM scanOne []

/-- `get_filter` /repo/src/filter_manager.rs:65-67, `get_study_session`
/repo/src/study_session_manager.rs:64-66. -/
def get (m : AMap Str (Item α)) (id : Str) : Option (Item α) := m.find id

/-- `list_filters` /repo/src/filter_manager.rs:69-80, `list_study_sessions`
/repo/src/study_session_manager.rs:68-79.  `iter` is the hash map's entries in iteration order. -/
def listing (iter : List (Str × Item α)) : List (Str × Str) :=
  (iter.map (fun e => (e.1, e.2.description))).insertionSort (fun a b => a.1 ≤ b.1)

/-! ## Lemmas -/

theorem scan_fold (entries : List (Option (Item α))) :
    ∀ m : AMap Str (Item α), m.keys.Nodup →
    (∀ m', entries.foldlM scanOne m = some m' →
      ∃ xs : List (Item α), entries = xs.map some ∧ (xs.map (·.id)).Nodup ∧ (∀ x ∈ xs, x.id ∉ m.keys) ∧
        m'.keys.Nodup ∧ ∀ k x, m'.find k = some x ↔ m.find k = some x ∨ (x ∈ xs ∧ x.id = k)) ∧
    (entries.foldlM scanOne m = none →
      ∀ xs : List (Item α), entries = xs.map some → ¬ ((xs.map (·.id)).Nodup ∧ ∀ x ∈ xs, x.id ∉ m.keys)) := by
  induction entries with
  | nil =>
    intro m hm
    refine ⟨fun m' h => ?_, fun h => by cases h⟩
    cases h
    exact ⟨[], rfl, by simp, by simp, hm, by simp⟩
  | cons e es ih =>
    intro m hm
    cases e with
    | none =>
      refine ⟨fun m' h => by simp [scanOne] at h, fun _ xs hx => ?_⟩
      cases xs with
      | nil => cases hx
      | cons y ys => simp at hx
    | some x =>
      by_cases hk : x.id ∈ m.keys
      · have hs : scanOne m (some x) = none := by
          unfold scanOne
          have : (m.find x.id).isSome = true := by
            rw [Option.isSome_iff_exists, ← AMap.mem_keys_iff]; exact hk
          simp [this]
        refine ⟨fun m' h => by simp [List.foldlM_cons, hs] at h, fun _ xs hx => ?_⟩
        cases xs with
        | nil => cases hx
        | cons y ys =>
          simp only [List.map_cons, List.cons.injEq, Option.some.injEq] at hx
          obtain ⟨rfl, _⟩ := hx
          rintro ⟨_, h2⟩
          exact h2 x (by simp) hk
      · have hf : m.find x.id = none := by
          rw [AMap.mem_keys_iff] at hk
          push Not at hk
          cases hq : AMap.find m x.id with
          | none => rfl
          | some v => exact (hk v hq).elim
        have hs : scanOne m (some x) = some (m.put x.id x) := by
          unfold scanOne; simp [hf]
        have hstep : (some x :: es).foldlM scanOne m = es.foldlM scanOne (m.put x.id x) := by
          simp [List.foldlM_cons, hs]
        rw [hstep]
        obtain ⟨i1, i2⟩ := ih (m.put x.id x) (AMap.nodup_keys_put _ _ _ hm)
        constructor
        · intro m' h
          obtain ⟨xs, rfl, nd, hne, nk, hfind⟩ := i1 m' h
          refine ⟨x :: xs, rfl, ?_, ?_, nk, ?_⟩
          · rw [List.map_cons, List.nodup_cons]
            refine ⟨fun hc => ?_, nd⟩
            obtain ⟨y, hy, e⟩ := List.mem_map.1 hc
            exact hne y hy (by rw [AMap.mem_keys_put]; exact Or.inl e)
          · intro y hy
            rcases List.mem_cons.1 hy with rfl | hy
            · exact hk
            · exact fun hc => hne y hy (by rw [AMap.mem_keys_put]; exact Or.inr hc)
          · intro k y
            rw [hfind, List.mem_cons]
            by_cases hkx : k = x.id
            · subst hkx
              rw [AMap.find_put_self, hf]
              simp only [Option.some.injEq, reduceCtorEq, false_or]
              constructor
              · rintro (rfl | ⟨a, b⟩)
                · exact ⟨Or.inl rfl, rfl⟩
                · exact ⟨Or.inr a, b⟩
              · rintro ⟨rfl | a, b⟩
                · exact Or.inl rfl
                · exact Or.inr ⟨a, b⟩
            · rw [AMap.find_put_ne _ _ (Ne.symm hkx)]
              constructor
              · rintro (a | ⟨a, b⟩)
                · exact Or.inl a
                · exact Or.inr ⟨Or.inr a, b⟩
              · rintro (a | ⟨rfl | a, b⟩)
                · exact Or.inl a
                · exact (hkx b.symm).elim
                · exact Or.inr ⟨a, b⟩
        · intro h xs hx
          cases xs with
          | nil => cases hx
          | cons y ys =>
            simp only [List.map_cons, List.cons.injEq, Option.some.injEq] at hx
            obtain ⟨rfl, rfl⟩ := hx
            rintro ⟨nd, hne⟩
            rw [List.map_cons, List.nodup_cons] at nd
            refine i2 h ys rfl ⟨nd.2, fun z hz hc => ?_⟩
            rw [AMap.mem_keys_put] at hc
            rcases hc with hc | hc
            · exact nd.1 (by rw [← hc]; exact List.mem_map.2 ⟨z, hz, rfl⟩)
            · exact hne z (by simp [hz]) hc

/-! ## Properties -/

/-- **C49.**  Opening succeeds exactly when the directory can be listed, every entry can be read and
no two entries declare the same id. -/
theorem open_succeeds_iff (dir : Option (List (Option (Item α)))) :
    (openManager dir).isSome = true ↔
      ∃ xs : List (Item α), dir = some (xs.map some) ∧ (xs.map (·.id)).Nodup := by
  cases dir with
  | none => simp [openManager]
  | some es =>
    obtain ⟨i1, i2⟩ := scan_fold es [] (by simp [AMap.keys])
    simp only [openManager, Option.bind_eq_bind, Option.bind_some, Option.some.injEq]
    cases h : es.foldlM scanOne [] with
    | none =>
      simp only [Option.isSome_none, Bool.false_eq_true, false_iff]
      rintro ⟨xs, rfl, nd⟩
      exact i2 h xs rfl ⟨nd, by simp [AMap.keys]⟩
    | some m' =>
      obtain ⟨xs, e, nd, _⟩ := i1 m' h
      simp only [Option.isSome_some, true_iff]
      exact ⟨xs, e, nd⟩

/-- **C49.**  An open manager returns each stored object under its id and nothing else. -/
theorem get_exact (xs : List (Item α)) (m : AMap Str (Item α))
    (h : openManager (some (xs.map some)) = some m) (id : Str) (x : Item α) :
    get m id = some x ↔ x ∈ xs ∧ x.id = id := by
  obtain ⟨i1, _⟩ := scan_fold (xs.map some) [] (by simp [AMap.keys])
  obtain ⟨ys, e, _, _, _, hf⟩ := i1 m h
  have : ys = xs := (List.map_injective_iff.2 (Option.some_injective _) e).symm
  subst this
  rw [get, hf]
  simp [AMap.find]

/-- **C49.**  Whatever the iteration order of the hash map, the listing has strictly increasing ids
and consists of exactly the pairs of id and description of the stored objects. -/
theorem listing_exact (xs : List (Item α)) (m : AMap Str (Item α))
    (h : openManager (some (xs.map some)) = some m) (iter : List (Str × Item α))
    (hi : iter.Perm m) :
    (listing iter).Pairwise (fun a b => a.1 < b.1) ∧
      ∀ i t, (i, t) ∈ listing iter ↔ ∃ x ∈ xs, x.id = i ∧ x.description = t := by
  obtain ⟨i1, _⟩ := scan_fold (xs.map some) [] (by simp [AMap.keys])
  obtain ⟨ys, e, _, _, nk, hf⟩ := i1 m h
  have : ys = xs := (List.map_injective_iff.2 (Option.some_injective _) e).symm
  subst this
  have hperm := List.perm_insertionSort (fun a b : Str × Str => a.1 ≤ b.1)
    (iter.map (fun e => (e.1, e.2.description)))
  constructor
  · have : Std.Total (fun a b : Str × Str => a.1 ≤ b.1) := ⟨fun a b => le_total a.1 b.1⟩
    have : IsTrans (Str × Str) (fun a b => a.1 ≤ b.1) := ⟨fun a b c => le_trans⟩
    have hs : (listing iter).Pairwise (fun a b => a.1 ≤ b.1) :=
      List.pairwise_insertionSort (fun a b : Str × Str => a.1 ≤ b.1) _
    have hn : ((listing iter).map (·.1)).Nodup := by
      rw [listing, (hperm.map _).nodup_iff, List.map_map, (hi.map _).nodup_iff]
      exact nk
    rw [List.Nodup, List.pairwise_map] at hn
    exact (hs.and hn).imp (fun h => lt_of_le_of_ne h.1 h.2)
  · intro i t
    rw [listing, hperm.mem_iff, List.mem_map]
    constructor
    · rintro ⟨⟨k, x⟩, hx, e⟩
      cases e
      have := AMap.find_of_mem nk (hi.mem_iff.1 hx)
      rw [hf] at this
      rcases this with hc | ⟨a, b⟩
      · simp [AMap.find] at hc
      · exact ⟨x, a, b, rfl⟩
    · rintro ⟨x, a, rfl, rfl⟩
      refine ⟨(x.id, x), hi.mem_iff.2 (AMap.mem_of_find ((hf _ _).2 (Or.inr ⟨a, rfl⟩))), rfl⟩

/-- Two filters are stored; a third file with a repeated id or an unreadable one makes it fail. -/
example :
    ((openManager (some [some ⟨['b'], ['2'], ()⟩, some ⟨['a'], ['1'], ()⟩])).map listing) =
      some [(['a'], ['1']), (['b'], ['2'])] ∧
    (openManager (some [some ⟨['b'], ['2'], ()⟩, some ⟨['b'], ['1'], ()⟩])).isNone = true ∧
    (openManager (some [some ⟨['b'], ['2'], ()⟩, none])).isNone = true := by decide +kernel

end Trane.Saved
