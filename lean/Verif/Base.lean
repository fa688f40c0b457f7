/-!
# Shared containers

`UstrMap<V>` (a hash map keyed by interned strings, used all over `/repo/src`) is modelled by an
association list in which `put` replaces the entry in place, so keys stay unique.
`UstrSet` is modelled by a list handled with `List.insert` / `filter`.
-/

namespace Trane

/-- Models `ustr::UstrMap<V>` (for instance /repo/src/graph.rs:184-220).  The order of the entries
stands for the unspecified iteration order of the hash map. -/
abbrev AMap (κ ν : Type) := List (κ × ν)

namespace AMap

variable {κ ν : Type} [DecidableEq κ]

/-- `map.get(&k)`. As in /repo/src/graph.rs:230. -/
def find : AMap κ ν → κ → Option ν
  | [], _ => none
  | (k', v) :: m, k => if k' = k then some v else find m k

/-- `map.insert(k, v)`. As in /repo/src/graph.rs:260. -/
def put : AMap κ ν → κ → ν → AMap κ ν
  | [], k, v => [(k, v)]
  | (k', v') :: m, k, v => if k' = k then (k, v) :: m else (k', v') :: put m k v

/-- `map.remove(&k)`. As in /repo/src/graph.rs:234 and /repo/src/scheduler/unit_scorer.rs:103-107. -/
def del (m : AMap κ ν) (k : κ) : AMap κ ν := m.filter (fun e => e.1 ≠ k)

/-- `map.keys()`. As in /repo/src/graph.rs:464. -/
def keys (m : AMap κ ν) : List κ := m.map Prod.fst

/-- `map.entry(k).or_default()` followed by an in-place update `f`. As in /repo/src/graph.rs:303. -/
def upd (m : AMap κ ν) (k : κ) (dflt : ν) (f : ν → ν) : AMap κ ν :=
  m.put k (f ((m.find k).getD dflt))

@[simp] theorem find_nil (k : κ) : find ([] : AMap κ ν) k = none := rfl

theorem find_put (m : AMap κ ν) (k : κ) (v : ν) (k' : κ) :
    (m.put k v).find k' = if k = k' then some v else m.find k' := by
  induction m with
  | nil => simp [put, find]
  | cons e m ih =>
    obtain ⟨a, b⟩ := e
    by_cases h : a = k
    · subst h; simp only [put, if_true, find]; split <;> simp_all
    · simp only [put, if_neg h, find, ih]
      by_cases h2 : a = k'
      · subst h2; simp [Ne.symm h]
      · simp [h2]

@[simp] theorem find_put_self (m : AMap κ ν) (k : κ) (v : ν) : (m.put k v).find k = some v := by
  simp [find_put]

theorem find_put_ne (m : AMap κ ν) {k k' : κ} (v : ν) (h : k ≠ k') :
    (m.put k v).find k' = m.find k' := by simp [find_put, h]

theorem find_upd (m : AMap κ ν) (k : κ) (d : ν) (f : ν → ν) (k' : κ) :
    (m.upd k d f).find k' = if k = k' then some (f ((m.find k).getD d)) else m.find k' := by
  simp [upd, find_put]

theorem mem_keys_iff (m : AMap κ ν) (k : κ) : k ∈ m.keys ↔ ∃ v, m.find k = some v := by
  induction m with
  | nil => simp [keys]
  | cons e m ih =>
    obtain ⟨a, b⟩ := e
    simp only [keys, List.map_cons, List.mem_cons, find] at *
    by_cases h : a = k
    · simp [h]
    · simp [h, Ne.symm h, ih]

theorem mem_keys_put (m : AMap κ ν) (k : κ) (v : ν) (k' : κ) :
    k' ∈ (m.put k v).keys ↔ k' = k ∨ k' ∈ m.keys := by
  simp only [mem_keys_iff, find_put]
  by_cases h : k = k'
  · simp [h]
  · simp [h, Ne.symm h]

theorem nodup_keys_put (m : AMap κ ν) (k : κ) (v : ν) (h : m.keys.Nodup) :
    (m.put k v).keys.Nodup := by
  induction m with
  | nil => simp [put, keys]
  | cons e m ih =>
    obtain ⟨a, b⟩ := e
    simp only [put]
    by_cases hk : a = k
    · subst hk; simpa [keys] using h
    · simp only [if_neg hk]
      have h' : a ∉ AMap.keys m ∧ (AMap.keys m).Nodup := by simpa [keys] using h
      have : (AMap.keys ((a, b) :: put m k v)) = a :: AMap.keys (put m k v) := rfl
      rw [this, List.nodup_cons]
      refine ⟨?_, ih h'.2⟩
      rw [mem_keys_put]
      rintro (rfl | h2)
      · exact hk rfl
      · exact h'.1 h2

theorem mem_of_find {m : AMap κ ν} {k : κ} {v : ν} (h : m.find k = some v) : (k, v) ∈ m := by
  induction m with
  | nil => simp at h
  | cons e m ih =>
    obtain ⟨a, b⟩ := e
    simp only [find] at h
    split at h
    · simp_all
    · exact List.mem_cons_of_mem _ (ih h)

theorem find_of_mem {m : AMap κ ν} (hn : m.keys.Nodup) {k : κ} {v : ν} (h : (k, v) ∈ m) :
    m.find k = some v := by
  induction m with
  | nil => simp at h
  | cons e m ih =>
    obtain ⟨a, b⟩ := e
    have hn' : a ∉ AMap.keys m ∧ (AMap.keys m).Nodup := by simpa [keys] using hn
    simp only [find]
    rcases List.mem_cons.1 h with h | h
    · simp_all
    · have : a ≠ k := by
        rintro rfl
        exact hn'.1 (List.mem_map.2 ⟨_, h, rfl⟩)
      simp [this, ih hn'.2 h]

theorem find_del (m : AMap κ ν) (k k' : κ) :
    (m.del k).find k' = if k = k' then none else m.find k' := by
  induction m with
  | nil => simp [del]
  | cons e m ih =>
    obtain ⟨a, b⟩ := e
    simp only [del] at ih
    by_cases h : a = k
    · subst h
      simp only [del, List.filter_cons]
      simp only [ne_eq, not_true_eq_false, decide_false, Bool.false_eq_true, if_false, ih, find]
      split <;> simp_all
    · simp only [del, List.filter_cons, ne_eq, h, not_false_eq_true, decide_true, if_true, find,
        ih]
      by_cases h2 : a = k'
      · subst h2; simp [Ne.symm h]
      · simp [h2]

end AMap

/-- `set.extend(xs)` on a `UstrSet`. As in /repo/src/graph.rs:360. -/
def extendSet {α : Type} [DecidableEq α] (s xs : List α) : List α :=
  xs.foldl (fun s x => s.insert x) s

@[simp] theorem mem_extendSet {α : Type} [DecidableEq α] (s xs : List α) (a : α) :
    a ∈ extendSet s xs ↔ a ∈ s ∨ a ∈ xs := by
  induction xs generalizing s with
  | nil => simp [extendSet]
  | cons x xs ih =>
    have : extendSet s (x :: xs) = extendSet (s.insert x) xs := rfl
    rw [this, ih]
    simp only [List.mem_insert_iff, List.mem_cons]
    constructor
    · rintro ((h | h) | h) <;> simp [h]
    · rintro (h | h | h) <;> simp [h]

theorem nodup_extendSet {α : Type} [DecidableEq α] (s xs : List α) (h : s.Nodup) :
    (extendSet s xs).Nodup := by
  induction xs generalizing s with
  | nil => simpa [extendSet]
  | cons x xs ih =>
    have : extendSet s (x :: xs) = extendSet (s.insert x) xs := rfl
    rw [this]
    apply ih
    rw [List.insert]
    split
    · exact h
    · exact List.nodup_cons.2 ⟨by simp_all, h⟩

end Trane
