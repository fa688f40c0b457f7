import Verif.Store.Like

/-! # Model of `LocalReviewList` (/repo/src/review_list.rs) and C12 -/

namespace Trane.Store.ReviewList

/-- The rows of `review_list(unit_id TEXT NOT NULL UNIQUE)`, /repo/src/review_list.rs:36-46. -/
abbrev Table := List Str

/-- /repo/src/review_list.rs:72-79: `INSERT OR IGNORE`. -/
def add (t : Table) (u : Str) : Table := if u ∈ t then t else t ++ [u]

/-- /repo/src/review_list.rs:82-88. -/
def remove (t : Table) (u : Str) : Table := t.filter (fun x => x ≠ u)

/-- /repo/src/review_list.rs:91-104. -/
def entries (t : Table) : List Str := t

/-- The calls of the `ReviewList` trait, and closing and reopening.  `dbFails` is a database error
before the statement takes effect. /repo/src/review_list.rs:107-122. -/
inductive Op
  | add (u : Str) (dbFails : Bool)
  | remove (u : Str) (dbFails : Bool)
  | reopen

/-- One call and whether it returned `Ok`. /repo/src/review_list.rs:107-122. -/
def step (t : Table) : Op → Table × Bool
  | .add u f => if f then (t, false) else (add t u, true)
  | .remove u f => if f then (t, false) else (remove t u, true)
  | .reopen => (t, true)

/-- A history starting from a fresh database. /repo/src/review_list.rs:107-122. -/
def run (ops : List Op) : Table := ops.foldl (fun t o => (step t o).1) []

theorem run_snoc (ops : List Op) (o : Op) : run (ops ++ [o]) = (step (run ops) o).1 := by
  simp [run]

/-- The abstract set semantics: the last successful call about an id decides. -/
def Listed : List Op → Str → Prop
  | [], _ => False
  | .add u false :: later, x => (x = u ∧ ¬ Removed later x) ∨ Listed later x
  | _ :: later, x => Listed later x
where
  /-- A later successful removal of the id. -/
  Removed : List Op → Str → Prop
    | [], _ => False
    | .remove u false :: later, x => x = u ∨ Removed later x
    | _ :: later, x => Removed later x

theorem run_mem_aux (ops : List Op) (t : Table) (x : Str) :
    x ∈ ops.foldl (fun t o => (step t o).1) t ↔
      (x ∈ t ∧ ¬ Listed.Removed ops x) ∨ Listed ops x := by
  induction ops generalizing t with
  | nil => simp [Listed, Listed.Removed]
  | cons o ops ih =>
    rw [List.foldl_cons, ih]
    cases o with
    | add u f =>
      cases f with
      | true => simp [step, Listed, Listed.Removed]
      | false =>
        have : x ∈ add t u ↔ x ∈ t ∨ x = u := by
          unfold add; split
          · constructor
            · exact Or.inl
            · rintro (h | rfl) <;> assumption
          · simp
        simp only [step, Bool.false_eq_true, if_false, this, Listed, Listed.Removed]
        constructor
        · rintro (⟨h1 | h1, h2⟩ | h)
          · exact Or.inl ⟨h1, h2⟩
          · exact Or.inr (Or.inl ⟨h1, h2⟩)
          · exact Or.inr (Or.inr h)
        · rintro (⟨h1, h2⟩ | ⟨h1, h2⟩ | h)
          · exact Or.inl ⟨Or.inl h1, h2⟩
          · exact Or.inl ⟨Or.inr h1, h2⟩
          · exact Or.inr h
    | remove u f =>
      cases f with
      | true => simp [step, Listed, Listed.Removed]
      | false =>
        simp only [step, Bool.false_eq_true, if_false, remove, List.mem_filter, decide_eq_true_eq,
          Listed, Listed.Removed, not_or, and_assoc, ne_eq]
    | reopen => simp [step, Listed, Listed.Removed]

/-- C12: after every history the listing contains exactly the ids whose last successful call was an
addition, each once. -/
theorem review_list_is_set (ops : List Op) (x : Str) :
    (x ∈ entries (run ops) ↔ Listed ops x) ∧ (entries (run ops)).Nodup := by
  constructor
  · rw [entries, run, run_mem_aux]; simp
  · unfold entries run
    have key : ∀ t : Table, t.Nodup → (ops.foldl (fun t o => (step t o).1) t).Nodup := by
      induction ops with
      | nil => exact fun t h => h
      | cons o ops ih =>
        intro t h
        refine ih _ ?_
        cases o with
        | add u f =>
          cases f with
          | true => exact h
          | false =>
            simp only [step, Bool.false_eq_true, if_false, add]
            split
            · exact h
            · rename_i hu
              rw [List.nodup_append]
              refine ⟨h, by simp, ?_⟩
              intro a ha b hb hab
              rw [List.mem_singleton] at hb
              subst hb hab
              exact hu ha
        | remove u f =>
          cases f with
          | true => exact h
          | false => simp only [step, Bool.false_eq_true, if_false, remove]; exact h.filter _
        | reopen => exact h
    exact key [] (by simp)

/-- C12, per call: an addition adds exactly its id, a removal removes exactly its id, a failed call
or reopening changes nothing. -/
theorem review_list_step (ops : List Op) (u x : Str) :
    (x ∈ entries (run (ops ++ [.add u false])) ↔ x ∈ entries (run ops) ∨ x = u) ∧
    (x ∈ entries (run (ops ++ [.remove u false])) ↔ x ∈ entries (run ops) ∧ x ≠ u) ∧
    entries (run (ops ++ [.add u true])) = entries (run ops) ∧
    entries (run (ops ++ [.remove u true])) = entries (run ops) ∧
    entries (run (ops ++ [.reopen])) = entries (run ops) := by
  simp only [run_snoc, step, entries]
  refine ⟨?_, ?_, rfl, rfl, trivial⟩
  · simp only [Bool.false_eq_true, if_false, add]
    split
    · constructor
      · exact Or.inl
      · rintro (h | rfl) <;> assumption
    · simp
  · simp [remove]

example : entries (run [.add "a".toList false, .add "b".toList false, .add "a".toList false,
    .remove "b".toList true, .reopen, .remove "a".toList false]) = ["b".toList] := by decide

end Trane.Store.ReviewList
