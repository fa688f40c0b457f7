import Verif.Store.Blacklist

/-! # C10, C11: the blacklist -/

namespace Trane.Store.Blacklist

/-- What each call must do to the abstract set of blacklisted ids: `s` before, `s'` after.  A call
that reports a database error changes nothing, except that an interrupted prefix removal may have
removed some of the matching ids. -/
def AbsStep (s s' : Str → Prop) : Op → Bool → Prop
  | .add u _, true => ∀ x, s' x ↔ s x ∨ x = u
  | .remove u _, true => ∀ x, s' x ↔ s x ∧ x ≠ u
  | .removePrefix p _, true => ∀ x, s' x ↔ s x ∧ likePrefix p x = false
  | .removePrefix p _, false => ∀ x, (s' x → s x) ∧ (s x → s' x ∨ likePrefix p x = true)
  | _, _ => ∀ x, s' x ↔ s x

/-- C10: after every history (with reopening and database failures anywhere) the query and the
listing agree, and the listing has no duplicates. -/
theorem blacklist_query_iff_listed (ops : List Op) (u : Str) :
    ((run ops).blacklisted u = true ↔ u ∈ (run ops).entries) ∧ (run ops).entries.Nodup := by
  have h := inv_run ops
  refine ⟨?_, h.nodup⟩
  rw [blacklisted, (hasEntry_eq _ u h).1, entries, decide_eq_true_iff]

/-- C10: every call of every history acts on the set of blacklisted ids as the abstract set
operation says; the fresh database is empty. -/
theorem blacklist_refines_set (ops : List Op) (o : Op) :
    AbsStep (fun x => (run ops).blacklisted x = true)
      (fun x => (run (ops ++ [o])).blacklisted x = true) o ((run ops).step o).2 ∧
    (∀ x, (run []).blacklisted x = false) := by
  refine ⟨?_, fun x => rfl⟩
  have e : ∀ (l : List Op) x, ((run l).blacklisted x = true ↔ x ∈ (run l).db) := fun l x =>
    (blacklist_query_iff_listed l x).1
  have h := inv_run ops
  have e0 := e ops
  have e1 := e (ops ++ [o])
  rw [run_snoc] at e1 ⊢
  generalize run ops = b at *
  cases o with
  | add u f =>
    obtain ⟨i1, i2, i3⟩ := hasEntry_eq b u h
    simp only [step, add] at e1 ⊢
    generalize b.hasEntry u = r at *
    obtain ⟨b', v⟩ := r
    simp only at i1 i2 i3 e1 ⊢
    cases v with
    | true =>
      have hu : u ∈ b.db := by simpa using i1
      simp only [AbsStep, e0, e1, i2]
      intro x; constructor
      · exact Or.inl
      · rintro (hx | rfl)
        · exact hx
        · exact hu
    | false =>
      simp only at e1 ⊢
      by_cases hf : (f || decide (u ∈ b'.db)) = true
      · simp only [if_pos hf] at e1 ⊢
        intro x; dsimp only; rw [e0, e1, i2]
      · simp only [if_neg hf] at e1 ⊢
        intro x; dsimp only; rw [e0, e1]; simp [i2]
  | remove u f =>
    simp only [step, remove] at e1 ⊢
    by_cases hf : f = true
    · simp only [if_pos hf] at e1 ⊢
      intro x; exact Iff.rfl
    · simp only [if_neg hf] at e1 ⊢
      intro x; dsimp only; rw [e0, e1]; simp
  | removePrefix p f =>
    cases f with
    | none =>
      simp only [step, removePrefix, AbsStep] at e1 ⊢
      intro x
      rw [e0, e1, (foldl_removeRow b _ h).2]
      simp only [List.mem_filter, not_and, decide_eq_true_eq, Bool.not_eq_true]
      constructor
      · rintro ⟨a, c⟩; exact ⟨a, c a⟩
      · rintro ⟨a, c⟩; exact ⟨a, fun _ => c⟩
    | some k =>
      simp only [step, removePrefix, AbsStep] at e1 ⊢
      intro x
      rw [e0, e1, (foldl_removeRow b _ h).2]
      simp only [List.mem_filter, decide_eq_true_eq]
      refine ⟨fun hx => hx.1, fun hx => ?_⟩
      by_cases hm : x ∈ (b.db.filter (likePrefix p)).take k
      · right
        have := List.mem_of_mem_take hm
        rw [List.mem_filter] at this
        exact this.2
      · exact Or.inl ⟨hx, hm⟩
  | query u =>
    simp only [step, AbsStep] at e1 ⊢
    intro x
    rw [e0, e1, (hasEntry_eq b u h).2.1]
  | reopen =>
    simp only [step, AbsStep] at e1 ⊢
    intro x
    rw [e0, e1]; rfl

/-- C10: without database failures every call succeeds. -/
theorem blacklist_calls_succeed (ops : List Op) :
    (∀ u, ((run ops).step (.add u false)).2 = true) ∧
    (∀ u, ((run ops).step (.remove u false)).2 = true) ∧
    (∀ p, ((run ops).step (.removePrefix p none)).2 = true) := by
  have h := inv_run ops
  refine ⟨fun u => ?_, fun u => rfl, fun p => rfl⟩
  obtain ⟨e1, e2, -⟩ := hasEntry_eq (run ops) u h
  simp only [step, add]
  generalize (run ops).hasEntry u = r at *
  obtain ⟨b', v⟩ := r
  cases v with
  | true => rfl
  | false =>
    simp only at e1 e2 ⊢
    rw [if_neg]
    rw [e2]
    simpa using e1

example : (run [.add "c1".toList false, .add "c2".toList false, .add "c1".toList false,
    .remove "c2".toList true, .reopen, .query "c3".toList]).entries = ["c1".toList, "c2".toList] ∧
    (run [.add "c1".toList false, .query "c1".toList, .removePrefix "c".toList none]).blacklisted
      "c1".toList = false := by decide

/-- The full claim of C11 for one call. -/
def PrefixRemovalExact (p : Str) (ops : List Op) : Prop :=
  ∀ x, x ∈ (run (ops ++ [.removePrefix p none])).entries ↔ x ∈ (run ops).entries ∧ ¬ p <+: x

theorem mem_after_removePrefix (p : Str) (ops : List Op) (x : Str) :
    x ∈ (run (ops ++ [.removePrefix p none])).entries ↔
      x ∈ (run ops).entries ∧ likePrefix p x = false := by
  rw [← (blacklist_query_iff_listed _ x).1, ← (blacklist_query_iff_listed _ x).1]
  exact (blacklist_refines_set ops (.removePrefix p none)).1 x

/-- C11, first half in full: every entry that starts with the prefix is removed. -/
theorem prefix_removal_complete (p : Str) (ops : List Op) (x : Str) (h : p <+: x) :
    x ∉ (run (ops ++ [.removePrefix p none])).entries := by
  rw [mem_after_removePrefix, likePrefix_of_prefix p x h]
  simp

/-- C11 (partial): the removal is exact when the prefix contains neither `%` nor `_` and every
stored entry that matches it up to ASCII case matches it exactly (in particular for a prefix with
no ASCII letters).  Missing: prefixes with wildcards and case variants, where the claim is false
(`prefix_removal_not_exact`). -/
theorem prefix_removal_exact_partial (p : Str) (ops : List Op) (hp : '%' ∉ p ∧ '_' ∉ p)
    (hc : ∀ x ∈ (run ops).entries, p.map Char.toLower <+: x.map Char.toLower → p <+: x) :
    PrefixRemovalExact p ops := by
  intro x
  rw [mem_after_removePrefix]
  constructor
  · rintro ⟨h1, h2⟩
    refine ⟨h1, fun h => ?_⟩
    rw [likePrefix_of_prefix p x h] at h2; cases h2
  · rintro ⟨h1, h2⟩
    refine ⟨h1, ?_⟩
    rw [← Bool.not_eq_true, likePrefix_iff p x hp]
    exact fun h => h2 (hc x h1 h)

example : '%' ∉ "1::".toList ∧ '_' ∉ "1::".toList ∧
    (run [.add "1::a".toList false, .add "2::a".toList false,
      .removePrefix "1::".toList none]).entries = ["2::a".toList] := by decide

/-- C11 is false of the code: `_` in the prefix is a wildcard and letters match in either case, so
entries that do not start with the prefix are removed. -/
theorem prefix_removal_not_exact :
    (∃ p ops, ¬ PrefixRemovalExact p ops ∧ '_' ∈ p) ∧
    (∃ p ops, ¬ PrefixRemovalExact p ops ∧ '%' ∉ p ∧ '_' ∉ p) := by
  refine ⟨⟨"a_b".toList, [.add "axb::1".toList false], fun h => ?_, by decide⟩,
    ⟨"Jazz".toList, [.add "jazz::1".toList false], fun h => ?_, by decide⟩⟩
  · exact absurd ((h "axb::1".toList).2 ⟨by decide, by decide⟩) (by decide)
  · exact absurd ((h "jazz::1".toList).2 ⟨by decide, by decide⟩) (by decide)

end Trane.Store.Blacklist
