import Verif.Gen.LiteracyFiles

/-! Lemmas about reading the files of a directory one by one, used by the generators. -/

namespace Trane.Gen
open Trane.Store

/-- Folding over files of distinct kinds with a step that sets a field for one kind only. -/
theorem fold_field {K C S X : Type} [DecidableEq K] (step : S → K × C → Option S) (φ : S → X) (k0 : K)
    (val : C → Option X)
    (hset : ∀ l c l', step l (k0, c) = some l' → val c = some (φ l'))
    (hkeep : ∀ l k c l', k ≠ k0 → step l (k, c) = some l' → φ l' = φ l)
    (fs : List (K × C)) (hn : (fs.map (·.1)).Nodup) (l l' : S) (h : fs.foldlM step l = some l') :
    (∃ ct, (k0, ct) ∈ fs ∧ val ct = some (φ l')) ∨ ((∀ ct, (k0, ct) ∉ fs) ∧ φ l' = φ l) := by
  induction fs generalizing l with
  | nil =>
    have : l = l' := by simpa using h
    subst this
    simp
  | cons f fs ih =>
    rw [List.foldlM_cons, Option.bind_eq_bind, Option.bind_eq_some_iff] at h
    obtain ⟨l1, h1, h2⟩ := h
    rw [List.map_cons, List.nodup_cons] at hn
    obtain ⟨k, c⟩ := f
    rcases ih hn.2 l1 h2 with ⟨ct, hm, hv⟩ | ⟨hno, he⟩
    · exact Or.inl ⟨ct, List.mem_cons_of_mem _ hm, hv⟩
    · by_cases hk : k = k0
      · subst hk
        exact Or.inl ⟨c, List.mem_cons_self, by rw [he]; exact hset _ _ _ h1⟩
      · refine Or.inr ⟨fun ct hm => ?_, he.trans (hkeep _ _ _ _ hk h1)⟩
        rcases List.mem_cons.1 hm with h | h
        · exact hk (congrArg Prod.fst h).symm
        · exact hno ct h

/-- A field no step changes. -/
theorem fold_const {F S X : Type} (step : S → F → Option S) (φ : S → X)
    (hkeep : ∀ l f l', step l f = some l' → φ l' = φ l)
    (fs : List F) (l l' : S) (h : fs.foldlM step l = some l') : φ l' = φ l := by
  induction fs generalizing l with
  | nil =>
    have : l = l' := by simpa using h
    rw [this]
  | cons f fs ih =>
    rw [List.foldlM_cons, Option.bind_eq_bind, Option.bind_eq_some_iff] at h
    obtain ⟨l1, h1, h2⟩ := h
    exact (ih l1 h2).trans (hkeep _ _ _ h1)

theorem mapM_isSome {A B : Type} (f : A → Option B) (xs : List A) :
    (xs.mapM f).isSome = true ↔ ∀ x ∈ xs, (f x).isSome = true := by
  induction xs with
  | nil => simp
  | cons x xs ih =>
    rw [List.mapM_cons, List.forall_mem_cons, ← ih]
    cases f x <;> cases xs.mapM f <;> simp

theorem mapM_forall₂ {A B : Type} (f : A → Option B) (xs : List A) (ys : List B)
    (h : xs.mapM f = some ys) : List.Forall₂ (fun x y => f x = some y) xs ys := by
  induction xs generalizing ys with
  | nil =>
    have : [] = ys := by simpa using h
    subst this
    exact .nil
  | cons x xs ih =>
    rw [List.mapM_cons] at h
    simp only [Option.bind_eq_bind, Option.bind_eq_some_iff, Option.pure_def, Option.some.injEq] at h
    obtain ⟨y, hy, zs, hz, rfl⟩ := h
    exact .cons hy (ih zs hz)

theorem mapM_mem {A B : Type} (f : A → Option B) (xs : List A) (ys : List B)
    (h : xs.mapM f = some ys) (y : B) : y ∈ ys ↔ ∃ x ∈ xs, f x = some y := by
  have h2 := mapM_forall₂ f xs ys h
  clear h
  induction h2 with
  | nil => simp
  | cons hx _ ih =>
    simp only [List.mem_cons, ih, exists_eq_or_imp, hx, Option.some.injEq]
    exact or_congr_left eq_comm

theorem forall₂_right {A B : Type} {P : A → B → Prop} {xs : List A} {ys : List B}
    (h : List.Forall₂ P xs ys) : ∀ y ∈ ys, ∃ x ∈ xs, P x y := by
  induction h with
  | nil => simp
  | cons hx _ ih =>
    intro y hy
    rcases List.mem_cons.1 hy with rfl | hy
    · exact ⟨_, List.mem_cons_self, hx⟩
    · obtain ⟨x, h1, h2⟩ := ih y hy
      exact ⟨x, List.mem_cons_of_mem _ h1, h2⟩

theorem forall₂_map_eq {A B X : Type} {P : A → B → Prop} (f : A → X) (g : B → X)
    (hP : ∀ a b, P a b → g b = f a) {xs : List A} {ys : List B} (h : List.Forall₂ P xs ys) :
    ys.map g = xs.map f := by
  induction h with
  | nil => rfl
  | cons hx _ ih => rw [List.map_cons, List.map_cons, ih, hP _ _ hx]

end Trane.Gen
