import Verif.Library.Spec

/-! Ids put together from parts separated by `::`, as the course generators do. -/

namespace Trane.Gen
open Trane.Store Trane.Library

/-- The text of a format string such as `{}::{}::{}`: a first part followed by further parts, each
preceded by `::`. -/
def tagged (first : Str) (parts : List Str) : Str := first ++ parts.flatMap (fun p => ':' :: ':' :: p)

/-- The part contains no colon. -/
def Plain (p : Str) : Prop := ':' ∉ p

theorem takeWhile_plain (p r : Str) (hp : Plain p) (hr : r = [] ∨ ∃ t, r = ':' :: t) :
    (p ++ r).takeWhile (· ≠ ':') = p := by
  induction p with
  | nil => rcases hr with rfl | ⟨t, rfl⟩ <;> simp
  | cons c p ih =>
    unfold Plain at hp
    rw [List.mem_cons] at hp
    push Not at hp
    rw [List.cons_append, List.takeWhile_cons]
    have : (decide (c ≠ ':')) = true := by simpa using hp.1.symm
    rw [if_pos this, ih hp.2]

theorem flat_start (ps : List Str) :
    ps.flatMap (fun p => ':' :: ':' :: p) = [] ∨ ∃ t, ps.flatMap (fun p => ':' :: ':' :: p) = ':' :: t := by
  cases ps with
  | nil => left; rfl
  | cons p ps => right; exact ⟨_, rfl⟩

theorem parts_inj (ps qs : List Str) (hp : ∀ p ∈ ps, Plain p) (hq : ∀ p ∈ qs, Plain p)
    (h : ps.flatMap (fun p => ':' :: ':' :: p) = qs.flatMap (fun p => ':' :: ':' :: p)) : ps = qs := by
  induction ps generalizing qs with
  | nil => cases qs with
    | nil => rfl
    | cons q qs => simp at h
  | cons p ps ih => cases qs with
    | nil => simp at h
    | cons q qs =>
      simp only [List.flatMap_cons, List.cons_append, List.cons.injEq, true_and] at h
      have h1 := takeWhile_plain p _ (hp p (by simp)) (flat_start ps)
      have h2 := takeWhile_plain q _ (hq q (by simp)) (flat_start qs)
      rw [h, h2] at h1
      subst h1
      rw [ih qs (fun x hx => hp x (by simp [hx])) (fun x hx => hq x (by simp [hx]))
        (List.append_cancel_left h)]

/-- Ids of the same course with plain parts differ when the parts differ. -/
theorem tagged_inj {c : Str} {ps qs : List Str} (hp : ∀ p ∈ ps, Plain p) (hq : ∀ p ∈ qs, Plain p)
    (h : tagged c ps = tagged c qs) : ps = qs := parts_inj ps qs hp hq (List.append_cancel_left h)

theorem tagged_append (c : Str) (ps qs : List Str) : tagged (tagged c ps) qs = tagged c (ps ++ qs) := by
  simp [tagged]

theorem tagged_nil (c : Str) : tagged c [] = c := by simp [tagged]

theorem tagged_ne_nil {c : Str} {ps : List Str} (h : ps ≠ []) : tagged c ps ≠ [] := by
  cases ps with
  | nil => exact (h rfl).elim
  | cons p ps => simp [tagged]

/-- Of two strings, neither continues the other with `::`. -/
def Apart (a b : Str) : Prop := ¬ (a ++ "::".toList) <+: b ∧ ¬ (b ++ "::".toList) <+: a

theorem tagged_first_aux {c c' p q : Str} {ps qs : List Str} (hp : Plain p) (hp0 : p ≠ [])
    (r : Str) (hc : c' = c ++ r) (hap : ¬ (c ++ "::".toList) <+: c')
    (h : tagged c (p :: ps) = tagged c' (q :: qs)) : c = c' := by
  subst hc
  have h2 : (p :: ps).flatMap (fun p => ':' :: ':' :: p) =
      r ++ (q :: qs).flatMap (fun p => ':' :: ':' :: p) := by
    unfold tagged at h
    rw [List.append_assoc] at h
    exact List.append_cancel_left h
  clear h
  cases r with
  | nil => simp
  | cons x r =>
    rw [List.flatMap_cons, List.cons_append, List.cons_append, List.cons_append,
      List.cons.injEq] at h2
    obtain ⟨hx, h2⟩ := h2
    cases r with
    | nil =>
      rw [List.nil_append, List.flatMap_cons, List.cons_append, List.cons.injEq] at h2
      cases p with
      | nil => exact (hp0 rfl).elim
      | cons y p =>
        have h3 := h2.2
        rw [List.cons_append, List.cons_append, List.cons.injEq] at h3
        exact (hp (by rw [h3.1]; simp)).elim
    | cons y r =>
      rw [List.cons_append, List.cons.injEq] at h2
      exact (hap ⟨r, by rw [← hx, ← h2.1]; simp⟩).elim

/-- Ids of courses that are apart differ. -/
theorem tagged_first {c c' p q : Str} {ps qs : List Str} (hp : Plain p) (hp0 : p ≠ []) (hq : Plain q)
    (hq0 : q ≠ []) (hap : Apart c c') (h : tagged c (p :: ps) = tagged c' (q :: qs)) : c = c' := by
  have h' := h
  unfold tagged at h'
  rcases List.append_eq_append_iff.1 h' with ⟨r, hr, _⟩ | ⟨r, hr, _⟩
  · exact tagged_first_aux hp hp0 r hr hap.1 h
  · exact (tagged_first_aux hq hq0 r hr hap.2 h.symm).symm

theorem tagged_ne_course {c c' p : Str} {ps : List Str} (hap : Apart c c') : tagged c (p :: ps) ≠ c' := by
  intro h
  apply hap.1
  exact ⟨p ++ ps.flatMap (fun p => ':' :: ':' :: p), by rw [← h]; simp [tagged]⟩

/-- The decimal digits of a number, as `format!("{n}")` prints them. -/
def dec (n : Nat) : Str := Nat.toDigits 10 n

theorem dec_plain (n : Nat) : Plain (dec n) := by
  intro h
  have := Nat.isDigit_of_mem_toDigits (by omega) (by omega) h
  revert this
  decide

theorem dec_inj {a b : Nat} (h : dec a = dec b) : a = b := by
  have h1 := Nat.ofDigitChars_toDigits (b := 10) (n := a) (by omega) (by omega)
  have h2 := Nat.ofDigitChars_toDigits (b := 10) (n := b) (by omega) (by omega)
  unfold dec at h
  rw [h, h2] at h1
  exact h1.symm

end Trane.Gen
