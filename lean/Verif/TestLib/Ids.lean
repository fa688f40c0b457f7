import Verif.TestLib.Model
import Verif.Json.Codes

/-!
# C97: the ids of test libraries
-/

namespace Trane.TestLib
open Trane.Store (Str)
open Trane.Gen (dec dec_inj)
open Trane.Json (natOf usizeSize natOf_toDigits)

/-- An id of a course, a lesson or an exercise. -/
def TestId.Proper (t : TestId) : Prop := t.exercise.isSome = true → t.lesson.isSome = true

/-- The numbers of an id. -/
def TestId.numbers (t : TestId) : List Nat := t.course :: (t.lesson.toList ++ t.exercise.toList)

theorem dec_no_colon (n : Nat) : ∀ c ∈ dec n, c ≠ ':' := by
  intro c hc e
  have := Nat.isDigit_of_mem_toDigits (by omega) (by omega) hc
  rw [e] at this
  revert this
  decide

theorem dec_ne_nil (n : Nat) : dec n ≠ [] := by
  have := Json.toDigits_isDigits n
  intro h
  unfold dec at h
  rw [h] at this
  cases this

theorem splitParts_plain {p : Str} (h : ∀ c ∈ p, c ≠ ':') : splitParts p = [p] := by
  induction p with
  | nil => rfl
  | cons c p ih =>
    have hc := h c List.mem_cons_self
    rw [splitParts]
    · rw [ih (fun c hc => h c (List.mem_cons_of_mem _ hc))]
    · intro s e; exact absurd e hc

theorem splitParts_append {p : Str} (h : ∀ c ∈ p, c ≠ ':') (s : Str) :
    splitParts (p ++ ':' :: ':' :: s) = p :: splitParts s := by
  induction p with
  | nil => rfl
  | cons c p ih =>
    have hc := h c List.mem_cons_self
    rw [List.cons_append, splitParts]
    · rw [ih (fun c hc => h c (List.mem_cons_of_mem _ hc))]
    · intro s e; exact absurd e hc

/-- The parts of the text of an id are the numbers in it. -/
theorem splitParts_text (t : TestId) : splitParts t.text = t.numbers.map dec := by
  obtain ⟨c, l, e⟩ := t
  have h0 : "::".toList = [':', ':'] := by decide
  cases l with
  | none =>
    cases e with
    | none => simp [TestId.text, TestId.numbers, splitParts_plain (dec_no_colon c)]
    | some e =>
      simp [TestId.text, TestId.numbers, splitParts_plain (dec_no_colon e), splitParts_append (dec_no_colon c)]
  | some l =>
    cases e with
    | none =>
      simp [TestId.text, TestId.numbers, splitParts_plain (dec_no_colon l), splitParts_append (dec_no_colon c)]
    | some e =>
      simp [TestId.text, TestId.numbers, splitParts_plain (dec_no_colon e), splitParts_append (dec_no_colon c),
        splitParts_append (dec_no_colon l)]

/-- **C97, ids**: different ids have different texts. -/
theorem text_inj {t t' : TestId} (h : t.Proper) (h' : t'.Proper) (e : t.text = t'.text) : t = t' := by
  have e1 : t.numbers = t'.numbers := by
    have := congrArg splitParts e
    rw [splitParts_text, splitParts_text] at this
    exact List.map_injective_iff.2 (fun _ _ => dec_inj) this
  obtain ⟨c, l, x⟩ := t
  obtain ⟨c', l', x'⟩ := t'
  unfold TestId.Proper at h h'
  cases l <;> cases x <;> cases l' <;> cases x' <;> simp_all [TestId.numbers]

theorem text_ne_nil (t : TestId) : t.text ≠ [] := by
  unfold TestId.text
  simp [dec_ne_nil]

theorem parseUsize_dec {n : Nat} (h : n < usizeSize) : parseUsize (dec n) = some n := by
  have h1 : natOf usizeSize (dec n) = some n := natOf_toDigits h
  unfold parseUsize
  split
  · rename_i s e
    have h2 := Nat.isDigit_of_mem_toDigits (b := 10) (n := n) (by omega) (by omega)
      (c := '+') (by show '+' ∈ dec n; rw [e]; exact List.mem_cons_self)
    exact absurd h2 (by decide)
  · exact h1

/-- **C97, ids**: reading the text of an id gives the id. -/
theorem ofText_text {t : TestId} (h : t.Proper) (hb : ∀ n ∈ t.numbers, n < usizeSize) :
    TestId.ofText t.text = some t := by
  unfold TestId.ofText
  rw [splitParts_text]
  obtain ⟨c, l, x⟩ := t
  unfold TestId.Proper at h
  have hc := parseUsize_dec (hb c (by simp [TestId.numbers]))
  cases l with
  | none =>
    cases x with
    | none => simp [TestId.numbers, parsePart, hc]
    | some x => cases (h rfl)
  | some l =>
    have hl := parseUsize_dec (hb l (by simp [TestId.numbers]))
    cases x with
    | none => simp [TestId.numbers, parsePart, hc, hl]
    | some x =>
      have hx := parseUsize_dec (hb x (by simp [TestId.numbers]))
      simp [TestId.numbers, parsePart, hc, hl, hx]

/-- An id with the number of an exercise but not of a lesson is written like that of a lesson. -/
theorem improper_text : (TestId.mk 1 none (some 2)).text = (TestId.mk 1 (some 2) none).text ∧
    TestId.mk 1 none (some 2) ≠ TestId.mk 1 (some 2) none := by
  decide +kernel

example : TestId.ofText "12::3::4".toList = some ⟨12, some 3, some 4⟩ ∧ TestId.ofText "12::a".toList = none ∧
    TestId.ofText "+1".toList = some ⟨1, none, none⟩ := by
  decide +kernel

end Trane.TestLib
