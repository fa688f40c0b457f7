import Verif.Json.TextRound

/-!
# Which texts are JSON (C89)

A grammar after RFC 8259, independent of the reader: `Document v s` says that the text `s` stands for the value `v`.
-/

namespace Trane.Json
open Trane.Store (Str)

/-- White space. -/
def White (w : Str) : Prop := ∀ c ∈ w, c = ' ' ∨ c = '\n' ∨ c = '\t' ∨ c = '\r'

/-- `c` is the hexadecimal digit of value `n`. -/
def HexDigit (c : Char) (n : Nat) : Prop :=
  "0123456789abcdef".toList[n]? = some c ∨ "0123456789ABCDEF".toList[n]? = some c

/-- Four hexadecimal digits. -/
def Hex4 (t : Str) (n : Nat) : Prop :=
  ∃ a b c d w x y z, t = [a, b, c, d] ∧ HexDigit a w ∧ HexDigit b x ∧ HexDigit c y ∧ HexDigit d z ∧
    n = ((w * 16 + x) * 16 + y) * 16 + z

/-- The letters after a backslash and what they stand for. -/
def shortEscapes : List (Char × Char) :=
  [('"', '"'), ('\\', '\\'), ('/', '/'), ('b', '\x08'), ('f', '\x0c'), ('n', '\n'), ('r', '\r'), ('t', '\t')]

/-- The ways to write a character in a string. -/
inductive CharText : Char → Str → Prop
  | plain (c : Char) : c ≠ '"' → c ≠ '\\' → 32 ≤ c.toNat → CharText c [c]
  | short (e c : Char) : (e, c) ∈ shortEscapes → CharText c ['\\', e]
  | code (t : Str) (n : Nat) : Hex4 t n → ¬ (0xD800 ≤ n ∧ n < 0xE000) → CharText (Char.ofNat n) ('\\' :: 'u' :: t)
  | pair (t u : Str) (n m : Nat) : Hex4 t n → Hex4 u m → 0xD800 ≤ n → n < 0xDC00 → 0xDC00 ≤ m → m < 0xE000 →
    CharText (Char.ofNat (0x10000 + (n - 0xD800) * 0x400 + (m - 0xDC00)))
      ('\\' :: 'u' :: (t ++ '\\' :: 'u' :: u))

/-- The ways to write what is between the quotes of a string. -/
inductive StrText : Str → Str → Prop
  | nil : StrText [] []
  | cons {c : Char} {s t u : Str} : CharText c t → StrText s u → StrText (c :: s) (t ++ u)

/-- Digits, at least one. -/
def Digits (t : Str) : Prop := t ≠ [] ∧ ∀ c ∈ t, c ∈ "0123456789".toList

/-- A number: a sign, an integer without zero in front, a fraction and an exponent. -/
def NumText (t : Str) : Prop :=
  ∃ sign int frac exp, t = sign ++ (int ++ (frac ++ exp)) ∧ (sign = [] ∨ sign = ['-']) ∧
    (int = ['0'] ∨ (Digits int ∧ int.head? ≠ some '0')) ∧
    (frac = [] ∨ ∃ ds, Digits ds ∧ frac = '.' :: ds) ∧
    (exp = [] ∨ ∃ e s ds, (e = 'e' ∨ e = 'E') ∧ (s = [] ∨ s = ['+'] ∨ s = ['-']) ∧ Digits ds ∧ exp = e :: (s ++ ds))

mutual
/-- The ways to write a value, without white space around it. -/
inductive Text : Json → Str → Prop
  | null : Text .null "null".toList
  | true : Text (.bool true) "true".toList
  | false : Text (.bool false) "false".toList
  | num {t : Str} : NumText t → Text (.num t) t
  | str {s t : Str} : StrText s t → Text (.str s) ('"' :: (t ++ ['"']))
  | empty {w : Str} : White w → Text (.arr []) ('[' :: (w ++ [']']))
  | arr {xs : List Json} {t : Str} : Items xs t → Text (.arr xs) ('[' :: (t ++ [']']))
  | none {w : Str} : White w → Text (.obj []) ('{' :: (w ++ ['}']))
  | obj {fs : List (Str × Json)} {t : Str} : Fields fs t → Text (.obj fs) ('{' :: (t ++ ['}']))
/-- The members of an array, separated by commas. -/
inductive Items : List Json → Str → Prop
  | one {w w' t : Str} {x : Json} : White w → Text x t → White w' → Items [x] (w ++ (t ++ w'))
  | more {w w' t u : Str} {x : Json} {xs : List Json} : White w → Text x t → White w' → Items xs u →
    Items (x :: xs) (w ++ (t ++ (w' ++ ',' :: u)))
/-- The members of an object, separated by commas. -/
inductive Fields : List (Str × Json) → Str → Prop
  | one {f : Str × Json} {t : Str} : Field f t → Fields [f] t
  | more {f : Str × Json} {fs : List (Str × Json)} {t u : Str} : Field f t → Fields fs u →
    Fields (f :: fs) (t ++ ',' :: u)
/-- A member of an object: its name, a colon and its value. -/
inductive Field : Str × Json → Str → Prop
  | mk {a b c d n k t : Str} {v : Json} : White a → StrText k n → White b → White c → Text v t → White d →
    Field (k, v) (a ++ '"' :: (n ++ '"' :: (b ++ ':' :: (c ++ (t ++ d)))))
end

/-- The text is the value with white space around it. -/
def Document (v : Json) (s : Str) : Prop := ∃ w t w', White w ∧ Text v t ∧ White w' ∧ s = w ++ (t ++ w')

/-! ### Characters and strings -/

theorem white_iff (w : Str) : White w ↔ Blank w := by
  unfold White Blank isSpace
  refine forall_congr' fun c => forall_congr' fun _ => ?_
  simp [or_assoc]

theorem hexDigit_iff (c : Char) (n : Nat) : HexDigit c n ↔ hexValue c = some n := by
  constructor
  · intro h
    have hn : n < 16 := by
      rcases h with h | h
      · have := (List.getElem?_eq_some_iff.mp h).1; exact this
      · have := (List.getElem?_eq_some_iff.mp h).1; exact this
    have : ∀ m < 16, ("0123456789abcdef".toList[m]?.map hexValue) = some (some m) ∧
        ("0123456789ABCDEF".toList[m]?.map hexValue) = some (some m) := by decide +kernel
    rcases h with h | h
    · have := (this n hn).1; rw [h] at this; simpa using this
    · have := (this n hn).2; rw [h] at this; simpa using this
  · intro h
    have key : ∀ m < 128, ∀ n < 16, hexValue (Char.ofNat m) = some n →
        ("0123456789abcdef".toList[n]? = some (Char.ofNat m) ∨
          "0123456789ABCDEF".toList[n]? = some (Char.ofNat m)) := by decide +kernel
    have hc : c.toNat < 128 ∧ n < 16 := by
      unfold hexValue at h
      have e0 : '0'.toNat = 48 := rfl
      have e9 : '9'.toNat = 57 := rfl
      have ea : 'a'.toNat = 97 := rfl
      have ef : 'f'.toNat = 102 := rfl
      have eA : 'A'.toNat = 65 := rfl
      have eF : 'F'.toNat = 70 := rfl
      rw [e0, e9, ea, ef, eA, eF] at h
      split at h
      · simp only [Option.some.injEq] at h; omega
      · split at h
        · simp only [Option.some.injEq] at h; omega
        · split at h
          · simp only [Option.some.injEq] at h; omega
          · cases h
    have := key c.toNat hc.1 n hc.2
    rw [Char.ofNat_toNat] at this
    exact this h

theorem hex4_iff (s : Str) (n : Nat) (r : Str) : hex4 s = some (n, r) ↔ ∃ t, Hex4 t n ∧ s = t ++ r := by
  constructor
  · intro h
    unfold hex4 at h
    split at h
    · rename_i a b c d r'
      simp only [Option.bind_eq_bind, Option.bind_eq_some_iff, Option.some.injEq, Prod.mk.injEq] at h
      obtain ⟨w, hw, x, hx, y, hy, z, hz, hn, rfl⟩ := h
      rw [← hexDigit_iff] at hw hx hy hz
      exact ⟨[a, b, c, d], ⟨a, b, c, d, w, x, y, z, rfl, hw, hx, hy, hz, by omega⟩, rfl⟩
    · cases h
  · rintro ⟨t, ⟨a, b, c, d, w, x, y, z, rfl, hw, hx, hy, hz, rfl⟩, rfl⟩
    rw [hexDigit_iff] at hw hx hy hz
    simp only [hex4, List.cons_append, List.nil_append, hw, hx, hy, hz, Option.bind_eq_bind, Option.bind_some]
    congr 2; omega

theorem unicode_sound {s r : Str} {c : Char} (h : unicode s = some (c, r)) :
    ∃ t, CharText c ('\\' :: 'u' :: t) ∧ s = t ++ r := by
  unfold unicode at h
  split at h
  · cases h
  · rename_i n r1 h1
    obtain ⟨t, ht, rfl⟩ := (hex4_iff _ _ _).mp h1
    split at h
    · cases h
    · rename_i c1
      split at h
      · rename_i c2
        split at h
        · rename_i r2
          split at h
          · cases h
          · rename_i m r3 h3
            obtain ⟨u, hu, rfl⟩ := (hex4_iff _ _ _).mp h3
            split at h
            · rename_i c3
              simp only [Option.some.injEq, Prod.mk.injEq] at h
              obtain ⟨rfl, rfl⟩ := h
              refine ⟨t ++ '\\' :: 'u' :: u, ?_, by simp⟩
              have := CharText.pair t u n m ht hu c2.1 c2.2 c3.1 c3.2
              rw [show (n - 0xD800) * 1024 + (m - 0xDC00) + 0x10000 = 0x10000 + (n - 0xD800) * 0x400 + (m - 0xDC00) by
                omega]
              exact this
            · cases h
        · cases h
      · rename_i c2
        simp only [Option.some.injEq, Prod.mk.injEq] at h
        obtain ⟨rfl, rfl⟩ := h
        exact ⟨t, .code t n ht (by omega), rfl⟩

theorem oneChar_sound {s r : Str} {c : Char} (h : oneChar s = some (c, r)) (hq : s.head? ≠ some '"') :
    ∃ t, CharText c t ∧ s = t ++ r := by
  unfold oneChar at h
  split at h
  · cases h
  · rename_i a s'
    split at h
    · rename_i ha
      subst ha
      split at h
      · cases h
      · rename_i e r'
        have fin : ∀ x : Char, (e, x) ∈ shortEscapes → some (x, r') = some (c, r) →
            ∃ t, CharText c t ∧ '\\' :: e :: r' = t ++ r := by
          intro x hx he
          simp only [Option.some.injEq, Prod.mk.injEq] at he
          obtain ⟨rfl, rfl⟩ := he
          exact ⟨['\\', e], .short e x hx, rfl⟩
        split at h
        · rename_i he
          rcases he with rfl | rfl | rfl <;> exact fin _ (by decide) h
        split at h
        · rename_i he; subst he; exact fin _ (by decide) h
        split at h
        · rename_i he; subst he; exact fin _ (by decide) h
        split at h
        · rename_i he; subst he; exact fin _ (by decide) h
        split at h
        · rename_i he; subst he; exact fin _ (by decide) h
        split at h
        · rename_i he; subst he; exact fin _ (by decide) h
        split at h
        · rename_i he
          subst he
          obtain ⟨t, ht, rfl⟩ := unicode_sound h
          exact ⟨_, ht, rfl⟩
        · cases h
    · rename_i ha
      split at h
      · cases h
      · rename_i h32
        simp only [Option.some.injEq, Prod.mk.injEq] at h
        obtain ⟨rfl, rfl⟩ := h
        exact ⟨[a], .plain a (by simpa using hq) ha (by omega), rfl⟩

theorem charText_read {c : Char} {t : Str} (h : CharText c t) (r : Str) :
    ∃ a u, t = a :: u ∧ a ≠ '"' ∧ oneChar (t ++ r) = some (c, r) := by
  cases h with
  | plain c h1 h2 h3 =>
    refine ⟨c, [], rfl, h1, ?_⟩
    simp [oneChar, h2, show ¬ c.toNat < 32 by omega]
  | short e c he =>
    refine ⟨_, _, rfl, by decide, ?_⟩
    have : ∀ p ∈ shortEscapes, oneChar ('\\' :: p.1 :: r) = some (p.2, r) := by
      intro p hp
      simp only [shortEscapes, List.mem_cons, List.not_mem_nil, or_false] at hp
      rcases hp with rfl | rfl | rfl | rfl | rfl | rfl | rfl | rfl <;> rfl
    exact this _ he
  | code t n ht hn =>
    refine ⟨_, _, rfl, by decide, ?_⟩
    have h1 := (hex4_iff (t ++ r) n r).mpr ⟨t, ht, rfl⟩
    show unicode (t ++ r) = _
    unfold unicode
    rw [h1]
    dsimp only
    rw [if_neg (by omega), if_neg (by omega)]
  | pair t u n m ht hu h1 h2 h3 h4 =>
    refine ⟨_, _, rfl, by decide, ?_⟩
    have e1 := (hex4_iff (t ++ '\\' :: 'u' :: (u ++ r)) n ('\\' :: 'u' :: (u ++ r))).mpr ⟨t, ht, rfl⟩
    have e2 := (hex4_iff (u ++ r) m r).mpr ⟨u, hu, rfl⟩
    show unicode ((t ++ '\\' :: 'u' :: u) ++ r) = _
    unfold unicode
    rw [List.append_assoc, List.cons_append, List.cons_append, e1]
    dsimp only
    rw [if_neg (by omega), if_pos ⟨h1, h2⟩]
    show (match hex4 (u ++ r) with | none => none | some (m, r) => _) = _
    rw [e2]
    dsimp only
    rw [if_pos ⟨h3, h4⟩, show (n - 0xD800) * 1024 + (m - 0xDC00) + 0x10000 =
      0x10000 + (n - 0xD800) * 0x400 + (m - 0xDC00) by omega]

theorem parseStr_sound : ∀ {n : Nat} {s k r : Str}, parseStr n s = some (k, r) →
    ∃ t, StrText k t ∧ s = t ++ '"' :: r
  | 0, _, _, _, h => by simp [parseStr] at h
  | _ + 1, [], _, _, h => by simp [parseStr] at h
  | n + 1, c :: s, k, r, h => by
    rw [parseStr] at h
    split at h
    · rename_i hc
      subst hc
      simp only [Option.some.injEq, Prod.mk.injEq] at h
      obtain ⟨rfl, rfl⟩ := h
      exact ⟨[], .nil, rfl⟩
    · rename_i hc
      split at h
      · cases h
      · rename_i x r1 h1
        rw [Option.map_eq_some_iff] at h
        obtain ⟨⟨k', r'⟩, h2, h3⟩ := h
        simp only [Prod.mk.injEq] at h3
        obtain ⟨rfl, rfl⟩ := h3
        obtain ⟨t, ht, e⟩ := oneChar_sound h1 (by simpa using hc)
        obtain ⟨u, hu, rfl⟩ := parseStr_sound h2
        exact ⟨t ++ u, .cons ht hu, by rw [e, List.append_assoc]⟩

theorem parseStr_complete {k t : Str} (h : StrText k t) : ∀ (r : Str) (n : Nat), t.length < n →
    parseStr n (t ++ '"' :: r) = some (k, r) := by
  induction h with
  | nil =>
    intro r n hn
    cases n with
    | zero => omega
    | succ n => simp [parseStr]
  | @cons c s t u hc hs ih =>
    intro r n hn
    obtain ⟨a, v, rfl, ha, hr⟩ := charText_read hc (u ++ '"' :: r)
    cases n with
    | zero => omega
    | succ n =>
      rw [List.cons_append] at hr
      rw [List.append_assoc, List.cons_append, parseStr, if_neg ha, hr]
      dsimp only
      rw [ih r n (by simp at hn; omega)]
      rfl

/-! ### Numbers -/

theorem isDigit_iff (c : Char) : c.isDigit = true ↔ c ∈ "0123456789".toList := by
  have h2 : ∀ c ∈ "0123456789".toList, c.isDigit = true := by decide +kernel
  refine ⟨fun h => ?_, h2 c⟩
  have key : ∀ m < 128, (Char.ofNat m).isDigit = true → Char.ofNat m ∈ "0123456789".toList := by decide +kernel
  have : c.toNat < 128 := by
    unfold Char.isDigit at h
    simp only [Bool.and_eq_true, decide_eq_true_eq, UInt32.le_iff_toNat_le] at h
    have e : c.toNat = c.val.toNat := rfl
    have := h.2
    have e9 : (57 : UInt32).toNat = 57 := rfl
    have : c.val.toNat ≤ 57 := this
    omega
  have := key c.toNat this
  rw [Char.ofNat_toNat] at this
  exact this h

theorem digits_iff (t : Str) : Digits t ↔ isDigits t = true := by
  unfold Digits isDigits
  simp only [Bool.and_eq_true, List.all_eq_true, isDigit_iff]
  simp

theorem isExponent_iff (s : Str) : isExponent s = true ↔
    (s = [] ∨ ∃ e g ds, (e = 'e' ∨ e = 'E') ∧ (g = [] ∨ g = ['+'] ∨ g = ['-']) ∧ Digits ds ∧ s = e :: (g ++ ds)) := by
  constructor
  · intro h
    unfold isExponent at h
    split at h
    · exact .inl rfl
    · rename_i e r
      right
      simp only [Bool.and_eq_true, Bool.or_eq_true, decide_eq_true_eq] at h
      obtain ⟨he, h⟩ := h
      split at h
      · exact ⟨e, ['+'], _, he, by simp, (digits_iff _).mpr h, rfl⟩
      · exact ⟨e, ['-'], _, he, by simp, (digits_iff _).mpr h, rfl⟩
      · exact ⟨e, [], _, he, by simp, (digits_iff _).mpr h, rfl⟩
  · rintro (rfl | ⟨e, g, ds, he, hg, hd, rfl⟩)
    · rfl
    · have h1 := (digits_iff ds).mp hd
      unfold isExponent
      simp only [Bool.and_eq_true, Bool.or_eq_true, decide_eq_true_eq]
      refine ⟨he, ?_⟩
      rcases hg with rfl | rfl | rfl
      · rw [List.nil_append]
        obtain ⟨hne, hall⟩ := hd
        cases ds with
        | nil => exact absurd rfl hne
        | cons a ds =>
          have ha := hall a (by simp)
          split
          · rename_i he; cases he; exact absurd ha (by decide +kernel)
          · rename_i he; cases he; exact absurd ha (by decide +kernel)
          · exact h1
      · exact h1
      · exact h1

/-- Digits followed by something that does not start with one. -/
theorem digits_split {ds u : Str} (h : Digits ds) (hu : ∀ c ∈ u.head?, c.isDigit = false) :
    (ds ++ u).takeWhile Char.isDigit = ds ∧ (ds ++ u).dropWhile Char.isDigit = u := by
  have hd : ∀ c ∈ ds, c.isDigit = true := fun c hc => (isDigit_iff c).mpr (h.2 c hc)
  rw [List.takeWhile_append_of_pos hd, List.dropWhile_append_of_pos hd]
  cases u with
  | nil => simp
  | cons c u =>
    have := hu c (by simp)
    rw [List.takeWhile_cons_of_neg (by simp [this]), List.dropWhile_cons_of_neg (by simp [this])]
    simp

theorem exp_head {s : Str} (h : s = [] ∨ ∃ e g ds, (e = 'e' ∨ e = 'E') ∧ (g = [] ∨ g = ['+'] ∨ g = ['-']) ∧
    Digits ds ∧ s = e :: (g ++ ds)) : ∀ c ∈ s.head?, c.isDigit = false ∧ c ≠ '.' := by
  rcases h with rfl | ⟨e, g, ds, he, _, _, rfl⟩
  · simp
  · intro c hc
    simp only [List.head?_cons, Option.mem_def, Option.some.injEq] at hc
    subst hc
    rcases he with rfl | rfl <;> decide

theorem isFraction_iff (s : Str) : isFraction s = true ↔ ∃ frac exp, s = frac ++ exp ∧
    (frac = [] ∨ ∃ ds, Digits ds ∧ frac = '.' :: ds) ∧
    (exp = [] ∨ ∃ e g ds, (e = 'e' ∨ e = 'E') ∧ (g = [] ∨ g = ['+'] ∨ g = ['-']) ∧ Digits ds ∧
      exp = e :: (g ++ ds)) := by
  constructor
  · intro h
    unfold isFraction at h
    split at h
    · rename_i r
      simp only [Bool.and_eq_true] at h
      refine ⟨'.' :: r.takeWhile Char.isDigit, r.dropWhile Char.isDigit, ?_, .inr ⟨_, (digits_iff _).mpr h.1, rfl⟩,
        (isExponent_iff _).mp h.2⟩
      rw [List.cons_append, List.takeWhile_append_dropWhile]
    · exact ⟨[], s, rfl, .inl rfl, (isExponent_iff _).mp h⟩
  · rintro ⟨frac, exp, rfl, hf, he⟩
    have hh := exp_head he
    rcases hf with rfl | ⟨ds, hd, rfl⟩
    · rw [List.nil_append]
      unfold isFraction
      split
      · exact absurd rfl (hh '.' (by simp)).2
      · exact (isExponent_iff _).mpr he
    · obtain ⟨h1, h2⟩ := digits_split hd (fun c hc => (hh c hc).1)
      rw [List.cons_append, isFraction, h1, h2, (digits_iff _).mp hd, (isExponent_iff _).mpr he]
      rfl

theorem frac_head {frac exp : Str} (hf : frac = [] ∨ ∃ ds, Digits ds ∧ frac = '.' :: ds)
    (he : exp = [] ∨ ∃ e g ds, (e = 'e' ∨ e = 'E') ∧ (g = [] ∨ g = ['+'] ∨ g = ['-']) ∧
    Digits ds ∧ exp = e :: (g ++ ds)) : ∀ c ∈ (frac ++ exp).head?, c.isDigit = false := by
  rcases hf with rfl | ⟨ds, _, rfl⟩
  · exact fun c hc => (exp_head he c hc).1
  · intro c hc
    simp only [List.cons_append, List.head?_cons, Option.mem_def, Option.some.injEq] at hc
    subst hc; decide

theorem isUnsigned_iff (s : Str) : isUnsigned s = true ↔ ∃ int frac exp, s = int ++ (frac ++ exp) ∧
    (int = ['0'] ∨ (Digits int ∧ int.head? ≠ some '0')) ∧
    (frac = [] ∨ ∃ ds, Digits ds ∧ frac = '.' :: ds) ∧
    (exp = [] ∨ ∃ e g ds, (e = 'e' ∨ e = 'E') ∧ (g = [] ∨ g = ['+'] ∨ g = ['-']) ∧ Digits ds ∧
      exp = e :: (g ++ ds)) := by
  constructor
  · intro h
    unfold isUnsigned at h
    split at h
    · obtain ⟨frac, exp, rfl, hf, he⟩ := (isFraction_iff _).mp h
      exact ⟨['0'], frac, exp, rfl, .inl rfl, hf, he⟩
    · rename_i hz
      simp only [Bool.and_eq_true] at h
      obtain ⟨frac, exp, e1, hf, he⟩ := (isFraction_iff _).mp h.2
      refine ⟨s.takeWhile Char.isDigit, frac, exp, ?_, .inr ⟨(digits_iff _).mpr h.1, ?_⟩, hf, he⟩
      · rw [← e1, List.takeWhile_append_dropWhile]
      · intro h0
        cases s with
        | nil => simp at h0
        | cons c r =>
          by_cases hc : c.isDigit = true
          · rw [List.takeWhile_cons_of_pos hc, List.head?_cons, Option.some.injEq] at h0
            subst h0
            exact hz r rfl
          · rw [List.takeWhile_cons_of_neg hc] at h0; simp at h0
  · rintro ⟨int, frac, exp, rfl, hi, hf, he⟩
    have hfr := (isFraction_iff (frac ++ exp)).mpr ⟨frac, exp, rfl, hf, he⟩
    rcases hi with rfl | ⟨hd, h0⟩
    · exact hfr
    · obtain ⟨h1, h2⟩ := digits_split hd (frac_head hf he)
      have : isUnsigned (int ++ (frac ++ exp)) = (isDigits ((int ++ (frac ++ exp)).takeWhile Char.isDigit) &&
          isFraction ((int ++ (frac ++ exp)).dropWhile Char.isDigit)) := by
        cases int with
        | nil => exact absurd rfl hd.1
        | cons c r =>
          unfold isUnsigned
          split
          · rename_i e
            rw [List.cons_append, List.cons.injEq] at e
            rw [e.1] at h0
            simp at h0
          · rfl
      rw [this, h1, h2, hfr, (digits_iff _).mp hd]
      rfl

theorem isNum_iff (s : Str) : isNum s = true ↔ NumText s := by
  constructor
  · intro h
    unfold isNum at h
    split at h
    · obtain ⟨int, frac, exp, rfl, hi, hf, he⟩ := (isUnsigned_iff _).mp h
      exact ⟨['-'], int, frac, exp, rfl, .inr rfl, hi, hf, he⟩
    · obtain ⟨int, frac, exp, e, hi, hf, he⟩ := (isUnsigned_iff _).mp h
      exact ⟨[], int, frac, exp, e, .inl rfl, hi, hf, he⟩
  · rintro ⟨sign, int, frac, exp, rfl, hs, hi, hf, he⟩
    have hu := (isUnsigned_iff _).mpr ⟨int, frac, exp, rfl, hi, hf, he⟩
    rcases hs with rfl | rfl
    · rw [List.nil_append]
      unfold isNum
      split
      · rename_i e
        exfalso
        have hm : '-' ∈ int := by
          rcases hi with rfl | ⟨hd, _⟩
          · simp at e
          · cases int with
            | nil => exact absurd rfl hd.1
            | cons c r => rw [List.cons_append, List.cons.injEq] at e; rw [e.1]; simp
        rcases hi with rfl | ⟨hd, _⟩
        · simp at hm
        · exact absurd (hd.2 _ hm) (by decide +kernel)
      · exact hu
    · exact hu

end Trane.Json
