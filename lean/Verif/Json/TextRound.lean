import Verif.Json.TextLemmas

/-!
# What is written is read back
-/

namespace Trane.Json
open Trane.Store (Str)

mutual
/-- How deep arrays and objects are nested. -/
def depth : Json → Nat
  | .arr xs => depthItems xs + 1
  | .obj fs => depthFields fs + 1
  | _ => 0
/-- The deepest of the members of an array. -/
def depthItems : List Json → Nat
  | [] => 0
  | x :: xs => max (depth x) (depthItems xs)
/-- A member of an object. -/
def depthField : Str × Json → Nat
  | (_, v) => depth v
/-- The deepest of the members of an object. -/
def depthFields : List (Str × Json) → Nat
  | [] => 0
  | f :: fs => max (depthField f) (depthFields fs)
end

mutual
/-- All numbers in the value are numbers of JSON. -/
def Proper : Json → Prop
  | .num t => isNum t = true
  | .arr xs => ProperItems xs
  | .obj fs => ProperFields fs
  | _ => True
/-- The members of an array. -/
def ProperItems : List Json → Prop
  | [] => True
  | x :: xs => Proper x ∧ ProperItems xs
/-- A member of an object. -/
def ProperField : Str × Json → Prop
  | (_, v) => Proper v
/-- The members of an object. -/
def ProperFields : List (Str × Json) → Prop
  | [] => True
  | f :: fs => ProperField f ∧ ProperFields fs
end

/-! ### Strings -/

theorem hexValue_hexDigit : ∀ n, n < 16 → hexValue (hexDigit n) = some n := by decide +kernel

theorem toNat_ofNat_toNat (c : Char) : Char.ofNat c.toNat = c := Char.ofNat_toNat c

theorem escape_read (c : Char) (t : Str) :
    ∃ a u, escape c = a :: u ∧ a ≠ '"' ∧ oneChar (a :: u ++ t) = some (c, t) := by
  unfold escape
  split
  · rename_i h; subst h; exact ⟨_, _, rfl, by decide, rfl⟩
  split
  · rename_i h; subst h; exact ⟨_, _, rfl, by decide, rfl⟩
  split
  · rename_i h; subst h; exact ⟨_, _, rfl, by decide, rfl⟩
  split
  · rename_i h; subst h; exact ⟨_, _, rfl, by decide, rfl⟩
  split
  · rename_i h; subst h; exact ⟨_, _, rfl, by decide, rfl⟩
  split
  · rename_i h; subst h; exact ⟨_, _, rfl, by decide, rfl⟩
  split
  · rename_i h; subst h; exact ⟨_, _, rfl, by decide, rfl⟩
  split
  · rename_i h
    refine ⟨_, _, rfl, by decide, ?_⟩
    have h1 : unicode (['0', '0', hexDigit (c.toNat / 16), hexDigit (c.toNat % 16)] ++ t) = some (c, t) := by
      have e0 : hexValue '0' = some 0 := by decide
      have e1 := hexValue_hexDigit (c.toNat / 16) (by omega)
      have e2 := hexValue_hexDigit (c.toNat % 16) (by omega)
      have e : hex4 (['0', '0', hexDigit (c.toNat / 16), hexDigit (c.toNat % 16)] ++ t) =
          some (c.toNat, t) := by
        simp only [hex4, List.cons_append, List.nil_append, e0, e1, e2, Option.bind_eq_bind, Option.bind_some]
        congr 2; omega
      unfold unicode
      rw [e]
      dsimp only
      rw [if_neg (by omega), if_neg (by omega), Char.ofNat_toNat]
    rw [← h1]
    rfl
  · rename_i h1 h2 _ _ _ _ _ h3
    refine ⟨_, _, rfl, h1, ?_⟩
    simp [oneChar, h2, h3]

theorem parseStr_quote : ∀ (s t : Str) (n : Nat), s.length < n →
    parseStr n (s.flatMap escape ++ '"' :: t) = some (s, t)
  | [], t, n + 1, _ => by simp [parseStr]
  | c :: s, t, n + 1, h => by
    obtain ⟨a, u, h1, h2, h3⟩ := escape_read c (s.flatMap escape ++ '"' :: t)
    rw [List.flatMap_cons, h1, List.append_assoc, List.cons_append, parseStr, if_neg h2]
    rw [List.cons_append] at h3
    rw [h3]
    dsimp only
    rw [parseStr_quote s t n (by simpa using h)]
    rfl

theorem escape_pos (c : Char) : 1 ≤ (escape c).length := by
  obtain ⟨a, u, h, _⟩ := escape_read c []
  rw [h]; simp

theorem flatMap_escape_le : ∀ s : Str, s.length ≤ (s.flatMap escape).length
  | [] => by simp
  | c :: s => by
    have := flatMap_escape_le s
    have := escape_pos c
    simp only [List.flatMap_cons, List.length_append, List.length_cons]; omega

/-- A written string is read back. -/
theorem parseStr_quoted (s t : Str) :
    parseStr ((s.flatMap escape ++ ['"']) ++ t).length ((s.flatMap escape ++ ['"']) ++ t) = some (s, t) := by
  have := flatMap_escape_le s
  rw [List.append_assoc]
  exact parseStr_quote s t _ (by
    simp only [List.length_append, List.length_cons, List.length_nil]; omega)

/-! ### Numbers -/

theorem isDigit_numChar {c : Char} (h : c.isDigit = true) : isNumChar c = true := by
  simp [isNumChar, h]

theorem isDigits_all {s : Str} (h : isDigits s = true) : ∀ c ∈ s, isNumChar c = true := by
  intro c hc
  simp only [isDigits, Bool.and_eq_true, List.all_eq_true] at h
  exact isDigit_numChar (h.2 c hc)

theorem isExponent_all {s : Str} (h : isExponent s = true) : ∀ c ∈ s, isNumChar c = true := by
  unfold isExponent at h
  split at h
  · simp
  · rename_i a r
    simp only [Bool.and_eq_true, Bool.or_eq_true, decide_eq_true_eq] at h
    intro c hc
    rcases List.mem_cons.mp hc with rfl | hc
    · rcases h.1 with rfl | rfl <;> decide
    · have h2 := isDigits_all h.2
      split at h2
      · rcases List.mem_cons.mp hc with rfl | hc
        · decide
        · exact h2 c hc
      · rcases List.mem_cons.mp hc with rfl | hc
        · decide
        · exact h2 c hc
      · exact h2 c hc

theorem split_all {p q : Char → Bool} {s : Str} (h : ∀ c ∈ s.takeWhile p, q c = true)
    (h' : ∀ c ∈ s.dropWhile p, q c = true) : ∀ c ∈ s, q c = true := by
  intro c hc
  rw [← List.takeWhile_append_dropWhile (p := p) (l := s)] at hc
  rcases List.mem_append.mp hc with hc | hc
  · exact h c hc
  · exact h' c hc

theorem isFraction_all {s : Str} (h : isFraction s = true) : ∀ c ∈ s, isNumChar c = true := by
  unfold isFraction at h
  split at h
  · simp only [Bool.and_eq_true] at h
    intro c hc
    rcases List.mem_cons.mp hc with rfl | hc
    · decide
    · exact split_all (isDigits_all h.1) (isExponent_all h.2) c hc
  · exact isExponent_all h

theorem isUnsigned_all {s : Str} (h : isUnsigned s = true) : ∀ c ∈ s, isNumChar c = true := by
  unfold isUnsigned at h
  split at h
  · intro c hc
    rcases List.mem_cons.mp hc with rfl | hc
    · decide
    · exact isFraction_all h c hc
  · simp only [Bool.and_eq_true] at h
    exact split_all (isDigits_all h.1) (isFraction_all h.2)

theorem isNum_all {s : Str} (h : isNum s = true) : ∀ c ∈ s, isNumChar c = true := by
  unfold isNum at h
  split at h
  · intro c hc
    rcases List.mem_cons.mp hc with rfl | hc
    · decide
    · exact isUnsigned_all h c hc
  · exact isUnsigned_all h

theorem isNum_ne_nil {s : Str} (h : isNum s = true) : s ≠ [] := by
  rintro rfl; simp [isNum, isUnsigned, isDigits] at h

/-- What may follow a number. -/
def Stops (t : Str) : Prop := ∀ c ∈ t.head?, isNumChar c = false

theorem number_read {s t : Str} (h : isNum s = true) (ht : Stops t) : number (s ++ t) = some (.num s, t) := by
  have h1 : (s ++ t).takeWhile isNumChar = s := by
    rw [List.takeWhile_append_of_pos (isNum_all h)]
    cases t with
    | nil => simp
    | cons c t => rw [List.takeWhile_cons_of_neg (by simpa using ht c (by simp))]; simp
  have h2 : (s ++ t).dropWhile isNumChar = t := by
    rw [List.dropWhile_append_of_pos (isNum_all h)]
    cases t with
    | nil => simp
    | cons c t => rw [List.dropWhile_cons_of_neg (by simpa using ht c (by simp))]
  unfold number
  rw [h1, h2, if_pos h]

/-! ### Values -/

/-- White space only. -/
def Blank (w : Str) : Prop := ∀ c ∈ w, isSpace c = true

theorem blank_newline (o : Option Nat) : Blank (newline o) := by
  cases o with
  | none => simp [Blank, newline]
  | some n =>
    intro c hc
    simp only [newline, List.mem_cons, List.mem_replicate] at hc
    rcases hc with rfl | ⟨_, rfl⟩ <;> decide

theorem skip_blank {w : Str} (hw : Blank w) (t : Str) : skip (w ++ t) = skip t := by
  unfold skip; rw [List.dropWhile_append_of_pos hw]

theorem skip_self {c : Char} (h : isSpace c = false) (t : Str) : skip (c :: t) = c :: t := by
  unfold skip; rw [List.dropWhile_cons_of_neg (by simp [h])]

theorem stops_cons {c : Char} (h : isNumChar c = false) (t : Str) : Stops (c :: t) := by
  intro e he
  simp only [List.head?_cons, Option.mem_def, Option.some.injEq] at he
  rw [← he]; exact h

theorem stops_newline {c : Char} (h : isNumChar c = false) (o : Option Nat) (t : Str) :
    Stops (newline o ++ c :: t) := by
  cases o with
  | none => exact stops_cons h t
  | some n => exact stops_cons (by decide) _

theorem numChar_not {c : Char} (h : isNumChar c = true) : isSpace c = false ∧ c ≠ 'n' ∧ c ≠ 't' ∧ c ≠ 'f' ∧
    c ≠ '"' ∧ c ≠ '[' ∧ c ≠ '{' ∧ c ≠ ']' ∧ c ≠ '}' := by
  have e : ∀ x : Char, isNumChar x = false → c ≠ x := by
    rintro x hx rfl; rw [h] at hx; cases hx
  refine ⟨?_, e _ (by decide), e _ (by decide), e _ (by decide), e _ (by decide), e _ (by decide),
    e _ (by decide), e _ (by decide), e _ (by decide)⟩
  cases hs : isSpace c with
  | false => rfl
  | true =>
    exfalso
    simp only [isSpace, Bool.or_eq_true, decide_eq_true_eq] at hs
    rcases hs with ((rfl | rfl) | rfl) | rfl <;> revert h <;> decide

/-- The first character of a written value. -/
theorem print_head (o : Option Nat) : ∀ v : Json, Proper v →
    ∃ c u, print o v = c :: u ∧ isSpace c = false ∧ c ≠ ']' ∧ c ≠ '}'
  | .null, _ => ⟨_, _, by rw [print], by decide, by decide, by decide⟩
  | .bool true, _ => ⟨_, _, by rw [print], by decide, by decide, by decide⟩
  | .bool false, _ => ⟨_, _, by rw [print], by decide, by decide, by decide⟩
  | .str s, _ => ⟨_, _, by rw [print, quote], by decide, by decide, by decide⟩
  | .arr [], _ => ⟨_, _, by rw [print], by decide, by decide, by decide⟩
  | .arr (_ :: _), _ => ⟨_, _, by rw [print], by decide, by decide, by decide⟩
  | .obj [], _ => ⟨_, _, by rw [print], by decide, by decide, by decide⟩
  | .obj (_ :: _), _ => ⟨_, _, by rw [print], by decide, by decide, by decide⟩
  | .num t, h => by
    rw [Proper] at h
    cases t with
    | nil => exact absurd rfl (isNum_ne_nil h)
    | cons c u =>
      have := numChar_not (isNum_all h c (by simp))
      exact ⟨c, u, by rw [print], this.1, this.2.2.2.2.2.2.2.1, this.2.2.2.2.2.2.2.2⟩

mutual
theorem value_print : ∀ (v : Json) (o : Option Nat) (n d : Nat) (w t : Str), Blank w → Proper v →
    depth v < d → Stops t → 2 * (w ++ (print o v ++ t)).length < n →
    value n d (w ++ (print o v ++ t)) = some (v, t)
  | .null, o, n + 1, d, w, t, hw, _, _, _, _ => by
    rw [value, skip_blank hw, print, List.cons_append, skip_self (by decide)]
    dsimp only
    rw [if_pos rfl]
    simp [literal]
  | .bool true, o, n + 1, d, w, t, hw, _, _, _, _ => by
    rw [value, skip_blank hw, print, List.cons_append, skip_self (by decide)]
    dsimp only
    rw [if_neg (by decide), if_pos rfl]
    simp [literal]
  | .bool false, o, n + 1, d, w, t, hw, _, _, _, _ => by
    rw [value, skip_blank hw, print, List.cons_append, skip_self (by decide)]
    dsimp only
    rw [if_neg (by decide), if_neg (by decide), if_pos rfl]
    simp [literal]
  | .str s, o, n + 1, d, w, t, hw, _, _, _, _ => by
    rw [value, skip_blank hw, print, quote, List.cons_append, skip_self (by decide)]
    dsimp only
    rw [if_neg (by decide), if_neg (by decide), if_neg (by decide), if_pos rfl, parseStr_quoted]
    rfl
  | .num x, o, n + 1, d, w, t, hw, hp, _, ht, _ => by
    rw [Proper] at hp
    rw [value, skip_blank hw, print]
    cases x with
    | nil => exact absurd rfl (isNum_ne_nil hp)
    | cons c u =>
      obtain ⟨h0, h1, h2, h3, h4, h5, h6, _⟩ := numChar_not (isNum_all hp c (by simp))
      rw [List.cons_append, skip_self h0]
      dsimp only
      rw [if_neg h1, if_neg h2, if_neg h3, if_neg h4, if_neg h5, if_neg h6, ← List.cons_append]
      exact number_read hp ht
  | .arr [], o, n + 1, d, w, t, hw, _, hd, _, _ => by
    rw [depth, depthItems] at hd
    rw [value, skip_blank hw, print, List.cons_append, skip_self (by decide)]
    dsimp only
    rw [if_neg (by decide), if_neg (by decide), if_neg (by decide), if_neg (by decide), if_pos rfl,
      if_neg (by omega), List.cons_append, skip_self (by decide)]
    rfl
  | .arr (x :: xs), o, n + 1, d, w, t, hw, hp, hd, _, hn => by
    rw [Proper, ProperItems] at hp
    rw [depth, depthItems] at hd
    rw [print] at hn ⊢
    rw [value, skip_blank hw, List.cons_append, skip_self (by decide)]
    dsimp only
    rw [if_neg (by decide), if_neg (by decide), if_neg (by decide), if_neg (by decide), if_pos rfl,
      if_neg (by omega)]
    simp only [List.append_assoc]
    rw [skip_blank (blank_newline _)]
    obtain ⟨c, u, h1, h2, h3, _⟩ := print_head (deeper o) x hp.1
    have e := items_print x xs (deeper o) n (d - 1) [] (newline o) t (by simp [Blank]) (blank_newline o)
      hp.1 hp.2 (by omega) (by omega) (by
        simp only [List.length_append, List.length_cons, List.nil_append] at hn ⊢; omega)
    rw [List.nil_append] at e
    rw [h1, List.cons_append] at e ⊢
    rw [skip_self h2]
    dsimp only
    rw [if_neg h3]
    rw [List.cons_append, List.nil_append, e]
    rfl
  | .obj [], o, n + 1, d, w, t, hw, _, hd, _, _ => by
    rw [depth, depthFields] at hd
    rw [value, skip_blank hw, print, List.cons_append, skip_self (by decide)]
    dsimp only
    rw [if_neg (by decide), if_neg (by decide), if_neg (by decide), if_neg (by decide),
      if_neg (by decide), if_pos rfl,
      if_neg (by omega), List.cons_append, skip_self (by decide)]
    rfl
  | .obj ((k, v) :: fs), o, n + 1, d, w, t, hw, hp, hd, _, hn => by
    rw [Proper, ProperFields, ProperField] at hp
    rw [depth, depthFields, depthField] at hd
    rw [print] at hn ⊢
    rw [value, skip_blank hw, List.cons_append, skip_self (by decide)]
    dsimp only
    rw [if_neg (by decide), if_neg (by decide), if_neg (by decide), if_neg (by decide),
      if_neg (by decide), if_pos rfl, if_neg (by omega)]
    simp only [List.append_assoc]
    rw [skip_blank (blank_newline _)]
    have e := fields_print k v fs (deeper o) n (d - 1) [] (newline o) t (by simp [Blank]) (blank_newline o)
      hp.1 hp.2 (by omega) (by omega) (by
        simp only [List.length_append, List.length_cons, List.nil_append] at hn ⊢; omega)
    rw [List.nil_append] at e
    rw [printField, quote] at e ⊢
    simp only [List.cons_append] at e ⊢
    rw [skip_self (by decide)]
    dsimp only
    rw [if_neg (by decide), List.nil_append, e]
    rfl
theorem items_print : ∀ (x : Json) (xs : List Json) (o : Option Nat) (n d : Nat) (w w' t : Str), Blank w →
    Blank w' → Proper x → ProperItems xs → depth x < d → depthItems xs < d →
    2 * (w ++ (print o x ++ (printItems o xs ++ (w' ++ ']' :: t)))).length + 1 < n →
    items n d (w ++ (print o x ++ (printItems o xs ++ (w' ++ ']' :: t)))) = some (x :: xs, t)
  | x, [], o, n + 1, d, w, w', t, hw, hw', hp, _, hd, _, hn => by
    rw [printItems, List.nil_append] at hn ⊢
    have hst : Stops (w' ++ ']' :: t) := by
      cases w' with
      | nil => exact stops_cons (by decide) t
      | cons c w' =>
        refine stops_cons ?_ _
        cases hc : isNumChar c with
        | false => rfl
        | true => have := (numChar_not hc).1; rw [hw' c (by simp)] at this; cases this
    rw [items, value_print x o n d w _ hw hp hd hst (by omega)]
    dsimp only
    rw [skip_blank hw', skip_self (by decide)]
    rfl
  | x, y :: ys, o, n + 1, d, w, w', t, hw, hw', hp, hps, hd, hds, hn => by
    rw [ProperItems] at hps
    rw [depthItems] at hds
    rw [printItems] at hn ⊢
    simp only [List.cons_append, List.append_assoc] at hn ⊢
    rw [items, value_print x o n d w _ hw hp hd (stops_cons (by decide) _) (by omega)]
    dsimp only
    rw [skip_self (by decide)]
    dsimp only
    rw [if_neg (by decide), if_pos rfl]
    have e := items_print y ys o n d (newline o) w' t (blank_newline o) hw' hps.1 hps.2 (by omega) (by omega)
      (by simp only [List.length_append, List.length_cons] at hn ⊢; omega)
    rw [e]
    rfl
theorem fields_print : ∀ (k : Str) (v : Json) (fs : List (Str × Json)) (o : Option Nat) (n d : Nat)
    (w w' t : Str), Blank w →
    Blank w' → Proper v → ProperFields fs → depth v < d → depthFields fs < d →
    2 * (w ++ (printField o (k, v) ++ (printFields o fs ++ (w' ++ '}' :: t)))).length + 1 < n →
    fields n d (w ++ (printField o (k, v) ++ (printFields o fs ++ (w' ++ '}' :: t)))) =
      some ((k, v) :: fs, t)
  | k, v, [], o, n + 1, d, w, w', t, hw, hw', hp, _, hd, _, hn => by
    rw [printFields, List.nil_append] at hn ⊢
    have hst : Stops (w' ++ '}' :: t) := by
      cases w' with
      | nil => exact stops_cons (by decide) t
      | cons c w' =>
        refine stops_cons ?_ _
        cases hc : isNumChar c with
        | false => rfl
        | true => have := (numChar_not hc).1; rw [hw' c (by simp)] at this; cases this
    rw [printField, quote] at hn ⊢
    simp only [List.cons_append] at hn ⊢
    rw [fields, skip_blank hw, skip_self (by decide)]
    dsimp only
    rw [if_pos rfl]
    rw [List.append_assoc (k.flatMap escape ++ ['"']), parseStr_quoted]
    dsimp only
    obtain ⟨u, hu, hb⟩ : ∃ u, colon o = ':' :: u ∧ Blank u := by
      cases o with
      | none => exact ⟨_, rfl, by simp [Blank]⟩
      | some n => exact ⟨_, rfl, by simp [Blank, isSpace]⟩
    rw [hu] at hn ⊢
    simp only [List.cons_append, List.append_assoc] at hn ⊢
    rw [skip_self (by decide)]
    dsimp only
    rw [if_pos rfl, value_print v o n d u _ hb hp hd hst
      (by simp only [List.length_append, List.length_cons] at hn ⊢; omega)]
    dsimp only
    rw [skip_blank hw', skip_self (by decide)]
    rfl
  | k, v, (k', v') :: fs, o, n + 1, d, w, w', t, hw, hw', hp, hps, hd, hds, hn => by
    rw [ProperFields, ProperField] at hps
    rw [depthFields, depthField] at hds
    rw [printFields] at hn ⊢
    rw [show printField o (k, v) = quote k ++ (colon o ++ print o v) by rw [printField], quote] at hn ⊢
    simp only [List.cons_append] at hn ⊢
    rw [fields, skip_blank hw, skip_self (by decide)]
    dsimp only
    rw [if_pos rfl]
    rw [List.append_assoc (k.flatMap escape ++ ['"']), parseStr_quoted]
    dsimp only
    obtain ⟨u, hu, hb⟩ : ∃ u, colon o = ':' :: u ∧ Blank u := by
      cases o with
      | none => exact ⟨_, rfl, by simp [Blank]⟩
      | some n => exact ⟨_, rfl, by simp [Blank, isSpace]⟩
    rw [hu] at hn ⊢
    simp only [List.cons_append, List.append_assoc] at hn ⊢
    rw [skip_self (by decide)]
    dsimp only
    rw [if_pos rfl, value_print v o n d u _ hb hp hd (stops_cons (by decide) _)
      (by simp only [List.length_append, List.length_cons] at hn ⊢; omega)]
    dsimp only
    rw [skip_self (by decide)]
    dsimp only
    rw [if_neg (by decide), if_pos rfl]
    have e := fields_print k' v' fs o n d (newline o) w' t (blank_newline o) hw' hps.1 hps.2 (by omega)
      (by omega) (by simp only [List.length_append, List.length_cons] at hn ⊢; omega)
    rw [e]
    rfl
end

/-- A written value is read back, with white space around it. -/
theorem parse_print (v : Json) (o : Option Nat) (w w' : Str) (hp : Proper v) (hd : depth v < 128)
    (hw : Blank w) (hw' : Blank w') : parse (w ++ (print o v ++ w')) = some v := by
  unfold parse
  have hst : Stops w' := by
    cases w' with
    | nil => simp [Stops]
    | cons c w' =>
      refine stops_cons ?_ _
      cases hc : isNumChar c with
      | false => rfl
      | true => have := (numChar_not hc).1; rw [hw' c (by simp)] at this; cases this
  rw [value_print v o _ 128 w w' hw hp hd hst (by omega)]
  dsimp only
  have : skip w' = [] := by
    have := skip_blank hw' []
    rw [List.append_nil] at this
    rw [this]; rfl
  rw [if_pos this]

/-- A written array, object or string that is cut short is not read. -/
theorem parse_cut (v : Json) (o : Option Nat) (hp : Proper v) (hd : depth v < 128)
    (hv : ∀ x, v ≠ .num x) (m : Nat) (hm : m < (print o v).length) :
    parse ((print o v).take m) = none := by
  refine Classical.byContradiction fun hne => ?_
  unfold parse at hne
  cases hs : value (2 * ((print o v).take m).length + 2) 128 ((print o v).take m) with
  | none => rw [hs] at hne; exact hne rfl
  | some p =>
    obtain ⟨v', r⟩ := p
    have hfull := value_print v o (2 * (print o v).length + 2) 128 [] [] (by simp [Blank]) hp hd
      (by simp [Stops]) (by simp)
    simp only [List.nil_append, List.append_nil] at hfull
    have hlen : ((print o v).take m).length ≤ (print o v).length := by
      rw [List.length_take]; omega
    rw [value_fuel (m := 2 * (print o v).length + 2) (by omega) (by omega)] at hs
    have hnum : r ≠ [] ∨ ∀ x, v' ≠ .num x := by
      right
      rintro x rfl
      -- the first character decides that it is a number
      obtain ⟨c, u, hc, hsp, _⟩ := print_head o v hp
      cases m with
      | zero => simp [value, skip] at hs
      | succ m =>
        rw [hc, List.take_succ_cons, value, skip_self hsp] at hs
        rw [hc, value, skip_self hsp] at hfull
        dsimp only at hs hfull
        have lit : ∀ {w b s t}, literal w (.bool b) s ≠ some (.num x, t) := by
          intro w b s t h; unfold literal at h; split at h <;> cases h
        have lit' : ∀ {w s t}, literal w .null s ≠ some (.num x, t) := by
          intro w s t h; unfold literal at h; split at h <;> cases h
        split at hs
        · exact lit' hs
        rename_i h1; rw [if_neg h1] at hfull
        split at hs
        · exact lit hs
        rename_i h1; rw [if_neg h1] at hfull
        split at hs
        · exact lit hs
        rename_i h1; rw [if_neg h1] at hfull
        split at hs
        · simp at hs
        rename_i h1; rw [if_neg h1] at hfull
        split at hs
        · split at hs
          · cases hs
          · split at hs
            · cases hs
            · split at hs
              · simp at hs
              · simp at hs
        rename_i h1; rw [if_neg h1] at hfull
        split at hs
        · split at hs
          · cases hs
          · split at hs
            · cases hs
            · split at hs
              · simp at hs
              · simp at hs
        rename_i h1; rw [if_neg h1] at hfull
        unfold number at hfull
        split at hfull
        · simp only [Option.some.injEq, Prod.mk.injEq] at hfull
          exact hv _ hfull.1.symm
        · cases hfull
    have hext := value_append ((print o v).drop m) hs hnum
    rw [List.take_append_drop, hfull] at hext
    simp only [Option.some.injEq, Prod.mk.injEq] at hext
    have h0 := congrArg List.length hext.2
    simp only [List.length_nil, List.length_append, List.length_drop] at h0
    omega

/-! ### The limit on nesting -/

mutual
theorem value_depth : ∀ {n d : Nat} {s r : Str} {v : Json}, 1 ≤ d → value n d s = some (v, r) → depth v < d
  | 0, _, _, _, _, _, h => by simp [value] at h
  | n + 1, d, s, r, v, h0, h => by
    rw [value] at h
    have lit : ∀ {w s t} {v v' : Json}, depth v = 0 → literal w v s = some (v', t) → depth v' = 0 := by
      intro w s t v v' hv h; unfold literal at h
      split at h
      · cases h; exact hv
      · cases h
    split at h
    · cases h
    · split at h
      · rw [lit (by rw [depth]; all_goals simp) h]; exact h0
      split at h
      · rw [lit (by rw [depth]; all_goals simp) h]; exact h0
      split at h
      · rw [lit (by rw [depth]; all_goals simp) h]; exact h0
      split at h
      · simp only [Option.map_eq_some_iff, Prod.mk.injEq] at h
        obtain ⟨_, _, rfl, _⟩ := h
        rw [depth]
        · exact h0
        all_goals simp
      split at h
      · split at h
        · cases h
        · split at h
          · cases h
          · split at h
            · cases h; rw [depth, depthItems]; omega
            · simp only [Option.map_eq_some_iff, Prod.mk.injEq] at h
              obtain ⟨_, h1, rfl, _⟩ := h
              have := items_depth (by omega) h1
              rw [depth]; omega
      split at h
      · split at h
        · cases h
        · split at h
          · cases h
          · split at h
            · cases h; rw [depth, depthFields]; omega
            · simp only [Option.map_eq_some_iff, Prod.mk.injEq] at h
              obtain ⟨_, h1, rfl, _⟩ := h
              have := fields_depth (by omega) h1
              rw [depth]; omega
      · unfold number at h
        split at h
        · cases h
          rw [depth]
          · exact h0
          all_goals simp
        · cases h
theorem items_depth : ∀ {n d : Nat} {s r : Str} {v : List Json}, 1 ≤ d → items n d s = some (v, r) →
    depthItems v < d
  | 0, _, _, _, _, _, h => by simp [items] at h
  | n + 1, d, s, r, v, h0, h => by
    rw [items] at h
    split at h
    · cases h
    · rename_i x r1 h1
      have l1 := value_depth h0 h1
      split at h
      · cases h
      · split at h
        · cases h; rw [depthItems, depthItems]; omega
        · split at h
          · simp only [Option.map_eq_some_iff, Prod.mk.injEq] at h
            obtain ⟨_, h3, rfl, _⟩ := h
            have := items_depth h0 h3
            rw [depthItems]; omega
          · cases h
theorem fields_depth : ∀ {n d : Nat} {s r : Str} {v : List (Str × Json)}, 1 ≤ d →
    fields n d s = some (v, r) → depthFields v < d
  | 0, _, _, _, _, _, h => by simp [fields] at h
  | n + 1, d, s, r, v, h0, h => by
    rw [fields] at h
    split at h
    · cases h
    · split at h
      · split at h
        · cases h
        · split at h
          · cases h
          · split at h
            · split at h
              · cases h
              · rename_i v r4 h4
                have l4 := value_depth h0 h4
                split at h
                · cases h
                · split at h
                  · cases h; rw [depthFields, depthField, depthFields]; omega
                  · split at h
                    · simp only [Option.map_eq_some_iff, Prod.mk.injEq] at h
                      obtain ⟨_, h6, rfl, _⟩ := h
                      have := fields_depth h0 h6
                      rw [depthFields, depthField]; omega
                    · cases h
            · cases h
      · cases h
end

mutual
theorem value_deeper : ∀ {n d e : Nat} {s r : Str} {v : Json}, d ≤ e → value n d s = some (v, r) →
    value n e s = some (v, r)
  | 0, _, _, _, _, _, _, h => by simp [value] at h
  | n + 1, d, e, s, r, v, h0, h => by
    rw [value] at h ⊢
    cases h1 : skip s with
    | nil => rw [h1] at h; cases h
    | cons c r1 =>
      rw [h1] at h
      dsimp only at h ⊢
      split at h
      · rename_i hc; rw [if_pos hc]; exact h
      rename_i hc; rw [if_neg hc]
      split at h
      · rename_i hc; rw [if_pos hc]; exact h
      rename_i hc; rw [if_neg hc]
      split at h
      · rename_i hc; rw [if_pos hc]; exact h
      rename_i hc; rw [if_neg hc]
      split at h
      · rename_i hc; rw [if_pos hc]; exact h
      rename_i hc; rw [if_neg hc]
      split at h
      · rename_i hc; rw [if_pos hc]
        split at h
        · cases h
        rename_i hd; rw [if_neg (by omega)]
        cases h2 : skip r1 with
        | nil => rw [h2] at h; cases h
        | cons b r2 =>
          rw [h2] at h
          dsimp only at h ⊢
          split at h
          · rename_i he; rw [if_pos he]; exact h
          · rename_i he; rw [if_neg he]
            simp only [Option.map_eq_some_iff] at h ⊢
            obtain ⟨p, h3, h4⟩ := h
            exact ⟨p, items_deeper (by omega) h3, h4⟩
      rename_i hc; rw [if_neg hc]
      split at h
      · rename_i hc; rw [if_pos hc]
        split at h
        · cases h
        rename_i hd; rw [if_neg (by omega)]
        cases h2 : skip r1 with
        | nil => rw [h2] at h; cases h
        | cons b r2 =>
          rw [h2] at h
          dsimp only at h ⊢
          split at h
          · rename_i he; rw [if_pos he]; exact h
          · rename_i he; rw [if_neg he]
            simp only [Option.map_eq_some_iff] at h ⊢
            obtain ⟨p, h3, h4⟩ := h
            exact ⟨p, fields_deeper (by omega) h3, h4⟩
      rename_i hc; rw [if_neg hc]
      exact h
theorem items_deeper : ∀ {n d e : Nat} {s : Str} {p : List Json × Str}, d ≤ e → items n d s = some p →
    items n e s = some p
  | 0, _, _, _, _, _, h => by simp [items] at h
  | n + 1, d, e, s, p, h0, h => by
    rw [items] at h ⊢
    cases hv : value n d s with
    | none => rw [hv] at h; cases h
    | some q =>
      obtain ⟨x, r⟩ := q
      rw [hv] at h
      rw [value_deeper h0 hv]
      dsimp only at h ⊢
      cases h2 : skip r with
      | nil => rw [h2] at h; cases h
      | cons c r2 =>
        rw [h2] at h
        dsimp only at h ⊢
        split at h
        · rename_i hc; rw [if_pos hc]; exact h
        · rename_i hc; rw [if_neg hc]
          split at h
          · rename_i hc; rw [if_pos hc]
            simp only [Option.map_eq_some_iff] at h ⊢
            obtain ⟨p, h3, h4⟩ := h
            exact ⟨p, items_deeper h0 h3, h4⟩
          · cases h
theorem fields_deeper : ∀ {n d e : Nat} {s : Str} {p : List (Str × Json) × Str}, d ≤ e →
    fields n d s = some p → fields n e s = some p
  | 0, _, _, _, _, _, h => by simp [fields] at h
  | n + 1, d, e, s, p, h0, h => by
    rw [fields] at h ⊢
    cases h1 : skip s with
    | nil => rw [h1] at h; cases h
    | cons c r1 =>
      rw [h1] at h
      dsimp only at h ⊢
      split at h
      · rename_i hc; rw [if_pos hc]
        cases hk : parseStr r1.length r1 with
        | none => rw [hk] at h; cases h
        | some q =>
          obtain ⟨k, r2⟩ := q
          rw [hk] at h
          dsimp only at h ⊢
          cases h3 : skip r2 with
          | nil => rw [h3] at h; cases h
          | cons c3 r3 =>
            rw [h3] at h
            dsimp only at h ⊢
            split at h
            · rename_i hc; rw [if_pos hc]
              cases hv : value n d r3 with
              | none => rw [hv] at h; cases h
              | some q =>
                obtain ⟨x, r4⟩ := q
                rw [hv] at h
                rw [value_deeper h0 hv]
                dsimp only at h ⊢
                cases h5 : skip r4 with
                | nil => rw [h5] at h; cases h
                | cons c5 r5 =>
                  rw [h5] at h
                  dsimp only at h ⊢
                  split at h
                  · rename_i hc; rw [if_pos hc]; exact h
                  · rename_i hc; rw [if_neg hc]
                    split at h
                    · rename_i hc; rw [if_pos hc]
                      simp only [Option.map_eq_some_iff] at h ⊢
                      obtain ⟨p, h6, h7⟩ := h
                      exact ⟨p, fields_deeper h0 h6, h7⟩
                    · cases h
            · cases h
      · cases h
end

/-- A value whose arrays and objects are nested too deep is not read, although it is written. -/
theorem parse_deep (v : Json) (o : Option Nat) (w w' : Str) (hp : Proper v) (hd : 128 ≤ depth v)
    (hw : Blank w) (hw' : Blank w') : parse (w ++ (print o v ++ w')) = none := by
  unfold parse
  cases hs : value (2 * (w ++ (print o v ++ w')).length + 2) 128 (w ++ (print o v ++ w')) with
  | none => rfl
  | some p =>
    exfalso
    obtain ⟨v', r⟩ := p
    have h1 := value_depth (by omega) hs
    have h2 := value_deeper (e := depth v + 1) (by omega) hs
    have hst : Stops w' := by
      cases w' with
      | nil => simp [Stops]
      | cons c w' =>
        refine stops_cons ?_ _
        cases hc : isNumChar c with
        | false => rfl
        | true => have := (numChar_not hc).1; rw [hw' c (by simp)] at this; cases this
    rw [value_print v o _ _ w w' hw hp (by omega) hst (by omega)] at h2
    simp only [Option.some.injEq, Prod.mk.injEq] at h2
    rw [← h2.1] at h1
    omega

end Trane.Json
