import Verif.Json.Grammar

/-!
# The reader accepts exactly the texts of the grammar (C89)
-/

namespace Trane.Json
open Trane.Store (Str)

theorem takeWhile_white (s : Str) : White (s.takeWhile isSpace) := by
  rw [white_iff]
  have := List.all_takeWhile (l := s) (p := isSpace)
  rw [List.all_eq_true] at this
  exact this

theorem skip_nil_iff (s : Str) : skip s = [] ↔ White s := by
  constructor
  · intro h
    unfold skip at h
    have h1 := List.takeWhile_append_dropWhile (p := isSpace) (l := s)
    rw [h, List.append_nil] at h1
    rw [← h1]
    exact takeWhile_white s
  · intro h
    have := skip_blank ((white_iff s).mp h) []
    rw [List.append_nil] at this
    rw [this]; rfl

theorem skip_split {s r : Str} {c : Char} (h : skip s = c :: r) :
    ∃ w, White w ∧ s = w ++ c :: r ∧ isSpace c = false := by
  refine ⟨s.takeWhile isSpace, ?_, ?_, ?_⟩
  · exact takeWhile_white s
  · unfold skip at h
    rw [← h, List.takeWhile_append_dropWhile]
  · unfold skip at h
    have := List.head?_dropWhile_not isSpace s
    rw [h] at this
    simpa using this

theorem skip_white {w : Str} (h : White w) (t : Str) : skip (w ++ t) = skip t := skip_blank ((white_iff w).mp h) t

theorem White.append {w w' : Str} (h : White w) (h' : White w') : White (w ++ w') := by
  intro c hc
  rcases List.mem_append.mp hc with hc | hc
  · exact h c hc
  · exact h' c hc

theorem items_white {w t : Str} {xs : List Json} (hw : White w) (h : Items xs t) : Items xs (w ++ t) := by
  cases h with
  | one h1 h2 h3 => rw [← List.append_assoc]; exact .one (hw.append h1) h2 h3
  | more h1 h2 h3 h4 => rw [← List.append_assoc]; exact .more (hw.append h1) h2 h3 h4

theorem field_white {w t : Str} {f : Str × Json} (hw : White w) (h : Field f t) : Field f (w ++ t) := by
  cases h with
  | mk h1 h2 h3 h4 h5 h6 => rw [← List.append_assoc]; exact .mk (hw.append h1) h2 h3 h4 h5 h6

theorem fields_white {w t : Str} {fs : List (Str × Json)} (hw : White w) (h : Fields fs t) : Fields fs (w ++ t) := by
  cases h with
  | one h1 => exact .one (field_white hw h1)
  | more h1 h2 => rw [← List.append_assoc]; exact .more (field_white hw h1) h2

theorem literal_sound {w r r' : Str} {v v' : Json} (h : literal w v r = some (v', r')) :
    v' = v ∧ r = w ++ r' := by
  unfold literal at h
  split at h
  · rename_i hp
    simp only [Option.some.injEq, Prod.mk.injEq] at h
    obtain ⟨rfl, rfl⟩ := h
    rw [List.isPrefixOf_iff_prefix] at hp
    exact ⟨rfl, (List.prefix_iff_eq_append.mp hp).symm⟩
  · cases h

/-! ### Everything read is in the grammar -/

mutual
theorem value_sound : ∀ {n d : Nat} {s r : Str} {v : Json}, value n d s = some (v, r) →
    ∃ w t, White w ∧ Text v t ∧ s = w ++ (t ++ r)
  | 0, _, _, _, _, h => by simp [value] at h
  | n + 1, d, s, r, v, h => by
    rw [value] at h
    split at h
    · cases h
    · rename_i c r1 h1
      obtain ⟨w, hw, rfl, hc⟩ := skip_split h1
      split at h
      · rename_i e
        obtain ⟨rfl, rfl⟩ := literal_sound h
        subst e
        exact ⟨w, _, hw, .null, rfl⟩
      split at h
      · rename_i e
        obtain ⟨rfl, rfl⟩ := literal_sound h
        subst e
        exact ⟨w, _, hw, .true, rfl⟩
      split at h
      · rename_i e
        obtain ⟨rfl, rfl⟩ := literal_sound h
        subst e
        exact ⟨w, _, hw, .false, rfl⟩
      split at h
      · rename_i e
        subst e
        rw [Option.map_eq_some_iff] at h
        obtain ⟨⟨k, r'⟩, h2, h3⟩ := h
        simp only [Prod.mk.injEq] at h3
        obtain ⟨rfl, rfl⟩ := h3
        obtain ⟨t, ht, rfl⟩ := parseStr_sound h2
        exact ⟨w, _, hw, .str ht, by simp⟩
      split at h
      · rename_i e
        subst e
        split at h
        · cases h
        · split at h
          · cases h
          · rename_i e r2 h2
            obtain ⟨w', hw', rfl, _⟩ := skip_split h2
            split at h
            · rename_i e
              subst e
              simp only [Option.some.injEq, Prod.mk.injEq] at h
              obtain ⟨rfl, rfl⟩ := h
              exact ⟨w, _, hw, .empty hw', by simp⟩
            · rw [Option.map_eq_some_iff] at h
              obtain ⟨⟨xs, r'⟩, h3, h4⟩ := h
              simp only [Prod.mk.injEq] at h4
              obtain ⟨rfl, rfl⟩ := h4
              obtain ⟨t, ht, e⟩ := items_sound h3
              rw [e]
              exact ⟨w, _, hw, .arr (items_white hw' ht), by simp⟩
      split at h
      · rename_i e
        subst e
        split at h
        · cases h
        · split at h
          · cases h
          · rename_i e r2 h2
            obtain ⟨w', hw', rfl, _⟩ := skip_split h2
            split at h
            · rename_i e
              subst e
              simp only [Option.some.injEq, Prod.mk.injEq] at h
              obtain ⟨rfl, rfl⟩ := h
              exact ⟨w, _, hw, .none hw', by simp⟩
            · rw [Option.map_eq_some_iff] at h
              obtain ⟨⟨xs, r'⟩, h3, h4⟩ := h
              simp only [Prod.mk.injEq] at h4
              obtain ⟨rfl, rfl⟩ := h4
              obtain ⟨t, ht, e⟩ := fields_sound h3
              rw [e]
              exact ⟨w, _, hw, .obj (fields_white hw' ht), by simp⟩
      · unfold number at h
        split at h
        · rename_i hn
          simp only [Option.some.injEq, Prod.mk.injEq] at h
          obtain ⟨rfl, rfl⟩ := h
          refine ⟨w, _, hw, .num ((isNum_iff _).mp hn), ?_⟩
          rw [List.takeWhile_append_dropWhile]
        · cases h
theorem items_sound : ∀ {n d : Nat} {s r : Str} {xs : List Json}, items n d s = some (xs, r) →
    ∃ t, Items xs t ∧ s = t ++ ']' :: r
  | 0, _, _, _, _, h => by simp [items] at h
  | n + 1, d, s, r, xs, h => by
    rw [items] at h
    split at h
    · cases h
    · rename_i x r1 h1
      obtain ⟨w, t, hw, ht, rfl⟩ := value_sound h1
      split at h
      · cases h
      · rename_i c r2 h2
        obtain ⟨w', hw', rfl, _⟩ := skip_split h2
        split at h
        · rename_i e
          subst e
          simp only [Option.some.injEq, Prod.mk.injEq] at h
          obtain ⟨rfl, rfl⟩ := h
          exact ⟨_, .one hw ht hw', by simp⟩
        · split at h
          · rename_i e
            subst e
            rw [Option.map_eq_some_iff] at h
            obtain ⟨⟨ys, r'⟩, h3, h4⟩ := h
            simp only [Prod.mk.injEq] at h4
            obtain ⟨rfl, rfl⟩ := h4
            obtain ⟨u, hu, rfl⟩ := items_sound h3
            exact ⟨_, .more hw ht hw' hu, by simp⟩
          · cases h
theorem fields_sound : ∀ {n d : Nat} {s r : Str} {fs : List (Str × Json)}, fields n d s = some (fs, r) →
    ∃ t, Fields fs t ∧ s = t ++ '}' :: r
  | 0, _, _, _, _, h => by simp [fields] at h
  | n + 1, d, s, r, fs, h => by
    rw [fields] at h
    split at h
    · cases h
    · rename_i c r1 h1
      obtain ⟨a, ha, rfl, _⟩ := skip_split h1
      split at h
      · rename_i e
        subst e
        split at h
        · cases h
        · rename_i k r2 h2
          obtain ⟨m, hm, rfl⟩ := parseStr_sound h2
          split at h
          · cases h
          · rename_i c r3 h3
            obtain ⟨b, hb, rfl, _⟩ := skip_split h3
            split at h
            · rename_i e
              subst e
              split at h
              · cases h
              · rename_i v r4 h4
                obtain ⟨c, t, hc, ht, rfl⟩ := value_sound h4
                split at h
                · cases h
                · rename_i x r5 h5
                  obtain ⟨d, hd, rfl, _⟩ := skip_split h5
                  split at h
                  · rename_i e
                    subst e
                    simp only [Option.some.injEq, Prod.mk.injEq] at h
                    obtain ⟨rfl, rfl⟩ := h
                    exact ⟨_, .one (.mk ha hm hb hc ht hd), by simp⟩
                  · split at h
                    · rename_i e
                      subst e
                      rw [Option.map_eq_some_iff] at h
                      obtain ⟨⟨ys, r'⟩, h6, h7⟩ := h
                      simp only [Prod.mk.injEq] at h7
                      obtain ⟨rfl, rfl⟩ := h7
                      obtain ⟨u, hu, rfl⟩ := fields_sound h6
                      exact ⟨_, .more (.mk ha hm hb hc ht hd) hu, by simp⟩
                    · cases h
            · cases h
      · cases h
end

/-! ### Everything in the grammar is read -/

theorem text_head {v : Json} {t : Str} (h : Text v t) :
    ∃ c u, t = c :: u ∧ isSpace c = false ∧ c ≠ ']' ∧ c ≠ '}' := by
  cases h with
  | null => exact ⟨'n', "ull".toList, rfl, by decide, by decide, by decide⟩
  | true => exact ⟨'t', "rue".toList, rfl, by decide, by decide, by decide⟩
  | false => exact ⟨'f', "alse".toList, rfl, by decide, by decide, by decide⟩
  | str _ => exact ⟨_, _, rfl, by decide, by decide, by decide⟩
  | empty _ => exact ⟨_, _, rfl, by decide, by decide, by decide⟩
  | arr _ => exact ⟨_, _, rfl, by decide, by decide, by decide⟩
  | none _ => exact ⟨_, _, rfl, by decide, by decide, by decide⟩
  | obj _ => exact ⟨_, _, rfl, by decide, by decide, by decide⟩
  | num hn =>
    have hn := (isNum_iff _).mpr hn
    cases t with
    | nil => exact absurd rfl (isNum_ne_nil hn)
    | cons c u =>
      have := numChar_not (isNum_all hn c (by simp))
      exact ⟨c, u, rfl, this.1, this.2.2.2.2.2.2.2.1, this.2.2.2.2.2.2.2.2⟩

/-- The white space in front taken off. -/
theorem items_trim {xs : List Json} {t : Str} (h : Items xs t) :
    ∃ w c u, White w ∧ t = w ++ c :: u ∧ isSpace c = false ∧ c ≠ ']' ∧ Items xs (c :: u) := by
  cases h with
  | @one w w' t x h1 h2 h3 =>
    obtain ⟨c, u, rfl, a, b, _⟩ := text_head h2
    exact ⟨w, c, u ++ w', h1, rfl, a, b, .one (w := []) (by simp [White]) h2 h3⟩
  | @more w w' t u' x xs h1 h2 h3 h4 =>
    obtain ⟨c, u, rfl, a, b, _⟩ := text_head h2
    exact ⟨w, c, u ++ (w' ++ ',' :: u'), h1, by simp, a, b, .more (w := []) (by simp [White]) h2 h3 h4⟩

/-- The white space in front taken off. -/
theorem fields_trim {fs : List (Str × Json)} {t : Str} (h : Fields fs t) :
    ∃ w u, White w ∧ t = w ++ '"' :: u ∧ Fields fs ('"' :: u) := by
  cases h with
  | one h1 =>
    cases h1 with
    | @mk a b c d n k t v h1 h2 h3 h4 h5 h6 =>
      exact ⟨a, _, h1, rfl, .one (.mk (a := []) (by simp [White]) h2 h3 h4 h5 h6)⟩
  | more h1 hr =>
    cases h1 with
    | @mk a b c d n k t v h1 h2 h3 h4 h5 h6 =>
      refine ⟨a, _, h1, ?_, Fields.more (.mk (a := []) (by simp [White]) h2 h3 h4 h5 h6) hr⟩
      rw [List.append_assoc]; rfl

theorem stops_white {w : Str} (hw : White w) {c : Char} (hc : isNumChar c = false) (t : Str) :
    Stops (w ++ c :: t) := by
  rw [white_iff] at hw
  cases w with
  | nil => exact stops_cons hc t
  | cons x w =>
    refine stops_cons ?_ _
    cases hx : isNumChar x with
    | false => rfl
    | true => have := (numChar_not hx).1; rw [hw x (by simp)] at this; cases this

mutual
theorem value_complete : ∀ (n : Nat) {d : Nat} {w t r : Str} {v : Json}, White w → Text v t → depth v < d →
    Stops r → 2 * (w ++ (t ++ r)).length < n → value n d (w ++ (t ++ r)) = some (v, r)
  | 0, _, _, _, _, _, _, _, _, _, hn => by omega
  | n + 1, d, w, t, r, v, hw, ht, hd, hs, hn => by
    rw [value, skip_white hw]
    cases ht with
    | null =>
      rw [show "null".toList ++ r = 'n' :: ("ull".toList ++ r) from rfl, skip_self (by decide)]
      dsimp only
      rw [if_pos rfl]
      rfl
    | true =>
      rw [show "true".toList ++ r = 't' :: ("rue".toList ++ r) from rfl, skip_self (by decide)]
      dsimp only
      rw [if_neg (by decide), if_pos rfl]
      rfl
    | false =>
      rw [show "false".toList ++ r = 'f' :: ("alse".toList ++ r) from rfl, skip_self (by decide)]
      dsimp only
      rw [if_neg (by decide), if_neg (by decide), if_pos rfl]
      rfl
    | num hx =>
      have hp := (isNum_iff _).mpr hx
      cases t with
      | nil => exact absurd rfl (isNum_ne_nil hp)
      | cons c u =>
        obtain ⟨h0, h1, h2, h3, h4, h5, h6, _⟩ := numChar_not (isNum_all hp c (by simp))
        rw [List.cons_append, skip_self h0]
        dsimp only
        rw [if_neg h1, if_neg h2, if_neg h3, if_neg h4, if_neg h5, if_neg h6, ← List.cons_append]
        exact number_read hp hs
    | @str s t hx =>
      rw [List.cons_append, skip_self (by decide)]
      dsimp only
      rw [if_neg (by decide), if_neg (by decide), if_neg (by decide), if_pos rfl, List.append_assoc,
        List.singleton_append, parseStr_complete hx r _ (by simp)]
      rfl
    | @empty w' hw' =>
      rw [depth, depthItems] at hd
      rw [List.cons_append, skip_self (by decide)]
      dsimp only
      rw [if_neg (by decide), if_neg (by decide), if_neg (by decide), if_neg (by decide), if_pos rfl,
        if_neg (by omega), List.append_assoc, List.singleton_append, skip_white hw', skip_self (by decide)]
      rfl
    | @arr xs t hx =>
      rw [depth] at hd
      rw [List.cons_append, skip_self (by decide)]
      dsimp only
      rw [if_neg (by decide), if_neg (by decide), if_neg (by decide), if_neg (by decide), if_pos rfl,
        if_neg (by omega), List.append_assoc, List.singleton_append]
      obtain ⟨w', c, u, hw', rfl, hc, hb, hi⟩ := items_trim hx
      have e := items_complete n (d := d - 1) (r := r) hi (by omega) (by
        simp only [List.length_append, List.length_cons] at hn ⊢; omega)
      rw [List.append_assoc, skip_white hw']
      rw [List.cons_append] at e ⊢
      rw [skip_self hc]
      dsimp only
      rw [if_neg hb, e]
      rfl
    | @none w' hw' =>
      rw [depth, depthFields] at hd
      rw [List.cons_append, skip_self (by decide)]
      dsimp only
      rw [if_neg (by decide), if_neg (by decide), if_neg (by decide), if_neg (by decide), if_neg (by decide),
        if_pos rfl, if_neg (by omega), List.append_assoc, List.singleton_append, skip_white hw',
        skip_self (by decide)]
      rfl
    | @obj fs t hx =>
      rw [depth] at hd
      rw [List.cons_append, skip_self (by decide)]
      dsimp only
      rw [if_neg (by decide), if_neg (by decide), if_neg (by decide), if_neg (by decide), if_neg (by decide),
        if_pos rfl, if_neg (by omega), List.append_assoc, List.singleton_append]
      obtain ⟨w', u, hw', rfl, hi⟩ := fields_trim hx
      have e := fields_complete n (d := d - 1) (r := r) hi (by omega) (by
        simp only [List.length_append, List.length_cons] at hn ⊢; omega)
      rw [List.append_assoc, skip_white hw']
      rw [List.cons_append] at e ⊢
      rw [skip_self (by decide)]
      dsimp only
      rw [if_neg (by decide), e]
      rfl
theorem items_complete : ∀ (n : Nat) {d : Nat} {t r : Str} {xs : List Json}, Items xs t → depthItems xs < d →
    2 * (t ++ ']' :: r).length + 1 < n → items n d (t ++ ']' :: r) = some (xs, r)
  | 0, _, _, _, _, _, _, hn => by omega
  | n + 1, d, t, r, xs, hi, hd, hn => by
    rw [items]
    cases hi with
    | @one w w' t x h1 h2 h3 =>
      rw [depthItems] at hd
      simp only [List.append_assoc] at hn ⊢
      rw [value_complete n h1 h2 (by omega) (stops_white h3 (by decide) r) (by omega)]
      dsimp only
      rw [skip_white h3, skip_self (by decide)]
      rfl
    | @more w w' t u x xs h1 h2 h3 h4 =>
      rw [depthItems] at hd
      simp only [List.append_assoc, List.cons_append] at hn ⊢
      rw [value_complete n h1 h2 (by omega) (stops_white h3 (by decide) _) (by omega)]
      dsimp only
      rw [skip_white h3, skip_self (by decide)]
      dsimp only
      rw [if_neg (by decide), if_pos rfl, items_complete n h4 (by omega) (by
        simp only [List.length_append, List.length_cons] at hn ⊢; omega)]
      rfl
theorem fields_complete : ∀ (n : Nat) {d : Nat} {t r : Str} {fs : List (Str × Json)}, Fields fs t →
    depthFields fs < d → 2 * (t ++ '}' :: r).length + 1 < n → fields n d (t ++ '}' :: r) = some (fs, r)
  | 0, _, _, _, _, _, _, hn => by omega
  | n + 1, d, t, r, fs, hi, hd, hn => by
    rw [fields]
    cases hi with
    | one hf =>
      cases hf with
      | @mk a b c x m k t v h1 h2 h3 h4 h5 h6 =>
        rw [depthFields, depthField] at hd
        simp only [List.append_assoc, List.cons_append] at hn ⊢
        rw [skip_white h1, skip_self (by decide)]
        dsimp only
        rw [if_pos rfl, parseStr_complete h2 _ _ (by simp)]
        dsimp only
        rw [skip_white h3, skip_self (by decide)]
        dsimp only
        rw [if_pos rfl, value_complete n h4 h5 (by omega) (stops_white h6 (by decide) r) (by
          simp only [List.length_append, List.length_cons] at hn ⊢; omega)]
        dsimp only
        rw [skip_white h6, skip_self (by decide)]
        rfl
    | @more f fs t u hf hr =>
      cases hf with
      | @mk a b c x m k t v h1 h2 h3 h4 h5 h6 =>
        rw [depthFields, depthField] at hd
        simp only [List.append_assoc, List.cons_append] at hn ⊢
        rw [skip_white h1, skip_self (by decide)]
        dsimp only
        rw [if_pos rfl, parseStr_complete h2 _ _ (by simp)]
        dsimp only
        rw [skip_white h3, skip_self (by decide)]
        dsimp only
        rw [if_pos rfl, value_complete n h4 h5 (by omega) (stops_white h6 (by decide) _) (by
          simp only [List.length_append, List.length_cons] at hn ⊢; omega)]
        dsimp only
        rw [skip_white h6, skip_self (by decide)]
        dsimp only
        rw [if_neg (by decide), if_pos rfl, fields_complete n hr (by omega) (by
          simp only [List.length_append, List.length_cons] at hn ⊢; omega)]
        rfl
end

/-- **C89.**  A text is read if and only if it is JSON and not nested too deep; what is read is the value it stands
for. -/
theorem parse_iff (s : Str) (v : Json) : parse s = some v ↔ Document v s ∧ depth v < 128 := by
  constructor
  · intro h
    unfold parse at h
    split at h
    · rename_i v' r h1
      split at h
      · rename_i hr
        cases h
        obtain ⟨w, t, hw, ht, e⟩ := value_sound h1
        refine ⟨⟨w, t, r, hw, ht, ?_, e⟩, value_depth (by omega) h1⟩
        exact (skip_nil_iff r).mp hr
      · cases h
    · cases h
  · rintro ⟨⟨w, t, w', hw, ht, hw', rfl⟩, hd⟩
    have hs : Stops w' := by
      rw [white_iff] at hw'
      intro c hc
      have := hw' c (List.mem_of_mem_head? hc)
      cases hx : isNumChar c with
      | false => rfl
      | true => rw [(numChar_not hx).1] at this; cases this
    unfold parse
    rw [value_complete _ hw ht hd hs (by omega)]
    dsimp only
    rw [if_pos ((skip_nil_iff w').mpr hw')]

/-- A text stands for at most one value (among those not nested too deep). -/
theorem document_unique {s : Str} {v v' : Json} (h : Document v s) (h' : Document v' s) (hd : depth v < 128)
    (hd' : depth v' < 128) : v = v' :=
  Option.some.inj (((parse_iff s v).mpr ⟨h, hd⟩).symm.trans ((parse_iff s v').mpr ⟨h', hd'⟩))

/-- What is written is JSON. -/
theorem print_document (v : Json) (o : Option Nat) (hp : Proper v) (hd : depth v < 128) : Document v (print o v) := by
  have := parse_print v o [] [] hp hd (by simp [Blank]) (by simp [Blank])
  rw [List.nil_append, List.append_nil] at this
  exact ((parse_iff _ _).mp this).1

/-! ### Non-trivial cases -/

example : (parse "{\"a\" : [1.5e-3, \"\\u00e9\\uD83D\\uDE00\\/\", null ], \"a\":{}}".toList).map (print none) =
    some "{\"a\":[1.5e-3,\"é😀/\",null],\"a\":{}}".toList := by decide +kernel

/-- Texts that are refused. -/
example : ∀ t ∈ ["", "[1,]", "{\"a\":1,}", "01", "1.", ".5", "+1", "'a'", "\"\\x\"", "\"\\uDC00\"", "\"a\nb\"",
    "nul", "[1 2]", "{\"a\" 1}", "{a:1}", "1 2", "[", "\"", "NaN", "// c\n1", "-", "1e"], (parse t.toList).isNone := by
  decide +kernel

end Trane.Json
