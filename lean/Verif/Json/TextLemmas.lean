import Verif.Json.Text

/-!
# Lemmas about reading and writing JSON texts
-/

namespace Trane.Json
open Trane.Store (Str)

/-! ### What is left gets shorter -/

theorem skip_le (s : Str) : (skip s).length ≤ s.length := (List.dropWhile_suffix _).length_le

theorem skip_cons_lt {s r : Str} {c : Char} (h : skip s = c :: r) : r.length < s.length := by
  have := skip_le s; rw [h, List.length_cons] at this; omega

theorem hex4_lt {s r : Str} {n : Nat} (h : hex4 s = some (n, r)) : r.length < s.length := by
  unfold hex4 at h
  split at h
  · simp only [Option.bind_eq_bind, Option.bind_eq_some_iff, Option.some.injEq, Prod.mk.injEq] at h
    obtain ⟨_, _, _, _, _, _, _, _, _, h⟩ := h
    subst h; simp; omega
  · cases h

theorem unicode_lt {s r : Str} {c : Char} (h : unicode s = some (c, r)) : r.length < s.length := by
  unfold unicode at h
  split at h
  · cases h
  · rename_i n r1 h1
    have l1 := hex4_lt h1
    split at h
    · cases h
    · split at h
      · split at h
        · rename_i r2
          split at h
          · cases h
          · rename_i m r3 h3
            have l3 := hex4_lt h3
            split at h
            · simp only [Option.some.injEq, Prod.mk.injEq] at h
              obtain ⟨_, rfl⟩ := h
              simp only [List.length_cons] at l1; omega
            · cases h
        · cases h
      · cases h; exact l1

theorem oneChar_lt {s r : Str} {c : Char} (h : oneChar s = some (c, r)) : r.length < s.length := by
  unfold oneChar at h
  split at h
  · cases h
  · split at h
    · split at h
      · cases h
      · repeat' split at h
        all_goals first | (cases h; done) | (have := unicode_lt h; simp; omega) | (cases h; simp; omega)
    · split at h
      · cases h
      · cases h; simp

theorem parseStr_lt : ∀ {n : Nat} {s k r : Str}, parseStr n s = some (k, r) → r.length < s.length
  | 0, _, _, _, h => by simp [parseStr] at h
  | _ + 1, [], _, _, h => by simp [parseStr] at h
  | n + 1, c :: s, k, r, h => by
    rw [parseStr] at h
    split at h
    · cases h; simp
    · split at h
      · cases h
      · rename_i x r1 h1
        have l1 := oneChar_lt h1
        simp only [Option.map_eq_some_iff, Prod.mk.injEq] at h
        obtain ⟨⟨k', r'⟩, h2, _, rfl⟩ := h
        have := parseStr_lt h2
        simp only at this ⊢
        omega

theorem parseStr_fuel : ∀ {n m : Nat} {s : Str}, s.length ≤ n → s.length ≤ m → parseStr n s = parseStr m s
  | 0, 0, _, _, _ => rfl
  | 0, m + 1, [], _, _ => rfl
  | n + 1, 0, [], _, _ => rfl
  | n + 1, m + 1, [], _, _ => rfl
  | n + 1, m + 1, c :: s, h1, h2 => by
    rw [parseStr, parseStr]
    split
    · rfl
    · split
      · rfl
      · rename_i x r h
        have := oneChar_lt h
        rw [parseStr_fuel (n := n) (m := m)] <;> simp at * <;> omega

theorem literal_le {w r r' : Str} {v v' : Json} (h : literal w v r = some (v', r')) :
    r'.length ≤ r.length := by
  unfold literal at h
  split at h
  · cases h; simp
  · cases h

theorem number_lt {s r : Str} {v : Json} (h : number s = some (v, r)) : r.length < s.length := by
  unfold number at h
  split at h
  · rename_i hn
    cases h
    have h1 := congrArg List.length (List.takeWhile_append_dropWhile (p := isNumChar) (l := s))
    rw [List.length_append] at h1
    have : s.takeWhile isNumChar ≠ [] := by
      intro h0; rw [h0] at hn; simp [isNum, isUnsigned, isDigits] at hn
    have := List.length_pos_iff.mpr this
    omega
  · cases h

mutual
theorem value_lt : ∀ {n d : Nat} {s r : Str} {v : Json}, value n d s = some (v, r) → r.length < s.length
  | 0, _, _, _, _, h => by simp [value] at h
  | n + 1, d, s, r, v, h => by
    rw [value] at h
    split at h
    · cases h
    · rename_i c r1 h1
      have l1 := skip_cons_lt h1
      split at h
      · have := literal_le h; omega
      split at h
      · have := literal_le h; omega
      split at h
      · have := literal_le h; omega
      split at h
      · simp only [Option.map_eq_some_iff, Prod.mk.injEq] at h
        obtain ⟨⟨k', r'⟩, h2, _, rfl⟩ := h
        have := parseStr_lt h2
        simp only at this ⊢; omega
      split at h
      · split at h
        · cases h
        · split at h
          · cases h
          · rename_i e r2 h2
            have l2 := skip_cons_lt h2
            split at h
            · cases h; omega
            · simp only [Option.map_eq_some_iff, Prod.mk.injEq] at h
              obtain ⟨⟨k', r'⟩, h3, _, rfl⟩ := h
              have := items_lt h3
              simp only [List.length_cons] at this ⊢; omega
      split at h
      · split at h
        · cases h
        · split at h
          · cases h
          · rename_i e r2 h2
            have l2 := skip_cons_lt h2
            split at h
            · cases h; omega
            · simp only [Option.map_eq_some_iff, Prod.mk.injEq] at h
              obtain ⟨⟨k', r'⟩, h3, _, rfl⟩ := h
              have := fields_lt h3
              simp only [List.length_cons] at this ⊢; omega
      · have := number_lt h
        simp at this; omega
theorem items_lt : ∀ {n d : Nat} {s r : Str} {v : List Json}, items n d s = some (v, r) → r.length < s.length
  | 0, _, _, _, _, h => by simp [items] at h
  | n + 1, d, s, r, v, h => by
    rw [items] at h
    split at h
    · cases h
    · rename_i x r1 h1
      have l1 := value_lt h1
      split at h
      · cases h
      · rename_i c r2 h2
        have l2 := skip_cons_lt h2
        split at h
        · cases h; omega
        · split at h
          · simp only [Option.map_eq_some_iff, Prod.mk.injEq] at h
            obtain ⟨⟨k', r'⟩, h3, _, rfl⟩ := h
            have := items_lt h3
            simp only at this ⊢; omega
          · cases h
theorem fields_lt : ∀ {n d : Nat} {s r : Str} {v : List (Str × Json)},
    fields n d s = some (v, r) → r.length < s.length
  | 0, _, _, _, _, h => by simp [fields] at h
  | n + 1, d, s, r, v, h => by
    rw [fields] at h
    split at h
    · cases h
    · rename_i c r1 h1
      have l1 := skip_cons_lt h1
      split at h
      · split at h
        · cases h
        · rename_i k r2 h2
          have l2 := parseStr_lt h2
          split at h
          · cases h
          · rename_i c r3 h3
            have l3 := skip_cons_lt h3
            split at h
            · split at h
              · cases h
              · rename_i v r4 h4
                have l4 := value_lt h4
                split at h
                · cases h
                · rename_i c r5 h5
                  have l5 := skip_cons_lt h5
                  split at h
                  · cases h; omega
                  · split at h
                    · simp only [Option.map_eq_some_iff, Prod.mk.injEq] at h
                      obtain ⟨⟨k', r'⟩, h6, _, rfl⟩ := h
                      have := fields_lt h6
                      simp only at this ⊢; omega
                    · cases h
            · cases h
      · cases h
end

/-! ### The fuel is enough -/

mutual
theorem value_fuel : ∀ {n m d : Nat} {s : Str}, 2 * s.length < n → 2 * s.length < m →
    value n d s = value m d s
  | n + 1, m + 1, d, s, h1, h2 => by
    rw [value, value]
    split
    · rfl
    · rename_i c r h
      have l := skip_cons_lt h
      have a : ∀ e r2, skip r = e :: r2 → items n (d - 1) (e :: r2) = items m (d - 1) (e :: r2) := by
        intro e r2 h'
        have l' := skip_le r
        rw [h'] at l'
        exact items_fuel (by omega) (by omega)
      have b : ∀ e r2, skip r = e :: r2 → fields n (d - 1) (e :: r2) = fields m (d - 1) (e :: r2) := by
        intro e r2 h'
        have l' := skip_le r
        rw [h'] at l'
        exact fields_fuel (by omega) (by omega)
      cases hr : skip r with
      | nil => rfl
      | cons e r2 => simp only [a e r2 hr, b e r2 hr]
theorem items_fuel : ∀ {n m d : Nat} {s : Str}, 2 * s.length + 1 < n → 2 * s.length + 1 < m →
    items n d s = items m d s
  | n + 1, m + 1, d, s, h1, h2 => by
    rw [items, items, value_fuel (n := n) (m := m) (by omega) (by omega)]
    cases hv : value m d s with
    | none => rfl
    | some p =>
      obtain ⟨x, r⟩ := p
      have l := value_lt hv
      dsimp only
      cases hr : skip r with
      | nil => rfl
      | cons c r2 =>
        have l' := skip_cons_lt hr
        dsimp only
        rw [items_fuel (n := n) (m := m) (s := r2) (by omega) (by omega)]
theorem fields_fuel : ∀ {n m d : Nat} {s : Str}, 2 * s.length + 1 < n → 2 * s.length + 1 < m →
    fields n d s = fields m d s
  | n + 1, m + 1, d, s, h1, h2 => by
    rw [fields, fields]
    cases hs : skip s with
    | nil => rfl
    | cons c r1 =>
      have l1 := skip_cons_lt hs
      dsimp only
      split
      · cases hk : parseStr r1.length r1 with
        | none => rfl
        | some p =>
          obtain ⟨k, r2⟩ := p
          have l2 := parseStr_lt hk
          dsimp only
          cases h3 : skip r2 with
          | nil => rfl
          | cons c3 r3 =>
            have l3 := skip_cons_lt h3
            dsimp only
            rw [value_fuel (n := n) (m := m) (s := r3) (by omega) (by omega)]
            cases hv : value m d r3 with
            | none => rfl
            | some q =>
              obtain ⟨v, r4⟩ := q
              have l4 := value_lt hv
              dsimp only
              cases h5 : skip r4 with
              | nil => rfl
              | cons c5 r5 =>
                have l5 := skip_cons_lt h5
                dsimp only
                rw [fields_fuel (n := n) (m := m) (s := r5) (by omega) (by omega)]
      · rfl
end

/-! ### A text that goes on -/

theorem skip_append {s t r : Str} {c : Char} (h : skip s = c :: r) : skip (s ++ t) = c :: (r ++ t) := by
  unfold skip at *
  rw [List.dropWhile_append]
  rw [h]; simp

theorem hex4_append {s r : Str} {n : Nat} (t : Str) (h : hex4 s = some (n, r)) :
    hex4 (s ++ t) = some (n, r ++ t) := by
  unfold hex4 at h
  split at h
  · rename_i a b c d r'
    simp only [Option.bind_eq_bind, Option.bind_eq_some_iff, Option.some.injEq, Prod.mk.injEq] at h
    obtain ⟨_, h1, _, h2, _, h3, _, h4, h5, rfl⟩ := h
    simp [hex4, h1, h2, h3, h4, h5]
  · cases h

theorem unicode_append {s r : Str} {c : Char} (t : Str) (h : unicode s = some (c, r)) :
    unicode (s ++ t) = some (c, r ++ t) := by
  unfold unicode at h
  split at h
  · cases h
  · rename_i n r1 h1
    unfold unicode
    rw [hex4_append t h1]
    dsimp only
    split at h
    · cases h
    · rename_i hn
      rw [if_neg hn]
      split at h
      · rename_i hs
        rw [if_pos hs]
        split at h
        · rename_i r2
          split at h
          · cases h
          · rename_i m r3 h3
            simp only [List.cons_append, hex4_append t h3]
            split at h
            · rename_i hm
              rw [if_pos hm]
              simp only [Option.some.injEq, Prod.mk.injEq] at h
              obtain ⟨rfl, rfl⟩ := h
              rfl
            · cases h
        · cases h
      · rename_i hs
        rw [if_neg hs]
        cases h; rfl

theorem oneChar_append {s r : Str} {c : Char} (t : Str) (h : oneChar s = some (c, r)) :
    oneChar (s ++ t) = some (c, r ++ t) := by
  cases s with
  | nil => simp [oneChar] at h
  | cons a s =>
    unfold oneChar at h ⊢
    simp only [List.cons_append] at h ⊢
    split at h
    · rename_i ha
      rw [if_pos ha]
      cases s with
      | nil => cases h
      | cons e s =>
        simp only [List.cons_append] at h ⊢
        repeat' split at h
        all_goals first
          | (cases h; done)
          | (simp only [*, if_true, if_false]; first | exact unicode_append t h | (cases h; rfl))
          | (rename_i h1 h2 h3 h4 h5 h6 h7
             simp only [h1, h2, h3, h4, h5, h6, h7, if_true, if_false]
             first | exact unicode_append t h | (cases h; rfl))
    · rename_i ha
      rw [if_neg ha]
      split at h
      · cases h
      · rename_i h1; rw [if_neg h1]; cases h; rfl

theorem parseStr_append : ∀ {n : Nat} {s k r : Str} (t : Str), parseStr n s = some (k, r) →
    parseStr (n + t.length) (s ++ t) = some (k, r ++ t)
  | 0, _, _, _, _, h => by simp [parseStr] at h
  | _ + 1, [], _, _, _, h => by simp [parseStr] at h
  | n + 1, c :: s, k, r, t, h => by
    rw [parseStr] at h
    rw [show n + 1 + t.length = (n + t.length) + 1 by omega, List.cons_append, parseStr]
    split at h
    · rename_i hc; rw [if_pos hc]; cases h; rfl
    · rename_i hc; rw [if_neg hc]
      split at h
      · cases h
      · rename_i x r1 h1
        have := oneChar_append t h1
        rw [List.cons_append] at this
        rw [this]
        simp only [Option.map_eq_some_iff, Prod.mk.injEq] at h ⊢
        obtain ⟨⟨k', r'⟩, h2, rfl, rfl⟩ := h
        exact ⟨(k', r' ++ t), parseStr_append t h2, rfl, rfl⟩

theorem parseStr_append' {s k r : Str} (t : Str) (h : parseStr s.length s = some (k, r)) :
    parseStr (s ++ t).length (s ++ t) = some (k, r ++ t) := by
  rw [List.length_append]; exact parseStr_append t h

theorem literal_append {w r r' : Str} {v v' : Json} (t : Str) (h : literal w v r = some (v', r')) :
    literal w v (r ++ t) = some (v', r' ++ t) := by
  unfold literal at *
  split at h
  · rename_i hp
    cases h
    rw [List.isPrefixOf_iff_prefix] at hp
    obtain ⟨u, rfl⟩ := hp
    rw [if_pos (by rw [List.isPrefixOf_iff_prefix, List.append_assoc]; exact List.prefix_append _ _)]
    simp
  · cases h

theorem number_append {s r : Str} {v : Json} (t : Str) (h : number s = some (v, r)) (hr : r ≠ []) :
    number (s ++ t) = some (v, r ++ t) := by
  unfold number at *
  split at h
  · rename_i hn
    cases h
    have h1 : ¬ (s.takeWhile isNumChar).length = s.length := by
      intro h0
      have h1 := congrArg List.length (List.takeWhile_append_dropWhile (p := isNumChar) (l := s))
      rw [List.length_append] at h1
      exact hr (List.length_eq_zero_iff.mp (by omega))
    have h2 : (s.dropWhile isNumChar).isEmpty = false := by
      cases hd : s.dropWhile isNumChar with
      | nil => exact absurd hd hr
      | cons a b => rfl
    rw [List.takeWhile_append, if_neg h1, List.dropWhile_append, h2]
    simp [hn]
  · cases h

mutual
theorem value_append : ∀ {n d : Nat} {s r : Str} {v : Json} (t : Str), value n d s = some (v, r) →
    (r ≠ [] ∨ ∀ x, v ≠ .num x) → value n d (s ++ t) = some (v, r ++ t)
  | 0, _, _, _, _, _, h, _ => by simp [value] at h
  | n + 1, d, s, r, v, t, h, hr => by
    rw [value] at h ⊢
    cases h1 : skip s with
    | nil => rw [h1] at h; cases h
    | cons c r1 =>
      rw [h1] at h
      rw [skip_append h1]
      dsimp only at h ⊢
      split at h
      · rename_i hc; rw [if_pos hc]; exact literal_append t h
      rename_i hc; rw [if_neg hc]
      split at h
      · rename_i hc; rw [if_pos hc]; exact literal_append t h
      rename_i hc; rw [if_neg hc]
      split at h
      · rename_i hc; rw [if_pos hc]; exact literal_append t h
      rename_i hc; rw [if_neg hc]
      split at h
      · rename_i hc; rw [if_pos hc]
        simp only [Option.map_eq_some_iff, Prod.mk.injEq] at h ⊢
        obtain ⟨⟨k', r'⟩, h2, rfl, rfl⟩ := h
        exact ⟨(k', r' ++ t), parseStr_append' t h2, rfl, rfl⟩
      rename_i hc; rw [if_neg hc]
      split at h
      · rename_i hc; rw [if_pos hc]
        split at h
        · cases h
        rename_i hd; rw [if_neg hd]
        cases h2 : skip r1 with
        | nil => rw [h2] at h; cases h
        | cons e r2 =>
          rw [h2] at h
          rw [skip_append h2]
          dsimp only at h ⊢
          split at h
          · rename_i he; rw [if_pos he]; cases h; rfl
          · rename_i he; rw [if_neg he]
            simp only [Option.map_eq_some_iff, Prod.mk.injEq] at h ⊢
            obtain ⟨⟨k', r'⟩, h3, rfl, rfl⟩ := h
            exact ⟨(k', r' ++ t), items_append t h3, rfl, rfl⟩
      rename_i hc; rw [if_neg hc]
      split at h
      · rename_i hc; rw [if_pos hc]
        split at h
        · cases h
        rename_i hd; rw [if_neg hd]
        cases h2 : skip r1 with
        | nil => rw [h2] at h; cases h
        | cons e r2 =>
          rw [h2] at h
          rw [skip_append h2]
          dsimp only at h ⊢
          split at h
          · rename_i he; rw [if_pos he]; cases h; rfl
          · rename_i he; rw [if_neg he]
            simp only [Option.map_eq_some_iff, Prod.mk.injEq] at h ⊢
            obtain ⟨⟨k', r'⟩, h3, rfl, rfl⟩ := h
            exact ⟨(k', r' ++ t), fields_append t h3, rfl, rfl⟩
      rename_i hc; rw [if_neg hc]
      rw [← List.cons_append]
      refine number_append t h ?_
      rcases hr with hr | hr
      · exact hr
      · unfold number at h
        split at h
        · cases h; exact absurd rfl (hr _)
        · cases h
theorem items_append : ∀ {n d : Nat} {s r : Str} {v : List Json} (t : Str), items n d s = some (v, r) →
    items n d (s ++ t) = some (v, r ++ t)
  | 0, _, _, _, _, _, h => by simp [items] at h
  | n + 1, d, s, r, v, t, h => by
    rw [items] at h ⊢
    cases hv : value n d s with
    | none => rw [hv] at h; cases h
    | some p =>
      obtain ⟨x, r1⟩ := p
      rw [hv] at h
      dsimp only at h
      cases h2 : skip r1 with
      | nil => rw [h2] at h; cases h
      | cons c r2 =>
        rw [h2] at h
        rw [value_append t hv (Or.inl (by rintro rfl; simp [skip] at h2))]
        dsimp only at h ⊢
        rw [skip_append h2]
        dsimp only
        split at h
        · rename_i hc; rw [if_pos hc]; cases h; rfl
        · rename_i hc; rw [if_neg hc]
          split at h
          · rename_i hc; rw [if_pos hc]
            simp only [Option.map_eq_some_iff, Prod.mk.injEq] at h ⊢
            obtain ⟨⟨k', r'⟩, h3, rfl, rfl⟩ := h
            exact ⟨(k', r' ++ t), items_append t h3, rfl, rfl⟩
          · cases h
theorem fields_append : ∀ {n d : Nat} {s r : Str} {v : List (Str × Json)} (t : Str),
    fields n d s = some (v, r) → fields n d (s ++ t) = some (v, r ++ t)
  | 0, _, _, _, _, _, h => by simp [fields] at h
  | n + 1, d, s, r, v, t, h => by
    rw [fields] at h ⊢
    cases h1 : skip s with
    | nil => rw [h1] at h; cases h
    | cons c r1 =>
      rw [h1] at h
      rw [skip_append h1]
      dsimp only at h ⊢
      split at h
      · rename_i hc; rw [if_pos hc]
        cases hk : parseStr r1.length r1 with
        | none => rw [hk] at h; cases h
        | some p =>
          obtain ⟨k, r2⟩ := p
          rw [hk] at h
          rw [parseStr_append' t hk]
          dsimp only at h ⊢
          cases h3 : skip r2 with
          | nil => rw [h3] at h; cases h
          | cons c3 r3 =>
            rw [h3] at h
            rw [skip_append h3]
            dsimp only at h ⊢
            split at h
            · rename_i hc; rw [if_pos hc]
              cases hv : value n d r3 with
              | none => rw [hv] at h; cases h
              | some q =>
                obtain ⟨x, r4⟩ := q
                rw [hv] at h
                dsimp only at h
                cases h5 : skip r4 with
                | nil => rw [h5] at h; cases h
                | cons c5 r5 =>
                  rw [h5] at h
                  rw [value_append t hv (Or.inl (by rintro rfl; simp [skip] at h5))]
                  dsimp only at h ⊢
                  rw [skip_append h5]
                  dsimp only
                  split at h
                  · rename_i hc; rw [if_pos hc]; cases h; rfl
                  · rename_i hc; rw [if_neg hc]
                    split at h
                    · rename_i hc; rw [if_pos hc]
                      simp only [Option.map_eq_some_iff, Prod.mk.injEq] at h ⊢
                      obtain ⟨⟨k', r'⟩, h6, rfl, rfl⟩ := h
                      exact ⟨(k', r' ++ t), fields_append t h6, rfl, rfl⟩
                    · cases h
            · cases h
      · cases h
end

end Trane.Json
