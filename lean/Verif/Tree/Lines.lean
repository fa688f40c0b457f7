import Verif.Tree.Generators

/-!
# The lines of a simple list
-/

namespace Trane.Tree
open Trane.Store (Str)

/-! ### Specification -/

/-- `line` is a line of the text: what is between two ends of line, the start or the end. -/
def IsLine (text line : Str) : Prop :=
  '\n' ∉ line ∧ ∃ pre post, text = pre ++ line ++ post ∧ (pre = [] ∨ ∃ p, pre = p ++ ['\n']) ∧
    (post = [] ∨ ∃ p, post = '\n' :: p)

/-- The characters that Unicode calls whitespace. -/
def White (c : Char) : Prop :=
  c.toNat ∈ [9, 10, 11, 12, 13, 32, 133, 160, 5760, 8192, 8193, 8194, 8195, 8196, 8197, 8198, 8199, 8200, 8201, 8202,
    8232, 8233, 8239, 8287, 12288]

/-- `q` is what is written in the line: it neither starts nor ends with whitespace and around it there is only
whitespace. -/
def Written (line q : Str) : Prop :=
  ∃ a b, line = a ++ q ++ b ∧ (∀ c ∈ a, White c) ∧ (∀ c ∈ b, White c) ∧
    (∃ c, q.head? = some c ∧ ¬ White c) ∧ (∃ c, q.getLast? = some c ∧ ¬ White c)

/-- `q` is an entry of the simple list in the text. -/
def Listed (text q : Str) : Prop := ∃ line, IsLine text line ∧ Written line q

/-! ### Lemmas -/

theorem isWhite_iff (c : Char) : isWhite c = true ↔ White c := by
  unfold isWhite White
  generalize c.toNat = n
  simp only [Bool.or_eq_true, Bool.and_eq_true, decide_eq_true_eq, beq_iff_eq, List.mem_cons, List.not_mem_nil, or_false]
  omega

theorem isWhite_false (c : Char) : isWhite c = false ↔ ¬ White c := by
  rw [← isWhite_iff, Bool.not_eq_true]

theorem linesOf_cons (s : Str) : ∃ ls, linesOf s = s.takeWhile (· ≠ '\n') :: ls ∧
    ∀ line, line ∈ ls ↔ ∃ p q, s = p ++ '\n' :: q ∧ line = q.takeWhile (· ≠ '\n') := by
  induction s with
  | nil => exact ⟨[], rfl, fun line => by simp⟩
  | cons c s ih =>
    obtain ⟨ls, h1, h2⟩ := ih
    by_cases hc : c = '\n'
    · subst hc
      refine ⟨linesOf s, by simp [linesOf], fun line => ?_⟩
      rw [h1, List.mem_cons, h2]
      constructor
      · rintro (rfl | ⟨p, q, rfl, rfl⟩)
        · exact ⟨[], s, rfl, rfl⟩
        · exact ⟨'\n' :: p, q, rfl, rfl⟩
      · rintro ⟨p, q, h, rfl⟩
        cases p with
        | nil => cases h; exact .inl rfl
        | cons d p => cases h; exact .inr ⟨p, q, rfl, rfl⟩
    · refine ⟨ls, ?_, fun line => ?_⟩
      · rw [linesOf, if_neg hc, h1]
        simp [List.takeWhile_cons, hc]
      · rw [h2]
        constructor
        · rintro ⟨p, q, rfl, rfl⟩; exact ⟨c :: p, q, rfl, rfl⟩
        · rintro ⟨p, q, h, rfl⟩
          cases p with
          | nil => cases h; exact absurd rfl hc
          | cons d p => cases h; exact ⟨p, q, rfl, rfl⟩

theorem takeWhile_line (s : Str) : '\n' ∉ s.takeWhile (· ≠ '\n') ∧
    ∃ post, s = s.takeWhile (· ≠ '\n') ++ post ∧ (post = [] ∨ ∃ p, post = '\n' :: p) := by
  induction s with
  | nil => exact ⟨by simp, [], rfl, .inl rfl⟩
  | cons c s ih =>
    obtain ⟨h1, post, h2, h3⟩ := ih
    by_cases hc : c = '\n'
    · subst hc
      exact ⟨by simp, '\n' :: s, by simp, .inr ⟨s, rfl⟩⟩
    · refine ⟨?_, post, ?_, h3⟩
      · rw [List.takeWhile_cons, if_pos (by simpa using hc)]
        rw [List.mem_cons, not_or]
        exact ⟨fun h => hc h.symm, h1⟩
      · rw [List.takeWhile_cons, if_pos (by simpa using hc), List.cons_append, ← h2]

theorem takeWhile_of_line {line post : Str} (h1 : '\n' ∉ line) (h2 : post = [] ∨ ∃ p, post = '\n' :: p) :
    (line ++ post).takeWhile (· ≠ '\n') = line := by
  rw [List.takeWhile_append_of_pos (by
    intro c hc
    simp only [ne_eq, decide_not, Bool.not_eq_eq_eq_not, Bool.not_true, decide_eq_false_iff_not]
    rintro rfl
    exact h1 hc)]
  rcases h2 with rfl | ⟨p, rfl⟩ <;> simp

theorem mem_linesOf (text line : Str) : line ∈ linesOf text ↔ IsLine text line := by
  obtain ⟨ls, h1, h2⟩ := linesOf_cons text
  rw [h1, List.mem_cons, h2]
  constructor
  · rintro (rfl | ⟨p, q, rfl, rfl⟩)
    · obtain ⟨h, post, h', hp⟩ := takeWhile_line text
      exact ⟨h, [], post, h', .inl rfl, hp⟩
    · obtain ⟨h, post, h', hp⟩ := takeWhile_line q
      refine ⟨h, p ++ ['\n'], post, ?_, .inr ⟨p, rfl⟩, hp⟩
      rw [List.append_assoc, ← h']
      simp
  · rintro ⟨h, pre, post, rfl, rfl | ⟨p, rfl⟩, hp⟩
    · left
      rw [List.nil_append, takeWhile_of_line h hp]
    · right
      refine ⟨p, line ++ post, by simp, ?_⟩
      rw [takeWhile_of_line h hp]

theorem dropWhile_head {s : Str} {c : Char} (h : (s.dropWhile isWhite).head? = some c) : isWhite c = false := by
  induction s with
  | nil => cases h
  | cons d s ih =>
    rw [List.dropWhile_cons] at h
    split at h
    · exact ih h
    · rename_i hd
      cases h
      simpa using hd

theorem dropWhile_white {a q : Str} (ha : ∀ c ∈ a, isWhite c = true) {c : Char} (hq : q.head? = some c)
    (hc : isWhite c = false) : (a ++ q).dropWhile isWhite = q := by
  induction a with
  | nil =>
    cases q with
    | nil => rfl
    | cons d q => cases hq; simp [hc]
  | cons d a ih =>
    rw [List.cons_append, List.dropWhile_cons, if_pos (ha d List.mem_cons_self)]
    exact ih (fun c hc => ha c (List.mem_cons_of_mem _ hc))

theorem mem_takeWhile_white {s : Str} {c : Char} (h : c ∈ s.takeWhile isWhite) : isWhite c = true := by
  induction s with
  | nil => cases h
  | cons d s ih =>
    rw [List.takeWhile_cons] at h
    split at h
    · rcases List.mem_cons.mp h with rfl | h
      · assumption
      · exact ih h
    · cases h

theorem trim_iff (line q : Str) : (trim line = q ∧ q ≠ []) ↔ Written line q := by
  simp only [Written, ← isWhite_iff, Bool.not_eq_true]
  constructor
  · rintro ⟨rfl, hne⟩
    have e1 : line = line.takeWhile isWhite ++ line.dropWhile isWhite := (List.takeWhile_append_dropWhile ..).symm
    have e2 : line.dropWhile isWhite = trim line ++ ((line.dropWhile isWhite).reverse.takeWhile isWhite).reverse := by
      have := (List.takeWhile_append_dropWhile (p := isWhite) (l := (line.dropWhile isWhite).reverse)).symm
      have := congrArg List.reverse this
      rw [List.reverse_reverse, List.reverse_append] at this
      exact this
    refine ⟨line.takeWhile isWhite, ((line.dropWhile isWhite).reverse.takeWhile isWhite).reverse, ?_,
      fun c hc => mem_takeWhile_white hc, fun c hc => mem_takeWhile_white (List.mem_reverse.mp hc),
      ?_, ?_⟩
    · rw [List.append_assoc, ← e2]; exact e1
    · obtain ⟨c, hc⟩ : ∃ c, (trim line).head? = some c := by
        cases h : trim line with
        | nil => exact absurd h hne
        | cons c s => exact ⟨c, rfl⟩
      refine ⟨c, hc, dropWhile_head (s := line) ?_⟩
      rw [e2, List.head?_append, hc]
      rfl
    · obtain ⟨c, hc⟩ : ∃ c, (trim line).getLast? = some c := by
        cases h : (trim line).getLast? with
        | none => exact absurd (List.getLast?_eq_none_iff.mp h) hne
        | some c => exact ⟨c, rfl⟩
      refine ⟨c, hc, dropWhile_head (s := (line.dropWhile isWhite).reverse) ?_⟩
      unfold trim at hc
      rwa [List.getLast?_reverse] at hc
  · rintro ⟨a, b, rfl, ha, hb, ⟨c, hc, hc'⟩, ⟨d, hd, hd'⟩⟩
    refine ⟨?_, by rintro rfl; cases hc⟩
    unfold trim
    rw [List.append_assoc, dropWhile_white ha (c := c) (by rw [List.head?_append, hc]; rfl) hc', List.reverse_append,
      dropWhile_white (fun c hc => hb c (List.mem_reverse.mp hc)) (c := d) (by rw [List.head?_reverse, hd]) hd',
      List.reverse_reverse]

/-- **The entries of a simple list** are what is written in its lines. -/
theorem mem_mdList (text q : Str) : q ∈ mdList text ↔ Listed text q := by
  unfold mdList Listed
  rw [List.mem_filter, List.mem_map]
  constructor
  · rintro ⟨⟨line, hl, rfl⟩, hne⟩
    refine ⟨line, (mem_linesOf _ _).mp hl, (trim_iff _ _).mp ⟨rfl, ?_⟩⟩
    intro h
    rw [h] at hne
    cases hne
  · rintro ⟨line, hl, hw⟩
    obtain ⟨h, hne⟩ := (trim_iff _ _).mpr hw
    refine ⟨⟨line, (mem_linesOf _ _).mpr hl, h⟩, ?_⟩
    cases q with
    | nil => exact absurd rfl hne
    | cons _ _ => rfl

end Trane.Tree
