/-!
# SQLite's `LIKE`

The prefix removals build the pattern `format!("{}%", prefix)` and pass it to `LIKE` without an
`ESCAPE` clause (/repo/src/blacklist.rs:134-155, /repo/src/practice_stats.rs:185-205,
/repo/src/practice_deltas.rs:163-180, /repo/src/practice_rewards.rs:251-268).
-/

namespace Trane.Store

/-- The text of an id. -/
abbrev Str := List Char

/-- All suffixes of a string, longest first. -/
def suffixes : Str → List Str
  | [] => [[]]
  | c :: s => (c :: s) :: suffixes s

/-- SQLite's `LIKE` operator as documented: `%` matches any sequence, `_` any one character, and
every other character matches itself up to ASCII case (`Char.toLower` only changes `A`–`Z`).
Used in /repo/src/practice_stats.rs:189 and /repo/src/blacklist.rs:138. -/
def like : Str → Str → Bool
  | [], s => s.isEmpty
  | c :: p, s =>
    if c = '%' then (suffixes s).any (like p)
    else
      match s with
      | [] => false
      | d :: s => (c = '_' || c.toLower == d.toLower) && like p s

/-- The condition `unit_id LIKE format!("{}%", prefix)`. As in /repo/src/practice_stats.rs:189. -/
def likePrefix (p s : Str) : Bool := like (p ++ ['%']) s

theorem mem_suffixes (s t : Str) : t ∈ suffixes s ↔ t <:+ s := by
  induction s with
  | nil => simp [suffixes]
  | cons c s ih => simp [suffixes, ih, List.suffix_cons_iff]

theorem like_percent (s : Str) : like ['%'] s = true := by
  simp only [like, if_true, List.any_eq_true]
  exact ⟨[], (mem_suffixes s []).2 (List.nil_suffix), rfl⟩

/-- Every string that starts with the prefix matches. -/
theorem likePrefix_of_prefix (p s : Str) (h : p <+: s) : likePrefix p s = true := by
  induction p generalizing s with
  | nil => exact like_percent s
  | cons c p ih =>
    obtain ⟨t, rfl⟩ := h
    have ih := ih (p ++ t) ⟨t, rfl⟩
    simp only [likePrefix] at ih
    simp only [likePrefix, List.cons_append, like]
    split
    · rw [List.any_eq_true]
      exact ⟨p ++ t, (mem_suffixes _ _).2 (List.suffix_cons _ _), ih⟩
    · simp [ih]

/-- Without wildcards the match is prefix comparison up to ASCII case. -/
theorem likePrefix_iff (p s : Str) (hp : '%' ∉ p ∧ '_' ∉ p) :
    likePrefix p s = true ↔ p.map Char.toLower <+: s.map Char.toLower := by
  induction p generalizing s with
  | nil => simp [likePrefix, like_percent]
  | cons c p ih =>
    simp only [List.mem_cons, not_or] at hp
    have ih := fun s => ih s ⟨hp.1.2, hp.2.2⟩
    simp only [likePrefix] at ih
    simp only [likePrefix, List.cons_append, like, if_neg (Ne.symm hp.1.1)]
    cases s with
    | nil => simp
    | cons d s => simp [ih, Ne.symm hp.2.1, List.cons_prefix_cons]

/-- A prefix without wildcards and without ASCII letters is compared exactly. -/
theorem likePrefix_iff_prefix (p s : Str) (hp : '%' ∉ p ∧ '_' ∉ p)
    (hl : ∀ c ∈ p, ∀ d : Char, c.toLower = d.toLower → c = d) :
    likePrefix p s = true ↔ p <+: s := by
  rw [likePrefix_iff p s hp]
  induction p generalizing s with
  | nil => simp
  | cons c p ih =>
    simp only [List.mem_cons, not_or] at hp
    cases s with
    | nil => simp
    | cons d s =>
      simp only [List.map_cons, List.cons_prefix_cons]
      rw [ih s ⟨hp.1.2, hp.2.2⟩ (fun c hc => hl c (by simp [hc]))]
      constructor
      · rintro ⟨h1, h2⟩; exact ⟨hl c (by simp) d h1, h2⟩
      · rintro ⟨h1, h2⟩; exact ⟨by rw [h1], h2⟩

example : likePrefix "a_b".toList "axb::1".toList = true ∧ likePrefix "A".toList "abc".toList = true ∧
    likePrefix "ab".toList "xab".toList = false := by decide

end Trane.Store
