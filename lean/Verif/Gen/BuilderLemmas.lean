import Verif.Gen.Builder
import Verif.Gen.KnowledgeProps

/-! Lemmas about the files written by the course builders. -/

namespace Trane.Gen.Builder
open Trane.Store Trane.Library Trane.Gen Trane.Filters Trane.Gen.Knowledge
open Trane.Gen.Literacy (stripSuffix stripSuffix_iff)

variable {parse : Str → Content}

/-- The path a write goes to. -/
def Write.path : Write → Str
  | .asset a => a.name
  | .json n _ => n

/-- What reading the file yields afterwards. -/
def Write.result (parse : Str → Content) : Write → Content
  | .asset a => parse a.contents
  | .json _ ct => ct

theorem write_ok {d d' : Dir} {w : Write} (h : write parse d w = (d', true)) :
    d' = d.put w.path (w.result parse) := by
  cases w with
  | asset a =>
    unfold write at h
    dsimp only at h
    split at h
    · injection h with _ h; cases h
    · injection h with h _; exact h.symm
  | json n ct =>
    unfold write at h
    dsimp only at h
    split at h
    · injection h with _ h; cases h
    · injection h with h _; exact h.symm

theorem writeAll_cons_ok {d d' : Dir} {w : Write} {ws : List Write}
    (h : writeAll parse d (w :: ws) = (d', true)) :
    write parse d w = (d.put w.path (w.result parse), true) ∧
      writeAll parse (d.put w.path (w.result parse)) ws = (d', true) := by
  unfold writeAll at h
  split at h
  · rename_i d1 h1
    have e := write_ok h1
    subst e
    exact ⟨h1, h⟩
  · injection h with _ h; cases h

/-- After success every file is an old one that was not written to, or one of those written. -/
theorem writeAll_find_some {d d' : Dir} {ws : List Write} (h : writeAll parse d ws = (d', true))
    {n : Str} {ct : Content} (hf : d'.find n = some ct) :
    (∃ w ∈ ws, w.path = n ∧ w.result parse = ct) ∨ ((∀ w ∈ ws, w.path ≠ n) ∧ d.find n = some ct) := by
  induction ws generalizing d with
  | nil =>
    have : d = d' := congrArg Prod.fst h
    subst this
    exact Or.inr ⟨by simp, hf⟩
  | cons w ws ih =>
    obtain ⟨_, h2⟩ := writeAll_cons_ok h
    rcases ih h2 with ⟨w', hw, hp⟩ | ⟨hno, hd⟩
    · exact Or.inl ⟨w', List.mem_cons_of_mem _ hw, hp⟩
    · rw [AMap.find_put] at hd
      split at hd
      · rename_i he
        injection hd with hd
        exact Or.inl ⟨w, List.mem_cons_self, he, hd⟩
      · rename_i he
        refine Or.inr ⟨fun w' hw' => ?_, hd⟩
        rcases List.mem_cons.1 hw' with rfl | hw'
        · exact he
        · exact hno w' hw'

/-- After success every file written is there, as is every old file. -/
theorem writeAll_find {d d' : Dir} {ws : List Write} (h : writeAll parse d ws = (d', true)) {n : Str}
    (hn : (∃ w ∈ ws, w.path = n) ∨ ∃ ct, d.find n = some ct) : ∃ ct, d'.find n = some ct := by
  induction ws generalizing d with
  | nil =>
    have : d = d' := congrArg Prod.fst h
    subst this
    rcases hn with ⟨w, hw, _⟩ | h
    · cases hw
    · exact h
  | cons w ws ih =>
    obtain ⟨_, h2⟩ := writeAll_cons_ok h
    refine ih h2 ?_
    rcases hn with ⟨w', hw', rfl⟩ | ⟨ct, hd⟩
    · rcases List.mem_cons.1 hw' with rfl | hw'
      · exact Or.inr ⟨_, AMap.find_put_self _ _ _⟩
      · exact Or.inl ⟨w', hw', rfl⟩
    · right
      rw [AMap.find_put]
      split
      · exact ⟨_, rfl⟩
      · exact ⟨ct, hd⟩

theorem write_nodup {d : Dir} {w : Write} (h : d.keys.Nodup) : (write parse d w).1.keys.Nodup := by
  cases w with
  | asset a =>
    unfold write
    dsimp only
    split
    · exact h
    · exact AMap.nodup_keys_put _ _ _ h
  | json n ct =>
    unfold write
    dsimp only
    split
    · exact h
    · exact AMap.nodup_keys_put _ _ _ h

theorem writeAll_nodup {d : Dir} {ws : List Write} (h : d.keys.Nodup) :
    (writeAll parse d ws).1.keys.Nodup := by
  induction ws generalizing d with
  | nil => exact h
  | cons w ws ih =>
    have h1 := write_nodup (parse := parse) (w := w) h
    unfold writeAll
    split
    · rename_i d1 e; rw [e] at h1; exact ih h1
    · rename_i d1 e; rw [e] at h1; exact h1

/-- An asset is written to a path that did not exist. -/
theorem asset_new {d d' : Dir} {a : Asset} (h : write parse d (.asset a) = (d', true)) :
    d.find a.name = none := by
  unfold write at h
  dsimp only at h
  split at h
  · injection h with _ h; cases h
  · rename_i hne
    cases hf : d.find a.name with
    | none => rfl
    | some ct =>
      exfalso
      apply hne
      have : d.any (fun e => decide (e.1 = a.name)) = true := by
        rw [List.any_eq_true]
        exact ⟨_, AMap.mem_of_find hf, by simp⟩
      unfold pathExists
      simp [this]

end Trane.Gen.Builder
