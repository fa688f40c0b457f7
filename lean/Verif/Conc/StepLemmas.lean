import Verif.Conc.Lemmas
import Mathlib.Data.List.Perm.Basic
import Mathlib.Tactic.Linarith

/-! # Helper lemmas: steps of threads -/

namespace Trane.Conc

theorem contains_false {h : Held} {x : Res × Mode} : h.contains x = false ↔ x ∉ h := by
  rw [← Bool.not_eq_true, List.contains_iff_mem]

theorem has_false {t : Thread} {l : Lock} : t.has l = false ↔ ∀ m, (Res.lock l, m) ∉ t.held := by
  unfold Thread.has
  rw [Bool.or_eq_false_iff, contains_false, contains_false]
  constructor
  · rintro ⟨h1, h2⟩ m
    cases m
    · exact h1
    · exact h2
  · intro h
    exact ⟨h _, h _⟩

theorem wants_true {t : Thread} {l : Lock} :
    t.wants l = true ↔ t.waiting = true ∧ ∃ r, t.rest = .take (.lock l) .write :: r := by
  unfold Thread.wants
  rw [Bool.and_eq_true, decide_eq_true_eq]
  constructor
  · rintro ⟨h1, h2⟩
    refine ⟨h1, ?_⟩
    cases hr : t.rest with
    | nil => rw [hr] at h2; simp at h2
    | cons x r => rw [hr] at h2; simp at h2; exact ⟨r, by rw [h2]⟩
  · rintro ⟨h1, r, h2⟩
    exact ⟨h1, by rw [h2]; rfl⟩

/-- The three kinds of steps. -/
theorem step_cases {b : Bool} {s s' : List Thread} {i : Nat} (h : stepAt b s i = some s') :
    ∃ t, s[i]? = some t ∧
      ((∃ r m rest, t.rest = .drop r m :: rest ∧
          s' = s.set i ⟨t.held.erase (r, m), false, rest⟩) ∨
       (∃ r m rest, t.rest = .take r m :: rest ∧ s' = s.set i ⟨(r, m) :: t.held, false, rest⟩) ∨
       (∃ l rest, t.rest = .take (.lock l) .write :: rest ∧ t.waiting = false ∧
          s' = s.set i ⟨t.held, true, t.rest⟩)) := by
  unfold stepAt at h
  cases ht : s[i]? with
  | none => rw [ht] at h; simp at h
  | some t =>
    refine ⟨t, rfl, ?_⟩
    rw [ht] at h
    simp only at h
    cases hr : t.rest with
    | nil => rw [hr] at h; simp at h
    | cons x rest =>
      rw [hr] at h
      cases x with
      | drop r m =>
        left
        exact ⟨r, m, rest, rfl, (Option.some.inj h).symm⟩
      | take r m =>
        cases r with
        | cell c => right; left; exact ⟨_, _, _, rfl, (Option.some.inj h).symm⟩
        | lock l =>
          cases m with
          | read =>
            simp only at h
            split at h
            · right; left; exact ⟨_, _, _, rfl, (Option.some.inj h).symm⟩
            · cases h
          | write =>
            simp only at h
            split at h
            · split at h
              · right; left; exact ⟨_, _, _, rfl, (Option.some.inj h).symm⟩
              · cases h
            · rename_i hw
              right; right
              exact ⟨l, rest, rfl, by simpa using hw, (Option.some.inj h).symm⟩

/-- What holds of each thread between steps. -/
structure TOk (ok : Held → Res → Mode → Prop) (t : Thread) : Prop where
  disc : Disc ok t.held t.rest
  last : after t.held t.rest = []
  wait : t.waiting = true → ∃ l r, t.rest = .take (.lock l) .write :: r

theorem TOk.step {ok : Held → Res → Mode → Prop} {b : Bool} {s s' : List Thread} {i : Nat}
    (h : stepAt b s i = some s') (hs : ∀ t ∈ s, TOk ok t) : ∀ t ∈ s', TOk ok t := by
  obtain ⟨t, ht, hc⟩ := step_cases h
  have h0 := hs t (List.mem_of_getElem? ht)
  rcases hc with ⟨r, m, rest, hr, rfl⟩ | ⟨r, m, rest, hr, rfl⟩ | ⟨l, rest, hr, hw, rfl⟩
  · intro u hu
    rcases List.mem_or_eq_of_mem_set hu with hu | rfl
    · exact hs u hu
    · have hd := h0.disc
      have hl := h0.last
      rw [hr] at hd hl
      exact ⟨hd, hl, fun hw => by simp at hw⟩
  · intro u hu
    rcases List.mem_or_eq_of_mem_set hu with hu | rfl
    · exact hs u hu
    · have hd := h0.disc
      have hl := h0.last
      rw [hr] at hd hl
      exact ⟨hd.2, hl, fun hw => by simp at hw⟩
  · intro u hu
    rcases List.mem_or_eq_of_mem_set hu with hu | rfl
    · exact hs u hu
    · exact ⟨h0.disc, h0.last, fun _ => ⟨l, rest, hr⟩⟩

/-- A property that every step keeps holds of all states that are reached. -/
theorem reach_induct {b : Bool} {P : List Thread → Prop} {s s' : List Thread} (h : Reach b s s')
    (h0 : P s) (hstep : ∀ s i s', stepAt b s i = some s' → P s → P s') : P s' := by
  obtain ⟨n, sched, -, he⟩ := h
  induction sched generalizing s with
  | nil => simp only [exec, Option.some.injEq] at he; rw [← he]; exact h0
  | cons i is ih =>
    simp only [exec] at he
    cases hs : stepAt b s i with
    | none => rw [hs] at he; simp at he
    | some s1 =>
      rw [hs] at he
      exact ih (hstep s i s1 hs h0) he

theorem start_tok {ok : Held → Res → Mode → Prop} {acts : List (List Act)}
    (h : ∀ a ∈ acts, Disc ok [] a ∧ after [] a = []) : ∀ t ∈ start acts, TOk ok t := by
  intro t ht
  obtain ⟨a, ha, rfl⟩ := List.mem_map.1 ht
  exact ⟨(h a ha).1, (h a ha).2, fun hw => by simp at hw⟩

/-! ## Every step brings the threads closer to the end -/

def todo (t : Thread) : Nat := 2 * t.rest.length - (if t.waiting then 1 else 0)

theorem sum_set_lt (f : Thread → Nat) (x : Thread) : ∀ (s : List Thread) (i : Nat) (t : Thread),
    s[i]? = some t → f x < f t → ((s.set i x).map f).sum < (s.map f).sum
  | [], i, t, h, _ => by simp at h
  | y :: s, 0, t, h, hlt => by
    simp at h
    subst h
    simp
    exact hlt
  | y :: s, i + 1, t, h, hlt => by
    simp only [List.getElem?_cons_succ] at h
    have := sum_set_lt f x s i t h hlt
    simp only [List.set_cons_succ, List.map_cons, List.sum_cons]
    omega

theorem todo_step {b : Bool} {s s' : List Thread} {i : Nat} (h : stepAt b s i = some s') :
    (s'.map todo).sum < (s.map todo).sum := by
  obtain ⟨t, ht, hc⟩ := step_cases h
  rcases hc with ⟨r, m, rest, hr, rfl⟩ | ⟨r, m, rest, hr, rfl⟩ | ⟨l, rest, hr, hw, rfl⟩
  · apply sum_set_lt todo _ s i t ht
    simp only [todo, hr, List.length_cons]
    cases t.waiting <;> simp <;> omega
  · apply sum_set_lt todo _ s i t ht
    simp only [todo, hr, List.length_cons]
    cases t.waiting <;> simp <;> omega
  · apply sum_set_lt todo _ s i t ht
    simp only [todo, hr, hw, List.length_cons]
    simp

theorem runs_le {b : Bool} {s s' : List Thread} {n : Nat} (h : Runs b s n s') :
    n + (s'.map todo).sum ≤ (s.map todo).sum := by
  obtain ⟨sched, hl, he⟩ := h
  induction sched generalizing s n with
  | nil => simp only [exec, Option.some.injEq] at he; subst he; simp at hl; omega
  | cons i is ih =>
    simp only [exec] at he
    cases hs : stepAt b s i with
    | none => rw [hs] at he; simp at he
    | some s1 =>
      rw [hs] at he
      have h1 := ih (n := is.length) rfl he
      have h2 := todo_step hs
      simp at hl
      omega

theorem start_todo (acts : List (List Act)) :
    ((start acts).map todo).sum = 2 * (acts.map List.length).sum := by
  induction acts with
  | nil => rfl
  | cons a acts ih =>
    simp only [start, List.map_cons, List.sum_cons] at ih ⊢
    rw [ih]
    simp [todo]
    omega

end Trane.Conc
