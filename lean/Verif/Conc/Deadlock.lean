import Verif.Conc.StepLemmas

/-! # Helper lemmas: ordered locks do not deadlock -/

namespace Trane.Conc

/-- Locks that no `&self` call takes for writing. -/
def frozen : Lock → Bool
  | .graph | .library | .blacklist | .reviewList | .filters | .sessions | .preferences => true
  | _ => false

/-- The order in which the other locks are taken. -/
def rank : Lock → Nat
  | .frequency | .pile => 0
  | .stats | .deltas | .rewards => 1
  | _ => 2

/-- What may be taken while `h` is held. -/
def okD (h : Held) (r : Res) (m : Mode) : Bool :=
  match r with
  | .cell _ => true
  | .lock l =>
    if frozen l then decide (m = .read)
    else h.all (fun x => match x.1 with
      | .cell _ => true
      | .lock l' => frozen l' || decide (rank l' < rank l))

theorem okD_mono (h h' : Held) (r : Res) (m : Mode) (hs : h ⊆ h') (ho : okD h' r m = true) :
    okD h r m = true := by
  unfold okD at *
  cases r with
  | cell c => rfl
  | lock l =>
    simp only at *
    split
    · rename_i hf
      rw [if_pos hf] at ho
      exact ho
    · rename_i hf
      rw [if_neg hf] at ho
      rw [List.all_eq_true] at *
      exact fun x hx => ho x (hs hx)

abbrev OkD : Held → Res → Mode → Prop := fun h r m => okD h r m = true

/-- No thread holds a frozen lock for writing. -/
def HeldOk (t : Thread) : Prop := ∀ l, (Res.lock l, Mode.write) ∈ t.held → frozen l = false

theorem heldOk_step {b : Bool} {s s' : List Thread} {i : Nat} (h : stepAt b s i = some s')
    (hs : ∀ t ∈ s, TOk OkD t ∧ HeldOk t) : ∀ t ∈ s', TOk OkD t ∧ HeldOk t := by
  have h1 := TOk.step h (fun t ht => (hs t ht).1)
  refine fun u hu => ⟨h1 u hu, ?_⟩
  obtain ⟨t, ht, hc⟩ := step_cases h
  have h0 := hs t (List.mem_of_getElem? ht)
  rcases hc with ⟨r, m, rest, hr, rfl⟩ | ⟨r, m, rest, hr, rfl⟩ | ⟨l, rest, hr, hw, rfl⟩
  · rcases List.mem_or_eq_of_mem_set hu with hu | rfl
    · exact (hs u hu).2
    · intro l hl
      exact h0.2 l (List.mem_of_mem_erase hl)
  · rcases List.mem_or_eq_of_mem_set hu with hu | rfl
    · exact (hs u hu).2
    · intro l hl
      rcases List.mem_cons.1 hl with he | hl
      · have hd := h0.1.disc
        rw [hr] at hd
        have ho := hd.1
        obtain ⟨rfl, rfl⟩ := Prod.mk.inj he
        unfold OkD okD at ho
        cases hf : frozen l with
        | false => rfl
        | true => simp [hf] at ho
      · exact h0.2 l hl
  · rcases List.mem_or_eq_of_mem_set hu with hu | rfl
    · exact (hs u hu).2
    · exact h0.2

/-- What a thread that cannot move is waiting for. -/
theorem blocked {s : List Thread} (hs : ∀ t ∈ s, TOk OkD t ∧ HeldOk t)
    (hn : ∀ i, stepAt true s i = none) {t : Thread} (ht : t ∈ s) (hne : t.rest ≠ []) :
    ∃ l m rest, t.rest = .take (.lock l) m :: rest ∧ frozen l = false ∧
      ∃ u ∈ s, ∃ m', (Res.lock l, m') ∈ u.held := by
  obtain ⟨i, hi⟩ := List.mem_iff_getElem?.1 ht
  have h := hn i
  unfold stepAt at h
  rw [hi] at h
  simp only at h
  -- a waiting writer is stopped only by a holder
  have hwait : ∀ u ∈ s, ∀ l r, u.rest = .take (.lock l) .write :: r → u.waiting = true →
      ∃ v ∈ s, ∃ m', (Res.lock l, m') ∈ v.held := by
    intro u hu l r hr hw
    obtain ⟨j, hj⟩ := List.mem_iff_getElem?.1 hu
    have h := hn j
    unfold stepAt at h
    rw [hj] at h
    simp only [hr, hw, if_true] at h
    split at h
    · cases h
    · rename_i hall
      by_contra hno
      push Not at hno
      apply hall
      rw [List.all_eq_true]
      intro v hv
      rw [has_false.2 (hno v hv)]
      rfl
  cases hr : t.rest with
  | nil => exact absurd hr hne
  | cons x rest =>
    rw [hr] at h
    have hd := (hs t ht).1.disc
    rw [hr] at hd
    cases x with
    | drop r m => simp at h
    | take r m =>
      cases r with
      | cell c => simp at h
      | lock l =>
        have ho := hd.1
        cases m with
        | write =>
          have hf : frozen l = false := by
            cases hf : frozen l with
            | false => rfl
            | true => simp [OkD, okD, hf] at ho
          refine ⟨l, .write, rest, rfl, hf, ?_⟩
          cases hw : t.waiting with
          | false => simp [hw] at h
          | true => exact hwait t ht l rest hr hw
        | read =>
          simp only at h
          split at h
          · cases h
          · rename_i hall
            have hex : (∃ u ∈ s, (Res.lock l, Mode.write) ∈ u.held) ∨
                ∃ u ∈ s, u.wants l = true := by
              by_contra hno
              push Not at hno
              apply hall
              rw [Bool.and_eq_true]
              constructor
              · rw [List.all_eq_true]
                intro u hu
                rw [contains_false.2 (hno.1 u hu)]
                rfl
              · simp only [Bool.not_true, Bool.false_or]
                rw [List.all_eq_true]
                intro u hu
                have := hno.2 u hu
                simp [this]
            rcases hex with ⟨u, hu, hh⟩ | ⟨u, hu, hw⟩
            · exact ⟨l, .read, rest, rfl, (hs u hu).2 l hh, u, hu, .write, hh⟩
            · obtain ⟨hw1, r', hw2⟩ := wants_true.1 hw
              have hd' := (hs u hu).1.disc
              rw [hw2] at hd'
              have ho' := hd'.1
              have hf : frozen l = false := by
                cases hf : frozen l with
                | false => rfl
                | true => simp [OkD, okD, hf] at ho'
              exact ⟨l, .read, rest, rfl, hf, hwait u hu l r' hw2 hw1⟩

/-- Some thread can move as long as one has something to do. -/
theorem no_deadlock {s : List Thread} (hs : ∀ t ∈ s, TOk OkD t ∧ HeldOk t) : ¬ Deadlock s := by
  rintro ⟨hn, hfin⟩
  -- the locks on which some thread is blocked have unbounded rank
  have key : ∀ n : Nat, ∃ t ∈ s, ∃ l m rest, t.rest = .take (.lock l) m :: rest ∧
      frozen l = false ∧ n ≤ rank l := by
    intro n
    induction n with
    | zero =>
      unfold Finished at hfin
      push Not at hfin
      obtain ⟨t, ht, hne⟩ := hfin
      obtain ⟨l, m, rest, hr, hf, -⟩ := blocked hs hn ht hne
      exact ⟨t, ht, l, m, rest, hr, hf, Nat.zero_le _⟩
    | succ n ih =>
      obtain ⟨t, ht, l, m, rest, hr, hf, hle⟩ := ih
      obtain ⟨l1, m1, rest1, hr1, hf1, u, hu, m', hh⟩ :=
        blocked hs hn ht (by rw [hr]; simp)
      rw [hr] at hr1
      obtain ⟨hx, -⟩ := List.cons.inj hr1
      have hl : l = l1 := by
        injection hx with h1 h2
        exact Res.lock.inj h1
      subst hl
      have hne : u.rest ≠ [] := by
        intro h0
        have := (hs u hu).1.last
        rw [h0] at this
        simp only [after] at this
        rw [this] at hh
        simp at hh
      obtain ⟨l2, m2, rest2, hr2, hf2, -⟩ := blocked hs hn hu hne
      refine ⟨u, hu, l2, m2, rest2, hr2, hf2, ?_⟩
      have hd := (hs u hu).1.disc
      rw [hr2] at hd
      have ho := hd.1
      unfold OkD okD at ho
      simp only [hf2, if_false, Bool.false_eq_true] at ho
      have := List.all_eq_true.1 ho _ hh
      simp only [hf, Bool.false_or, decide_eq_true_eq] at this
      omega
  obtain ⟨t, -, l, m, rest, -, -, hle⟩ := key 3
  have : rank l ≤ 2 := by cases l <;> decide
  omega

end Trane.Conc
