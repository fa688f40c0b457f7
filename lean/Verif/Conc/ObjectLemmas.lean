import Verif.Conc.ObjectSpec
import Mathlib.Tactic.Common

/-! # An object behind a read-write lock works as if the calls were made one after another -/

namespace Trane.Threads
open Trane.Conc (Mode)

variable {σ κ α τ : Type}

/-- Left alone, the program ends with data and an answer of which `Q` holds. -/
def Prog.Will (Q : σ → α → Prop) : Prog σ α → σ → Prop
  | .done a, s => Q s a
  | .act f next, s => (next s).Will Q (f s)

/-- Whatever other readers do to the data between its steps, as long as `I` holds of the data, the program keeps `I` and answers `a`. -/
def Prog.Safe (I : σ → Prop) (a : α) : Prog σ α → Prop
  | .done b => b = a
  | .act f next => ∀ s, I s → I (f s) ∧ (next s).Safe I a

/-- The data `s` stand for `t`, and the calls do to it what `one` says. -/
structure Refines (o : Obj σ κ α) (one : τ → κ → τ × α) (Abs : σ → τ → Prop) : Prop where
  write : ∀ k, o.mode k = .write → ∀ s t, Abs s t →
    (o.code k).Will (fun s' a => Abs s' (one t k).1 ∧ a = (one t k).2) s
  same : ∀ k, o.mode k = .read → ∀ t, (one t k).1 = t
  read : ∀ k, o.mode k = .read → ∀ t, (o.code k).Safe (fun s => Abs s t) (one t k).2

/-- Either nobody writes, the data stand for the state after the log, and every reader will answer right; or one thread writes, alone. -/
def LockInv (o : Obj σ κ α) (one : τ → κ → τ × α) (Abs : σ → τ → Prop) (t0 : τ) (s : Shared σ κ α) : Prop :=
  Sequential one t0 s.log ∧
  let t := after1 one t0 s.log
  (Abs s.data t ∧ ∀ (i : Nat) c k p, s.clients[i]? = some c → c.inside = some (k, p) →
      o.mode k = .read ∧ p.Safe (fun s => Abs s t) (one t k).2) ∨
  ∃ (i : Nat) (c : Client σ κ α) (k : κ) (p : Prog σ α), s.clients[i]? = some c ∧ c.inside = some (k, p) ∧ o.mode k = .write ∧
    p.Will (fun s' a => Abs s' (one t k).1 ∧ a = (one t k).2) s.data ∧
    ∀ (j : Nat) c', s.clients[j]? = some c' → j ≠ i → c'.inside = none

theorem sequential_snoc (one : τ → κ → τ × α) (t : τ) (l : List (Nat × κ × α)) (e : Nat × κ × α) :
    Sequential one t (l ++ [e]) ↔ Sequential one t l ∧ e.2.2 = (one (after1 one t l) e.2.1).2 := by
  induction l generalizing t with
  | nil => obtain ⟨i, k, a⟩ := e; simp [Sequential, after1]
  | cons x l ih =>
    obtain ⟨i, k, a⟩ := x
    simp only [List.cons_append, Sequential, ih]
    rw [and_assoc]; rfl

theorem after1_snoc (one : τ → κ → τ × α) (t : τ) (l : List (Nat × κ × α)) (e : Nat × κ × α) :
    after1 one t (l ++ [e]) = (one (after1 one t l) e.2.1).1 := by simp [after1]

theorem set_get {β : Type} {l : List β} {i j : Nat} {x y c : β} (hc : l[i]? = some c) (h : (l.set i x)[j]? = some y) :
    (j = i ∧ y = x) ∨ (j ≠ i ∧ l[j]? = some y) := by
  by_cases hj : j = i
  · subst hj
    rw [List.getElem?_set_self (List.getElem?_eq_some_iff.1 hc).1] at h
    exact Or.inl ⟨rfl, (Option.some.inj h).symm⟩
  · rw [List.getElem?_set_ne (Ne.symm hj)] at h
    exact Or.inr ⟨hj, h⟩

theorem get_set_self {β : Type} {l : List β} {i : Nat} {x c : β} (hc : l[i]? = some c) : (l.set i x)[i]? = some x :=
  List.getElem?_set_self (List.getElem?_eq_some_iff.1 hc).1

theorem lockInv_step {o : Obj σ κ α} {one : τ → κ → τ × α} {Abs : σ → τ → Prop} (hr : Refines o one Abs) {t0 : τ} {s s' : Shared σ κ α}
    {i : Nat} (h : LockInv o one Abs t0 s) (hs : o.stepAt s i = some s') : LockInv o one Abs t0 s' := by
  obtain ⟨hq, h⟩ := h
  unfold Obj.stepAt at hs
  cases hc : s.clients[i]? with
  | none => rw [hc] at hs; cases hs
  | some c =>
    rw [hc] at hs
    simp only at hs
    cases hi : c.inside with
    | some kp =>
      obtain ⟨k, p⟩ := kp
      rw [hi] at hs
      cases p with
      | done a =>
        cases hs
        rcases h with ⟨ha, hrd⟩ | ⟨j, c', k', p', hj, hi', hm, hw, ho⟩
        · obtain ⟨hm, hsafe⟩ := hrd i c k _ hc hi
          have hsafe : a = (one (after1 one t0 s.log) k).2 := hsafe
          refine ⟨(sequential_snoc ..).2 ⟨hq, hsafe⟩, Or.inl ?_⟩
          rw [after1_snoc, hr.same k hm]
          refine ⟨ha, ?_⟩
          intro j c1 k1 p1 hj hi1
          rcases set_get hc hj with ⟨-, rfl⟩ | ⟨-, hj⟩
          · cases hi1
          · exact hrd j c1 k1 p1 hj hi1
        · have hij : i = j := by
            by_contra hne
            rw [ho i c hc hne] at hi; cases hi
          subst hij
          rw [hc] at hj; cases hj
          rw [hi] at hi'; cases hi'
          obtain ⟨hw1, hw2⟩ : Abs s.data _ ∧ a = _ := hw
          refine ⟨(sequential_snoc ..).2 ⟨hq, hw2⟩, Or.inl ?_⟩
          rw [after1_snoc]
          refine ⟨hw1, ?_⟩
          intro j c1 k1 p1 hj hi1
          rcases set_get hc hj with ⟨-, rfl⟩ | ⟨hne, hj⟩
          · cases hi1
          · rw [ho j c1 hj hne] at hi1; cases hi1
      | act f next =>
        cases hs
        rcases h with ⟨ha, hrd⟩ | ⟨j, c', k', p', hj, hi', hm, hw, ho⟩
        · obtain ⟨hm, hsafe⟩ := hrd i c k _ hc hi
          obtain ⟨h1, h2⟩ := hsafe s.data ha
          refine ⟨hq, Or.inl ⟨h1, ?_⟩⟩
          intro j c1 k1 p1 hj hi1
          rcases set_get hc hj with ⟨-, rfl⟩ | ⟨-, hj⟩
          · cases hi1
            exact ⟨hm, h2⟩
          · exact hrd j c1 k1 p1 hj hi1
        · have hij : i = j := by
            by_contra hne
            rw [ho i c hc hne] at hi; cases hi
          subst hij
          rw [hc] at hj; cases hj
          rw [hi] at hi'; cases hi'
          refine ⟨hq, Or.inr ⟨i, _, k, next s.data, get_set_self hc, rfl, hm, hw, ?_⟩⟩
          intro j c1 hj hne
          rcases set_get hc hj with ⟨e, -⟩ | ⟨-, hj⟩
          · exact absurd e hne
          · exact ho j c1 hj hne
    | none =>
      rw [hi] at hs
      cases ht : c.todo with
      | nil => rw [ht] at hs; cases hs
      | cons k ks =>
        rw [ht] at hs
        simp only [Option.ite_none_right_eq_some, Option.some.injEq] at hs
        obtain ⟨hf, rfl⟩ := hs
        have hall : ∀ (j : Nat) c1, s.clients[j]? = some c1 → c1 ∈ s.clients := fun j c1 hj => List.mem_of_getElem? hj
        cases hm : o.mode k with
        | read =>
          rw [hm] at hf
          simp only [Obj.free, List.all_eq_true] at hf
          rcases h with ⟨ha, hrd⟩ | ⟨j, c', k', p', hj, hi', hm', hw, ho⟩
          · refine ⟨hq, Or.inl ⟨ha, ?_⟩⟩
            intro j c1 k1 p1 hj hi1
            rcases set_get hc hj with ⟨-, rfl⟩ | ⟨-, hj⟩
            · cases hi1
              exact ⟨hm, hr.read k hm _⟩
            · exact hrd j c1 k1 p1 hj hi1
          · have := hf c' (hall j c' hj)
            rw [hi'] at this
            simp [hm'] at this
        | write =>
          rw [hm] at hf
          simp only [Obj.free, List.all_eq_true, Option.isNone_iff_eq_none] at hf
          rcases h with ⟨ha, hrd⟩ | ⟨j, c', k', p', hj, hi', hm', hw, ho⟩
          · refine ⟨hq, Or.inr ⟨i, _, k, _, get_set_self hc, rfl, hm, hr.write k hm _ _ ha, ?_⟩⟩
            intro j c1 hj hne
            rcases set_get hc hj with ⟨e, -⟩ | ⟨-, hj⟩
            · exact absurd e hne
            · exact hf c1 (hall j c1 hj)
          · rw [hf c' (hall j c' hj)] at hi'; cases hi'

theorem callsOf_snoc (i j : Nat) (l : List (Nat × κ × α)) (k : κ) (a : α) :
    callsOf i (l ++ [(j, k, a)]) = if j = i then callsOf i l ++ [k] else callsOf i l := by
  unfold callsOf
  rw [List.filter_append, List.map_append]
  by_cases h : j = i <;> simp [h]

theorem inOrder_step {o : Obj σ κ α} {calls : List (List κ)} {s s' : Shared σ κ α} {i : Nat} (h : InOrder calls s)
    (hs : o.stepAt s i = some s') : InOrder calls s' := by
  obtain ⟨hl, h⟩ := h
  unfold Obj.stepAt at hs
  cases hc : s.clients[i]? with
  | none => rw [hc] at hs; cases hs
  | some c =>
    have hcalls := h i c hc
    rw [hc] at hs
    simp only at hs
    cases hi : c.inside with
    | some kp =>
      obtain ⟨k, p⟩ := kp
      rw [hi] at hs hcalls
      cases p with
      | done a =>
        cases hs
        refine ⟨by simpa using hl, ?_⟩
        intro j c1 hj
        simp only [callsOf_snoc]
        rcases set_get hc hj with ⟨rfl, rfl⟩ | ⟨hne, hj⟩
        · simpa using hcalls
        · rw [if_neg (Ne.symm hne)]
          exact h j c1 hj
      | act f next =>
        cases hs
        refine ⟨by simpa using hl, ?_⟩
        intro j c1 hj
        rcases set_get hc hj with ⟨rfl, rfl⟩ | ⟨hne, hj⟩
        · simpa using hcalls
        · exact h j c1 hj
    | none =>
      rw [hi] at hs hcalls
      cases ht : c.todo with
      | nil => rw [ht] at hs; cases hs
      | cons k ks =>
        rw [ht] at hs hcalls
        simp only [Option.ite_none_right_eq_some, Option.some.injEq] at hs
        obtain ⟨-, rfl⟩ := hs
        refine ⟨by simpa using hl, ?_⟩
        intro j c1 hj
        rcases set_get hc hj with ⟨rfl, rfl⟩ | ⟨hne, hj⟩
        · simpa using hcalls
        · exact h j c1 hj

theorem exec_induct {o : Obj σ κ α} {P : Shared σ κ α → Prop} (hstep : ∀ s i s', P s → o.stepAt s i = some s' → P s')
    {s s' : Shared σ κ α} (h : P s) (schedule : List Nat) (he : o.exec s schedule = some s') : P s' := by
  induction schedule generalizing s with
  | nil => cases he; exact h
  | cons i is ih =>
    obtain ⟨s1, h1, h2⟩ := Option.bind_eq_some_iff.1 he
    exact ih (hstep s i s1 h h1) h2

/-- What has returned stays in the log: what returns later comes after it. -/
theorem log_grows {o : Obj σ κ α} {s s' : Shared σ κ α} (schedule : List Nat) (he : o.exec s schedule = some s') :
    s.log <+: s'.log := by
  refine exec_induct (P := fun x => s.log <+: x.log) ?_ (List.prefix_refl _) schedule he
  intro x i x' hx hs
  refine hx.trans ?_
  unfold Obj.stepAt at hs
  split at hs
  · cases hs
  · split at hs
    · cases hs; exact List.prefix_append _ _
    · cases hs; exact List.prefix_refl _
    · split at hs
      · cases hs
      · simp only [Option.ite_none_right_eq_some, Option.some.injEq] at hs
        obtain ⟨-, rfl⟩ := hs
        exact List.prefix_refl _

/-- An object behind a read-write lock whose calls, made alone, do what `one` says, and whose reading calls do not disturb each other:
for every schedule, the threads make their calls in their orders and the answers are those of making the calls one after another. -/
theorem one_after_another {o : Obj σ κ α} {one : τ → κ → τ × α} {Abs : σ → τ → Prop} (hr : Refines o one Abs) {d : σ} {t0 : τ}
    (h0 : Abs d t0) (calls : List (List κ)) (schedule : List Nat) {s : Shared σ κ α}
    (hs : o.exec (Shared.start d calls) schedule = some s) : InOrder calls s ∧ Sequential one t0 s.log ∧
      ((∀ c ∈ s.clients, c.inside = none) → Abs s.data (after1 one t0 s.log)) := by
  have hstart : ∀ (i : Nat) (c : Client σ κ α), (Shared.start (α := α) d calls).clients[i]? = some c →
      c.inside = none ∧ calls[i]? = some c.todo := by
    intro i c hi
    simp only [Shared.start, List.getElem?_map, Option.map_eq_some_iff] at hi
    obtain ⟨ks, h1, rfl⟩ := hi
    exact ⟨rfl, h1⟩
  have h1 : InOrder calls s := by
    refine exec_induct (P := InOrder calls) (fun s i s' => inOrder_step) ⟨by simp [Shared.start], ?_⟩ schedule hs
    intro i c hi
    rw [(hstart i c hi).1, (hstart i c hi).2]
    rfl
  have h2 : LockInv o one Abs t0 s := by
    refine exec_induct (P := LockInv o one Abs t0) (fun s i s' => lockInv_step hr) (s := Shared.start d calls) ⟨trivial, Or.inl ⟨h0, ?_⟩⟩ schedule hs
    intro i c k p hi hin
    rw [(hstart i c hi).1] at hin; cases hin
  refine ⟨h1, h2.1, fun hn => ?_⟩
  rcases h2.2 with ⟨ha, -⟩ | ⟨i, c, k, p, hi, hin, -⟩
  · exact ha
  · rw [hn c (List.mem_of_getElem? hi)] at hin; cases hin

end Trane.Threads
