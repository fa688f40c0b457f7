import Verif.Conc.WatchSpec
import Verif.Conc.ObjectLemmas

/-! # One thread writes, the others read without waiting -/

namespace Trane.Threads
open Trane.Conc (Mode)

variable {σ κ α : Type}

/-- Left alone, the program goes through data of which `I` holds and ends with the data `e`. -/
def Prog.Through (I : σ → Prop) (e : σ) : Prog σ α → σ → Prop
  | .done _, s => I s ∧ s = e
  | .act f next, s => I s ∧ (next s).Through I e (f s)

theorem Prog.Through.here {I : σ → Prop} {e : σ} {p : Prog σ α} {s : σ} (h : p.Through I e s) : I s := by
  cases p <;> exact h.1

theorem Prog.Through.mono {I J : σ → Prop} (hIJ : ∀ s, I s → J s) {e : σ} {p : Prog σ α} : ∀ {s : σ}, p.Through I e s → p.Through J e s := by
  induction p with
  | done a => exact fun h => ⟨hIJ _ h.1, h.2⟩
  | act f next ih => exact fun {s} h => ⟨hIJ _ h.1, ih s h.2⟩

/-- Calls that are not writing do one step, which reads; the writing ones go, left alone, from `s` to `one s k`, through data in between,
`Mid s (one s k)`; and of such data every reading call gets what it gets of `s` or what it gets of `one s k`. -/
structure Watched (o : Obj σ κ α) (isW : κ → Bool) (one : σ → κ → σ) (Mid : σ → σ → σ → Prop) (ans : σ → κ → α) : Prop where
  read : ∀ k, isW k = false → o.code k = .act id (fun s => .done (ans s k))
  write : ∀ k, isW k = true → ∀ s, (o.code k).Through (Mid s (one s k)) (one s k) s
  same : ∀ s s', Mid s s' s
  seen : ∀ s s' x, Mid s s' x → ∀ r, isW r = false → ans x r = ans s r ∨ ans x r = ans s' r

/-- The data, seen from the number of finished calls of thread `w`. -/
def DataInv (isW : κ → Bool) (one : σ → κ → σ) (Mid : σ → σ → σ → Prop) (d0 : σ) (calls : List (List κ)) (w : Nat) (s : Shared σ κ α) : Prop :=
  ∀ ks, calls[w]? = some ks →
  match (s.clients[w]?).bind (fun c => c.inside) with
  | some (k, p) =>
    if isW k then
      p.Through (Mid (afterFirst isW one d0 ks (finished isW w s)) (afterFirst isW one d0 ks (finished isW w s + 1)))
        (afterFirst isW one d0 ks (finished isW w s + 1)) s.data
    else s.data = afterFirst isW one d0 ks (finished isW w s)
  | none => s.data = afterFirst isW one d0 ks (finished isW w s)

/-- The calls of the threads other than `w` do not write. -/
def OnlyWrites (isW : κ → Bool) (calls : List (List κ)) (w : Nat) : Prop :=
  ∀ (i : Nat) ks, calls[i]? = some ks → i ≠ w → ∀ k ∈ ks, isW k = false

theorem filter_take_append (isW : κ → Bool) (a b : List κ) (n : Nat) (hn : n = a.countP isW) :
    ((a ++ b).filter isW).take n = a.filter isW := by
  rw [List.filter_append, List.take_append_of_le_length (by rw [← List.countP_eq_length_filter]; omega), hn,
    List.countP_eq_length_filter, List.take_length]

/-- In the middle of a writing call, the next state of the list is what this call does. -/
theorem afterFirst_next (isW : κ → Bool) (one : σ → κ → σ) (d : σ) (a b : List κ) (k : κ) (hk : isW k = true) (n : Nat)
    (hn : n = a.countP isW) :
    afterFirst isW one d (a ++ [k] ++ b) (n + 1) = one (afterFirst isW one d (a ++ [k] ++ b) n) k := by
  unfold afterFirst
  rw [filter_take_append isW (a ++ [k]) b (n + 1) (by simp [hn, hk]), List.append_assoc a,
    filter_take_append isW a ([k] ++ b) n hn]
  simp [List.filter_append, hk]

theorem finished_snoc (isW : κ → Bool) (w i : Nat) (d : σ) (cs : List (Client σ κ α)) (l : List (Nat × κ × α)) (k : κ) (a : α)
    (s : Shared σ κ α) (hs : s.log = l) :
    finished isW w (⟨d, cs, l ++ [(i, k, a)]⟩ : Shared σ κ α) = finished isW w s + (if i = w ∧ isW k = true then 1 else 0) := by
  subst hs
  unfold finished
  simp only [callsOf_snoc]
  by_cases hi : i = w
  · by_cases hk : isW k = true <;> simp [hi, hk]
  · simp [hi]

theorem inside_other {cs : List (Client σ κ α)} {i w : Nat} (h : i ≠ w) (c : Client σ κ α) :
    ((cs.set i c)[w]?).bind (fun c => c.inside) = (cs[w]?).bind (fun c => c.inside) := by
  rw [List.getElem?_set_ne h]

theorem inside_self {cs : List (Client σ κ α)} {i : Nat} {c' : Client σ κ α} (h : cs[i]? = some c') (c : Client σ κ α) :
    ((cs.set i c)[i]?).bind (fun c => c.inside) = c.inside := by
  rw [get_set_self h]; rfl

/-- Reading calls are either about to read or about to return what they have read. -/
def ReadsOk (o : Obj σ κ α) (isW : κ → Bool) (s : Shared σ κ α) : Prop :=
  ∀ (i : Nat) c k p, s.clients[i]? = some c → c.inside = some (k, p) → isW k = false → p = o.code k ∨ ∃ a, p = .done a

variable {o : Obj σ κ α} {isW : κ → Bool} {one : σ → κ → σ} {Mid : σ → σ → σ → Prop} {ans : σ → κ → α} {d0 : σ} {calls : List (List κ)} {w : Nat}

theorem readsOk_step (hw : Watched o isW one Mid ans) {s s' : Shared σ κ α} {i : Nat} (h : ReadsOk o isW s) (hs : o.stepAt s i = some s') :
    ReadsOk o isW s' := by
  intro j c k p hj hin hk
  unfold Obj.stepAt at hs
  cases hc : s.clients[i]? with
  | none => rw [hc] at hs; cases hs
  | some c0 =>
    rw [hc] at hs
    simp only at hs
    cases hi : c0.inside with
    | some kp =>
      obtain ⟨k0, p0⟩ := kp
      rw [hi] at hs
      cases p0 with
      | done a =>
        cases hs
        rcases set_get hc hj with ⟨rfl, rfl⟩ | ⟨-, hj⟩
        · cases hin
        · exact h j c k p hj hin hk
      | act f next =>
        cases hs
        rcases set_get hc hj with ⟨rfl, rfl⟩ | ⟨-, hj⟩
        · cases hin
          rcases h j c0 k _ hc hi hk with e | ⟨a, e⟩
          · rw [hw.read k hk] at e
            cases e
            exact Or.inr ⟨_, rfl⟩
          · cases e
        · exact h j c k p hj hin hk
    | none =>
      rw [hi] at hs
      cases ht : c0.todo with
      | nil => rw [ht] at hs; cases hs
      | cons k0 ks =>
        rw [ht] at hs
        simp only [Option.ite_none_right_eq_some, Option.some.injEq] at hs
        obtain ⟨-, rfl⟩ := hs
        rcases set_get hc hj with ⟨rfl, rfl⟩ | ⟨-, hj⟩
        · cases hin
          exact Or.inl rfl
        · exact h j c k p hj hin hk

theorem dataInv_step (hw : Watched o isW one Mid ans) (ho : OnlyWrites isW calls w) {s s' : Shared σ κ α} {i : Nat} (hord : InOrder calls s)
    (hrd : ReadsOk o isW s) (h : DataInv isW one Mid d0 calls w s) (hs : o.stepAt s i = some s') :
    DataInv isW one Mid d0 calls w s' := by
  intro ks hks
  have h := h ks hks
  unfold Obj.stepAt at hs
  cases hc : s.clients[i]? with
  | none => rw [hc] at hs; cases hs
  | some c =>
    have hci := hord.2 i c hc
    rw [hc] at hs
    simp only at hs
    cases hi : c.inside with
    | some kp =>
      obtain ⟨k, p⟩ := kp
      rw [hi] at hs hci
      have hread : i ≠ w → isW k = false := fun hne => ho i _ hci hne k (by simp)
      cases p with
      | done a =>
        cases hs
        dsimp only
        rw [finished_snoc isW w i _ _ _ k a s rfl]
        by_cases hiw : i = w
        · subst hiw
          rw [hc] at h
          simp only [Option.bind_some, hi] at h
          rw [inside_self hc]
          dsimp only
          by_cases hk : isW k = true
          · rw [if_pos hk] at h
            rw [if_pos ⟨rfl, hk⟩]
            exact h.2
          · rw [if_neg hk] at h
            rw [if_neg (fun e => hk e.2)]
            exact h
        · rw [if_neg (fun e => hiw e.1), inside_other hiw]
          exact h
      | act f next =>
        cases hs
        dsimp only
        have hfin : finished isW w (⟨f s.data, s.clients.set i ⟨c.todo, some (k, next s.data)⟩, s.log⟩ : Shared σ κ α) = finished isW w s := rfl
        rw [hfin]
        have hkeep : isW k = false → f = id := by
          intro hk
          rcases hrd i c k _ hc hi hk with e | ⟨a, e⟩
          · rw [hw.read k hk] at e
            cases e; rfl
          · cases e
        by_cases hiw : i = w
        · subst hiw
          rw [hc] at h
          simp only [Option.bind_some, hi] at h
          rw [inside_self hc]
          dsimp only
          by_cases hk : isW k = true
          · rw [if_pos hk] at h
            rw [if_pos hk]
            exact h.2
          · rw [if_neg hk] at h
            rw [if_neg hk, hkeep (by simpa using hk)]
            exact h
        · rw [inside_other hiw, hkeep (hread hiw)]
          exact h
    | none =>
      rw [hi] at hs hci
      cases ht : c.todo with
      | nil => rw [ht] at hs; cases hs
      | cons k rest =>
        rw [ht] at hs hci
        simp only [Option.ite_none_right_eq_some, Option.some.injEq] at hs
        obtain ⟨-, rfl⟩ := hs
        dsimp only
        have hfin : finished isW w (⟨s.data, s.clients.set i ⟨rest, some (k, o.code k)⟩, s.log⟩ : Shared σ κ α) = finished isW w s := rfl
        rw [hfin]
        by_cases hiw : i = w
        · subst hiw
          rw [hc] at h
          simp only [Option.bind_some, hi] at h
          rw [inside_self hc]
          dsimp only
          by_cases hk : isW k = true
          · rw [if_pos hk]
            rw [hks] at hci
            have e : ks = callsOf i s.log ++ [k] ++ rest := by simpa using hci
            have hn := afterFirst_next isW one d0 (callsOf i s.log) rest k hk (finished isW i s) rfl
            rw [← e] at hn
            rw [hn, h]
            exact hw.write k hk _
          · rw [if_neg hk]
            exact h
        · rw [inside_other hiw]
          exact h

/-- What is read at this moment is what is read after some number of finished calls. -/
theorem seen_now (hw : Watched o isW one Mid ans) (h : DataInv isW one Mid d0 calls w s) {ks : List κ} (hks : calls[w]? = some ks) {r : κ} (hr : isW r = false) :
    ∃ m, finished isW w s ≤ m ∧ m ≤ begun isW w s ∧ ans s.data r = ans (afterFirst isW one d0 ks m) r := by
  have h := h ks hks
  unfold begun
  cases hc : (s.clients[w]?).bind (fun c => c.inside) with
  | none =>
    rw [hc] at h
    exact ⟨finished isW w s, Nat.le_refl _, by omega, by rw [h]⟩
  | some kp =>
    obtain ⟨k, p⟩ := kp
    rw [hc] at h
    dsimp only at h ⊢
    by_cases hk : isW k = true
    · rw [if_pos hk] at h ⊢
      rcases hw.seen _ _ _ h.here r hr with e | e
      · exact ⟨finished isW w s, Nat.le_refl _, by omega, e⟩
      · exact ⟨finished isW w s + 1, by omega, by omega, e⟩
    · rw [if_neg hk] at h
      exact ⟨finished isW w s, Nat.le_refl _, by omega, by rw [h]⟩

theorem finished_mono_step {s s' : Shared σ κ α} {i : Nat} (hs : o.stepAt s i = some s') :
    finished isW w s ≤ finished isW w s' ∧ begun isW w s ≤ begun isW w s' := by
  unfold Obj.stepAt at hs
  cases hc : s.clients[i]? with
  | none => rw [hc] at hs; cases hs
  | some c =>
    rw [hc] at hs
    simp only at hs
    unfold begun
    cases hi : c.inside with
    | some kp =>
      obtain ⟨k, p⟩ := kp
      rw [hi] at hs
      cases p with
      | done a =>
        cases hs
        rw [finished_snoc isW w i _ _ _ k a s rfl]
        dsimp only
        by_cases hiw : i = w
        · subst hiw
          rw [inside_self hc, hc]
          simp only [Option.bind_some, hi]
          by_cases hk : isW k = true <;> simp [hk]
        · rw [inside_other hiw]
          constructor <;> omega
      | act f next =>
        cases hs
        refine ⟨Nat.le_refl _, ?_⟩
        refine Nat.add_le_add_left ?_ _
        dsimp only
        by_cases hiw : i = w
        · subst hiw
          rw [inside_self hc, hc]
          simp only [Option.bind_some, hi]
          exact Nat.le_refl _
        · rw [inside_other hiw]
          exact Nat.le_refl _
    | none =>
      rw [hi] at hs
      cases ht : c.todo with
      | nil => rw [ht] at hs; cases hs
      | cons k rest =>
        rw [ht] at hs
        simp only [Option.ite_none_right_eq_some, Option.some.injEq] at hs
        obtain ⟨-, rfl⟩ := hs
        refine ⟨Nat.le_refl _, ?_⟩
        refine Nat.add_le_add_left ?_ _
        dsimp only
        by_cases hiw : i = w
        · subst hiw
          rw [inside_self hc, hc]
          simp only [Option.bind_some, hi]
          exact Nat.zero_le _
        · rw [inside_other hiw]
          exact Nat.le_refl _

/-- Everything that holds of the moment `s`, for the calls thread `i` makes after a moment when `m0` calls were finished and `n0` calls were in
the log. -/
structure WatchInv (o : Obj σ κ α) (isW : κ → Bool) (one : σ → κ → σ) (Mid : σ → σ → σ → Prop) (ans : σ → κ → α) (d0 : σ) (calls : List (List κ)) (w : Nat)
    (ks : List κ) (i m0 n0 : Nat) (s : Shared σ κ α) : Prop where
  order : InOrder calls s
  reads : ReadsOk o isW s
  data : DataInv isW one Mid d0 calls w s
  least : m0 ≤ finished isW w s
  len : n0 ≤ s.log.length
  inside : ∀ c k a, s.clients[i]? = some c → c.inside = some (k, .done a) → isW k = false →
    ∃ m, m0 ≤ m ∧ m ≤ begun isW w s ∧ a = ans (afterFirst isW one d0 ks m) k
  log : ∀ k a, (i, k, a) ∈ s.log.drop n0 → isW k = false →
    ∃ m, m0 ≤ m ∧ m ≤ begun isW w s ∧ a = ans (afterFirst isW one d0 ks m) k

theorem watchInv_step (hw : Watched o isW one Mid ans) (ho : OnlyWrites isW calls w) {ks : List κ} (hks : calls[w]? = some ks) {i m0 n0 : Nat}
    {s s' : Shared σ κ α} {j : Nat} (h : WatchInv o isW one Mid ans d0 calls w ks i m0 n0 s) (hs : o.stepAt s j = some s') :
    WatchInv o isW one Mid ans d0 calls w ks i m0 n0 s' := by
  obtain ⟨hf, hb⟩ := finished_mono_step (isW := isW) (w := w) hs
  have up : ∀ k a, (∃ m, m0 ≤ m ∧ m ≤ begun isW w s ∧ a = ans (afterFirst isW one d0 ks m) k) →
      ∃ m, m0 ≤ m ∧ m ≤ begun isW w s' ∧ a = ans (afterFirst isW one d0 ks m) k := by
    rintro k a ⟨m, h1, h2, h3⟩
    exact ⟨m, h1, by omega, h3⟩
  have hpre : s.log <+: s'.log := log_grows (o := o) [j] (by simp [Obj.exec, hs])
  have hl := hpre.length_le
  refine ⟨inOrder_step h.order hs, readsOk_step hw h.reads hs, dataInv_step hw ho h.order h.reads h.data hs, by have := h.least; omega,
    by have := h.len; omega, ?_, ?_⟩
  · intro c k a hc' hin hk
    refine up k a ?_
    unfold Obj.stepAt at hs
    cases hc : s.clients[j]? with
    | none => rw [hc] at hs; cases hs
    | some c0 =>
      rw [hc] at hs
      simp only at hs
      cases hi : c0.inside with
      | some kp =>
        obtain ⟨k0, p0⟩ := kp
        rw [hi] at hs
        cases p0 with
        | done a0 =>
          cases hs
          rcases set_get hc hc' with ⟨rfl, rfl⟩ | ⟨-, hc'⟩
          · cases hin
          · exact h.inside c k a hc' hin hk
        | act f next =>
          cases hs
          rcases set_get hc hc' with ⟨rfl, rfl⟩ | ⟨-, hc'⟩
          · simp only [Option.some.injEq, Prod.mk.injEq] at hin
            obtain ⟨rfl, hin⟩ := hin
            rcases h.reads i c0 k0 _ hc hi hk with e | ⟨a', e⟩
            · rw [hw.read k0 hk] at e
              cases e
              cases hin
              obtain ⟨m, h1, h2, h3⟩ := seen_now hw h.data hks hk
              exact ⟨m, by have := h.least; omega, h2, h3⟩
            · cases e
          · exact h.inside c k a hc' hin hk
      | none =>
        rw [hi] at hs
        cases ht : c0.todo with
        | nil => rw [ht] at hs; cases hs
        | cons k0 rest =>
          rw [ht] at hs
          simp only [Option.ite_none_right_eq_some, Option.some.injEq] at hs
          obtain ⟨-, rfl⟩ := hs
          rcases set_get hc hc' with ⟨rfl, rfl⟩ | ⟨-, hc'⟩
          · simp only [Option.some.injEq, Prod.mk.injEq] at hin
            obtain ⟨rfl, hin⟩ := hin
            rw [hw.read k0 hk] at hin
            cases hin
          · exact h.inside c k a hc' hin hk
  · intro k a hm hk
    refine up k a ?_
    unfold Obj.stepAt at hs
    cases hc : s.clients[j]? with
    | none => rw [hc] at hs; cases hs
    | some c0 =>
      rw [hc] at hs
      simp only at hs
      cases hi : c0.inside with
      | some kp =>
        obtain ⟨k0, p0⟩ := kp
        rw [hi] at hs
        cases p0 with
        | done a0 =>
          cases hs
          dsimp only at hm
          rw [List.drop_append_of_le_length h.len] at hm
          rcases List.mem_append.1 hm with hm | hm
          · exact h.log k a hm hk
          · simp only [List.mem_singleton, Prod.mk.injEq] at hm
            obtain ⟨rfl, rfl, rfl⟩ := hm
            exact h.inside c0 k a hc hi hk
        | act f next => cases hs; exact h.log k a hm hk
      | none =>
        rw [hi] at hs
        cases ht : c0.todo with
        | nil => rw [ht] at hs; cases hs
        | cons k0 rest =>
          rw [ht] at hs
          simp only [Option.ite_none_right_eq_some, Option.some.injEq] at hs
          obtain ⟨-, rfl⟩ := hs
          exact h.log k a hm hk

theorem dataInv_start (hw : Watched o isW one Mid ans) (ho : OnlyWrites isW calls w) {first : List Nat} {a : Shared σ κ α}
    (ha : o.exec (Shared.start d0 calls) first = some a) : InOrder calls a ∧ ReadsOk o isW a ∧ DataInv isW one Mid d0 calls w a := by
  have hstart : ∀ (i : Nat) (c : Client σ κ α), (Shared.start (α := α) d0 calls).clients[i]? = some c →
      c.inside = none ∧ calls[i]? = some c.todo := by
    intro i c hi
    simp only [Shared.start, List.getElem?_map, Option.map_eq_some_iff] at hi
    obtain ⟨ks, h1, rfl⟩ := hi
    exact ⟨rfl, h1⟩
  refine exec_induct (P := fun s => InOrder calls s ∧ ReadsOk o isW s ∧ DataInv isW one Mid d0 calls w s)
    (fun s i s' h hs => ⟨inOrder_step h.1 hs, readsOk_step hw h.2.1 hs, dataInv_step hw ho h.1 h.2.1 h.2.2 hs⟩) ?_ first ha
  refine ⟨⟨by simp [Shared.start], fun i c hi => ?_⟩, ?_, ?_⟩
  · rw [(hstart i c hi).1, (hstart i c hi).2]; rfl
  · intro i c k p hi hin
    rw [(hstart i c hi).1] at hin; cases hin
  · intro ks' hks'
    have : ((Shared.start (α := α) d0 calls).clients[w]?).bind (fun c => c.inside) = none := by
      cases hc : (Shared.start (α := α) d0 calls).clients[w]? with
      | none => rfl
      | some c => exact (hstart w c hc).1
    rw [this]
    rfl

/-- At every moment the data are those after the writing calls that are finished, or in between these and those after one call more;
the latter only while a writing call is under way. -/
theorem moments (hw : Watched o isW one Mid ans) (ho : OnlyWrites isW calls w) {ks : List κ} (hks : calls[w]? = some ks) {first : List Nat}
    {a : Shared σ κ α} (ha : o.exec (Shared.start d0 calls) first = some a) :
    Mid (afterFirst isW one d0 ks (finished isW w a)) (afterFirst isW one d0 ks (finished isW w a + 1)) a.data ∧
    (begun isW w a = finished isW w a → a.data = afterFirst isW one d0 ks (finished isW w a)) := by
  have h := (dataInv_start hw ho ha).2.2 ks hks
  unfold begun
  cases hc : (a.clients[w]?).bind (fun c => c.inside) with
  | none =>
    rw [hc] at h
    exact ⟨by rw [h]; exact hw.same _ _, fun _ => h⟩
  | some kp =>
    obtain ⟨k, p⟩ := kp
    rw [hc] at h
    dsimp only at h ⊢
    by_cases hk : isW k = true
    · rw [if_pos hk] at h ⊢
      exact ⟨h.here, fun e => by omega⟩
    · rw [if_neg hk] at h
      exact ⟨by rw [h]; exact hw.same _ _, fun _ => h⟩

/-- Thread `w` alone writes.  A reading call that begins after the moment `a` and has returned at the moment `b` gets what is read after the
first `m` writing calls, where `m` is at least the number of writing calls finished at `a` and at most the number begun at `b`. -/
theorem watched (hw : Watched o isW one Mid ans) (ho : OnlyWrites isW calls w) {ks : List κ} (hks : calls[w]? = some ks) {first second : List Nat}
    {a b : Shared σ κ α} (ha : o.exec (Shared.start d0 calls) first = some a) (hb : o.exec a second = some b) {i : Nat}
    (hidle : ∀ c, a.clients[i]? = some c → c.inside = none) {k : κ} {x : α} (hlog : (i, k, x) ∈ b.log.drop a.log.length)
    (hk : isW k = false) :
    ∃ m, finished isW w a ≤ m ∧ m ≤ begun isW w b ∧ x = ans (afterFirst isW one d0 ks m) k := by
  have h1 := dataInv_start hw ho ha
  have h2 : WatchInv o isW one Mid ans d0 calls w ks i (finished isW w a) a.log.length b := by
    refine exec_induct (P := WatchInv o isW one Mid ans d0 calls w ks i (finished isW w a) a.log.length)
      (fun s j s' h hs => watchInv_step hw ho hks h hs) ?_ second hb
    refine ⟨h1.1, h1.2.1, h1.2.2, Nat.le_refl _, Nat.le_refl _, ?_, ?_⟩
    · intro c k a' hc hin
      rw [hidle c hc] at hin; cases hin
    · intro k a' hm
      rw [List.drop_length] at hm; cases hm
  exact h2.log k x hlog hk

end Trane.Threads
