import Verif.Store.Prune
import Verif.Store.RewardsOrder
import Verif.Store.BlacklistProps

/-!
# C113: stores that agree on the units of one part of the library
-/

namespace Trane.Store

namespace Table
variable {α : Type} {D : Str → Prop}

/-- The tables have the same entries for the units of `D`, and both are in order. -/
structure On (D : Str → Prop) (t t' : Table α) : Prop where
  history : ∀ u, D u → t'.history u = t.history u
  wf : Wf t
  wf' : Wf t'

theorem On.get {t t' : Table α} (h : On D t t') (S : SortDesc α) (hS : Blind S) {u : Str} (hu : D u) (n : Nat) :
    t'.get S u n = t.get S u n := same_get S hS h.wf u (h.history u hu) n

theorem history_trim_all (S : SortDesc α) {t : Table α} (h : Wf t) (n : Nat) (u : Str) :
    (t.trimByTime S n none).history u = newest Prod.snd n (t.history u) := by
  rw [history_trim S t n none h u]
  split
  · rfl
  · rename_i hk
    cases hu : t.uidOf u with
    | none => unfold history rowsOf; rw [hu]; rfl
    | some k => exact absurd ⟨k, hu, List.mem_map.2 ⟨_, (uidOf_some h).1 hu, rfl⟩⟩ hk

theorem On.record {t t' : Table α} (h : On D t t') (S : SortDesc α) (es : List (Entry α)) (f : Bool) :
    On D (t.step S (.record es f)).1 (t'.step S (.record es f)).1 ∧ (t'.step S (.record es f)).2 = (t.step S (.record es f)).2 := by
  obtain ⟨a, h1, h2, h3, -⟩ := record_spec t es h.wf
  obtain ⟨a', h1', h2', h3', -⟩ := record_spec t' es h.wf'
  simp only [step, h1, h1']
  cases f with
  | true => exact ⟨h, rfl⟩
  | false =>
    refine ⟨⟨fun u hu => ?_, h2, h2'⟩, rfl⟩
    show a'.history u = a.history u
    rw [h3, h3', h.history u hu]

theorem On.record_off {t t' : Table α} (h : On D t t') (S : SortDesc α) {es : List (Entry α)} (he : ∀ e ∈ es, ¬ D e.unit) (f : Bool) :
    On D (t.step S (.record es f)).1 t' := by
  obtain ⟨a, h1, h2, -, h3⟩ := record_spec t es h.wf
  simp only [step, h1]
  cases f with
  | true => exact h
  | false =>
    refine ⟨fun u hu => ?_, h2, h.wf'⟩
    rw [h.history u hu]
    show t.history u = a.history u
    unfold Table.history
    rw [h3 u fun e hm e' => he e hm (e' ▸ hu)]

theorem On.trim {t t' : Table α} (h : On D t t') (S : SortDesc α) (n : Nat) :
    On D (t.step S (.trim n none)).1 (t'.step S (.trim n none)).1 :=
  ⟨fun u hu => by
    show (t'.trimByTime S n none).history u = (t.trimByTime S n none).history u
    rw [history_trim_all S h.wf, history_trim_all S h.wf', h.history u hu],
    wf_trimByTime S _ n none h.wf, wf_trimByTime S _ n none h.wf'⟩

theorem On.remove {t t' : Table α} (h : On D t t') (p : Str) :
    On D (t.removePrefix p none) (t'.removePrefix p none) :=
  ⟨fun u hu => same_remove h.wf h.wf' p u (h.history u hu), wf_removePrefix _ p none h.wf, wf_removePrefix _ p none h.wf'⟩

theorem On.remove_off {t t' : Table α} (h : On D t t') {p : Str} (hp : ∀ u, D u → likePrefix p u = false)
    (stop : Option Nat) : On D (t.removePrefix p stop) t' := by
  refine ⟨fun u hu => ?_, wf_removePrefix _ p stop h.wf, h.wf'⟩
  rw [h.history u hu]
  unfold Table.history
  rcases (rowsOf_removePrefix t p stop h.wf u).2 with e | ⟨e, -⟩
  · rw [e]
  · rw [hp u hu] at e; cases e

end Table

namespace Rewards
open Table
variable {D : Str → Prop}

/-- The stores of rewards agree on the units of `D`, and both are in order. -/
structure On (D : Str → Prop) (s s' : Rewards) : Prop where
  at_ : ∀ u, D u → SameAt s s' u
  wf : Wf s.table
  wf' : Wf s'.table

theorem On.get {s s' : Rewards} (h : On D s s') (S : SortDesc (ℚ × ℚ)) (hS : Blind S) {u : Str} (hu : D u) (n : Nat) :
    s'.table.get S u n = s.table.get S u n := same_get S hS h.wf u (h.at_ u hu).history n

theorem loop_on (S : SortDesc (ℚ × ℚ)) (hS : Blind S) (rs : List Reward) (hr : ∀ r ∈ rs, D r.unit) :
    ∀ (s s' : Rewards) (budget : Option Nat), On D s s' →
    On D (loop S s rs budget).1 (loop S s' rs budget).1 ∧ (loop S s' rs budget).2 = (loop S s rs budget).2 := by
  induction rs with
  | nil => intro s s' _ h; exact ⟨h, rfl⟩
  | cons r rs ih =>
    have ih := ih fun x hx => hr x (by simp [hx])
    intro s s' budget h
    have hsim := same_similar (h.at_ r.unit (hr r (by simp)))
    cases hs : hasSimilar s.cache r with
    | true =>
      rw [hs] at hsim
      simpa [loop, hs, hsim] using ih s s' budget h
    | false =>
      rw [hs] at hsim
      by_cases hb : budget = some 0
      · simpa [loop, hs, hsim, hb] using h
      · obtain ⟨t, h1, -, e, hw, -⟩ := add_eq S h.wf r hs
        obtain ⟨t', h1', -, e', hw', -⟩ := add_eq S h.wf' r hsim
        have hA : On D (add S s r) (add S s' r) :=
          ⟨fun u hu => add_same S hS h.wf h.wf' r (h.at_ u hu), add_wf S h.wf r, add_wf S h.wf' r⟩
        rw [e, e'] at hA
        obtain ⟨i1, i2⟩ := ih _ _ (budget.map (· - 1)) hA
        simp only [loop, hs, hsim, hb, h1, h1', Bool.false_eq_true, if_false]
        exact ⟨i1, by rw [i2]⟩

theorem loop_off (S : SortDesc (ℚ × ℚ)) (rs : List Reward) (hr : ∀ r ∈ rs, ¬ D r.unit) :
    ∀ (s s' : Rewards) (budget : Option Nat), On D s s' →
    On D (loop S s rs budget).1 s' ∧ ∀ u ∈ (loop S s rs budget).2.1, ¬ D u := by
  induction rs with
  | nil => intro s s' _ h; exact ⟨h, by simp [loop]⟩
  | cons r rs ih =>
    have ih := ih fun x hx => hr x (by simp [hx])
    have hn := hr r (by simp)
    intro s s' budget h
    cases hs : hasSimilar s.cache r with
    | true => simpa [loop, hs] using ih s s' budget h
    | false =>
      by_cases hb : budget = some 0
      · simpa [loop, hs, hb] using h
      · obtain ⟨t, h1, -, e, hw, -⟩ := add_eq S h.wf r hs
        have hA : On D (add S s r) s' := by
          refine ⟨fun u hu => ?_, add_wf S h.wf r, h.wf'⟩
          have := add_other S h.wf r (u := u) (fun e => hn (e ▸ hu))
          exact ⟨(h.at_ u hu).history.trans this.history.symm, (h.at_ u hu).cache.trans this.cache.symm⟩
        rw [e] at hA
        obtain ⟨i1, i2⟩ := ih _ _ (budget.map (· - 1)) hA
        simp only [loop, hs, hb, h1, Bool.false_eq_true, if_false]
        refine ⟨i1, ?_⟩
        intro u hu
        rcases List.mem_cons.1 hu with rfl | hu
        · exact hn
        · exact i2 u hu

theorem On.record {s s' : Rewards} (h : On D s s') (S : SortDesc (ℚ × ℚ)) (hS : Blind S) {rs : List Reward}
    (hr : ∀ r ∈ rs, D r.unit) (f : Option Nat) :
    On D (s.record S rs f).1 (s'.record S rs f).1 ∧ (s'.record S rs f).2 = (s.record S rs f).2 := by
  obtain ⟨a, b⟩ := loop_on S hS rs hr s s' f h
  simp only [Rewards.record, b]
  split
  · exact ⟨a, rfl⟩
  · exact ⟨⟨fun u hu => ⟨(h.at_ u hu).history, (a.at_ u hu).cache⟩, h.wf, h.wf'⟩, rfl⟩

theorem On.record_off {s s' : Rewards} (h : On D s s') (S : SortDesc (ℚ × ℚ)) {rs : List Reward}
    (hr : ∀ r ∈ rs, ¬ D r.unit) (f : Option Nat) :
    On D (s.record S rs f).1 s' ∧ ∀ ids, (s.record S rs f).2 = some ids → ∀ u ∈ ids, ¬ D u := by
  obtain ⟨a, b⟩ := loop_off S rs hr s s' f h
  simp only [Rewards.record]
  split
  · exact ⟨a, fun ids e => by cases e; exact b⟩
  · exact ⟨⟨fun u hu => ⟨(h.at_ u hu).history, (a.at_ u hu).cache⟩, h.wf, h.wf'⟩, fun ids e => by cases e⟩

theorem On.trim {s s' : Rewards} (h : On D s s') (S : SortDesc (ℚ × ℚ)) (hS : Blind S) (n : Nat) :
    On D (s.step S (.trim n none)).1 (s'.step S (.trim n none)).1 :=
  ⟨fun u hu => ⟨same_trim S hS h.wf h.wf' n u (h.at_ u hu).history, (h.at_ u hu).cache⟩, wf_trimById S _ n none h.wf,
    wf_trimById S _ n none h.wf'⟩

theorem On.remove {s s' : Rewards} (h : On D s s') (S : SortDesc (ℚ × ℚ)) (p : Str) :
    On D (s.step S (.removePrefix p none)).1 (s'.step S (.removePrefix p none)).1 :=
  ⟨fun u hu => ⟨same_remove h.wf h.wf' p u (h.at_ u hu).history, (h.at_ u hu).cache⟩, wf_removePrefix _ p none h.wf,
    wf_removePrefix _ p none h.wf'⟩

theorem On.remove_off {s s' : Rewards} (h : On D s s') (S : SortDesc (ℚ × ℚ)) {p : Str} (hp : ∀ u, D u → likePrefix p u = false)
    (stop : Option Nat) : On D (s.step S (.removePrefix p stop)).1 s' := by
  have a : Table.On D s.table s'.table := ⟨fun u hu => (h.at_ u hu).history, h.wf, h.wf'⟩
  have b := a.remove_off hp stop
  exact ⟨fun u hu => ⟨b.history u hu, (h.at_ u hu).cache⟩, b.wf, b.wf'⟩

theorem On.reopen {s s' : Rewards} (h : On D s s') (S : SortDesc (ℚ × ℚ)) :
    On D (s.step S .reopen).1 (s'.step S .reopen).1 :=
  ⟨fun u hu => ⟨(h.at_ u hu).history, rfl⟩, h.wf, h.wf'⟩

end Rewards

namespace Blacklist
variable {D : Str → Prop}

/-- The call is about ids of `D`, or is a removal by prefix that was not interrupted, or reopening. -/
def OpIn (D : Str → Prop) : Op → Prop
  | .add u _ | .remove u _ | .query u => D u
  | .removePrefix _ f => f = none
  | .reopen => True

/-- The call is about ids outside `D`. -/
def OpOut (D : Str → Prop) : Op → Prop
  | .add u _ | .remove u _ | .query u => ¬ D u
  | .removePrefix p _ => ∀ u, D u → likePrefix p u = false
  | .reopen => True

/-- The blacklists give the same answers for the ids of `D`. -/
structure On (D : Str → Prop) (b b' : Blacklist) : Prop where
  left : ∃ ops, b = run ops
  right : ∃ ops, b' = run ops
  asked : ∀ u, D u → b'.blacklisted u = b.blacklisted u

theorem absStep_det {s s1 s' s1' : Str → Prop} {o : Op} {r : Bool} (hr : ∀ p k, o = .removePrefix p k → r = true)
    (h : AbsStep s s1 o r) (h' : AbsStep s' s1' o r) (u : Str) (e : s' u ↔ s u) : s1' u ↔ s1 u := by
  cases o with
  | add v f => cases r <;> simp only [AbsStep] at h h' <;> rw [h u, h' u, e]
  | remove v f => cases r <;> simp only [AbsStep] at h h' <;> rw [h u, h' u, e]
  | removePrefix p k =>
    rw [hr p k rfl] at h h'
    simp only [AbsStep] at h h'
    rw [h u, h' u, e]
  | query v => simp only [AbsStep] at h h'; rw [h u, h' u, e]
  | reopen => simp only [AbsStep] at h h'; rw [h u, h' u, e]

theorem absStep_off {s s1 : Str → Prop} {o : Op} {r : Bool} (h : AbsStep s s1 o r) (ho : OpOut D o) {u : Str} (hu : D u) :
    s1 u ↔ s u := by
  have hne : ∀ v, ¬ D v → u ≠ v := fun v hv e => hv (e ▸ hu)
  cases o with
  | add v f =>
    cases r <;> simp only [AbsStep] at h
    · exact h u
    · rw [h u]; simp [hne v ho]
  | remove v f =>
    cases r <;> simp only [AbsStep] at h
    · exact h u
    · rw [h u]; simp [hne v ho]
  | removePrefix p k =>
    have hp := ho u hu
    cases r <;> simp only [AbsStep] at h
    · refine ⟨(h u).1, fun hs => ?_⟩
      rcases (h u).2 hs with h1 | h1
      · exact h1
      · rw [hp] at h1; cases h1
    · rw [h u]; simp [hp]
  | query v => exact h u
  | reopen => exact h u

theorem add_flag (b : Blacklist) (hb : ∃ ops, b = run ops) (u : Str) (f : Bool) : (b.step (.add u f)).2 = (b.blacklisted u || !f) := by
  obtain ⟨ops, rfl⟩ := hb
  cases f with
  | false => simp [(blacklist_calls_succeed ops).1 u]
  | true =>
    simp only [step, add, blacklisted]
    generalize (run ops).hasEntry u = r
    obtain ⟨b', v⟩ := r
    cases v <;> simp

theorem On.step {b b' : Blacklist} (h : On D b b') {o : Op} (ho : OpIn D o) :
    On D (b.step o).1 (b'.step o).1 ∧ (b'.step o).2 = (b.step o).2 := by
  obtain ⟨ops, e⟩ := h.left
  obtain ⟨ops', e'⟩ := h.right
  have hf : (b'.step o).2 = (b.step o).2 := by
    cases o with
    | add u f => rw [add_flag b h.left, add_flag b' h.right, h.asked u ho]
    | remove u f => cases f <;> rfl
    | removePrefix p k => cases k <;> rfl
    | query u => rfl
    | reopen => rfl
  refine ⟨⟨⟨ops ++ [o], by rw [run_snoc, e]⟩, ⟨ops' ++ [o], by rw [run_snoc, e']⟩, fun u hu => ?_⟩, hf⟩
  have a := (blacklist_refines_set ops o).1
  have a' := (blacklist_refines_set ops' o).1
  rw [run_snoc, ← e] at a
  rw [run_snoc, ← e', hf] at a'
  rw [Bool.eq_iff_iff]
  refine absStep_det (o := o) ?_ a a' u (by rw [h.asked u hu])
  rintro p k rfl
  have : k = none := ho
  subst this
  rfl

theorem On.step_off {b b' : Blacklist} (h : On D b b') {o : Op} (ho : OpOut D o) : On D (b.step o).1 b' := by
  obtain ⟨ops, e⟩ := h.left
  refine ⟨⟨ops ++ [o], by rw [run_snoc, e]⟩, h.right, fun u hu => ?_⟩
  have a := (blacklist_refines_set ops o).1
  rw [run_snoc, ← e] at a
  rw [h.asked u hu, Bool.eq_iff_iff]
  exact (absStep_off a ho hu).symm

end Blacklist
end Trane.Store
