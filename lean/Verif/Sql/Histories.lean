import Verif.Sql.Open

/-!
# Histories of calls on the files of the stores: lemmas
-/

set_option linter.unusedSectionVars false

namespace Trane.Sql
open Trane.Store (Str LogOp Entry Reward Row Table SortDesc likePrefix)
open Trane.Store.Table (Wf AbsStep IsNewest KeepsNewest)

variable {R : Type} [DecidableEq R] {α : Type}
variable {sh : Shape} {P : Payload R α} {v : Nat} {idx : List (Str × Str × List Str)} {t : Table α} {T : Texts}

/-- Whether the machine fails in the call. -/
def logFails : LogOp α → Bool
  | .record _ commitFails => commitFails
  | .trim _ stop => stop.isSome
  | .removePrefix _ stop => stop.isSome
  | .reopen => false

theorem history_reorder (h : Wf t) {us : List (Nat × Str)} (hp : us.Perm t.uids) (rows : List (Row α)) (u : Str) :
    ({ t with uids := us, rows := rows } : Table α).history u = ({ t with rows := rows } : Table α).history u := by
  unfold Table.history
  rw [(rowsOf_reorder h hp).2]

theorem logStep_spec (hT : Reads sh T (trimByTimeCond sh)) (hP : Fits sh P) (h0 : T.migrations ≠ [])
    (hv : v = T.migrations.length) (S : Scan R) (h : Wf t) (o : LogOp α) :
    ∃ t', logStep S T P (ofTable sh P v idx t) o = (ofTable sh P v idx t', !logFails o) ∧ Wf t' ∧
      AbsStep t.history t'.history o (!logFails o) := by
  cases o with
  | record es f =>
    obtain ⟨t', h1, h2, h3, _⟩ := Table.record_spec t es h
    simp only [logStep]
    rw [insertAll_eq hT hP S es h, h1, Option.map_some]
    cases f with
    | true => exact ⟨t, rfl, h, fun u => rfl⟩
    | false => exact ⟨t', rfl, h2, fun u => h3 u⟩
  | trim n stop =>
    obtain ⟨us, hp, e⟩ := trimTime_eq (v := v) (idx := idx) (t := t) hT hP S n stop true
    obtain ⟨hw, hr⟩ := rowsOf_reorder h hp
    have hw' := Table.wf_trimByTime (sortOf hP S (timeSel sh)) _ n stop hw
    refine ⟨{ t with rows := (({ t with uids := us } : Table α).trimByTime (sortOf hP S (timeSel sh)) n stop).rows },
      ?_, ?_, ?_⟩
    · simp only [logStep]
      rw [e]
      cases stop <;> rfl
    · exact ⟨h.uidNodup, h.unitNodup, hw'.idNodup, fun r hr => (hp.map _).mem_iff.mp (hw'.owned r hr)⟩
    · have hs := Table.rowsOf_trimByTime (sortOf hP S (timeSel sh)) _ n stop hw
      have e1 : ∀ u, ({ t with rows := (({ t with uids := us } : Table α).trimByTime
          (sortOf hP S (timeSel sh)) n stop).rows } : Table α).history u =
          (({ t with uids := us } : Table α).trimByTime (sortOf hP S (timeSel sh)) n stop).history u := fun u =>
        (history_reorder h hp _ u).symm
      have e2 : ∀ u, t.rowsOf u = ({ t with uids := us } : Table α).rowsOf u := fun u => (hr t.rows u).symm
      cases stop with
      | none =>
        intro u
        rw [e1]
        unfold Table.history
        rw [(hs u).1 rfl, Table.history_newest, e2]
        rfl
      | some k =>
        intro u
        rw [e1]
        unfold Table.history
        rcases (hs u).2 with e | e
        · left; rw [e, e2]
        · right; rw [e, Table.history_newest, e2]; rfl
  | removePrefix p stop =>
    obtain ⟨us, hp, e⟩ := removeLike_eq (v := v) (idx := idx) (t := t) hT hP S p stop
    obtain ⟨hw, hr⟩ := rowsOf_reorder h hp
    have hw' := Table.wf_removePrefix _ p stop hw
    refine ⟨{ t with rows := (({ t with uids := us } : Table α).removePrefix p stop).rows }, ?_, ?_, ?_⟩
    · simp only [logStep]
      rw [e]
      cases stop <;> rfl
    · exact ⟨h.uidNodup, h.unitNodup, hw'.idNodup, fun r hr => (hp.map _).mem_iff.mp (hw'.owned r hr)⟩
    · have hs := Table.rowsOf_removePrefix _ p stop hw
      have e1 : ∀ u, ({ t with rows := (({ t with uids := us } : Table α).removePrefix p stop).rows } :
          Table α).history u = (({ t with uids := us } : Table α).removePrefix p stop).history u := fun u =>
        (history_reorder h hp _ u).symm
      have e2 : ∀ u, t.rowsOf u = ({ t with uids := us } : Table α).rowsOf u := fun u => (hr t.rows u).symm
      cases stop with
      | none =>
        intro u
        rw [e1]
        unfold Table.history
        rw [(hs u).1 rfl, e2]
        split <;> rfl
      | some k =>
        intro u
        rw [e1]
        unfold Table.history
        rcases (hs u).2 with e | ⟨hl, e⟩
        · left; rw [e, e2]
        · right; exact ⟨hl, by rw [e]; rfl⟩
  | reopen =>
    refine ⟨t, ?_, h, fun u => rfl⟩
    simp only [logStep, openStore]
    rw [toLatest_same S h0 hv]
    rfl

/-! ### Rewards -/

theorem trimId_spec {P : Payload R (ℚ × ℚ)} {t : Table (ℚ × ℚ)} (hT : Reads sh T (trimByIdCond sh)) (hP : Fits sh P)
    (S : Scan R) (h : Wf t) (n : Nat) (stop : Option Nat) (vacuum : Bool) :
    ∃ t', trimAll S T vacuum n stop (ofTable sh P v idx t) = (ofTable sh P v idx t', stop.isNone) ∧ Wf t' ∧
      ∀ u, (stop = none → KeepsNewest n (t.history u) (t'.history u)) ∧
        (t'.history u = t.history u ∨ KeepsNewest n (t.history u) (t'.history u)) := by
  obtain ⟨us, hp, e⟩ := trimId_eq (v := v) (idx := idx) (t := t) hT hP S n stop vacuum
  obtain ⟨hw, hr⟩ := rowsOf_reorder h hp
  have hw' := Table.wf_trimById (sortOf hP S (idSel sh (.param 1) (.param 2))) _ n stop hw
  have hs := Store.Rewards.rowsOf_trimById (sortOf hP S (idSel sh (.param 1) (.param 2))) _ n stop hw
  refine ⟨_, e, ⟨h.uidNodup, h.unitNodup, hw'.idNodup, fun r hr => (hp.map _).mem_iff.mp (hw'.owned r hr)⟩, ?_⟩
  intro u
  have e1 := history_reorder h hp (({ t with uids := us } : Table (ℚ × ℚ)).trimById
    (sortOf hP S (idSel sh (.param 1) (.param 2))) n stop).rows u
  have e2 := history_reorder h hp t.rows u
  have := hs u
  rw [← e1]
  rw [e2] at this
  exact this

theorem removeLike_spec {trim : Cond} (hT : Reads sh T trim) (hP : Fits sh P) (S : Scan R) (h : Wf t) (p : Str)
    (stop : Option Nat) :
    ∃ t', removeLike S T p stop (ofTable sh P v idx t) = (ofTable sh P v idx t', stop.isNone) ∧ Wf t' ∧
      ∀ u, (stop = none → t'.history u = if likePrefix p u then [] else t.history u) ∧
        (t'.history u = t.history u ∨ (likePrefix p u = true ∧ t'.history u = [])) := by
  obtain ⟨us, hp, e⟩ := removeLike_eq (v := v) (idx := idx) (t := t) hT hP S p stop
  obtain ⟨hw, hr⟩ := rowsOf_reorder h hp
  have hw' := Table.wf_removePrefix _ p stop hw
  have hs := Table.rowsOf_removePrefix _ p stop hw
  refine ⟨_, e, ⟨h.uidNodup, h.unitNodup, hw'.idNodup, fun r hr => (hp.map _).mem_iff.mp (hw'.owned r hr)⟩, ?_⟩
  intro u
  have e1 := history_reorder h hp (({ t with uids := us } : Table α).removePrefix p stop).rows u
  have e2 : ({ t with uids := us } : Table α).rowsOf u = t.rowsOf u := hr t.rows u
  have := hs u
  rw [← e1]
  have e3 : ({ t with uids := us, rows := (({ t with uids := us } : Table α).removePrefix p stop).rows } :
      Table α).history u = (({ t with uids := us } : Table α).removePrefix p stop).history u := rfl
  rw [e3]
  unfold Table.history
  rw [e2] at this
  refine ⟨fun hst => ?_, ?_⟩
  · rw [this.1 hst]
    split <;> rfl
  · rcases this.2 with e | ⟨hl, e⟩
    · left; rw [e]
    · right; exact ⟨hl, by rw [e]; rfl⟩

namespace RewardState
open Trane.Store.Rewards (Good accepted payload)

theorem fits : Fits rewardsShape (two (R := ℚ)) := two_fits rfl

/-- The file of the rewards. -/
def file (t : Table (ℚ × ℚ)) : Db ℚ := ofTable rewardsShape two rewardsTexts.migrations.length rewardsIndexes t

/-- The order of the rows in the statement that cuts a unit down to twenty rewards. -/
def cutOrder (S : Scan ℚ) : SortDesc (ℚ × ℚ) := sortOf fits S (idSel rewardsShape (.sub uidSel) (.num 20))

theorem loop_eq (S : Scan ℚ) (rs : List Reward) :
    ∀ (s : Store.Rewards) (budget : Option Nat), Wf s.table →
    loop S ⟨file s.table, s.cache⟩ rs budget =
      let res := Store.Rewards.loop (cutOrder S) s rs budget
      (⟨file res.1.table, res.1.cache⟩, res.2) := by
  induction rs with
  | nil => intro s budget _; rfl
  | cons r rs ih =>
    intro s budget hw
    unfold loop Store.Rewards.loop
    by_cases hs : Store.Rewards.hasSimilar s.cache r = true
    · simp only [hs, if_true]
      exact ih s budget hw
    · simp only [hs, Bool.false_eq_true, if_false]
      by_cases hb : budget = some 0
      · simp only [hb, if_true]
      · simp only [hb, if_false]
        rw [file, insertEntry_eq rewards_reads fits S hw]
        obtain ⟨t, h1, h2, _⟩ := Table.recordOne_spec s.table ⟨r.unit, (r.value, r.weight), r.ts⟩ hw
        rw [h1, Option.map_some]
        simp only
        rw [execute_truncate fits S h2]
        have hw' := (Store.Rewards.truncate_spec (cutOrder S) t r.unit h2).1
        have := ih ⟨Store.Rewards.truncate (cutOrder S) t r.unit, Store.Rewards.addCache s.cache r⟩
          (budget.map (· - 1)) hw'
        simp only [cutOrder, file] at this ⊢
        rw [this]

/-- What each call must do to the rewards of the units, `h` before and `h'` after, with the rewards accepted in the
session, and what it must return. -/
def AbsStep (session : List Reward) (h h' : Str → List ((ℚ × ℚ) × Int)) :
    Store.Rewards.Op → Option (List Str) → Prop
  | .record rs none, out => out = some ((accepted session rs).map Reward.unit) ∧
      ∀ u, KeepsNewest 20 (h u ++ ((accepted session rs).filter (fun r => r.unit = u)).map payload) (h' u)
  | .record _ (some _), out => out = none ∧ ∀ u, h' u = h u
  | .trim n none, out => out = some [] ∧ ∀ u, KeepsNewest n (h u) (h' u)
  | .trim n (some _), out => out = none ∧ ∀ u, h' u = h u ∨ KeepsNewest n (h u) (h' u)
  | .removePrefix p none, out => out = some [] ∧ ∀ u, h' u = if likePrefix p u then [] else h u
  | .removePrefix p (some _), out => out = none ∧ ∀ u, h' u = h u ∨ (likePrefix p u = true ∧ h' u = [])
  | .reopen, out => out = some [] ∧ ∀ u, h' u = h u

theorem step_trim (S : Scan ℚ) {t t' : Table (ℚ × ℚ)} {c : AMap Str (List Reward)} {n : Nat} {stop : Option Nat} {b : Bool}
    (e : trimAll S rewardsTexts false n stop (file t) = (file t', b)) :
    step S ⟨file t, c⟩ (.trim n stop) = (⟨file t', c⟩, if b then some [] else none) := by
  simp only [step]
  rw [e]

theorem step_remove (S : Scan ℚ) {t t' : Table (ℚ × ℚ)} {c : AMap Str (List Reward)} {p : Str} {stop : Option Nat} {b : Bool}
    (e : removeLike S rewardsTexts p stop (file t) = (file t', b)) :
    step S ⟨file t, c⟩ (.removePrefix p stop) = (⟨file t', c⟩, if b then some [] else none) := by
  simp only [step]
  rw [e]

theorem step_spec (S : Scan ℚ) {t : Table (ℚ × ℚ)} {c : AMap Str (List Reward)} (ops : List Store.Rewards.Op)
    (h : Good ⟨t, c⟩ (Store.Rewards.sessionLog ops)) (o : Store.Rewards.Op) :
    ∃ t' c' out, step S ⟨file t, c⟩ o = (⟨file t', c'⟩, out) ∧
      Good ⟨t', c'⟩ (Store.Rewards.sessionLog (ops ++ [o])) ∧
      AbsStep (Store.Rewards.sessionLog ops) t.history t'.history o out := by
  obtain ⟨hw, hc, hb⟩ := h
  rw [Store.Rewards.sessionLog_snoc]
  cases o with
  | record rs fail =>
    obtain ⟨j1, j2, j3, j4, j5, j6⟩ := Store.Rewards.loop_spec (cutOrder S) rs ⟨t, c⟩ (Store.Rewards.sessionLog ops)
      t.history fail hw hc (fun u => Table.KeepsNewest.refl _ _ (hb u))
    have e := loop_eq S rs ⟨t, c⟩ fail hw
    simp only at e
    simp only [step]
    rw [e]
    cases fail with
    | none =>
      have hok : (Store.Rewards.loop (cutOrder S) ⟨t, c⟩ rs none).2.2 = true := j1.2 (by simp)
      simp only [hok, Option.isNone_none, Bool.and_self, if_true]
      refine ⟨_, _, _, rfl, ⟨j3, j4, fun u => ?_⟩, ?_, j5⟩
      · have := (j5 u).1
        simp only
        omega
      · rw [j2]
        rfl
    | some k =>
      simp only [Option.isNone_some, Bool.and_false, Bool.false_eq_true, if_false]
      exact ⟨t, _, none, rfl, ⟨hw, j4, hb⟩, rfl, fun u => rfl⟩
  | trim n stop =>
    obtain ⟨t', e, hw', hs⟩ := trimId_spec (v := rewardsTexts.migrations.length) (idx := rewardsIndexes)
      rewards_reads fits S hw n stop false
    refine ⟨t', c, _, step_trim S e, ⟨hw', hc, fun u => ?_⟩, ?_⟩
    · have h20 := hb u
      simp only at h20 ⊢
      rcases (hs u).2 with e | e
      · rw [e]; exact h20
      · rw [e.1]
        exact Nat.le_trans (Nat.min_le_right _ _) h20
    · cases stop with
      | none => exact ⟨rfl, fun u => (hs u).1 rfl⟩
      | some k => exact ⟨rfl, fun u => (hs u).2⟩
  | removePrefix p stop =>
    obtain ⟨t', e, hw', hs⟩ := removeLike_spec (v := rewardsTexts.migrations.length) (idx := rewardsIndexes)
      rewards_reads fits S hw p stop
    refine ⟨t', c, _, step_remove S e, ⟨hw', hc, fun u => ?_⟩, ?_⟩
    · have h20 := hb u
      simp only at h20 ⊢
      rcases (hs u).2 with e | ⟨_, e⟩
      · rw [e]; exact h20
      · rw [e]; simp
    · cases stop with
      | none => exact ⟨rfl, fun u => (hs u).1 rfl⟩
      | some k => exact ⟨rfl, fun u => (hs u).2⟩
  | reopen =>
    refine ⟨t, [], some [], ?_, ⟨hw, fun u => rfl, hb⟩, rfl, fun u => rfl⟩
    simp only [step, openStore]
    rw [toLatest_same S (by simp [rewardsTexts]) rfl]

end RewardState

end Trane.Sql
