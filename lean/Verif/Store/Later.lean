import Verif.Store.RewardsProps
import Verif.Store.LogProps

/-!
# The tables with all timestamps moved (C109)

What the stores of trials, deltas and rewards hold and answer when every timestamp is moved by `δ` seconds.
-/

namespace Trane.Store

/-- A row with its timestamp moved. -/
def Row.later {α : Type} (δ : Int) (r : Row α) : Row α := { r with ts := r.ts + δ }

/-- A table with all timestamps moved. -/
def Table.later {α : Type} (δ : Int) (t : Table α) : Table α := { t with rows := t.rows.map (Row.later δ) }

/-- A value to be recorded with its timestamp moved. -/
def Entry.later {α : Type} (δ : Int) (e : Entry α) : Entry α := { e with ts := e.ts + δ }

/-- A reward with its timestamp moved. -/
def Reward.later (δ : Int) (r : Reward) : Reward := { r with ts := r.ts + δ }

/-- The store of rewards with all timestamps moved. -/
def Rewards.later (δ : Int) (s : Rewards) : Rewards where
  table := s.table.later δ
  cache := s.cache.map (fun e => (e.1, e.2.map (Reward.later δ)))

/-- How SQLite orders rows of equal time does not depend on the times of the others as such: moving all timestamps by
`δ` does not change which row comes first. -/
def SortDesc.Steady {α : Type} (δ : Int) (S : SortDesc α) : Prop :=
  ∀ l : List (Row α), S.sort (l.map (Row.later δ)) = (S.sort l).map (Row.later δ)

theorem insSort_steady {α : Type} (δ : Int) : (Table.insSort : SortDesc α).Steady δ := by
  intro l
  induction l with
  | nil => rfl
  | cons a l ih =>
    have ih' : (l.map (Row.later δ)).foldr (fun a acc => acc.takeWhile (fun b => a.ts < b.ts) ++
        a :: acc.dropWhile (fun b => a.ts < b.ts)) [] = (l.foldr (fun a acc => acc.takeWhile (fun b => a.ts < b.ts) ++
        a :: acc.dropWhile (fun b => a.ts < b.ts)) []).map (Row.later δ) := ih
    simp only [Table.insSort, List.map_cons, List.foldr_cons]
    rw [ih']
    generalize l.foldr _ [] = m
    simp only [List.takeWhile_map, List.dropWhile_map, List.map_append, List.map_cons, Function.comp_def, Row.later,
      add_lt_add_iff_right]

namespace Table
variable {α : Type} {S : SortDesc α} {δ : Int}

theorem later_uidOf (t : Table α) (u : Str) : (t.later δ).uidOf u = t.uidOf u := rfl

theorem later_intern (t : Table α) (u : Str) : (t.later δ).intern u = (t.intern u).later δ := by
  unfold intern
  rw [later_uidOf]
  split <;> rfl

theorem later_insert (t : Table α) (e : Entry α) : (t.later δ).insert (e.later δ) = (t.insert e).map (Table.later δ) := by
  unfold insert
  have : (e.later δ).unit = e.unit := rfl
  rw [this, later_uidOf]
  cases t.uidOf e.unit with
  | none => rfl
  | some k => simp [Table.later, Row.later, Entry.later, Function.comp_def]

theorem later_recordOne (t : Table α) (e : Entry α) : (t.later δ).recordOne (e.later δ) = (t.recordOne e).map (Table.later δ) := by
  unfold recordOne
  have : (e.later δ).unit = e.unit := rfl
  rw [this, later_intern, later_insert]

theorem later_record (es : List (Entry α)) : ∀ t : Table α,
    (t.later δ).record (es.map (Entry.later δ)) = (t.record es).map (Table.later δ) := by
  induction es with
  | nil => exact fun _ => rfl
  | cons e es ih =>
    intro t
    simp only [List.map_cons, record, later_recordOne]
    cases t.recordOne e with
    | none => rfl
    | some t => exact ih t

theorem filter_later (p : Row α → Bool) (hp : ∀ r, p (r.later δ) = p r) (l : List (Row α)) :
    (l.map (Row.later δ)).filter p = (l.filter p).map (Row.later δ) := by
  rw [List.filter_map]
  congr 2
  funext r
  exact hp r

theorem later_rowsOf (t : Table α) (u : Str) : (t.later δ).rowsOf u = (t.rowsOf u).map (Row.later δ) := by
  unfold rowsOf
  rw [later_uidOf]
  cases t.uidOf u with
  | none => rfl
  | some k => exact filter_later _ (fun _ => rfl) _

theorem later_get (hS : S.Steady δ) (t : Table α) (u : Str) (n : Nat) :
    (t.later δ).get S u n = (t.get S u n).map (fun p => (p.1, p.2 + δ)) := by
  unfold get
  rw [later_rowsOf, hS, ← List.map_take, List.map_map, List.map_map]
  rfl

theorem later_trimUidByTime (hS : S.Steady δ) (n k : Nat) (rows : List (Row α)) :
    trimUidByTime S n k (rows.map (Row.later δ)) = (trimUidByTime S n k rows).map (Row.later δ) := by
  unfold trimUidByTime
  rw [filter_later (fun r => decide (r.uid = k)) (fun _ => rfl), hS, ← List.map_take, List.map_map, List.filter_map]
  congr 1
  refine List.filter_congr fun r _ => ?_
  simp only [Function.comp_apply, Row.later]
  congr 1
  rw [Bool.eq_iff_iff]
  simp only [List.contains_iff_mem, List.mem_map, Function.comp_apply]
  constructor
  · rintro ⟨a, ha, e⟩
    exact ⟨a, ha, add_right_cancel e⟩
  · rintro ⟨a, ha, e⟩
    exact ⟨a, ha, congrArg (· + δ) e⟩

theorem later_trimUidById (hS : S.Steady δ) (n k : Nat) (rows : List (Row α)) :
    trimUidById S n k (rows.map (Row.later δ)) = (trimUidById S n k rows).map (Row.later δ) := by
  unfold trimUidById
  rw [filter_later (fun r => decide (r.uid = k)) (fun _ => rfl), hS, ← List.map_drop, List.map_map, List.filter_map]
  rfl

theorem later_fold (f : List (Row α) → Nat → List (Row α))
    (hf : ∀ rows k, f (rows.map (Row.later δ)) k = (f rows k).map (Row.later δ)) (ks : List Nat) :
    ∀ rows, ks.foldl f (rows.map (Row.later δ)) = (ks.foldl f rows).map (Row.later δ) := by
  induction ks with
  | nil => exact fun _ => rfl
  | cons k ks ih =>
    intro rows
    rw [List.foldl_cons, List.foldl_cons, hf, ih]

theorem later_trimByTime (hS : S.Steady δ) (t : Table α) (n : Nat) (stop : Option Nat) :
    (t.later δ).trimByTime S n stop = (t.trimByTime S n stop).later δ := by
  simp only [trimByTime, Table.later]
  congr 1
  exact later_fold _ (fun rows k => later_trimUidByTime hS n k rows) _ _

theorem later_trimById (hS : S.Steady δ) (t : Table α) (n : Nat) (stop : Option Nat) :
    (t.later δ).trimById S n stop = (t.trimById S n stop).later δ := by
  simp only [trimById, Table.later]
  congr 1
  exact later_fold _ (fun rows k => later_trimUidById hS n k rows) _ _

theorem later_removePrefix (t : Table α) (p : Str) (stop : Option Nat) :
    (t.later δ).removePrefix p stop = (t.removePrefix p stop).later δ := by
  simp only [removePrefix, Table.later]
  congr 1
  exact later_fold _ (fun rows k => filter_later _ (fun _ => rfl) rows) _ _

/-- A call on a store of trials or deltas with its timestamps moved. -/
def _root_.Trane.Store.LogOp.later (δ : Int) : LogOp α → LogOp α
  | .record es f => .record (es.map (Entry.later δ)) f
  | o => o

theorem later_step (hS : S.Steady δ) (t : Table α) (o : LogOp α) :
    (t.later δ).step S (o.later δ) = ((t.step S o).1.later δ, (t.step S o).2) := by
  cases o with
  | record es f =>
    simp only [LogOp.later, step, later_record]
    cases t.record es with
    | none => rfl
    | some t' => cases f <;> rfl
  | trim n stop => simp only [LogOp.later, step, later_trimByTime hS]
  | removePrefix p stop => simp only [LogOp.later, step, later_removePrefix]
  | reopen => rfl

end Table

namespace Rewards
variable {S : SortDesc (ℚ × ℚ)} {δ : Int}

theorem later_find (c : AMap Str (List Reward)) (u : Str) :
    AMap.find (c.map (fun e => (e.1, e.2.map (Reward.later δ)))) u = (AMap.find c u).map (List.map (Reward.later δ)) := by
  induction c with
  | nil => rfl
  | cons e c ih =>
    simp only [AMap.find, List.map_cons, List.find?_cons] at *
    by_cases h : e.1 = u <;> simp [h, ih]

theorem later_hasSimilar (c : AMap Str (List Reward)) (r : Reward) :
    hasSimilar (c.map (fun e => (e.1, e.2.map (Reward.later δ)))) (r.later δ) = hasSimilar c r := by
  unfold hasSimilar
  have : (r.later δ).unit = r.unit := rfl
  rw [this, later_find]
  cases AMap.find c r.unit with
  | none => rfl
  | some rs =>
    simp only [Option.map_some, List.any_map]
    congr 1
    funext s
    have e : (s.later δ).ts - (r.later δ).ts = s.ts - r.ts := add_sub_add_right_eq_sub _ _ _
    simp only [Function.comp_apply, similar, e]
    rfl

theorem later_addCache (c : AMap Str (List Reward)) (r : Reward) :
    addCache (c.map (fun e => (e.1, e.2.map (Reward.later δ)))) (r.later δ) =
      (addCache c r).map (fun e => (e.1, e.2.map (Reward.later δ))) := by
  have hp : ∀ (c : AMap Str (List Reward)) (u : Str) (v : List Reward),
      AMap.put (c.map (fun e => (e.1, e.2.map (Reward.later δ)))) u (v.map (Reward.later δ)) =
        (AMap.put c u v).map (fun e => (e.1, e.2.map (Reward.later δ))) := by
    intro c u v
    induction c with
    | nil => rfl
    | cons e c ih =>
      simp only [List.map_cons, AMap.put]
      by_cases h : e.1 = u
      · simp [h]
      · simp only [h, if_false, ih, List.map_cons]
  have hq : ∀ l : List Reward, pushCache (r.later δ) (l.map (Reward.later δ)) = (pushCache r l).map (Reward.later δ) := by
    intro l
    unfold pushCache
    rw [List.length_map]
    split <;> simp
  unfold addCache AMap.upd
  have : (r.later δ).unit = r.unit := rfl
  rw [this, later_find, ← hp, ← hq]
  congr 1
  cases AMap.find c r.unit <;> rfl

theorem later_truncate (hS : S.Steady δ) (t : Table (ℚ × ℚ)) (u : Str) :
    truncate S (t.later δ) u = (truncate S t u).later δ := by
  unfold truncate
  rw [Table.later_uidOf]
  cases t.uidOf u with
  | none => rfl
  | some k => simp only [Table.later, Table.later_trimUidById hS]

theorem later_loop (hS : S.Steady δ) (rs : List Reward) : ∀ (s : Rewards) (b : Option Nat),
    loop S (s.later δ) (rs.map (Reward.later δ)) b = ((loop S s rs b).1.later δ, (loop S s rs b).2) := by
  induction rs with
  | nil => exact fun _ _ => rfl
  | cons r rs ih =>
    intro s b
    have hh : hasSimilar (s.later δ).cache (r.later δ) = hasSimilar s.cache r := later_hasSimilar _ _
    have hr : (s.later δ).table.recordOne ⟨(r.later δ).unit, ((r.later δ).value, (r.later δ).weight), (r.later δ).ts⟩ =
        (s.table.recordOne ⟨r.unit, (r.value, r.weight), r.ts⟩).map (Table.later δ) :=
      Table.later_recordOne s.table ⟨r.unit, (r.value, r.weight), r.ts⟩
    simp only [List.map_cons, loop, hh, hr]
    by_cases h1 : hasSimilar s.cache r = true
    · simp only [h1, if_true, ih]
    · by_cases h2 : b = some 0
      · simp only [h1, h2, if_false, if_true, Bool.false_eq_true]
      · simp only [h1, h2, if_false, Bool.false_eq_true]
        cases s.table.recordOne ⟨r.unit, (r.value, r.weight), r.ts⟩ with
        | none => rfl
        | some t =>
          simp only [Option.map_some]
          have e : (⟨truncate S (t.later δ) (r.later δ).unit, addCache (s.later δ).cache (r.later δ)⟩ : Rewards) =
              Rewards.later δ ⟨truncate S t r.unit, addCache s.cache r⟩ := by
            simp only [Rewards.later, Rewards.mk.injEq]
            exact ⟨later_truncate hS t r.unit, later_addCache s.cache r⟩
          rw [e, ih]
          rfl

theorem later_record (hS : S.Steady δ) (s : Rewards) (rs : List Reward) (f : Option Nat) :
    (s.later δ).record S (rs.map (Reward.later δ)) f = ((s.record S rs f).1.later δ, (s.record S rs f).2) := by
  unfold record
  rw [later_loop hS]
  dsimp only
  split <;> rfl

/-- A call on the store of rewards with its timestamps moved. -/
def Op.later (δ : Int) : Op → Op
  | .record rs f => .record (rs.map (Reward.later δ)) f
  | o => o

theorem later_step (hS : S.Steady δ) (s : Rewards) (o : Op) :
    (s.later δ).step S (o.later δ) = ((s.step S o).1.later δ, (s.step S o).2) := by
  cases o with
  | record rs f => exact later_record hS s rs f
  | trim n stop => simp only [Op.later, step, Rewards.later, Table.later_trimById hS]
  | removePrefix p stop => simp only [Op.later, step, Rewards.later, Table.later_removePrefix]
  | reopen => rfl

end Rewards
end Trane.Store
