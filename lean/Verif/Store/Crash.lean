import Verif.Store.RewardsProps

/-!
# C18: crash points

The recording calls as sequences of SQLite events.  A crash is a cut of the sequence at any point;
what survives is the committed state.  SQLite's own promise — statements inside a transaction become
visible on disk only at commit, and an open transaction is rolled back on recovery — is the meaning
given to the events here (it covers crashes of the process; with `synchronous = OFF`,
/repo/src/utils.rs:24-25, SQLite does not promise it for power loss).
-/

namespace Trane.Store.Crash
open Table

/-- One event of a database connection. -/
inductive Ev (σ : Type)
  | begin
  /-- A statement; `none` is an error, after which the call returns and the transaction is dropped. -/
  | stmt (f : σ → Option σ)
  | commit

/-- A database with its open transaction.  `halted` is set by an error: the call has returned early.
The connections of /repo/src/practice_stats.rs:138-155. -/
structure Db (σ : Type) where
  committed : σ
  working : Option σ := none
  halted : Bool := false

/-- SQLite's transaction semantics. -/
def Db.step {σ : Type} (d : Db σ) (e : Ev σ) : Db σ :=
  if d.halted then d
  else match e, d.working with
    | .begin, _ => { d with working := some d.committed }
    | .stmt f, some w =>
      match f w with
      | some w' => { d with working := some w' }
      | none => { d with working := none, halted := true }
    | .stmt f, none =>
      match f d.committed with
      | some c => { d with committed := c }
      | none => { d with halted := true }
    | .commit, some w => { d with committed := w, working := none }
    | .commit, none => d

/-- Running a sequence of events. -/
def Db.exec {σ : Type} (d : Db σ) (evs : List (Ev σ)) : Db σ := evs.foldl Db.step d

/-- What is on disk when the process dies after `k` events. -/
def afterCrash {σ : Type} (s : σ) (evs : List (Ev σ)) (k : Nat) : σ :=
  (Db.exec { committed := s } (evs.take k)).committed

/-- The statements of `record_exercise_scores` and `record_exercise_deltas`, in order:
/repo/src/practice_stats.rs:134-157, /repo/src/practice_deltas.rs:117-138. -/
def recordEvents {α : Type} (es : List (Entry α)) : List (Ev (Table α)) :=
  [.begin] ++ es.flatMap (fun e =>
    [.stmt (fun t => some (t.intern e.unit)), .stmt (fun t => t.insert e)]) ++ [.commit]

/-- The statements of `record_unit_rewards` for the rewards that are not skipped:
/repo/src/practice_rewards.rs:188-228. -/
def rewardEvents (S : SortDesc (ℚ × ℚ)) (acc : List Reward) : List (Ev (Table (ℚ × ℚ))) :=
  [.begin] ++ acc.flatMap (fun r =>
    [.stmt (fun t => some (t.intern r.unit)),
     .stmt (fun t => t.insert ⟨r.unit, (r.value, r.weight), r.ts⟩),
     .stmt (fun t => some (Rewards.truncate S t r.unit))]) ++ [.commit]

/-! ### Atomicity of one transaction -/

/-- Running statements in a row; `none` if one fails. -/
def runStmts {σ : Type} (fs : List (σ → Option σ)) (s : σ) : Option σ :=
  fs.foldl (fun o f => o.bind f) (some s)

theorem foldl_bind_none {σ : Type} (fs : List (σ → Option σ)) :
    fs.foldl (fun o f => o.bind f) (none : Option σ) = none := by
  induction fs with
  | nil => rfl
  | cons f fs ih => simpa using ih

theorem exec_halted {σ : Type} (d : Db σ) (h : d.halted = true) (evs : List (Ev σ)) :
    d.exec evs = d := by
  induction evs generalizing d with
  | nil => rfl
  | cons e evs ih =>
    have : d.step e = d := by simp [Db.step, h]
    show (d.step e).exec evs = d
    rw [this]; exact ih d h

theorem exec_stmts {σ : Type} (fs : List (σ → Option σ)) (s w : σ) :
    let d := Db.exec ⟨s, some w, false⟩ (fs.map Ev.stmt)
    d.committed = s ∧
    ((d.working = runStmts fs w ∧ d.halted = false ∧ (runStmts fs w).isSome) ∨
      (d.working = none ∧ d.halted = true ∧ runStmts fs w = none)) := by
  induction fs generalizing w with
  | nil => simp [Db.exec, runStmts]
  | cons f fs ih =>
    have e : Db.exec ⟨s, some w, false⟩ ((f :: fs).map Ev.stmt) =
        Db.exec (Db.step ⟨s, some w, false⟩ (.stmt f)) (fs.map Ev.stmt) := rfl
    rw [e]
    cases hf : f w with
    | none =>
      have : Db.step ⟨s, some w, false⟩ (.stmt f) = ⟨s, none, true⟩ := by simp [Db.step, hf]
      rw [this, exec_halted _ rfl]
      have hr : runStmts (f :: fs) w = none := by
        simp only [runStmts, List.foldl_cons, Option.bind_some, hf]
        exact foldl_bind_none fs
      simp [hr]
    | some w' =>
      have : Db.step ⟨s, some w, false⟩ (.stmt f) = ⟨s, some w', false⟩ := by simp [Db.step, hf]
      rw [this]
      have hr : runStmts (f :: fs) w = runStmts fs w' := by
        simp [runStmts, hf]
      rw [hr]
      exact ih w'

/-- A transaction made of the statements `fs`. As in /repo/src/practice_stats.rs:138-155. -/
def tx {σ : Type} (fs : List (σ → Option σ)) : List (Ev σ) := [.begin] ++ fs.map Ev.stmt ++ [.commit]

/-- Before the commit event nothing is on disk; after it everything is, unless a statement failed. -/
theorem tx_atomic {σ : Type} (fs : List (σ → Option σ)) (s : σ) (k : Nat) :
    afterCrash s (tx fs) k =
      if k < (tx fs).length then s else (runStmts fs s).getD s := by
  have hlen : (tx fs).length = fs.length + 2 := by simp [tx]
  cases k with
  | zero => simp [afterCrash, Db.exec, hlen]
  | succ k =>
    have hb : ∀ evs, Db.exec ⟨s, none, false⟩ (Ev.begin :: evs) = Db.exec ⟨s, some s, false⟩ evs :=
      fun _ => rfl
    have ht : (tx fs).take (k + 1) = Ev.begin :: ((fs.map Ev.stmt ++ [Ev.commit]).take k) := by
      simp [tx]
    unfold afterCrash
    rw [ht, hb]
    by_cases hk : k ≤ fs.length
    · have : (fs.map Ev.stmt ++ [Ev.commit]).take k = (fs.take k).map Ev.stmt := by
        rw [List.take_append_of_le_length (by simpa using hk), List.map_take]
      rw [this, (exec_stmts (fs.take k) s s).1, if_pos (by omega)]
    · have : (fs.map Ev.stmt ++ [Ev.commit]).take k = fs.map Ev.stmt ++ [Ev.commit] := by
        rw [List.take_of_length_le]; simp; omega
      rw [this, if_neg (by omega)]
      have e : Db.exec ⟨s, some s, false⟩ (fs.map Ev.stmt ++ [Ev.commit]) =
          Db.step (Db.exec ⟨s, some s, false⟩ (fs.map Ev.stmt)) .commit := by
        simp [Db.exec]
      rw [e]
      obtain ⟨h1, h2⟩ := exec_stmts fs s s
      generalize Db.exec ⟨s, some s, false⟩ (fs.map Ev.stmt) = d at *
      obtain ⟨c, w, h⟩ := d
      simp only at h1 h2
      subst h1
      rcases h2 with ⟨hw, hh, hs⟩ | ⟨hw, hh, hn⟩
      · subst hh
        obtain ⟨x, hx⟩ := Option.isSome_iff_exists.1 hs
        rw [hx] at hw; subst hw
        simp [Db.step, hx]
      · subst hh hw
        simp [Db.step, hn]

/-! ### The recording calls are such transactions -/

theorem recordEvents_eq {α : Type} (es : List (Entry α)) :
    recordEvents es = tx (es.flatMap (fun e => [fun t => some (t.intern e.unit), fun t => t.insert e])) := by
  simp [recordEvents, tx, List.map_flatMap]

theorem runStmts_append {σ : Type} (fs gs : List (σ → Option σ)) (s : σ) :
    runStmts (fs ++ gs) s = (runStmts fs s).bind (runStmts gs) := by
  simp only [runStmts, List.foldl_append]
  generalize List.foldl (fun o f => Option.bind o f) (some s) fs = o
  cases o with
  | none => simp [foldl_bind_none]
  | some x => rfl

theorem runStmts_record {α : Type} (es : List (Entry α)) (t : Table α) :
    runStmts (es.flatMap (fun e => [fun t => some (t.intern e.unit), fun t => t.insert e])) t =
      t.record es := by
  induction es generalizing t with
  | nil => rfl
  | cons e es ih =>
    rw [List.flatMap_cons, runStmts_append]
    have : runStmts [fun t : Table α => some (t.intern e.unit), fun t => t.insert e] t =
        t.recordOne e := rfl
    rw [this, record]
    cases t.recordOne e with
    | none => rfl
    | some t' => exact ih t'

theorem rewardEvents_eq (S : SortDesc (ℚ × ℚ)) (acc : List Reward) :
    rewardEvents S acc = tx (acc.flatMap (fun r =>
      [fun t => some (t.intern r.unit),
       fun t => t.insert ⟨r.unit, (r.value, r.weight), r.ts⟩,
       fun t => some (Rewards.truncate S t r.unit)])) := by
  simp [rewardEvents, tx, List.map_flatMap]

theorem runStmts_rewards (S : SortDesc (ℚ × ℚ)) (rs : List Reward) :
    ∀ (s : Rewards) (log : List Reward), Wf s.table → Rewards.CacheOk s.cache log →
    runStmts ((Rewards.accepted log rs).flatMap (fun r =>
      [fun t => some (t.intern r.unit),
       fun t => t.insert ⟨r.unit, (r.value, r.weight), r.ts⟩,
       fun t => some (Rewards.truncate S t r.unit)])) s.table =
      some (Rewards.loop S s rs none).1.table := by
  induction rs with
  | nil => intro s log _ _; rfl
  | cons r rs ih =>
    intro s log hw hc
    simp only [Rewards.loop, Rewards.accepted]
    by_cases hs : Rewards.hasSimilar s.cache r = true
    · rw [if_pos hs, if_pos ((Rewards.hasSimilar_iff hc r).1 hs)]
      exact ih s log hw hc
    · rw [if_neg hs, if_neg (fun h => hs ((Rewards.hasSimilar_iff hc r).2 h))]
      obtain ⟨t, h1, h2, -⟩ := recordOne_spec s.table ⟨r.unit, (r.value, r.weight), r.ts⟩ hw
      rw [List.flatMap_cons, runStmts_append, if_neg (by simp)]
      have e : runStmts [fun t => some (t.intern r.unit),
          fun t => t.insert ⟨r.unit, (r.value, r.weight), r.ts⟩,
          fun t => some (Rewards.truncate S t r.unit)] s.table =
          some (Rewards.truncate S t r.unit) := by
        have : ((s.table).intern r.unit).insert ⟨r.unit, (r.value, r.weight), r.ts⟩ = some t := h1
        simp [runStmts, this]
      rw [e, h1]
      exact ih ⟨Rewards.truncate S t r.unit, Rewards.addCache s.cache r⟩ (log ++ [r])
        (Rewards.truncate_spec S t r.unit h2).1 (Rewards.cacheOk_add hc r)

/-! ### C18 -/

/-- C18: a crash at any point of recording trials (or deltas), after any history, leaves the database
either as before the call or as after the completed call. -/
theorem record_crash_atomic {α : Type} (S : SortDesc α) (ops : List (LogOp α))
    (es : List (Entry α)) (k : Nat) :
    let old := Table.run S ops
    let new := Table.run S (ops ++ [.record es false])
    afterCrash old (recordEvents es) k =
      if k < (recordEvents es).length then old else new := by
  intro old new
  rw [recordEvents_eq, tx_atomic, runStmts_record]
  have : (old.record es).getD old = new := by
    show _ = Table.run S (ops ++ [.record es false])
    rw [Table.run_snoc]
    obtain ⟨t', h1, -⟩ := record_spec old es (wf_run S ops)
    simp [Table.step, old, h1] at *
  rw [this]

/-- C18: the same for a batch of rewards. -/
theorem rewards_crash_atomic (S : SortDesc (ℚ × ℚ)) (ops : List Rewards.Op) (rs : List Reward)
    (k : Nat) :
    let evs := rewardEvents S (Rewards.accepted (Rewards.sessionLog ops) rs)
    let old := (Rewards.run S ops).table
    let new := (Rewards.run S (ops ++ [.record rs none])).table
    afterCrash old evs k = if k < evs.length then old else new := by
  intro evs old new
  obtain ⟨hw, hc, hb⟩ := Rewards.good_run S ops
  have : (Rewards.loop S (Rewards.run S ops) rs none).1.table = new := by
    show _ = (Rewards.run S (ops ++ [.record rs none])).table
    rw [Rewards.run_snoc]
    obtain ⟨j1, -⟩ := Rewards.loop_spec S rs _ _ (Rewards.run S ops).table.history none hw hc
      (fun u => KeepsNewest.refl _ _ (hb u))
    have hok : (Rewards.loop S (Rewards.run S ops) rs none).2.2 = true := j1.2 (by simp)
    simp [Rewards.step, Rewards.record, hok]
  show afterCrash old (rewardEvents S _) k = if k < (rewardEvents S _).length then old else new
  rw [rewardEvents_eq, tx_atomic, runStmts_rewards S rs _ _ hw hc, this]
  rfl

/-- The three databases written by `score_exercise`. /repo/src/scheduler.rs:1115-1151. -/
structure Disk where
  deltas : Table ℚ
  stats : Table ℚ
  rewards : Table (ℚ × ℚ)

/-- An event on one of the three databases. /repo/src/scheduler.rs:1115-1151. -/
inductive DiskEv
  | onDeltas (e : Ev (Table ℚ))
  | onStats (e : Ev (Table ℚ))
  | onRewards (e : Ev (Table (ℚ × ℚ)))

/-- The three connections. /repo/src/scheduler.rs:1115-1151. -/
structure Conns where
  deltas : Db (Table ℚ)
  stats : Db (Table ℚ)
  rewards : Db (Table (ℚ × ℚ))

/-- One event; an error in any database ends the call. -/
def Conns.step (c : Conns) (e : DiskEv) : Conns :=
  if c.deltas.halted || c.stats.halted || c.rewards.halted then c
  else match e with
    | .onDeltas e => { c with deltas := c.deltas.step e }
    | .onStats e => { c with stats := c.stats.step e }
    | .onRewards e => { c with rewards := c.rewards.step e }

/-- The database events of `score_exercise`, /repo/src/scheduler.rs:1115-1149: the delta if there is
one, then the trial, then the propagated rewards. -/
def scoreEvents (S : SortDesc (ℚ × ℚ)) (delta : Option (Entry ℚ)) (trial : Entry ℚ)
    (acc : List Reward) : List DiskEv :=
  (match delta with | none => [] | some d => (recordEvents [d]).map .onDeltas) ++
  (recordEvents [trial]).map .onStats ++ (rewardEvents S acc).map .onRewards

/-- What is on disk when the process dies after `k` events of `score_exercise`. -/
def scoreCrash (d : Disk) (evs : List DiskEv) (k : Nat) : Disk :=
  let c := (evs.take k).foldl Conns.step
    ⟨{ committed := d.deltas }, { committed := d.stats }, { committed := d.rewards }⟩
  ⟨c.deltas.committed, c.stats.committed, c.rewards.committed⟩

theorem foldl_onDeltas (evs : List (Ev (Table ℚ))) (c : Conns)
    (h2 : c.stats.halted = false) (h3 : c.rewards.halted = false) :
    (evs.map DiskEv.onDeltas).foldl Conns.step c = { c with deltas := c.deltas.exec evs } := by
  induction evs generalizing c with
  | nil => rfl
  | cons e evs ih =>
    simp only [List.map_cons, List.foldl_cons]
    by_cases h1 : c.deltas.halted = true
    · have : Conns.step c (.onDeltas e) = c := by simp [Conns.step, h1]
      rw [this, ih c h2 h3, exec_halted _ h1, exec_halted _ h1]
    · have : Conns.step c (.onDeltas e) = { c with deltas := c.deltas.step e } := by
        simp [Conns.step, h1, h2, h3]
      rw [this]
      exact ih { c with deltas := c.deltas.step e } h2 h3

theorem foldl_onStats (evs : List (Ev (Table ℚ))) (c : Conns)
    (h1 : c.deltas.halted = false) (h3 : c.rewards.halted = false) :
    (evs.map DiskEv.onStats).foldl Conns.step c = { c with stats := c.stats.exec evs } := by
  induction evs generalizing c with
  | nil => rfl
  | cons e evs ih =>
    simp only [List.map_cons, List.foldl_cons]
    by_cases h2 : c.stats.halted = true
    · have : Conns.step c (.onStats e) = c := by simp [Conns.step, h2]
      rw [this, ih c h1 h3, exec_halted _ h2, exec_halted _ h2]
    · have : Conns.step c (.onStats e) = { c with stats := c.stats.step e } := by
        simp [Conns.step, h1, h2, h3]
      rw [this]
      exact ih { c with stats := c.stats.step e } h1 h3

theorem foldl_onRewards (evs : List (Ev (Table (ℚ × ℚ)))) (c : Conns)
    (h1 : c.deltas.halted = false) (h2 : c.stats.halted = false) :
    (evs.map DiskEv.onRewards).foldl Conns.step c = { c with rewards := c.rewards.exec evs } := by
  induction evs generalizing c with
  | nil => rfl
  | cons e evs ih =>
    simp only [List.map_cons, List.foldl_cons]
    by_cases h3 : c.rewards.halted = true
    · have : Conns.step c (.onRewards e) = c := by simp [Conns.step, h3]
      rw [this, ih c h1 h2, exec_halted _ h3, exec_halted _ h3]
    · have : Conns.step c (.onRewards e) = { c with rewards := c.rewards.step e } := by
        simp [Conns.step, h1, h2, h3]
      rw [this]
      exact ih { c with rewards := c.rewards.step e } h1 h2

theorem record_not_halted {α : Type} (t : Table α) (h : Wf t) (es : List (Entry α)) :
    (Db.exec { committed := t } (recordEvents es)).halted = false := by
  rw [recordEvents_eq]
  generalize hfs : es.flatMap (fun e => [fun t : Table α => some (t.intern e.unit), fun t => t.insert e]) = fs
  have hr : (runStmts fs t).isSome := by
    rw [← hfs, runStmts_record]
    obtain ⟨t', h1, -⟩ := record_spec t es h
    simp [h1]
  have e : Db.exec ⟨t, none, false⟩ (tx fs) =
      Db.step (Db.exec ⟨t, some t, false⟩ (fs.map Ev.stmt)) .commit := by
    have hb : ∀ evs, Db.exec ⟨t, none, false⟩ (Ev.begin :: evs) = Db.exec ⟨t, some t, false⟩ evs :=
      fun _ => rfl
    simp only [tx, List.cons_append, List.nil_append, hb]
    simp [Db.exec]
  rw [e]
  obtain ⟨h1, h2⟩ := exec_stmts fs t t
  generalize Db.exec ⟨t, some t, false⟩ (fs.map Ev.stmt) = d at *
  obtain ⟨c, w, hh⟩ := d
  simp only at h1 h2
  rcases h2 with ⟨hw, hh, -⟩ | ⟨_, _, hn⟩
  · subst hh
    cases w <;> rfl
  · rw [hn] at hr; cases hr

/-- C18: a crash at any point of `score_exercise` leaves a prefix of its writes: nothing, the delta,
the delta and the trial, or everything — each of them whole. -/
theorem score_crash_leaves_prefix (S : SortDesc ℚ) (R : SortDesc (ℚ × ℚ))
    (dops sops : List (LogOp ℚ)) (rops : List Rewards.Op) (delta : Option (Entry ℚ))
    (trial : Entry ℚ) (rs : List Reward) (k : Nat) :
    let deltaOp : List (LogOp ℚ) := match delta with | none => [] | some d => [.record [d] false]
    let d0 := Table.run S dops
    let d1 := Table.run S (dops ++ deltaOp)
    let s0 := Table.run S sops
    let s1 := Table.run S (sops ++ [.record [trial] false])
    let r0 := (Rewards.run R rops).table
    let r1 := (Rewards.run R (rops ++ [.record rs none])).table
    let evs := scoreEvents R delta trial (Rewards.accepted (Rewards.sessionLog rops) rs)
    let disk := scoreCrash ⟨d0, s0, r0⟩ evs k
    (disk = ⟨d0, s0, r0⟩ ∨ disk = ⟨d1, s0, r0⟩ ∨ disk = ⟨d1, s1, r0⟩ ∨ disk = ⟨d1, s1, r1⟩) ∧
    (evs.length ≤ k → disk = ⟨d1, s1, r1⟩) := by
  intro deltaOp d0 d1 s0 s1 r0 r1 evs disk
  -- the three transactions
  let e1 : List (Ev (Table ℚ)) := match delta with | none => [] | some d => recordEvents [d]
  let e2 : List (Ev (Table ℚ)) := recordEvents [trial]
  let e3 := rewardEvents R (Rewards.accepted (Rewards.sessionLog rops) rs)
  have hevs : evs = e1.map .onDeltas ++ e2.map .onStats ++ e3.map .onRewards := by
    show scoreEvents R delta trial _ = _
    cases delta <;> rfl
  have c1 : ∀ j, afterCrash d0 e1 j = if j < e1.length then d0 else d1 := by
    intro j
    cases hd : delta with
    | none =>
      have he : e1 = [] := by simp only [e1, hd]
      have hd1 : d1 = d0 := by simp only [d1, deltaOp, hd, List.append_nil, d0]
      rw [he, hd1]; simp [afterCrash, Db.exec]
    | some d =>
      have he : e1 = recordEvents [d] := by simp only [e1, hd]
      have hd1 : d1 = Table.run S (dops ++ [.record [d] false]) := by simp only [d1, deltaOp, hd]
      rw [he, hd1]
      exact record_crash_atomic S dops [d] j
  have n1 : (Db.exec { committed := d0 } e1).halted = false := by
    cases hd : delta with
    | none =>
      have he : e1 = [] := by simp only [e1, hd]
      rw [he]; rfl
    | some d =>
      have he : e1 = recordEvents [d] := by simp only [e1, hd]
      rw [he]; exact record_not_halted _ (wf_run S dops) _
  have c2 : ∀ j, afterCrash s0 e2 j = if j < e2.length then s0 else s1 :=
    fun j => record_crash_atomic S sops [trial] j
  have n2 : (Db.exec { committed := s0 } e2).halted = false :=
    record_not_halted _ (wf_run S sops) _
  have c3 : ∀ j, afterCrash r0 e3 j = if j < e3.length then r0 else r1 :=
    fun j => rewards_crash_atomic R rops rs j
  have hl : evs.length = e1.length + e2.length + e3.length := by rw [hevs]; simp; omega
  have l2 : 0 < e2.length := by simp [e2, recordEvents]
  have l3 : 0 < e3.length := by simp [e3, rewardEvents]
  have key : disk = ⟨afterCrash d0 e1 k, afterCrash s0 e2 (k - e1.length),
      afterCrash r0 e3 (k - e1.length - e2.length)⟩ := by
    show scoreCrash ⟨d0, s0, r0⟩ evs k = _
    unfold scoreCrash
    have ht : evs.take k = (e1.take k).map .onDeltas ++ (e2.take (k - e1.length)).map .onStats ++
        (e3.take (k - e1.length - e2.length)).map .onRewards := by
      rw [hevs]
      simp [List.take_append, List.map_take, Nat.sub_sub]
    rw [ht, List.foldl_append, List.foldl_append, foldl_onDeltas _ _ rfl rfl]
    by_cases hk1 : k < e1.length
    · have z2 : k - e1.length = 0 := by omega
      have z3 : k - e1.length - e2.length = 0 := by omega
      rw [z3, z2]
      simp [afterCrash, Db.exec]
    · have t1 : e1.take k = e1 := List.take_of_length_le (by omega)
      rw [t1, foldl_onStats _ _ n1 rfl]
      by_cases hk2 : k - e1.length < e2.length
      · have z3 : k - e1.length - e2.length = 0 := by omega
        rw [z3]
        simp [afterCrash, Db.exec, t1]
      · have t2 : e2.take (k - e1.length) = e2 := List.take_of_length_le (by omega)
        rw [t2, foldl_onRewards _ _ n1 n2]
        simp [afterCrash, t1, t2]
  rw [key, c1, c2, c3]
  constructor
  · by_cases h1 : k < e1.length
    · left
      rw [if_pos h1, if_pos (by omega), if_pos (by omega)]
    · right
      rw [if_neg h1]
      by_cases h2 : k - e1.length < e2.length
      · left; rw [if_pos h2, if_pos (by omega)]
      · right
        rw [if_neg h2]
        by_cases h3 : k - e1.length - e2.length < e3.length
        · left; rw [if_pos h3]
        · right; rw [if_neg h3]
  · intro hk
    rw [if_neg (by omega), if_neg (by omega), if_neg (by omega)]

/-- The four outcomes are different for a concrete call: a crash between the delta and the trial
leaves a delta without its trial. -/
example :
    let d : Entry ℚ := ⟨"e".toList, 1, 20⟩
    let t : Entry ℚ := ⟨"e".toList, 5, 20⟩
    let evs := scoreEvents insSort (some d) t [⟨"l".toList, 1 / 2, 1, 20⟩]
    let disk k := scoreCrash ⟨{}, {}, {}⟩ evs k
    evs.length = 13 ∧
    (disk 3).deltas.history "e".toList = [] ∧
    (disk 4).deltas.history "e".toList = [(1, 20)] ∧ (disk 4).stats.history "e".toList = [] ∧
    (disk 8).stats.history "e".toList = [(5, 20)] ∧ (disk 12).rewards.history "l".toList = [] ∧
    (disk 13).rewards.history "l".toList = [((1 / 2, 1), 20)] := by
  decide +kernel

end Trane.Store.Crash
