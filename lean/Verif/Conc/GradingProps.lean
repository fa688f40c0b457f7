import Verif.Conc.GradingSpec
import Verif.Conc.Watch
import Verif.Sched.SystemProps

/-! # C117: what other threads see while exercises are graded -/

namespace Trane.Threads
open Trane.Conc (Mode)
open Trane.Store Trane.System
open Trane.UnitScorer (scoreC exC invalidate)
open Trane.Batch (graded)

variable {R : Type} [Field R] [LinearOrder R]

theorem grade_through (cfg : Config R) (x : Str) (g : MasteryScore) (t : Int) (fuel : Nat) (order : List Reward → List Reward) (f : Faults)
    (s : State R) :
    (gradeCode cfg x g t fuel order f).Through (PartlyStored s (alone cfg s (.grade x g t fuel order f)))
      (alone cfg s (.grade x g t fuel order f)) s := by
  refine ⟨Or.inl ⟨rfl, rfl, rfl⟩, ?_⟩
  dsimp only [id]
  cases he : System.scoreExercise cfg order fuel s x g t f with
  | none =>
    have : alone cfg s (.grade x g t fuel order f) = s := by simp only [alone, he]
    rw [this]
    exact ⟨Or.inl ⟨rfl, rfl, rfl⟩, rfl⟩
  | some r0 =>
    have ha : alone cfg s (.grade x g t fuel order f) = r0.1 := by simp only [alone, he]
    rw [ha]
    obtain ⟨fin, ok⟩ := r0
    dsimp only
    unfold System.scoreExercise at he
    cases h1 : scoreC (s.world cfg) fuel x s.caches with
    | none => rw [h1] at he; cases he
    | some ec =>
      obtain ⟨existing, c⟩ := ec
      rw [h1] at he
      dsimp only at he ⊢
      cases h2 : exC (s.world cfg) x c with
      | none => rw [h2] at he; cases he
      | some rc =>
        obtain ⟨r, c'⟩ := rc
        rw [h2] at he
        dsimp only at he ⊢
        refine ⟨Or.inl ⟨rfl, rfl, rfl⟩, Or.inl ⟨rfl, rfl, rfl⟩, ?_⟩
        generalize hd : (if 0 < r.trials then s.deltas.step cfg.sortV (.record [⟨x, gradeVal R g - existing.getD 0, t⟩] f.delta)
          else (s.deltas, true)) = d at he
        dsimp only
        have hd1 : (if 0 < r.trials then ({ s with
              deltas := (s.deltas.step cfg.sortV (.record [⟨x, gradeVal R g - existing.getD 0, t⟩] f.delta)).1, caches := c' } : State R)
            else { s with caches := c' }) = { s with deltas := d.1, caches := c' } := by
          rw [← hd]; split <;> rfl
        have hd2 : (0 < r.trials ∧ (s.deltas.step cfg.sortV (.record [⟨x, gradeVal R g - existing.getD 0, t⟩] f.delta)).2 = false) ↔
            d.2 = false := by
          rw [← hd]; split <;> simp_all
        rw [hd1]
        by_cases hf : d.2 = false
        · rw [if_pos hf] at he
          rw [if_pos (hd2.2 hf)]
          cases he
          exact ⟨Or.inr (Or.inr (Or.inr ⟨rfl, rfl, rfl⟩)), rfl⟩
        · rw [if_neg hf] at he
          rw [if_neg (fun h => hf (hd2.1 h))]
          have hmid : fin.deltas = d.1 := by
            revert he
            split
            · intro he; cases he; rfl
            · split
              · intro he; cases he
              · split <;> (intro he; cases he; rfl)
          refine ⟨Or.inr (Or.inl ⟨hmid.symm, rfl, rfl⟩), ?_⟩
          dsimp only
          generalize s.trials.step cfg.sortV (.record [⟨x, gradeVal R g, t⟩] f.trial) = tr at he ⊢
          by_cases hf2 : tr.2 = false
          · rw [if_pos hf2] at he ⊢
            cases he
            exact ⟨Or.inr (Or.inr (Or.inr ⟨rfl, rfl, rfl⟩)), rfl⟩
          · rw [if_neg hf2] at he ⊢
            have hmid2 : fin.trials = tr.1 := by
              revert he
              split
              · intro he; cases he
              · split <;> (intro he; cases he; rfl)
            refine ⟨Or.inr (Or.inr (Or.inl ⟨hmid.symm, hmid2.symm, rfl⟩)), ?_⟩
            unfold rewardCode
            dsimp only
            cases h3 : Propagator.propagate s.graph [] fuel x g t with
            | none => rw [h3] at he; cases he
            | some rs =>
              rw [h3] at he
              dsimp only at he ⊢
              refine ⟨Or.inr (Or.inr (Or.inl ⟨hmid.symm, hmid2.symm, rfl⟩)), ?_⟩
              dsimp only
              generalize s.rewards.record cfg.sortW (order (rs.map toStore)) f.reward = rw' at he ⊢
              obtain ⟨rew, ids⟩ := rw'
              cases ids with
              | none =>
                cases he
                exact ⟨Or.inr (Or.inr (Or.inr ⟨rfl, rfl, rfl⟩)), rfl⟩
              | some ids =>
                cases he
                exact ⟨Or.inr (Or.inr (Or.inr ⟨rfl, rfl, rfl⟩)), Or.inr (Or.inr (Or.inr ⟨rfl, rfl, rfl⟩)), rfl⟩

theorem watched_trane (cfg : Config R) : Watched (sharedTrane cfg) isGrade (alone cfg) PartlyStored (readNow cfg) := by
  constructor
  · intro k hk
    cases k with
    | grade => cases hk
    | scores | deltas | rewards => rfl
  · intro k hk s
    cases k with
    | grade x g t fuel order f => exact grade_through cfg x g t fuel order f s
    | scores | deltas | rewards => cases hk
  · exact fun s s' => Or.inl ⟨rfl, rfl, rfl⟩
  · intro s s' x hx r hr
    cases r with
    | grade => cases hr
    | scores u n => rcases hx with h | h | h | h <;> simp [readNow, h.2.1]
    | deltas u n => rcases hx with h | h | h | h <;> simp [readNow, h.1]
    | rewards u n => rcases hx with h | h | h | h <;> simp [readNow, h.2.2]

/-- **C117.** One thread grades exercises, any others read stored scores, changes of score and rewards at the same time, in any
interleaving.  A reading call that begins after the moment `a` and has returned at the moment `b` gets exactly what it would get from the
object after the first `m` gradings, made one after another with nobody else there: no grading is seen in part.  Gradings that were
finished at `a` count among the `m`, and no grading counts that had not begun at `b`. -/
theorem reads_during_grading (cfg : Config R) (s0 : State R) (calls : List (List GCall)) (w : Nat) (ks : List GCall)
    (hks : calls[w]? = some ks) (ho : ∀ (i : Nat) l, calls[i]? = some l → i ≠ w → ∀ k ∈ l, isGrade k = false) {first second : List Nat}
    {a b : Shared (State R) GCall (GAns R)} (ha : (sharedTrane cfg).exec (Shared.start s0 calls) first = some a)
    (hb : (sharedTrane cfg).exec a second = some b) {i : Nat} (hidle : ∀ c, a.clients[i]? = some c → c.inside = none)
    {k : GCall} {x : GAns R} (hlog : (i, k, x) ∈ b.log.drop a.log.length) (hk : isGrade k = false) :
    ∃ m, finished isGrade w a ≤ m ∧ m ≤ begun isGrade w b ∧ x = readNow cfg (afterFirst isGrade (alone cfg) s0 ks m) k :=
  watched (watched_trane cfg) ho hks ha hb hidle hlog hk

/-- **C117.** At every moment, what is stored is what the finished gradings leave, except that of the grading under way the change of
score may be stored already, or it and the grade, or these and the rewards: in this order. -/
theorem stored_at_every_moment (cfg : Config R) (s0 : State R) (calls : List (List GCall)) (w : Nat) (ks : List GCall)
    (hks : calls[w]? = some ks) (ho : ∀ (i : Nat) l, calls[i]? = some l → i ≠ w → ∀ k ∈ l, isGrade k = false) {schedule : List Nat}
    {a : Shared (State R) GCall (GAns R)} (ha : (sharedTrane cfg).exec (Shared.start s0 calls) schedule = some a) :
    PartlyStored (afterFirst isGrade (alone cfg) s0 ks (finished isGrade w a)) (afterFirst isGrade (alone cfg) s0 ks (finished isGrade w a + 1))
      a.data ∧
    (begun isGrade w a = finished isGrade w a → a.data = afterFirst isGrade (alone cfg) s0 ks (finished isGrade w a)) :=
  moments (watched_trane cfg) ho hks ha

/-! ### The hypotheses are met; the stores are not read at one moment -/

/-- An object with a grade of three for `e`. -/
def watchedStart : State ℚ := alone sampleConfig (opened (Graph.run sampleOps) (fun _ => false) 0) (.grade ['e'] .three 10 9 id {})

/-- The first thread grades `e` again; the second reads, twice each, its changes of score, its scores and the rewards of lesson `m`. -/
def watchedCalls : List (List GCall) := [[.grade ['e'] .five 20 9 id {}],
  [.deltas ['e'] 9, .scores ['e'] 9, .rewards ['m'] 9, .rewards ['m'] 9, .scores ['e'] 9, .deltas ['e'] 9]]

/-- The second thread reads after the change of score is stored, and again at the end. -/
def watchedSchedule : List Nat := [0, 0, 0, 0, 1, 1, 1, 1, 1, 1, 1, 1, 1, 0, 0, 0, 0, 0, 1, 1, 1, 1, 1, 1, 1, 1, 1]

/-- **C117**, the limit: a thread that asks for the changes of score and then for the scores may be told a change without its score, as
the two are in different stores.  The hypotheses of the two theorems above are met. -/
theorem change_seen_before_score :
    (∀ (i : Nat) l, watchedCalls[i]? = some l → i ≠ 0 → ∀ k ∈ l, isGrade k = false) ∧
    ((sharedTrane sampleConfig).exec (Shared.start watchedStart watchedCalls) watchedSchedule).map (fun s => s.log.map (fun e => (e.1, e.2.2))) =
      some [(1, .values [(2, 20)]), (1, .values [(3, 10)]), (1, .rewards []), (0, .graded true), (1, .rewards [((4 / 5, 1), 20)]),
        (1, .values [(5, 20), (3, 10)]), (1, .values [(2, 20)])] := by
  constructor
  · intro i l hl hi k hk
    match i with
    | 0 => exact absurd rfl hi
    | 1 =>
      simp only [watchedCalls, List.getElem?_cons_succ, List.getElem?_cons_zero, Option.some.injEq] at hl
      subst hl
      simp only [List.mem_cons, List.not_mem_nil, or_false] at hk
      rcases hk with rfl | rfl | rfl | rfl | rfl | rfl <;> rfl
    | n + 2 => simp [watchedCalls] at hl
  · decide +kernel

end Trane.Threads
