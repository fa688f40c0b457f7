import Verif.Top.Site

/-! # Several objects on one library: lemmas -/

namespace Trane.Store.Rewards
open Trane.Store.Table

/-- A call keeps a table of rewards in order, whatever the object that makes it has in memory. -/
theorem good_step (S : SortDesc (ℚ × ℚ)) (s : Rewards) (log : List Reward) (h : Good s log) (o : Op) :
    ∃ log', Good (s.step S o).1 log' := by
  obtain ⟨hw, hc, hb⟩ := h
  cases o with
  | record rs fail =>
    have := loop_spec S rs s log s.table.history fail hw hc
      (fun u => KeepsNewest.refl _ _ (hb u))
    obtain ⟨j1, j2, j3, j4, j5, j6⟩ := this
    simp only [step, record]
    cases fail with
    | none =>
      have hok : (loop S s rs none).2.2 = true := j1.2 (by simp)
      simp only [hok, Option.isNone_none, Bool.and_self, if_true]
      refine ⟨_, j3, j4, fun u => ?_⟩
      have := (j5 u).1
      omega
    | some k =>
      simp only [Option.isNone_some, Bool.and_false, Bool.false_eq_true, if_false]
      exact ⟨_, hw, j4, hb⟩
  | trim n stop =>
    refine ⟨log, wf_trimById S _ n stop hw, hc, fun u => ?_⟩
    show ((s.table.trimById S n stop).history u).length ≤ 20
    rcases (rowsOf_trimById S s.table n stop hw u).2 with e | e
    · rw [e]; exact hb u
    · have := e.1; have := hb u; omega
  | removePrefix p stop =>
    refine ⟨log, wf_removePrefix _ p stop hw, hc, fun u => ?_⟩
    show ((s.table.removePrefix p stop).history u).length ≤ 20
    rcases (rowsOf_removePrefix s.table p stop hw u).2 with e | e
    · rw [history, e]; exact hb u
    · rw [history, e.2]; simp
  | reopen => exact ⟨[], hw, fun u => rfl, hb⟩

end Trane.Store.Rewards

namespace Trane.Store.Blacklist

theorem db_hasEntry (b : Blacklist) (u : Str) : (b.hasEntry u).1.db = b.db := by
  unfold hasEntry; split <;> rfl

theorem nodup_rows (l : List Str) (b : Blacklist) (h : b.db.Nodup) : (l.foldl removeRow b).db.Nodup := by
  induction l generalizing b with
  | nil => exact h
  | cons u l ih => exact ih _ (h.filter _)

/-- No id is stored twice, whatever the object that makes the call has in memory. -/
theorem nodup_step (b : Blacklist) (h : b.db.Nodup) (o : Op) : (b.step o).1.db.Nodup := by
  cases o with
  | add u f =>
    have e := db_hasEntry b u
    simp only [step, add]
    generalize b.hasEntry u = r at *
    obtain ⟨b', v⟩ := r
    simp only at e
    cases v with
    | true => simp only; rw [e]; exact h
    | false =>
      simp only
      split
      · simp only; rw [e]; exact h
      · rename_i hu
        simp only [Bool.or_eq_true, decide_eq_true_eq, not_or] at hu
        simp only [e]
        rw [List.nodup_append]
        refine ⟨h, by simp, ?_⟩
        intro a ha c hc hac
        rw [List.mem_singleton] at hc
        subst hc hac
        exact hu.2 (e ▸ ha)
  | remove u f =>
    simp only [step, remove]
    split
    · exact h
    · exact h.filter _
  | removePrefix p f =>
    simp only [step, removePrefix]
    cases f <;> exact nodup_rows _ _ h
  | query u => simp only [step]; rw [db_hasEntry]; exact h
  | reopen => exact h

end Trane.Store.Blacklist

namespace Trane.TopLevel
open Trane.Store

variable {R : Type} [Field R] [LinearOrder R]

/-- What a grading does to the tables, whatever is in memory. -/
theorem score_tables {cfg : System.Config R} {order : List Reward → List Reward} {fuel : Nat} {s : System.State R}
    {x : Str} {g : MasteryScore} {t : Int} {f : System.Faults} {o : System.State R × Bool}
    (h : System.scoreExercise cfg order fuel s x g t f = some o) :
    (o.1.trials = s.trials ∧ o.2 = false ∨
      o.1.trials = (s.trials.step cfg.sortV (.record [⟨x, System.gradeVal R g, t⟩] false)).1 ∧
      (s.trials.step cfg.sortV (.record [⟨x, System.gradeVal R g, t⟩] false)).2 = true) ∧
    (o.1.deltas = s.deltas ∨ ∃ p, o.1.deltas = (s.deltas.step cfg.sortV p).1) ∧
    (o.1.rewards = s.rewards ∨ ∃ rs fl, o.1.rewards = (s.rewards.record cfg.sortW rs fl).1) := by
  have htr : ∀ e : Entry R, (s.trials.step cfg.sortV (.record [e] f.trial)).2 = true →
      f.trial = false := by
    intro e
    simp only [Table.step]
    split
    · simp
    · cases f.trial <;> simp
  have hfa : ∀ e : Entry R, (s.trials.step cfg.sortV (.record [e] f.trial)).2 = false →
      (s.trials.step cfg.sortV (.record [e] f.trial)).1 = s.trials := by
    intro e
    simp only [Table.step]
    split
    · simp
    · cases f.trial <;> simp
  unfold System.scoreExercise at h
  cases h1 : UnitScorer.scoreC (s.world cfg) fuel x s.caches with
  | none => simp [h1] at h
  | some p =>
    obtain ⟨v, c1⟩ := p
    simp only [h1] at h
    cases h2 : UnitScorer.exC (s.world cfg) x c1 with
    | none => simp [h2] at h
    | some q =>
      obtain ⟨r, c⟩ := q
      simp only [h2] at h
      have hdel : ∃ d : Table R × Bool, (if 0 < r.trials then
          s.deltas.step cfg.sortV (.record [⟨x, System.gradeVal R g - v.getD 0, t⟩] f.delta)
          else (s.deltas, true)) = d ∧ (d.1 = s.deltas ∨ ∃ p, d.1 = (s.deltas.step cfg.sortV p).1) := by
        refine ⟨_, rfl, ?_⟩
        split
        · exact Or.inr ⟨_, rfl⟩
        · exact Or.inl rfl
      obtain ⟨d, hd, hd1⟩ := hdel
      rw [hd] at h
      obtain ⟨d1, d2⟩ := d
      cases d2 with
      | false =>
        simp only [if_true] at h
        cases h
        exact ⟨Or.inl ⟨rfl, rfl⟩, hd1, Or.inl rfl⟩
      | true =>
        simp only [Bool.true_eq_false, if_false] at h
        cases hr : (s.trials.step cfg.sortV (.record [⟨x, System.gradeVal R g, t⟩] f.trial)).2 with
        | false =>
          rw [if_pos hr] at h
          cases h
          exact ⟨Or.inl ⟨hfa _ hr, rfl⟩, hd1, Or.inl rfl⟩
        | true =>
          rw [if_neg (by rw [hr]; simp)] at h
          rw [htr _ hr] at h hr
          cases hp : Propagator.propagate s.graph [] fuel x g t with
          | none => rw [hp] at h; cases h
          | some rs =>
            rw [hp] at h
            simp only at h
            cases hw : s.rewards.record cfg.sortW (order (rs.map System.toStore)) f.reward with
            | mk rew ids =>
              rw [hw] at h
              cases ids with
              | none => cases h; exact ⟨Or.inr ⟨rfl, hr⟩, hd1, Or.inr ⟨_, _, by rw [hw]⟩⟩
              | some ids => cases h; exact ⟨Or.inr ⟨rfl, hr⟩, hd1, Or.inr ⟨_, _, by rw [hw]⟩⟩

/-- What a call does to the parts of an object that are stored. -/
structure Moved (b : Base R) (t t' : Top R) : Prop where
  blacklist : t'.blacklist = t.blacklist ∨ ∃ o, t'.blacklist = (t.blacklist.step o).1
  trials : t'.trials = t.trials ∨ ∃ o, t'.trials = (t.trials.step b.sortV o).1
  rewards : t'.rewards = t.rewards ∨ ∃ o, t'.rewards = (t.rewards.step b.sortW o).1

theorem moved_refl (b : Base R) (t : Top R) : Moved b t t := ⟨Or.inl rfl, Or.inl rfl, Or.inl rfl⟩

theorem moved_step (b : Base R) (t : Top R) (c : Call R) : Moved b t (step b t c).1 := by
  cases c with
  | scoreExercise x g ts fuel order f =>
    rcases step_score b t x g ts fuel order f with ⟨-, e⟩ | ⟨s, ok, h, e⟩
    · rw [e]; exact moved_refl b t
    · rw [e]
      obtain ⟨h1, -, h3⟩ := score_tables h
      refine ⟨Or.inl rfl, ?_, ?_⟩
      · rcases h1 with ⟨h1, -⟩ | ⟨h1, -⟩
        · exact Or.inl h1
        · exact Or.inr ⟨_, h1⟩
      · rcases h3 with h3 | ⟨rs, fl, h3⟩
        · exact Or.inl h3
        · exact Or.inr ⟨.record rs fl, h3⟩
  | getBatch q =>
    rcases step_batch b t q with ⟨-, e⟩ | ⟨s, r, -, e⟩ <;> rw [e] <;> exact ⟨Or.inl rfl, Or.inl rfl, Or.inl rfl⟩
  | restart g =>
    rcases step_restart b t g with e | ⟨-, e⟩ <;> rw [e]
    · exact moved_refl b t
    · exact ⟨Or.inr ⟨.reopen, rfl⟩, Or.inl rfl, Or.inr ⟨.reopen, rfl⟩⟩
  | setPreferences p f => cases f <;> exact ⟨Or.inl rfl, Or.inl rfl, Or.inl rfl⟩
  | addToBlacklist u f => exact ⟨Or.inr ⟨_, rfl⟩, Or.inl rfl, Or.inl rfl⟩
  | removeFromBlacklist u f => exact ⟨Or.inr ⟨_, rfl⟩, Or.inl rfl, Or.inl rfl⟩
  | removePrefixFromBlacklist u f => exact ⟨Or.inr ⟨_, rfl⟩, Or.inl rfl, Or.inl rfl⟩
  | blacklisted u => exact ⟨Or.inr ⟨_, rfl⟩, Or.inl rfl, Or.inl rfl⟩
  | recordScores es f => exact ⟨Or.inl rfl, Or.inr ⟨_, rfl⟩, Or.inl rfl⟩
  | trimScores es f => exact ⟨Or.inl rfl, Or.inr ⟨_, rfl⟩, Or.inl rfl⟩
  | removeScores es f => exact ⟨Or.inl rfl, Or.inr ⟨_, rfl⟩, Or.inl rfl⟩
  | recordRewards es f => exact ⟨Or.inl rfl, Or.inl rfl, Or.inr ⟨_, rfl⟩⟩
  | trimRewards es f => exact ⟨Or.inl rfl, Or.inl rfl, Or.inr ⟨_, rfl⟩⟩
  | removeRewards es f => exact ⟨Or.inl rfl, Or.inl rfl, Or.inr ⟨_, rfl⟩⟩
  | _ => exact ⟨Or.inl rfl, Or.inl rfl, Or.inl rfl⟩

/-- What stays true of the files and of the lists of recent rewards. -/
structure Orderly (b : Base R) (s : Site R) : Prop where
  trials : ∃ ops, s.common.trials = Table.run b.sortV ops
  black : s.common.black.Nodup
  wf : Table.Wf s.common.rewards
  bound : ∀ u, (s.common.rewards.history u).length ≤ 20
  recent : ∀ i, ∃ log, Rewards.CacheOk (s.object i).rewards.cache log

theorem orderly_new (b : Base R) (g : Graph Str) (clock : Int) : Orderly b (newSite g clock : Site R) where
  trials := ⟨[], rfl⟩
  black := List.nodup_nil
  wf := Table.wf_empty
  bound := fun u => by simp [newSite, Top.common, fresh, Table.history, Table.rowsOf, Table.uidOf]
  recent := fun i => ⟨[], fun u => rfl⟩

theorem orderly_step {b : Base R} {s : Site R} (h : Orderly b s) (k : Nat × Call R) : Orderly b (s.step b k).1 := by
  obtain ⟨i, c⟩ := k
  have hm := moved_step b (s.sees i) c
  have hb : ∃ log, Rewards.Good (TopLevel.step b (s.sees i) c).1.rewards log := by
    obtain ⟨log, hl⟩ := h.recent i
    have h0 : Rewards.Good (s.sees i).rewards log := ⟨h.wf, hl, h.bound⟩
    rcases hm.rewards with e | ⟨o, e⟩
    · rw [e]; exact ⟨log, h0⟩
    · rw [e]; exact Rewards.good_step b.sortW _ log h0 o
  obtain ⟨log, hg⟩ := hb
  constructor
  · obtain ⟨ops, ho⟩ := h.trials
    have ho' : (s.sees i).trials = Table.run b.sortV ops := ho
    rcases hm.trials with e | ⟨o, e⟩
    · exact ⟨ops, e.trans ho'⟩
    · refine ⟨ops ++ [o], e.trans ?_⟩
      rw [ho', Table.run_snoc]
  · have h0 : (s.sees i).blacklist.db.Nodup := h.black
    change (TopLevel.step b (s.sees i) c).1.blacklist.db.Nodup
    rcases hm.blacklist with e | ⟨o, e⟩ <;> rw [e]
    · exact h0
    · exact Blacklist.nodup_step _ h0 o
  · exact hg.wf
  · exact hg.bound
  · intro j
    by_cases hj : j = i
    · subst hj
      exact ⟨log, by simpa [Site.step] using hg.cache⟩
    · obtain ⟨l, hl⟩ := h.recent j
      exact ⟨l, by simpa [Site.step, Function.update_of_ne hj] using hl⟩

theorem Site.runs_snoc (b : Base R) (s : Site R) (h : List (Nat × Call R)) (k : Nat × Call R) :
    s.runs b (h ++ [k]) = ((s.runs b h).step b k).1 := by simp [Site.runs]

theorem Site.runs_append (b : Base R) (s : Site R) (h h' : List (Nat × Call R)) :
    s.runs b (h ++ h') = (s.runs b h).runs b h' := by simp [Site.runs]

theorem orderly_runs {b : Base R} {s : Site R} (hs : Orderly b s) (h : List (Nat × Call R)) : Orderly b (s.runs b h) := by
  induction h using List.reverseRecOn with
  | nil => exact hs
  | append_singleton h k ih => rw [Site.runs_snoc]; exact orderly_step ih k

end Trane.TopLevel
