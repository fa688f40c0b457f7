import Verif.Top.CrashSpec
import Verif.Conc.GradingProps
import Verif.Top.Sample

/-! # C118: crashes in the middle of a call -/

namespace Trane.Threads

theorem Prog.Through.at {σ α : Type} {I : σ → Prop} {e : σ} : ∀ {p : Prog σ α} {s : σ} (n : Nat), p.Through I e s → I (p.at s n)
  | .done _, _, _, h => h.1
  | .act _ _, _, 0, h => h.1
  | .act _ next, s, n + 1, h => Prog.Through.at (p := next s) n h.2

end Trane.Threads

namespace Trane.TopLevel
open Trane.Store Trane.System
open Trane.UnitScorer (scoreC exC invalidate)
open Trane.Batch (graded)

variable {R : Type} [Field R] [LinearOrder R]

/-- The files of the two objects say the same, so opening the library gives the same object. -/
structure SameFiles (t t' : Top R) : Prop where
  black : t.blacklist.db = t'.blacklist.db
  review : t.review = t'.review
  trials : t.trials = t'.trials
  deltas : t.deltas = t'.deltas
  rewards : t.rewards.table = t'.rewards.table
  prefs : t.prefs = t'.prefs
  clock : t.clock = t'.clock

theorem reopened_same (b : Base R) {t t' : Top R} (h : SameFiles t t') (g : Graph Str) (hv : (schedulerOptions t.prefs).verify = true) :
    (step b t (.restart g)).1 = (step b t' (.restart g)).1 := by
  have hv' : (schedulerOptions t'.prefs).verify = true := by rw [← h.prefs]; exact hv
  refine (congrArg Prod.fst (if_pos hv)).trans (Eq.trans ?_ (congrArg Prod.fst (if_pos hv')).symm)
  simp only [Blacklist.step, Table.step, Rewards.step, h.black, h.review, h.trials, h.deltas, h.rewards, h.prefs, h.clock]

theorem failed_record (S : SortDesc R) (t : Table R) (es : List (Entry R)) : t.step S (.record es true) = (t, false) := by
  unfold Table.step
  dsimp only
  cases t.record es <;> rfl

theorem failed_rewards (S : SortDesc (ℚ × ℚ)) (s : Rewards) (rs : List Reward) (n : Nat) :
    (s.record S rs (some n)).1.table = s.table ∧ (s.record S rs (some n)).2 = none := by
  unfold Rewards.record
  simp

/-- A grading that fails at the trial or at the rewards leaves a part of what the grading leaves. -/
theorem failing_gradings (cfg : Config R) (order : List Reward → List Reward) (fuel : Nat) (s : State R) (x : Str) (g : MasteryScore) (t : Int)
    (f : Faults) {fin : State R} {ok : Bool} (he : System.scoreExercise cfg order fuel s x g t f = some (fin, ok)) :
    (∃ d o, System.scoreExercise cfg order fuel s x g t { f with trial := true } = some (d, o) ∧ d.deltas = fin.deltas ∧ d.trials = s.trials ∧
      d.rewards.table = s.rewards.table) ∧
    (∃ d o, System.scoreExercise cfg order fuel s x g t { f with reward := some 0 } = some (d, o) ∧ d.deltas = fin.deltas ∧
      d.trials = fin.trials ∧ d.rewards.table = s.rewards.table) := by
  unfold System.scoreExercise at he ⊢
  cases h1 : scoreC (s.world cfg) fuel x s.caches with
  | none => rw [h1] at he; cases he
  | some ec =>
    obtain ⟨existing, c⟩ := ec
    rw [h1] at he
    dsimp only at he ⊢
    cases h2 : exC (s.world cfg) x c with
    | none => rw [h2] at he; cases he
    | some rc =>
      obtain ⟨r, c'⟩ := rc
      rw [h2] at he
      dsimp only at he ⊢
      generalize (if 0 < r.trials then s.deltas.step cfg.sortV (.record [⟨x, gradeVal R g - existing.getD 0, t⟩] f.delta)
          else (s.deltas, true)) = d at he ⊢
      by_cases hf : d.2 = false
      · rw [if_pos hf] at he
        cases he
        simp only [if_pos hf]
        exact ⟨⟨_, _, rfl, rfl, rfl, rfl⟩, ⟨_, _, rfl, rfl, rfl, rfl⟩⟩
      · rw [if_neg hf] at he
        simp only [if_neg hf]
        have hdel : fin.deltas = d.1 := by
          revert he
          split
          · intro he; cases he; rfl
          · split
            · intro he; cases he
            · split <;> (intro he; cases he; rfl)
        constructor
        · rw [failed_record]
          exact ⟨_, _, rfl, hdel.symm, rfl, rfl⟩
        · generalize s.trials.step cfg.sortV (.record [⟨x, gradeVal R g, t⟩] f.trial) = tr at he ⊢
          by_cases hf2 : tr.2 = false
          · rw [if_pos hf2] at he
            cases he
            simp only [if_pos hf2]
            exact ⟨_, _, rfl, rfl, rfl, rfl⟩
          · rw [if_neg hf2] at he
            simp only [if_neg hf2]
            cases h3 : Propagator.propagate s.graph [] fuel x g t with
            | none => rw [h3] at he; cases he
            | some rs =>
              rw [h3] at he
              dsimp only at he ⊢
              have htr : fin.trials = tr.1 := by
                revert he
                split <;> (intro he; cases he; rfl)
              obtain ⟨q1, q2⟩ := failed_rewards cfg.sortW s.rewards (order (rs.map toStore)) 0
              generalize s.rewards.record cfg.sortW (order (rs.map toStore)) (some 0) = q at q1 q2 ⊢
              obtain ⟨rew, ids⟩ := q
              subst q2
              exact ⟨_, _, rfl, hdel.symm, htr.symm, q1⟩

theorem files_of_sys (t : Top R) {d d' : State R} (h1 : d.deltas = d'.deltas) (h2 : d.trials = d'.trials)
    (h3 : d.rewards.table = d'.rewards.table) : SameFiles (t.putSys d) (t.putSys d') := ⟨rfl, rfl, h2, h1, h3, rfl, rfl⟩

/-- What a crash leaves of the files is what a call that fails leaves, or what was there. -/
theorem torn_files (b : Base R) (t : Top R) (c : Call R) (d : Top R) (h : Torn b t c d) (hr : ∀ g, c ≠ .restart g) :
    SameFiles d t ∨ ∃ c', SameButFaults c c' ∧ SameFiles d (step b t c').1 := by
  cases c with
  | scoreExercise x g ts fuel order f =>
    obtain ⟨n, rfl⟩ := h
    have hm := (Threads.grade_through (t.config b) x g ts fuel order f t.sys).at n
    generalize (Threads.gradeCode (t.config b) x g ts fuel order f).at t.sys n = d at hm
    cases he : System.scoreExercise (t.config b) order fuel t.sys x g ts f with
    | none =>
      have ha : Threads.alone (t.config b) t.sys (.grade x g ts fuel order f) = t.sys := by simp only [Threads.alone, he]
      rw [ha] at hm
      left
      rcases hm with h | h | h | h <;>
        exact (files_of_sys t (d := d) (d' := t.sys) h.1 h.2.1 (congrArg Rewards.table h.2.2))
    | some r =>
      obtain ⟨fin, ok⟩ := r
      have ha : Threads.alone (t.config b) t.sys (.grade x g ts fuel order f) = fin := by simp only [Threads.alone, he]
      rw [ha] at hm
      obtain ⟨⟨d1, o1, e1, p1, p2, p3⟩, ⟨d2, o2, e2, q1, q2, q3⟩⟩ := failing_gradings (t.config b) order fuel t.sys x g ts f he
      rcases hm with h | h | h | h
      · exact Or.inl (files_of_sys t (d := d) (d' := t.sys) h.1 h.2.1 (congrArg Rewards.table h.2.2))
      · refine Or.inr ⟨.scoreExercise x g ts fuel order { f with trial := true }, rfl, ?_⟩
        simp only [step, e1]
        exact files_of_sys t (h.1.trans p1.symm) (h.2.1.trans p2.symm) ((congrArg Rewards.table h.2.2).trans p3.symm)
      · refine Or.inr ⟨.scoreExercise x g ts fuel order { f with reward := some 0 }, rfl, ?_⟩
        simp only [step, e2]
        exact files_of_sys t (h.1.trans q1.symm) (h.2.1.trans q2.symm) ((congrArg Rewards.table h.2.2).trans q3.symm)
      · refine Or.inr ⟨.scoreExercise x g ts fuel order f, rfl, ?_⟩
        simp only [step, he]
        exact files_of_sys t h.1 h.2.1 (congrArg Rewards.table h.2.2)
  | trimScores n s => obtain ⟨k, rfl⟩ := h; exact Or.inr ⟨.trimScores n (some k), rfl, ⟨rfl, rfl, rfl, rfl, rfl, rfl, rfl⟩⟩
  | trimDeltas n s => obtain ⟨k, rfl⟩ := h; exact Or.inr ⟨.trimDeltas n (some k), rfl, ⟨rfl, rfl, rfl, rfl, rfl, rfl, rfl⟩⟩
  | trimRewards n s => obtain ⟨k, rfl⟩ := h; exact Or.inr ⟨.trimRewards n (some k), rfl, ⟨rfl, rfl, rfl, rfl, rfl, rfl, rfl⟩⟩
  | removeScores p s => obtain ⟨k, rfl⟩ := h; exact Or.inr ⟨.removeScores p (some k), rfl, ⟨rfl, rfl, rfl, rfl, rfl, rfl, rfl⟩⟩
  | removeDeltas p s => obtain ⟨k, rfl⟩ := h; exact Or.inr ⟨.removeDeltas p (some k), rfl, ⟨rfl, rfl, rfl, rfl, rfl, rfl, rfl⟩⟩
  | removeRewards p s => obtain ⟨k, rfl⟩ := h; exact Or.inr ⟨.removeRewards p (some k), rfl, ⟨rfl, rfl, rfl, rfl, rfl, rfl, rfl⟩⟩
  | removePrefixFromBlacklist p s =>
    obtain ⟨k, rfl⟩ := h
    exact Or.inr ⟨.removePrefixFromBlacklist p (some k), rfl, ⟨rfl, rfl, rfl, rfl, rfl, rfl, rfl⟩⟩
  | restart g => exact absurd rfl (hr g)
  | _ =>
    rcases h with rfl | rfl
    · exact Or.inl ⟨rfl, rfl, rfl, rfl, rfl, rfl, rfl⟩
    · exact Or.inr ⟨_, rfl, ⟨rfl, rfl, rfl, rfl, rfl, rfl, rfl⟩⟩

/-- **C118.** Use the object in any way; during a call the program crashes, at any point; the library is opened again and used further in
any way.  Then everything is as in a history without a crash: the interrupted call was not made, or it was made and returned, perhaps
with an error of the database, and then the library was opened again. -/
theorem crash_in_a_call (b : Base R) (g0 : Graph Str) (clock : Int) (h : List (Call R)) (c : Call R) (hr : ∀ g, c ≠ .restart g) (d : Top R)
    (hd : Torn b (runs b (fresh g0 clock) h) c d) (g : Graph Str) (hv : (step b d (.restart g)).2 = true) :
    ∃ k : List (Call R), (k = [] ∨ ∃ c', SameButFaults c c' ∧ k = [c']) ∧
      ∀ h', runs b d (.restart g :: h') = runs b (fresh g0 clock) (h ++ k ++ .restart g :: h') := by
  have hv' : (schedulerOptions d.prefs).verify = true := by
    by_contra hn
    have : (step b d (.restart g)).2 = false := (congrArg Prod.snd (if_neg hn)).trans rfl
    rw [this] at hv; cases hv
  rcases torn_files b _ c d hd hr with hs | ⟨c', hc, hs⟩
  · refine ⟨[], Or.inl rfl, fun h' => ?_⟩
    rw [List.append_nil, runs_append]
    change runs b (step b d (.restart g)).1 h' = runs b (step b _ (.restart g)).1 h'
    rw [reopened_same b hs g hv']
  · refine ⟨[c'], Or.inr ⟨c', hc, rfl⟩, fun h' => ?_⟩
    rw [runs_append, runs_snoc]
    change runs b (step b d (.restart g)).1 h' = runs b (step b _ (.restart g)).1 h'
    rw [reopened_same b hs g hv']

/-- **C118.** However often the program crashes in the middle of calls, the object is one that some history without crashes leads to: what
is proved about all histories with failures of the database holds with crashes as well. -/
theorem crashes_add_nothing (b : Base R) (g0 : Graph Str) (clock : Int) {t : Top R} (h : Life b g0 clock t) :
    ∃ h : List (Call R), t = runs b (fresh g0 clock) h := by
  induction h with
  | new => exact ⟨[], rfl⟩
  | call c _ ih =>
    obtain ⟨h, rfl⟩ := ih
    exact ⟨h ++ [c], (runs_snoc b _ h c).symm⟩
  | crash c g _ hr hd hv ih =>
    obtain ⟨h, rfl⟩ := ih
    obtain ⟨k, -, e⟩ := crash_in_a_call b g0 clock h c hr _ hd g hv
    exact ⟨h ++ k ++ .restart g :: [], (e []).symm ▸ rfl⟩

/-! ### A crash between the grade and its rewards -/

/-- Exercise `e` has a grade; its second one is stored and its rewards are not when the program crashes. -/
def crashTop : Top ℚ := runs sampleBase (fresh sampleGraph 0) [.scoreExercise ['e'] .three 10 9 id {}]

def crashLeft : Top ℚ := crashTop.putSys
  ((Threads.gradeCode (crashTop.config sampleBase) ['e'] .five 20 9 id {}).at crashTop.sys 4)

/-- The hypotheses of `crash_in_a_call` are met, and the crash leaves neither what was there nor what the call leaves: the change and the
grade are stored, the reward is not. -/
example : Torn sampleBase crashTop (.scoreExercise ['e'] .five 20 9 id {}) crashLeft ∧
    (step sampleBase crashLeft (.restart sampleGraph)).2 = true ∧
    crashLeft.trials.history ['e'] = [(3, 10), (5, 20)] ∧ crashLeft.deltas.history ['e'] = [(2, 20)] ∧
    crashLeft.rewards.table.history ['m'] = [] ∧
    ((step sampleBase crashTop (.scoreExercise ['e'] .five 20 9 id {})).1.rewards.table.history ['m']) = [((4 / 5, 1), 20)] := by
  refine ⟨⟨4, rfl⟩, ?_⟩
  decide +kernel

end Trane.TopLevel
