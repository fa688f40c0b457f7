import Verif.Sched.System
import Verif.Store.Later

/-!
# Scoring with all timestamps moved (C109)

The unit scorer reads the world only through the records of the exercises, so worlds in which these are the same give
the same answers and fill the caches alike.  The rewards that a grade spreads carry its timestamp.
-/

namespace Trane.UnitScorer

/-- Two worlds with the same library, blacklist, options and records of exercises. -/
structure Alike {ι R T W : Type} [DecidableEq ι] (w w' : World ι R T W) : Prop where
  graph : w'.graph = w.graph
  black : w'.black = w.black
  exRec : w'.exRec = w.exRec
  supScore : w'.supScore = w.supScore
  dflt : w'.dflt = w.dflt

variable {ι R T W : Type} [DecidableEq ι] [Field R] [LinearOrder R] {w w' : World ι R T W}

namespace Alike

theorem exC (h : Alike w w') : exC (R := R) w' = exC w := by
  funext e c
  simp only [UnitScorer.exC, h.exRec]

theorem validInLesson (h : Alike w w') : w'.validInLesson = w.validInLesson := by
  funext l
  simp only [World.validInLesson, h.graph, h.black, h.dflt]

theorem allValid (h : Alike w w') : w'.allValid = w.allValid := by
  funext u
  simp only [World.allValid, h.validInLesson, h.graph, h.black]

theorem supersededC (h : Alike w w') (f : ι → M ι R (Option R)) : supersededC w' f = supersededC w f := by
  funext u ids
  simp only [UnitScorer.supersededC, seenC, h.allValid, h.exC, h.supScore]

theorem replaceC (h : Alike w w') (f : ι → M ι R (Option R)) : ∀ n ids, replaceC w' f n ids = replaceC w f n ids
  | 0, _ => rfl
  | n + 1, ids => by
    simp only [UnitScorer.replaceC, h.graph, h.supersededC, h.replaceC f n]

theorem checkC (h : Alike w w') (f : ι → M ι R (Option R)) (n : Nat) (u : ι) : checkC w' f n u = checkC w f n u := by
  simp only [UnitScorer.checkC, h.graph, h.replaceC, h.supersededC]

theorem lessonC (h : Alike w w') (f : ι → M ι R (Option R)) (n : Nat) : lessonC w' f n = lessonC w f n := by
  funext l c
  simp only [UnitScorer.lessonC, lessonBody, lessonMeanC, h.black, h.checkC, h.graph, h.exC]

theorem courseC (h : Alike w w') (f : ι → M ι R (Option R)) (n : Nat) (u : ι) : courseC w' f n u = courseC w f n u := by
  funext c
  simp only [UnitScorer.courseC, courseBody, h.black, h.checkC, h.graph, h.lessonC]

theorem scoreC (h : Alike w w') : ∀ n, scoreC (R := R) w' n = scoreC w n
  | 0 => rfl
  | n + 1 => by
    funext u
    simp only [UnitScorer.scoreC, h.graph, h.exC, h.lessonC, h.courseC, h.scoreC n]

theorem lessonTrialsC (h : Alike w w') : lessonTrialsC (R := R) w' = lessonTrialsC w := by
  funext l c
  simp only [UnitScorer.lessonTrialsC, lessonTrialsBody, h.black, h.graph, h.exC]

theorem courseTrialsC (h : Alike w w') (n : Nat) (u : ι) : courseTrialsC (R := R) w' n u = courseTrialsC w n u := by
  funext c
  simp only [UnitScorer.courseTrialsC, courseTrialsBody, h.black, h.graph, h.checkC, h.scoreC, h.lessonTrialsC]

end Alike
end Trane.UnitScorer

namespace Trane.Propagator
variable {ι : Type} [DecidableEq ι]

/-- A reward with its timestamp moved. -/
def UnitReward.later (δ : Int) (r : UnitReward ι) : UnitReward ι := { r with time := r.time + δ }

theorem later_find (δ : Int) (m : AMap ι (UnitReward ι)) (u : ι) :
    AMap.find (m.map (fun e => (e.1, e.2.later δ))) u = (AMap.find m u).map (UnitReward.later δ) := by
  induction m with
  | nil => rfl
  | cons e m ih =>
    simp only [AMap.find, List.map_cons] at *
    by_cases h : e.1 = u <;> simp [h, ih]

theorem later_put (δ : Int) (m : AMap ι (UnitReward ι)) (u : ι) (r : UnitReward ι) :
    AMap.put (m.map (fun e => (e.1, e.2.later δ))) u (r.later δ) = (AMap.put m u r).map (fun e => (e.1, e.2.later δ)) := by
  induction m with
  | nil => rfl
  | cons e m ih =>
    simp only [List.map_cons, AMap.put]
    by_cases h : e.1 = u
    · simp [h]
    · simp only [h, if_false, ih, List.map_cons]

theorem later_loop (g : Graph ι) (δ t : Int) : ∀ (n : Nat) (m : AMap ι (UnitReward ι)) (st : List (UnitReward ι)),
    loop g (t + δ) n (m.map (fun e => (e.1, e.2.later δ))) (st.map (UnitReward.later δ)) =
      (loop g t n m st).map (List.map (fun e => (e.1, e.2.later δ))) := by
  intro n
  induction n with
  | zero =>
    intro m st
    cases st <;> rfl
  | succ n ih =>
    intro m st
    cases st with
    | nil => rfl
    | cons r st =>
      have hw : weaker (m.map (fun e => (e.1, e.2.later δ))) (r.later δ) = weaker m r := by
        unfold weaker
        have : (r.later δ).unit = r.unit := rfl
        rw [this, later_find]
        cases AMap.find m r.unit <;> rfl
      have hn : nextItems g (r.later δ) (t + δ) = (nextItems g r t).map (UnitReward.later δ) := by
        simp only [nextItems, List.map_map]
        rfl
      simp only [List.map_cons, loop, hw]
      split
      · exact ih m st
      · have hp : AMap.put (m.map (fun e => (e.1, e.2.later δ))) (r.later δ).unit (r.later δ) =
            (AMap.put m r.unit r).map (fun e => (e.1, e.2.later δ)) := later_put δ m r.unit r
        rw [hp, hn, ← List.map_reverse, ← List.map_append]
        exact ih _ _

theorem later_propagate (g : Graph ι) (empty : ι) (fuel : Nat) (e : ι) (s : MasteryScore) (t δ : Int) :
    propagate g empty fuel e s (t + δ) = (propagate g empty fuel e s t).map (List.map (UnitReward.later δ)) := by
  unfold propagate
  cases resolveRoots g e with
  | none => rfl
  | some p =>
    simp only [helper]
    split
    · rfl
    · have hi : initialItems g p.1 p.2 (initialReward s) (t + δ) =
          (initialItems g p.1 p.2 (initialReward s) t).map (UnitReward.later δ) := by
        simp only [initialItems, List.map_map]
        rfl
      have := later_loop g δ t fuel [] (initialItems g p.1 p.2 (initialReward s) t).reverse
      rw [List.map_nil] at this
      rw [hi, ← List.map_reverse, this]
      simp only [Option.map_map, Function.comp_def, List.map_map]

/-- All rewards that a grade spreads carry its timestamp. -/
theorem propagate_time {g : Graph ι} {empty : ι} {fuel : Nat} {e : ι} {s : MasteryScore} {t : Int} {rs : List (UnitReward ι)}
    (h : propagate g empty fuel e s t = some rs) : ∀ r ∈ rs, r.time = t := by
  have hl : ∀ (n : Nat) (m : AMap ι (UnitReward ι)) (st : List (UnitReward ι)) m', (∀ p ∈ m, p.2.time = t) →
      (∀ r ∈ st, r.time = t) → loop g t n m st = some m' → ∀ p ∈ m', p.2.time = t := by
    intro n
    induction n with
    | zero =>
      intro m st m' hm hs h
      cases st with
      | nil => simp only [loop, Option.some.injEq] at h; exact h ▸ hm
      | cons => simp [loop] at h
    | succ n ih =>
      intro m st m' hm hs h
      cases st with
      | nil => simp only [loop, Option.some.injEq] at h; exact h ▸ hm
      | cons r st =>
        rw [List.forall_mem_cons] at hs
        simp only [loop] at h
        split at h
        · exact ih m st m' hm hs.2 h
        · refine ih _ _ m' ?_ ?_ h
          · have : ∀ m : AMap ι (UnitReward ι), (∀ p ∈ m, p.2.time = t) → ∀ p ∈ AMap.put m r.unit r, p.2.time = t := by
              intro m
              induction m with
              | nil => intro _ p hp; simp only [AMap.put, List.mem_singleton] at hp; exact hp ▸ hs.1
              | cons e m ih =>
                intro hm p hp
                rw [List.forall_mem_cons] at hm
                simp only [AMap.put] at hp
                split at hp
                · rcases List.mem_cons.1 hp with rfl | hp
                  · exact hs.1
                  · exact hm.2 p hp
                · rcases List.mem_cons.1 hp with rfl | hp
                  · exact hm.1
                  · exact ih hm.2 p hp
            exact this m hm
          · intro r' hr'
            rw [List.mem_append, List.mem_reverse] at hr'
            rcases hr' with hr' | hr'
            · simp only [nextItems, List.mem_map] at hr'
              obtain ⟨_, _, rfl⟩ := hr'
              rfl
            · exact hs.2 r' hr'
  unfold propagate at h
  cases hr : resolveRoots g e with
  | none =>
    rw [hr] at h
    simp only [Option.some.injEq] at h
    subst h
    simp
  | some p =>
    rw [hr] at h
    simp only [helper] at h
    split at h
    · simp only [Option.some.injEq] at h
      subst h
      simp
    · rw [Option.map_eq_some_iff] at h
      obtain ⟨m, hm, rfl⟩ := h
      intro r hr
      obtain ⟨p', hp', rfl⟩ := List.mem_map.1 hr
      refine hl fuel [] _ m (by simp) ?_ hm p' hp'
      intro r' hr'
      rw [List.mem_reverse] at hr'
      simp only [initialItems, List.mem_map] at hr'
      obtain ⟨_, _, rfl⟩ := hr'
      rfl

end Trane.Propagator

namespace Trane.System
open Trane.Store
open Trane.UnitScorer (World Caches ExRec scoreC exC invalidate Alike)

variable {R : Type} [Field R] [LinearOrder R]

/-- The trials and deltas read of an exercise, with their timestamps moved. -/
def Stats.later (δ : Int) (s : Stats R) : Stats R := (s.1.map (fun p => (p.1, p.2 + δ)), s.2.map (fun p => (p.1, p.2 + δ)))

/-- The rewards read of a lesson or a course, with their timestamps moved. -/
def Rews.later (δ : Int) (s : Rews) : Rews := s.map (fun p => (p.1, p.2 + δ))

/-- The state with all timestamps moved. -/
def State.later (δ : Int) (s : State R) : State R :=
  { s with now := s.now + δ, trials := s.trials.later δ, deltas := s.deltas.later δ, rewards := s.rewards.later δ }

/-- The scorers `cfg'` judge what is moved as the scorers `cfg` judge what is not, for rewards with timestamps in `Q`;
everything else is the same. -/
structure Follows (δ : Int) (Q : Int → Prop) (cfg cfg' : Config R) : Prop where
  sortV : cfg'.sortV = cfg.sortV
  sortW : cfg'.sortW = cfg.sortW
  scorer : ∀ x now st (l c : Rews), (∀ p ∈ l, Q p.2) → (∀ p ∈ c, Q p.2) →
    cfg'.scorer x (now + δ) (Stats.later δ st) (Rews.later δ l) (Rews.later δ c) = cfg.scorer x now st l c
  supScore : cfg'.supScore = cfg.supScore
  numTrials : cfg'.numTrials = cfg.numTrials
  numRewards : cfg'.numRewards = cfg.numRewards
  steadyV : cfg.sortV.Steady δ
  steadyW : cfg.sortW.Steady δ

variable {δ : Int} {Q : Int → Prop} {cfg cfg' : Config R}

theorem get_times {α : Type} (S : SortDesc α) {t : Table α} (h : ∀ r ∈ t.rows, Q r.ts) (u : Str) (n : Nat) :
    ∀ p ∈ t.get S u n, Q p.2 := by
  intro p hp
  unfold Table.get at hp
  obtain ⟨r, hr, rfl⟩ := List.mem_map.1 hp
  have hr := (S.perm _).mem_iff.1 (List.mem_of_mem_take hr)
  unfold Table.rowsOf at hr
  split at hr
  · simp at hr
  · exact h r (List.mem_of_mem_filter hr)

theorem later_world (F : Follows δ Q cfg cfg') (s : State R) (hq : ∀ r ∈ s.rewards.table.rows, Q r.ts) :
    Alike (s.world cfg) ((s.later δ).world cfg') where
  graph := rfl
  black := rfl
  supScore := F.supScore
  dflt := rfl
  exRec := by
    funext e
    have ht : ∀ u, (s.later δ).trials.get cfg'.sortV u cfg'.numTrials =
        (s.trials.get cfg.sortV u cfg.numTrials).map (fun p => (p.1, p.2 + δ)) := fun u => by
      rw [F.sortV, F.numTrials]
      exact Table.later_get F.steadyV s.trials u _
    have hd : ∀ u, (s.later δ).deltas.get cfg'.sortV u cfg'.numTrials =
        (s.deltas.get cfg.sortV u cfg.numTrials).map (fun p => (p.1, p.2 + δ)) := fun u => by
      rw [F.sortV, F.numTrials]
      exact Table.later_get F.steadyV s.deltas u _
    have hr : ∀ u, (s.later δ).rewards.table.get cfg'.sortW u cfg'.numRewards =
        Rews.later δ (s.rewards.table.get cfg.sortW u cfg.numRewards) := fun u => by
      rw [F.sortW, F.numRewards]
      exact Table.later_get F.steadyW s.rewards.table u _
    have hs := fun x l c => F.scorer x s.now (s.trials.get cfg.sortV x cfg.numTrials, s.deltas.get cfg.sortV x cfg.numTrials)
      (s.rewards.table.get cfg.sortW l cfg.numRewards) (s.rewards.table.get cfg.sortW c cfg.numRewards)
      (get_times _ hq _ _) (get_times _ hq _ _)
    have hn : (s.later δ).now = s.now + δ := rfl
    have hg : (s.later δ).graph = s.graph := rfl
    simp only [World.exRec, State.world, ht, hd, hr, hn, hg]
    simp only [Stats.later] at hs
    simp only [hs, List.length_map]

/-- The order in which the moved rewards are listed. -/
def laterOrder (δ : Int) (order : List Reward → List Reward) (l : List Reward) : List Reward :=
  (order (l.map (Reward.later (-δ)))).map (Reward.later δ)

theorem laterOrder_later (order : List Reward → List Reward) (l : List Reward) :
    laterOrder δ order (l.map (Reward.later δ)) = (order l).map (Reward.later δ) := by
  unfold laterOrder
  have : (l.map (Reward.later δ)).map (Reward.later (-δ)) = l := by
    rw [List.map_map]
    conv_rhs => rw [← List.map_id l]
    refine List.map_congr_left fun r _ => ?_
    simp [Reward.later]
  rw [this]

theorem later_scoreExercise (F : Follows δ Q cfg cfg') (order : List Reward → List Reward) (fuel : Nat) (s : State R)
    (hq : ∀ r ∈ s.rewards.table.rows, Q r.ts) (x : Str) (g : MasteryScore) (t : Int) (f : Faults) :
    scoreExercise cfg' (laterOrder δ order) fuel (s.later δ) x g (t + δ) f =
      (scoreExercise cfg order fuel s x g t f).map (fun r => (r.1.later δ, r.2)) := by
  have hw := later_world F s hq
  have hc : (s.later δ).caches = s.caches := rfl
  have hg : (s.later δ).graph = s.graph := rfl
  unfold scoreExercise
  rw [hw.scoreC, hw.exC, hc]
  cases scoreC (s.world cfg) fuel x s.caches with
  | none => rfl
  | some p =>
    obtain ⟨ex, c⟩ := p
    dsimp only
    cases exC (s.world cfg) x c with
    | none => rfl
    | some p =>
      obtain ⟨r, c'⟩ := p
      dsimp only
      have hd : ∀ v, Table.step cfg'.sortV (s.later δ).deltas (.record [⟨x, v, t + δ⟩] f.delta) =
          ((s.deltas.step cfg.sortV (.record [⟨x, v, t⟩] f.delta)).1.later δ,
            (s.deltas.step cfg.sortV (.record [⟨x, v, t⟩] f.delta)).2) := fun v => by
        rw [F.sortV]
        exact Table.later_step F.steadyV s.deltas (.record [⟨x, v, t⟩] f.delta)
      have ht : ∀ v, Table.step cfg'.sortV (s.later δ).trials (.record [⟨x, v, t + δ⟩] f.trial) =
          ((s.trials.step cfg.sortV (.record [⟨x, v, t⟩] f.trial)).1.later δ,
            (s.trials.step cfg.sortV (.record [⟨x, v, t⟩] f.trial)).2) := fun v => by
        rw [F.sortV]
        exact Table.later_step F.steadyV s.trials (.record [⟨x, v, t⟩] f.trial)
      have hdd : (if 0 < r.trials then Table.step cfg'.sortV (s.later δ).deltas
            (.record [⟨x, gradeVal R g - ex.getD 0, t + δ⟩] f.delta) else ((s.later δ).deltas, true)) =
          ((if 0 < r.trials then s.deltas.step cfg.sortV (.record [⟨x, gradeVal R g - ex.getD 0, t⟩] f.delta)
            else (s.deltas, true)).1.later δ,
           (if 0 < r.trials then s.deltas.step cfg.sortV (.record [⟨x, gradeVal R g - ex.getD 0, t⟩] f.delta)
            else (s.deltas, true)).2) := by
        split
        · exact hd _
        · rfl
      rw [hdd, ht, hg]
      generalize (if 0 < r.trials then s.deltas.step cfg.sortV (.record [⟨x, gradeVal R g - ex.getD 0, t⟩] f.delta)
        else (s.deltas, true)) = D
      generalize s.trials.step cfg.sortV (.record [⟨x, gradeVal R g, t⟩] f.trial) = T
      dsimp only
      split
      · rfl
      · split
        · rfl
        · rw [Propagator.later_propagate]
          cases Propagator.propagate s.graph [] fuel x g t with
          | none => rfl
          | some rs =>
            dsimp only [Option.map_some]
            have e : laterOrder δ order ((rs.map (Propagator.UnitReward.later δ)).map toStore) =
                (order (rs.map toStore)).map (Reward.later δ) := by
              rw [← laterOrder_later]
              congr 1
              simp only [List.map_map]
              rfl
            have hr : (s.later δ).rewards = s.rewards.later δ := rfl
            rw [e, hr, F.sortW, Rewards.later_record F.steadyW]
            generalize s.rewards.record cfg.sortW (order (rs.map toStore)) f.reward = W
            obtain ⟨w1, w2⟩ := W
            cases w2 <;> rfl

/-! ### Which timestamps the rewards have -/

theorem record_rows (S : SortDesc (ℚ × ℚ)) {Q : Int → Prop} (s : Rewards) (rs : List Reward) (f : Option Nat)
    (hs : ∀ r ∈ s.table.rows, Q r.ts) (hr : ∀ r ∈ rs, Q r.ts) : ∀ r ∈ (s.record S rs f).1.table.rows, Q r.ts := by
  have hl : ∀ (rs : List Reward) (s : Rewards) (b : Option Nat), (∀ r ∈ s.table.rows, Q r.ts) → (∀ r ∈ rs, Q r.ts) →
      ∀ r ∈ (Rewards.loop S s rs b).1.table.rows, Q r.ts := by
    intro rs
    induction rs with
    | nil => exact fun _ _ h _ => h
    | cons r rs ih =>
      intro s b hs hr
      rw [List.forall_mem_cons] at hr
      simp only [Rewards.loop]
      split
      · exact ih s b hs hr.2
      · split
        · exact hs
        · cases ho : s.table.recordOne ⟨r.unit, (r.value, r.weight), r.ts⟩ with
          | none => exact hs
          | some t =>
            refine ih _ _ ?_ hr.2
            have ht : ∀ q ∈ t.rows, Q q.ts := by
              unfold Table.recordOne Table.insert at ho
              split at ho
              · simp at ho
              · simp only [Option.some.injEq] at ho
                subst ho
                intro q hq
                rcases List.mem_append.1 hq with hq | hq
                · have : (s.table.intern r.unit).rows = s.table.rows := by
                    unfold Table.intern
                    split <;> rfl
                  exact hs q (this ▸ hq)
                · rw [List.mem_singleton] at hq
                  subst hq
                  exact hr.1
            unfold Rewards.truncate
            split
            · exact ht
            · intro q hq
              exact ht q (List.mem_of_mem_filter hq)
  unfold Rewards.record
  dsimp only
  split
  · exact hl rs s f hs hr
  · exact hs

theorem step_rows (S : SortDesc (ℚ × ℚ)) {Q : Int → Prop} (s : Rewards) (o : Rewards.Op)
    (hs : ∀ r ∈ s.table.rows, Q r.ts) (hr : ∀ rs f, o = .record rs f → ∀ r ∈ rs, Q r.ts) :
    ∀ r ∈ (s.step S o).1.table.rows, Q r.ts := by
  have hf : ∀ (f : List (Row (ℚ × ℚ)) → Nat → List (Row (ℚ × ℚ))), (∀ rows k, ∀ r ∈ f rows k, r ∈ rows) →
      ∀ (ks : List Nat) (rows : List (Row (ℚ × ℚ))), (∀ r ∈ rows, Q r.ts) → ∀ r ∈ ks.foldl f rows, Q r.ts := by
    intro f hf ks
    induction ks with
    | nil => exact fun _ h => h
    | cons k ks ih => exact fun rows h => ih _ (fun r hr => h r (hf rows k r hr))
  cases o with
  | record rs f => exact record_rows S s rs f hs (hr rs f rfl)
  | trim n stop => exact hf _ (fun _ _ _ h => List.mem_of_mem_filter h) _ _ hs
  | removePrefix p stop => exact hf _ (fun _ _ _ h => List.mem_of_mem_filter h) _ _ hs
  | reopen => exact hs

theorem scoreExercise_rows (cfg : Config R) (order : List Reward → List Reward) (ho : ∀ l, (order l).Perm l) (fuel : Nat)
    (s : State R) (x : Str) (g : MasteryScore) (t : Int) (f : Faults) {Q : Int → Prop}
    (hs : ∀ r ∈ s.rewards.table.rows, Q r.ts) (ht : Q t) {s' : State R} {ok : Bool}
    (h : scoreExercise cfg order fuel s x g t f = some (s', ok)) : ∀ r ∈ s'.rewards.table.rows, Q r.ts := by
  unfold scoreExercise at h
  split at h
  · simp at h
  · split at h
    · simp at h
    · dsimp only at h
      generalize (if 0 < _ then _ else _ : Table R × Bool) = D at h
      split at h
      · simp only [Option.some.injEq, Prod.mk.injEq] at h
        rw [← h.1]
        exact hs
      · split at h
        · simp only [Option.some.injEq, Prod.mk.injEq] at h
          rw [← h.1]
          exact hs
        · split at h
          · simp at h
          · rename_i rs hp
            have hq : ∀ r ∈ order (rs.map toStore), Q r.ts := by
              intro r hr
              obtain ⟨r', hr', rfl⟩ := List.mem_map.1 ((ho _).mem_iff.1 hr)
              have := Propagator.propagate_time hp r' hr'
              simp only [toStore, this]
              exact ht
            have := record_rows cfg.sortW s.rewards (order (rs.map toStore)) f.reward hs hq
            split at h
            · rename_i hr
              rw [hr] at this
              simp only [Option.some.injEq, Prod.mk.injEq] at h
              rw [← h.1]
              exact this
            · rename_i hr
              rw [hr] at this
              simp only [Option.some.injEq, Prod.mk.injEq] at h
              rw [← h.1]
              exact this

end Trane.System
