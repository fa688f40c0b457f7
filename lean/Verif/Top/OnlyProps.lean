import Verif.Top.OnlySpec
import Verif.Top.ScoreProps
import Verif.Top.Sample

/-!
# C115: scores depend on the grades and on the blacklist in force
-/

namespace Trane.System
open Trane.Store
open Trane.UnitScorer (scoreC exC invalidate)

variable {R : Type} [Field R] [LinearOrder R]

/-- The same library, time and practice data. -/
structure SameData (s s' : State R) : Prop where
  graph : s'.graph = s.graph
  now : s'.now = s.now
  trials : s'.trials = s.trials
  deltas : s'.deltas = s.deltas
  rewards : s'.rewards = s.rewards

theorem same_exRec {cfg : Config R} {s s' : State R} (h : SameData s s') (x : Str) :
    (s'.world cfg).exRec x = (s.world cfg).exRec x := by
  obtain ⟨h1, h2, h3, h4, h5⟩ := h
  simp only [UnitScorer.World.exRec, State.world, h1, h2, h3, h4, h5]

theorem exC_value {T W : Type} {w : UnitScorer.World Str R T W} {c : UnitScorer.Caches Str R} {x : Str}
    (hc : ∀ r, c.ex.find x = some r → r = w.exRec x) : ∃ c', exC w x c = some (w.exRec x, c') ∧ c'.ex.find x = some (w.exRec x) := by
  unfold exC
  cases h : c.ex.find x with
  | none => exact ⟨_, rfl, by simp⟩
  | some r => cases hc r h; exact ⟨c, rfl, h⟩

/-- With caches that are up to date as far as the exercise is concerned, grading it does the same to the same data. -/
theorem score_same_data (cfg : Config R) (order : List Reward → List Reward) (fuel : Nat) {s s' : State R} (h : SameData s s') {x : Str}
    (hx : s.graph.getUnitType x = some .exercise) (hc : ∀ r, s.caches.ex.find x = some r → r = (s.world cfg).exRec x)
    (hc' : ∀ r, s'.caches.ex.find x = some r → r = (s'.world cfg).exRec x) (g : MasteryScore) (t : Int) (f : Faults) :
    (scoreExercise cfg order fuel s x g t f = none ∧ scoreExercise cfg order fuel s' x g t f = none) ∨
    ∃ r r' ok, scoreExercise cfg order fuel s x g t f = some (r, ok) ∧ scoreExercise cfg order fuel s' x g t f = some (r', ok) ∧
      SameData r r' := by
  obtain ⟨c, h1, hf⟩ := exC_value hc
  obtain ⟨c', h1', hf'⟩ := exC_value hc'
  have h2 : exC (s.world cfg) x c = some ((s.world cfg).exRec x, c) := by unfold exC; rw [hf]
  have h2' : exC (s'.world cfg) x c' = some ((s'.world cfg).exRec x, c') := by unfold exC; rw [hf']
  have hx' : s'.graph.getUnitType x = some .exercise := by rw [h.graph]; exact hx
  rcases fuel with _ | fuel
  · left; exact ⟨rfl, rfl⟩
  have e : scoreC (s.world cfg) (fuel + 1) x s.caches = some (some ((s.world cfg).exRec x).score, c) := by
    unfold scoreC
    rw [show (s.world cfg).graph.getUnitType x = _ from hx]
    simp only [bind, StateT.bind, h1]
    rfl
  have e' : scoreC (s'.world cfg) (fuel + 1) x s'.caches = some (some ((s'.world cfg).exRec x).score, c') := by
    unfold scoreC
    rw [show (s'.world cfg).graph.getUnitType x = _ from hx']
    simp only [bind, StateT.bind, h1']
    rfl
  have er := same_exRec (cfg := cfg) h x
  obtain ⟨a1, a2, a3, a4, a5⟩ := h
  unfold scoreExercise
  simp only [e, e', h2, h2', er, a1, a2, a3, a4, a5]
  generalize (if 0 < ((s.world cfg).exRec x).trials then _ else (s.deltas, true) : Table R × Bool) = d
  obtain ⟨d, dk⟩ := d
  cases dk
  · right; exact ⟨_, _, false, rfl, rfl, ⟨rfl, rfl, rfl, rfl, rfl⟩⟩
  simp only [Bool.true_eq_false, if_false]
  generalize s.trials.step cfg.sortV (.record [⟨x, gradeVal R g, t⟩] f.trial) = d'
  obtain ⟨d', dk'⟩ := d'
  cases dk'
  · right; exact ⟨_, _, false, rfl, rfl, ⟨rfl, rfl, rfl, rfl, rfl⟩⟩
  simp only [Bool.true_eq_false, if_false]
  cases hp : Propagator.propagate s.graph [] (fuel + 1) x g t with
  | none => left; exact ⟨rfl, rfl⟩
  | some rs =>
    right
    dsimp only
    rcases s.rewards.record cfg.sortW (order (rs.map toStore)) f.reward with ⟨rew, _ | ids⟩
    · exact ⟨_, _, false, rfl, rfl, ⟨rfl, rfl, rfl, rfl, rfl⟩⟩
    · exact ⟨_, _, true, rfl, rfl, ⟨rfl, rfl, rfl, rfl, rfl⟩⟩

end Trane.System

namespace Trane.TopLevel
open Trane.Store
open Trane.System (SameData score_same_data NoEmpty)
open Trane.UnitScorer (Coh Plain Scratch answers_of_coh answer_unique scoreC lessonTrialsC courseTrialsC)

variable {R : Type} [Field R] [LinearOrder R]

/-- The same data and the same settings of the scorer. -/
def SameStored (b : Base R) (t t' : Top R) : Prop := SameData t.sys t'.sys ∧ t'.config b = t.config b

theorem stored_refl (b : Base R) (t : Top R) : SameStored b t t := ⟨⟨rfl, rfl, rfl, rfl, rfl⟩, rfl⟩

theorem stored_trans {b : Base R} {t t' t'' : Top R} (h : SameStored b t t') (h' : SameStored b t' t'') : SameStored b t t'' := by
  obtain ⟨⟨a1, a2, a3, a4, a5⟩, a6⟩ := h
  obtain ⟨⟨b1, b2, b3, b4, b5⟩, b6⟩ := h'
  exact ⟨⟨b1.trans a1, b2.trans a2, b3.trans a3, b4.trans a4, b5.trans a5⟩, b6.trans a6⟩

theorem stored_symm {b : Base R} {t t' : Top R} (h : SameStored b t t') : SameStored b t' t := by
  obtain ⟨⟨a1, a2, a3, a4, a5⟩, a6⟩ := h
  exact ⟨⟨a1.symm, a2.symm, a3.symm, a4.symm, a5.symm⟩, a6.symm⟩

/-- A call that does not grade keeps the data. -/
theorem stored_other (b : Base R) (t : Top R) {c : Call R} (hc : Clean c) (hg : Grading c = false) : SameStored b t (step b t c).1 := by
  cases c with
  | getBatch q =>
    rcases step_batch b t q with ⟨-, e⟩ | ⟨s, r, -, e⟩ <;> rw [e] <;> exact ⟨⟨rfl, rfl, rfl, rfl, rfl⟩, rfl⟩
  | setPreferences p f => cases f <;> exact ⟨⟨rfl, rfl, rfl, rfl, rfl⟩, rfl⟩
  | options o => cases o <;> exact ⟨⟨rfl, rfl, rfl, rfl, rfl⟩, rfl⟩
  | addToBlacklist u f | removeFromBlacklist u f | blacklisted u | addToReviewList u f | removeFromReviewList u f | getUnitScore u n
  | invalidate u | invalidatePrefix p => exact ⟨⟨rfl, rfl, rfl, rfl, rfl⟩, rfl⟩
  | scoreExercise => cases hg
  | _ => exact absurd hc id

theorem stored_grading {b : Base R} {ops : List (Graph.Op Str)} {t t' : Top R} (hg : Good b ops t) (hg' : Good b ops t')
    (h : SameStored b t t') {c : Call R} (hx : OfExercise (Graph.run ops) c) (hc : Grading c = true) :
    SameStored b (step b t c).1 (step b t' c).1 := by
  cases c with
  | scoreExercise x g ts fuel order f =>
    have hx : (Graph.run ops).getUnitType x = some .exercise := hx
    rw [← hg.graph] at hx
    have key := score_same_data (t.config b) order fuel h.1 (x := x) hx (fun r e => hg.fresh.ex x r e)
      (fun r e => by have := hg'.fresh.ex x r e; rw [h.2] at this; exact this) g ts f
    rw [show System.scoreExercise (t.config b) order fuel t'.sys x g ts f = System.scoreExercise (t'.config b) order fuel t'.sys x g ts f by
      rw [h.2]] at key
    obtain ⟨⟨a1, a2, a3, a4, a5⟩, a6⟩ := h
    rcases key with ⟨k1, k2⟩ | ⟨r, r', ok, k1, k2, k3⟩
    · simp only [step, k1, k2]; exact ⟨⟨a1, a2, a3, a4, a5⟩, a6⟩
    · simp only [step, k1, k2]
      exact ⟨⟨a1, a2, k3.trials, k3.deltas, k3.rewards⟩, a6⟩
  | _ => cases hc

theorem stored_runs {b : Base R} {ops : List (Graph.Op Str)} (he : (Graph.run ops).getUnitType [] = none) (hn : NoEmpty (Graph.run ops))
    {t : Top R} (hg : Good b ops t) (h : List (Call R)) : ∀ {t' : Top R}, Good b ops t' → SameStored b t t' →
    (∀ c ∈ h, Clean c) → (∀ c ∈ h, OfExercise (Graph.run ops) c) → SameStored b (runs b t h) (runs b t' (h.filter Grading)) := by
  induction h generalizing t with
  | nil => intro t' _ h _ _; exact h
  | cons c h ih =>
    intro t' hg' hs hc hx
    have hgs := good_step hg he hn c (hc c (by simp))
    cases e : Grading c with
    | false =>
      rw [List.filter_cons_of_neg (by simp [e])]
      exact ih hgs hg' (stored_trans (stored_symm (stored_other b t (hc c (by simp)) e)) hs) (fun c hc' => hc c (by simp [hc']))
        (fun c hc' => hx c (by simp [hc']))
    | true =>
      rw [List.filter_cons_of_pos e]
      exact ih hgs (good_step hg' he hn c (hc c (by simp))) (stored_grading hg hg' hs (hx c (by simp)) e)
        (fun c hc' => hc c (by simp [hc'])) (fun c hc' => hx c (by simp [hc']))

theorem good_opened (b : Base R) (g0 : Graph Str) (clock : Int) (h0 : List (Call R)) (ops : List (Graph.Op Str))
    (hok : (step b (runs b (fresh g0 clock) h0) (.restart (Graph.run ops))).2 = true) :
    Good b ops (runs b (fresh g0 clock) (h0 ++ [.restart (Graph.run ops)])) := by
  have hs := sound_runs b _ h0 (sound_fresh b g0 clock)
  have hso := sound_step b _ (.restart (Graph.run ops)) hs
  rw [runs_snoc]
  rcases step_restart b (runs b (fresh g0 clock) h0) (Graph.run ops) with e | ⟨-, e⟩
  · rw [e] at hok; cases hok
  · rw [e] at hso ⊢
    exact ⟨hso, rfl, UnitScorer.coh_empty _ _⟩

/-- Answers of objects with the same data and blacklist, whose caches are up to date. -/
theorem answers_stored {b : Base R} {ops : List (Graph.Op Str)} {t t' : Top R} (hg : Good b ops t) (hg' : Good b ops t')
    (h : SameStored b t t') (hb : ∀ u, t'.blacklist.blacklisted u = t.blacklist.blacklisted u) (u : Str) :
    ((Graph.run ops).getUnitType u = some .exercise ∨ Plain (Graph.run ops) u → ∀ v, GetsScore b t' u v ↔ GetsScore b t u v) ∧
    ((Graph.run ops).getUnitType u = some .lesson ∨ Plain (Graph.run ops) u → ∀ v, GetsTrials b t' u v ↔ GetsTrials b t u v) := by
  obtain ⟨⟨a1, a2, a3, a4, a5⟩, a6⟩ := h
  have ew : t'.sys.world (t'.config b) = t.sys.world (t.config b) := by
    have eb : t'.sys.black = t.sys.black := funext hb
    unfold System.State.world
    rw [a1, a2, a3, a4, a5, a6, eb]
  have hf : Coh (Plain t.graph) (t.sys.world (t.config b)) t.caches := hg.fresh
  have hf' : Coh (Plain t.graph) (t.sys.world (t.config b)) t'.caches := by
    have := hg'.fresh
    unfold System.Fresh at this
    rw [ew] at this
    rw [hg.graph, ← hg'.graph]
    exact this
  rw [← hg.graph]
  constructor
  · intro hu v
    obtain ⟨x, c, e, s⟩ := answers_of_coh (w := t.sys.world (t.config b)) hf u hu 1 Nat.one_pos
    obtain ⟨x', c', e', s'⟩ := answers_of_coh (w := t.sys.world (t.config b)) hf' u hu 1 Nat.one_pos
    have exx : x = x' := answer_unique _ _ u s s'
    subst exx
    unfold GetsScore
    rw [ew]
    exact ⟨fun k => (answer_unique _ _ u k ⟨1, c', e'⟩) ▸ ⟨1, c, e⟩, fun k => (answer_unique _ _ u k ⟨1, c, e⟩) ▸ ⟨1, c', e'⟩⟩
  · intro hu v
    unfold GetsTrials
    rw [ew, show t'.graph = t.graph from a1]
    have hl : ∀ c, Coh (Plain t.graph) (t.sys.world (t.config b)) c → (UnitScorer.AnswersLessonTrials (t.sys.world (t.config b)) c u v ↔
        v = UnitScorer.lessonTrialsP (t.sys.world (t.config b)) u) := by
      intro c hc
      obtain ⟨c1, h1, -⟩ := UnitScorer.sim_lessonTrials _ _ u _ rfl c hc
      constructor
      · rintro ⟨c', e⟩; rw [h1] at e; cases e; rfl
      · rintro rfl; exact ⟨c1, h1⟩
    cases ht : t.graph.getUnitType u with
    | none => exact Iff.rfl
    | some k =>
      cases k with
      | exercise => exact Iff.rfl
      | lesson => exact (hl _ hf').trans (hl _ hf).symm
      | course =>
        have hp : Plain t.graph u := by
          rcases hu with hu | hu
          · rw [ht] at hu; cases hu
          · exact hu
        have hct : ∀ c, Coh (Plain t.graph) (t.sys.world (t.config b)) c →
            (UnitScorer.AnswersCourseTrials (t.sys.world (t.config b)) c u v ↔
              ∃ n, UnitScorer.courseTrialsP (t.sys.world (t.config b)) n u = some v) := by
          intro c hc
          constructor
          · rintro ⟨n, c', e⟩
            have hv := UnitScorer.courseTrialsP_plain (t.sys.world (t.config b)) n hp
            obtain ⟨c1, h1, -⟩ := UnitScorer.sim_courseTrials _ _ (UnitScorer.closed_plain _) n u hp _ hv c hc
            rw [h1] at e
            cases e
            exact ⟨n, hv⟩
          · rintro ⟨n, hv⟩
            obtain ⟨c1, h1, -⟩ := UnitScorer.sim_courseTrials _ _ (UnitScorer.closed_plain _) n u hp _ hv c hc
            exact ⟨n, c1, h1⟩
        exact (hct _ hf').trans (hct _ hf).symm

/-- **C115.** Open the library after any use of the object at all.  Then take two ways to use it with the same grades for exercises,
in the same order, but otherwise different: other batches, other questions, other edits of the blacklist, the review list, the
preferences and the options.  Then the same practice data are stored; and if the blacklists agree in the end, every exercise, and every
lesson or course that nothing supersedes, has the same score and the same number of trials. -/
theorem scores_from_grades (b : Base R) (g0 : Graph Str) (clock : Int) (h0 : List (Call R)) (ops : List (Graph.Op Str))
    (he : (Graph.run ops).getUnitType [] = none) (hn : NoEmpty (Graph.run ops))
    (hok : (step b (runs b (fresh g0 clock) h0) (.restart (Graph.run ops))).2 = true) (h h' : List (Call R))
    (hc : ∀ c ∈ h, Clean c) (hc' : ∀ c ∈ h', Clean c) (hx : ∀ c ∈ h, OfExercise (Graph.run ops) c)
    (hsame : h'.filter Grading = h.filter Grading) {t t' : Top R}
    (et : t = runs b (fresh g0 clock) (h0 ++ .restart (Graph.run ops) :: h))
    (et' : t' = runs b (fresh g0 clock) (h0 ++ .restart (Graph.run ops) :: h')) :
    (∀ u n, t'.trials.get b.sortV u n = t.trials.get b.sortV u n ∧ t'.deltas.get b.sortV u n = t.deltas.get b.sortV u n ∧
      t'.rewards.table.get b.sortW u n = t.rewards.table.get b.sortW u n) ∧
    ((∀ u, t'.blacklist.blacklisted u = t.blacklist.blacklisted u) → ∀ u,
      ((Graph.run ops).getUnitType u = some .exercise ∨ Plain (Graph.run ops) u → ∀ v, GetsScore b t' u v ↔ GetsScore b t u v) ∧
      ((Graph.run ops).getUnitType u = some .lesson ∨ Plain (Graph.run ops) u → ∀ v, GetsTrials b t' u v ↔ GetsTrials b t u v)) := by
  have hg := good_opened b g0 clock h0 ops hok
  have e : ∀ k : List (Call R), runs b (fresh g0 clock) (h0 ++ .restart (Graph.run ops) :: k) =
      runs b (runs b (fresh g0 clock) (h0 ++ [.restart (Graph.run ops)])) k := by
    intro k
    rw [← runs_append, List.append_assoc]; rfl
  rw [e] at et et'
  have hx' : ∀ c ∈ h', OfExercise (Graph.run ops) c := by
    intro c hm
    cases eg : Grading c with
    | true =>
      have : c ∈ h'.filter Grading := List.mem_filter.2 ⟨hm, eg⟩
      rw [hsame] at this
      exact hx c (List.mem_filter.1 this).1
    | false => cases c <;> trivial
  have s1 := stored_runs he hn hg h hg (stored_refl b _) hc hx
  have s2 := stored_runs he hn hg h' hg (stored_refl b _) hc' hx'
  rw [hsame] at s2
  rw [← et] at s1
  rw [← et'] at s2
  have s := stored_trans s1 (stored_symm s2)
  refine ⟨fun u n => ?_, fun hb u => answers_stored (et ▸ good_runs hg he hn h hc) (et' ▸ good_runs hg he hn h' hc') s hb u⟩
  obtain ⟨⟨-, -, a3, a4, a5⟩, -⟩ := s
  exact ⟨by rw [show t'.trials = t.trials from a3], by rw [show t'.deltas = t.deltas from a4], by rw [show t'.rewards = t.rewards from a5]⟩

/-! ### Blacklisting is taken back -/

theorem black_keep {b : Base R} {t : Top R} (hs : Sound b t) {c : Call R} (hc : Clean c) (hb : Blacklists c = false) (y : Str) :
    (step b t c).1.blacklist.blacklisted y = t.blacklist.blacklisted y := by
  have hso := sound_step b t c hs
  cases c with
  | blacklisted u => exact (same_blacklist hs.inv hso.inv (Blacklist.hasEntry_eq _ u hs.inv).2.1).2 y
  | getBatch q => rcases step_batch b t q with ⟨-, e⟩ | ⟨s, r, -, e⟩ <;> rw [e]
  | scoreExercise x g ts fuel order f => rcases step_score b t x g ts fuel order f with ⟨-, e⟩ | ⟨s, ok, h, e⟩ <;> rw [e] <;> rfl
  | setPreferences p f => cases f <;> rfl
  | addToReviewList | removeFromReviewList | getUnitScore | invalidate | invalidatePrefix | options => rfl
  | addToBlacklist | removeFromBlacklist => cases hb
  | _ => exact absurd hc id

theorem black_runs {b : Base R} {t : Top R} (hs : Sound b t) (k : List (Call R)) (hc : ∀ c ∈ k, Clean c)
    (hb : ∀ c ∈ k, Blacklists c = false) (y : Str) : (runs b t k).blacklist.blacklisted y = t.blacklist.blacklisted y := by
  induction k using List.reverseRecOn with
  | nil => rfl
  | append_singleton k c ih =>
    rw [runs_snoc, black_keep (sound_runs b t k hs) (hc c (by simp)) (hb c (by simp)) y]
    exact ih (fun c hm => hc c (List.mem_append_left _ hm)) (fun c hm => hb c (List.mem_append_left _ hm))

/-- **C115.** Put a unit on the blacklist, go on practising, asking for scores and batches and so on, and take it off again: every
exercise, and every lesson or course that nothing supersedes, has the score and the number of trials it would have if the unit had
never been on the blacklist. -/
theorem blacklisting_taken_back (b : Base R) (g0 : Graph Str) (clock : Int) (h0 : List (Call R)) (ops : List (Graph.Op Str))
    (he : (Graph.run ops).getUnitType [] = none) (hn : NoEmpty (Graph.run ops))
    (hok : (step b (runs b (fresh g0 clock) h0) (.restart (Graph.run ops))).2 = true) (h k : List (Call R))
    (hc : ∀ c ∈ h ++ k, Clean c) (hx : ∀ c ∈ h ++ k, OfExercise (Graph.run ops) c) (hk : ∀ c ∈ k, Blacklists c = false) {x : Str}
    (hx0 : x ≠ []) (hnot : (runs b (fresh g0 clock) (h0 ++ .restart (Graph.run ops) :: h)).blacklist.blacklisted x = false)
    {t t' : Top R} (et : t = runs b (fresh g0 clock) (h0 ++ .restart (Graph.run ops) :: (h ++ k)))
    (et' : t' = runs b (fresh g0 clock) (h0 ++ .restart (Graph.run ops) ::
      (h ++ .addToBlacklist x false :: (k ++ [.removeFromBlacklist x false])))) (u : Str) :
    ((Graph.run ops).getUnitType u = some .exercise ∨ Plain (Graph.run ops) u → ∀ v, GetsScore b t' u v ↔ GetsScore b t u v) ∧
    ((Graph.run ops).getUnitType u = some .lesson ∨ Plain (Graph.run ops) u → ∀ v, GetsTrials b t' u v ↔ GetsTrials b t u v) := by
  refine (scores_from_grades b g0 clock h0 ops he hn hok (h ++ k) (h ++ .addToBlacklist x false :: (k ++ [.removeFromBlacklist x false]))
    hc ?_ hx ?_ et et').2 ?_ u
  · intro c hm
    simp only [List.mem_append, List.mem_cons, List.not_mem_nil, or_false] at hm
    rcases hm with hm | rfl | hm | rfl
    · exact hc c (by simp [hm])
    · exact hx0
    · exact hc c (by simp [hm])
    · exact hx0
  · simp [List.filter_append, Grading]
  · intro y
    have hs := sound_fresh b g0 clock
    set t0 := runs b (fresh g0 clock) (h0 ++ .restart (Graph.run ops) :: h) with ht0
    have hs0 : Sound b t0 := sound_runs b _ _ hs
    have e1 : t = runs b t0 k := by
      rw [et, ht0, ← runs_append]; simp
    have e2 : t' = (step b (runs b (step b t0 (.addToBlacklist x false)).1 k) (.removeFromBlacklist x false)).1 := by
      rw [et', ← runs_snoc, ht0, ← runs_snoc, ← runs_append]; simp
    have hk' : ∀ c ∈ k, Clean c := fun c hm => hc c (by simp [hm])
    have hs1 := sound_step b t0 (.addToBlacklist x false) hs0
    have hs2 := sound_runs b _ k hs1
    have hs3 := sound_step b _ (.removeFromBlacklist x false) hs2
    rw [e1, black_runs hs0 k hk' hk y]
    by_cases hy : y = x
    · subst hy
      rw [hnot, e2, blacklisted_eq hs3.inv]
      exact decide_eq_false (by change ¬ y ∈ (Blacklist.remove _ y false).1.db; simp [Blacklist.remove])
    · rw [e2]
      refine ((black_other hs2.inv x false y hy).2).trans ?_
      rw [black_runs hs1 k hk' hk y]
      exact (black_other hs0.inv x false y hy).1

/-! ### The hypotheses are met; lessons that are superseded -/

/-- Practice before the blacklisting. -/
def onlyFirst : List (Call ℚ) := [.scoreExercise ['f'] .three 120 9 id {}, .getUnitScore ['c'] 9]

/-- Practice while `e` is on the blacklist. -/
def onlyThen : List (Call ℚ) := [.getUnitScore ['l'] 9, .scoreExercise ['e'] .five 130 9 id {}, .getUnitScore ['c'] 9,
  .addToReviewList ['d'] false, .scoreExercise ['d'] .two 140 9 id {}]

/-- The object after it all. -/
def onlyEnd : Top ℚ := runs sampleBase (fresh sampleGraph 0) (before ++ .restart sampleGraph ::
  (onlyFirst ++ .addToBlacklist ['e'] false :: (onlyThen ++ [.removeFromBlacklist ['e'] false])))

/-- The object without the blacklisting. -/
def onlyPlain : Top ℚ := runs sampleBase (fresh sampleGraph 0) (before ++ .restart sampleGraph :: (onlyFirst ++ onlyThen))

/-- The hypotheses of `blacklisting_taken_back`, and with them those of `scores_from_grades`, are met. -/
example (u : Str) (hu : sampleGraph.getUnitType u = some .exercise ∨ Plain sampleGraph u) (v : Option ℚ) :
    GetsScore sampleBase onlyEnd u v ↔ GetsScore sampleBase onlyPlain u v :=
  (blacklisting_taken_back sampleBase sampleGraph 0 before sampleOps (by decide +kernel)
    (System.noEmpty_of_maps (by decide +kernel) (by decide +kernel) (by decide +kernel) (by decide +kernel)) (by decide +kernel)
    onlyFirst onlyThen (by simp [onlyFirst, onlyThen, Clean])
    (by
      have : ∀ x ∈ [['e'], ['f'], ['d']], (Graph.run sampleOps).getUnitType x = some .exercise := by decide +kernel
      simp [onlyFirst, onlyThen, OfExercise, this])
    (by simp [onlyThen, Blacklists]) (by decide) (by decide +kernel) rfl rfl u).1 hu v

/-- The score of the course is the same, and it is not the one it has while `e` is on the blacklist. -/
example : (scoreC (onlyEnd.sys.world (onlyEnd.config sampleBase)) 9 ['c'] onlyEnd.caches).map Prod.fst =
      (scoreC (onlyPlain.sys.world (onlyPlain.config sampleBase)) 9 ['c'] onlyPlain.caches).map Prod.fst ∧
    (scoreC (onlyEnd.sys.world (onlyEnd.config sampleBase)) 9 ['c'] onlyEnd.caches).map Prod.fst ≠ some none ∧
    (let t := (step sampleBase onlyEnd (.addToBlacklist ['e'] false)).1
     (scoreC (t.sys.world (t.config sampleBase)) 9 ['c'] t.caches).map Prod.fst ≠
      (scoreC (onlyEnd.sys.world (onlyEnd.config sampleBase)) 9 ['c'] onlyEnd.caches).map Prod.fst) := by decide +kernel

/-- Course `c` with the lesson `a` (exercise `e`) and the lesson `b` (exercise `f`), which supersedes it. -/
def overtakenOps : List (Graph.Op Str) := [.addCourse ['c'], .addDependencies ['c'] .course [],
  .addLesson ['a'] ['c'], .addDependencies ['a'] .lesson [], .addExercise ['e'] ['a'],
  .addLesson ['b'] ['c'], .addDependencies ['b'] .lesson [], .addExercise ['f'] ['b'],
  .addSuperseded ['b'] [['a']], .updateStartingLessons]

/-- Grades for both exercises. -/
def overtakenGrades : List (Call ℚ) := [.scoreExercise ['e'] .three 10 9 id {}, .scoreExercise ['f'] .five 20 9 id {},
  .scoreExercise ['f'] .five 30 9 id {}]

/-- The same grades, and one question for a score. -/
def overtakenAsked : List (Call ℚ) := [.scoreExercise ['e'] .three 10 9 id {}, .getUnitScore ['a'] 9, .scoreExercise ['f'] .five 20 9 id {},
  .scoreExercise ['f'] .five 30 9 id {}]

/-- **C115**, the limit: for a lesson that is superseded the questions matter as well.  After the same grades, the score of such a lesson
is gone if nobody asked for it before, and it is still there if somebody did. -/
theorem questions_matter_when_superseded : overtakenAsked.filter Grading = overtakenGrades.filter Grading ∧
    GetsScore sampleBase (runs sampleBase (fresh sampleGraph 0) (.restart (Graph.run overtakenOps) :: overtakenGrades)) ['a'] none ∧
    GetsScore sampleBase (runs sampleBase (fresh sampleGraph 0) (.restart (Graph.run overtakenOps) :: overtakenAsked)) ['a']
      (some 3) := by
  have key : ∀ (t : Top ℚ) (u : Str) (v : Option ℚ), (scoreC (t.sys.world (t.config sampleBase)) 9 u t.caches).map Prod.fst = some v →
      GetsScore sampleBase t u v := by
    intro t u v e
    obtain ⟨⟨v', c'⟩, e1, e2⟩ := Option.map_eq_some_iff.1 e
    cases e2
    exact ⟨9, c', e1⟩
  exact ⟨rfl, key _ _ _ (by decide +kernel), key _ _ _ (by decide +kernel)⟩

end Trane.TopLevel
