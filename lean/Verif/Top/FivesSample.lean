import Verif.Top.FivesProps
import Verif.Top.ScoreSample
import Verif.Top.AppSample

/-! Cases for C110. -/

namespace Trane.TopLevel
open Trane.Store Trane.Store.Table
open Trane.UnitScorer (scoreC exC)
open Trane.Graph

section
variable {R : Type} [Field R] [LinearOrder R] [IsStrictOrderedRing R]

theorem five_accepted {b : Base R} {t : Top R} (hs : Sound b t) (p : Five) (hx : t.graph.getUnitType p.exercise = some .exercise)
    (hf : p.fuel ≠ 0) (hp : (Propagator.propagate t.graph [] p.fuel p.exercise .five p.time).isSome = true) :
    (step b t p.call).2 = true := by
  rcases step_score b t p.exercise .five p.time p.fuel p.order {} with ⟨he, -⟩ | ⟨s, ok, he, e⟩
  · exfalso
    obtain ⟨n, hn⟩ := Nat.exists_eq_succ_of_ne_zero hf
    have hw : (t.sys.world (t.config b)).graph.getUnitType p.exercise = some .exercise := hx
    obtain ⟨r, c', h1, h2⟩ := scoreC_exercise (t.sys.world (t.config b)) n p.exercise t.sys.caches hw
    obtain ⟨rs, hrs⟩ := Option.isSome_iff_exists.1 hp
    have hrs' : Propagator.propagate t.sys.graph [] p.fuel p.exercise .five p.time = some rs := hrs
    unfold System.scoreExercise at he
    rw [hn] at he hrs'
    rw [h1] at he
    dsimp only at he
    have h3 : exC (t.sys.world (t.config b)) p.exercise c' = some (r, c') := by unfold exC; rw [h2]
    rw [h3] at he
    dsimp only at he
    generalize (if 0 < r.trials then _ else _ : Table R × Bool) = D at he
    split at he
    · cases he
    · split at he
      · cases he
      · rw [hrs'] at he
        dsimp only at he
        split at he <;> cases he
  · unfold Five.call
    rw [e]
    obtain ⟨v, c1, r, c, -, -, hend⟩ := System.ends_of_score (tables_of_sound hs) he
    cases hend with
    | deltaFailed _ hd => cases hd
    | trialFailed _ hd => cases hd
    | rewardFailed _ _ _ _ hd => cases hd
    | done => rfl

/-- Grades of exercises are accepted if the rewards can be followed as deep as they go. -/
theorem fives_accepted {b : Base R} (ps : List Five) (t : Top R) (hs : Sound b t)
    (h : ∀ p ∈ ps, t.graph.getUnitType p.exercise = some .exercise ∧ p.fuel ≠ 0 ∧
      (Propagator.propagate t.graph [] p.fuel p.exercise .five p.time).isSome = true) :
    ∀ r ∈ resultsOf b t (ps.map Five.call), r = true := by
  induction ps generalizing t with
  | nil => intro r hr; simp [resultsOf] at hr
  | cons p ps ih =>
    obtain ⟨h1, h2, h3⟩ := h p (by simp)
    intro r hr
    simp only [List.map_cons, resultsOf, List.mem_cons] at hr
    rcases hr with rfl | hr
    · exact five_accepted hs p h1 h2 h3
    · have hg : (step b t p.call).1.graph = t.graph := (fives_keep b [p] t).1
      refine ih _ (sound_step b t _ hs) (fun q hq => ?_) r hr
      rw [hg]
      exact h q (by simp [hq])

end

/-- One and twenty grades of five for `e`, ten seconds apart. -/
def fivesOfE : List Five := (List.range 21).map (fun i => { exercise := ['e'], time := 1000 + 10 * (i : Int) })

/-- Exercise `e` had been graded 1 three times. -/
def failed {R : Type} [Field R] : List (Call R) := [.recordScores [⟨['e'], 1, 10⟩, ⟨['e'], 1, 20⟩, ⟨['e'], 1, 30⟩] false]

noncomputable def afterFailure : Top ℝ := runs caseBase (fresh chain 80000) failed

/-- The hypotheses of C110 hold of exercise `e` and lesson `l` after three failures, with the scorers of the application. -/
example : Fair caseBase (9 / 2) ∧ Placed afterFailure.graph ∧ Practice caseBase afterFailure 1000 fivesOfE ∧
    1 ≤ afterFailure.options.made.numTrials ∧ Enough afterFailure 1000 fivesOfE ['e'] ∧
    PractisedLesson afterFailure 1000 fivesOfE ['l'] ∧ afterFailure.trials.history ['e'] = [(1, 10), (1, 20), (1, 30)] := by
  have hh : afterFailure.trials.history ['e'] = [(1, 10), (1, 20), (1, 30)] := rfl
  have hd : afterFailure.deltas.history ['e'] = [] := rfl
  have hg : afterFailure.graph = chain := rfl
  have he : Enough afterFailure 1000 fivesOfE ['e'] := by
    refine ⟨by decide +kernel, ?_, ?_⟩
    · rw [hh]; intro p hp; fin_cases hp <;> decide
    · rw [hd]; intro p hp; cases hp
  refine ⟨app_fair _ _ _ _, ?_, ?_, by decide +kernel, he, ?_, hh⟩
  · rw [hg]; exact placed_run chainOps
  · refine ⟨fives_accepted _ _ (sound_runs _ _ _ (sound_fresh _ _ _)) ?_, ?_, ?_, by decide +kernel, by decide +kernel⟩
    · rw [hg]; decide +kernel
    · rw [hg]; decide +kernel
    · decide +kernel
  · refine ⟨by rw [hg]; decide +kernel, ⟨['e'], ?_, ?_⟩, ?_⟩
    · rw [hg]; exact ⟨[['e']], by decide +kernel, by simp⟩
    · decide +kernel
    · intro x hx _
      rw [hg] at hx
      obtain ⟨s, h1, h2⟩ := hx
      rw [show chain.getLessonExercises ['l'] = some [['e']] by decide +kernel] at h1
      cases h1
      rw [List.mem_singleton] at h2
      subst h2
      exact he

/-- So the score of `e` is at least 4.5 in the end. -/
example (n : Nat) : ∃ v, answer caseBase (runs caseBase afterFailure (fivesOfE.map Five.call)) ['e'] (n + 1) = some (some v) ∧
    9 / 2 ≤ v := by
  have hh : afterFailure.trials.history ['e'] = [(1, 10), (1, 20), (1, 30)] := rfl
  have hd : afterFailure.deltas.history ['e'] = [] := rfl
  have hg : afterFailure.graph = chain := rfl
  refine fives_raise_exercise (l := ['l']) (since := 1000) (app_fair _ _ _ _) (rfl : afterFailure = _) ⟨?_, ?_, ?_, ?_, ?_⟩ (by decide +kernel)
    (by rw [hg]; decide +kernel) (by rw [hg]; decide +kernel) ⟨by decide +kernel, ?_, ?_⟩ n
  · refine fives_accepted _ _ (sound_runs _ _ _ (sound_fresh _ _ _)) ?_
    rw [hg]; decide +kernel
  · rw [hg]; decide +kernel
  · decide +kernel
  · decide +kernel
  · decide +kernel
  · rw [hh]; intro p hp; fin_cases hp <;> decide
  · rw [hd]; intro p hp; cases hp

/-- The score is the worst of the grades, at most five. -/
def worstBase : Base ℚ := { sampleBase with
  scorer := fun _ _ _ st _ _ => (if st.1 = [] then 0 else (st.1.map Prod.fst).foldr min 5, 0, none) }

theorem worst_fair : Fair worstBase 5 := by
  have hle : ∀ l : List ℚ, l.foldr min 5 ≤ 5 := by
    intro l
    induction l with
    | nil => exact le_rfl
    | cons a l ih => exact (min_le_right _ _).trans ih
  have hge : ∀ l : List ℚ, (∀ a ∈ l, a = 5) → 5 ≤ l.foldr min 5 := by
    intro l
    induction l with
    | nil => intro _; exact le_rfl
    | cons a l ih =>
      intro h
      exact le_min (h a (by simp)).ge (ih (fun b hb => h b (by simp [hb])))
  refine ⟨fun clock x now st l c _ => ?_, fun clock x now st l c _ hne h5 _ => ?_⟩
  · show (if st.1 = [] then (0 : ℚ) else _) ≤ 5
    split
    · norm_num
    · exact hle _
  · show (5 : ℚ) ≤ if st.1 = [] then (0 : ℚ) else _
    rw [if_neg hne]
    refine hge _ (fun a ha => ?_)
    obtain ⟨p, hp, rfl⟩ := List.mem_map.1 ha
    exact (h5 p hp).1

theorem chain_check {t : Top ℚ} (hg : t.graph = chain) (u : Str) :
    (UnitScorer.checkC (t.sys.world (t.config worstBase)) (scoreC (t.sys.world (t.config worstBase)) 9) 9 u t.caches).isSome = true := by
  have : (t.sys.world (t.config worstBase)).graph.getSupersededBy u = none := by
    change t.graph.getSupersededBy u = none
    rw [hg]
    rfl
  unfold UnitScorer.checkC
  rw [this]
  rfl

def failing : Top ℚ := runs worstBase (fresh chain 80000) failed
def practised : Top ℚ := runs worstBase failing (fivesOfE.map Five.call)

/-- The hypotheses of the theorem about what is unlocked hold for lesson `m`, which depends on lesson `l`. -/
example : Practice worstBase failing 1000 fivesOfE ∧ Reads worstBase practised (live worstBase practised 9 chainRequest) ∧
    DependsOn failing.graph ['m'] ['l'] ∧ (∀ d, DependsOn failing.graph ['m'] d → PractisedLesson failing 1000 fivesOfE d) ∧
    failing.options.current.passing.minScore ≤ 5 ∧
    failing.options.current.passing.minAvgTrials ≤ (failing.options.made.numTrials : ℚ) ∧
    Search.Unlocked (practised.env (live worstBase practised 9 chainRequest)) none ['m'] := by
  have hh : failing.trials.history ['e'] = [(1, 10), (1, 20), (1, 30)] := by decide +kernel
  have hd : failing.deltas.history ['e'] = [] := by decide +kernel
  have hg : failing.graph = chain := rfl
  have hg' : practised.graph = chain := (fives_keep worstBase fivesOfE failing).1.trans hg
  have hp : Practice worstBase failing 1000 fivesOfE := by
    refine ⟨fives_accepted _ _ (sound_runs _ _ _ (sound_fresh _ _ _)) ?_, ?_, by decide +kernel, by decide +kernel, by decide +kernel⟩
    · rw [hg]; decide +kernel
    · rw [hg]; decide +kernel
  have hl : ∀ d, DependsOn failing.graph ['m'] d → PractisedLesson failing 1000 fivesOfE d := by
    intro d hdep
    rw [hg] at hdep
    obtain ⟨s, h1, h2⟩ := hdep
    rw [show chain.getDependencies ['m'] = some [['l']] by decide +kernel] at h1
    cases h1
    rw [List.mem_singleton] at h2
    subst h2
    refine ⟨by rw [hg]; decide +kernel, ⟨['e'], ?_, by decide +kernel⟩, ?_⟩
    · rw [hg]; exact ⟨[['e']], by decide +kernel, by simp⟩
    · intro x hx _
      rw [hg] at hx
      obtain ⟨s, h1, h2⟩ := hx
      rw [show chain.getLessonExercises ['l'] = some [['e']] by decide +kernel] at h1
      cases h1
      rw [List.mem_singleton] at h2
      subst h2
      refine ⟨by decide +kernel, ?_, ?_⟩
      · rw [hh]; intro p hp; fin_cases hp <;> decide
      · rw [hd]; intro p hp; cases hp
  have hr : Reads worstBase practised (live worstBase practised 9 chainRequest) := by
    refine reads_live _ ?_ ?_ ?_ ?_
    · rw [hg']; decide +kernel
    · rw [hg']; decide +kernel
    · rw [hg']; decide +kernel
    · exact fun u => chain_check hg' u
  refine ⟨hp, hr, ?_, hl, by decide +kernel, by decide +kernel, ?_⟩
  · rw [hg]; exact ⟨[['l']], by decide +kernel, by simp⟩
  · exact practice_unlocks (t := failing) worst_fair rfl (by rw [hg]; exact placed_run chainOps) hp (by decide +kernel) hr (by decide +kernel)
      (by decide +kernel) hl

/-- Before the practice lesson `m` was locked. -/
example : ¬ Search.Unlocked (failing.env (live worstBase failing 9 chainRequest)) none ['m'] := by
  intro h
  have := h ['l'] ⟨[['l']], by decide +kernel, by simp⟩ ['l'] (.self trivial)
  rcases this with h | ⟨c, -, h⟩ | h | h | h | h | ⟨s, n, h1, -, h3, -⟩
  · revert h; decide +kernel
  · exact absurd h (by rw [show (failing.env (live worstBase failing 9 chainRequest)).black = fun _ => false from rfl]; simp)
  · revert h; decide +kernel
  · revert h; decide +kernel
  · revert h; decide +kernel
  · revert h; decide +kernel
  · rw [show (failing.env (live worstBase failing 9 chainRequest)).score ['l'] = some (some 1) by decide +kernel] at h1
    cases h1
    revert h3; decide +kernel

end Trane.TopLevel
