import Verif.Sched.UnitCache

/-!
# C27: cached scores are never stale

The history of a session is a list of events.  `Scratch` is the specification: the answer computed with
empty caches from the data stored at that moment.
-/

namespace Trane.UnitScorer

variable {ι R T W : Type} [DecidableEq ι] [Field R] [LinearOrder R]

/-- What can happen to the scores and their caches through the public API. -/
inductive Event (ι T W : Type)
  /-- `get_unit_score` and the getters of exercise data -/
  | score (u : ι) (n : Nat)
  /-- `get_avg_trials` of a lesson -/
  | lessonTrials (u : ι)
  /-- `get_avg_trials` of a course -/
  | courseTrials (u : ι) (n : Nat)
  /-- `score_exercise`, first half: the stored trials and deltas of `e` become `t` and `e` is invalidated
  (/repo/src/scheduler.rs:1097-1137) -/
  | practise (e : ι) (t : T)
  /-- `score_exercise`, second half: rewards of the units `us` are recorded and each is invalidated
  (/repo/src/scheduler.rs:1138-1159) -/
  | reward (us : List ι) (r : ι → W)
  /-- `add_to_blacklist` / `remove_from_blacklist` (/repo/src/lib.rs:371-381) -/
  | blacklist (u : ι) (b : Bool)
  /-- `remove_prefix_from_blacklist` (/repo/src/lib.rs:383-387) -/
  | unblacklistPrefix (hasPrefix : ι → Bool)
  /-- a write through `PracticeStats`, `PracticeDeltas` of the `Trane` object (/repo/src/lib.rs:525-583) -/
  | writeStats (e : ι) (t : T)
  /-- the clock moves -/
  | clock (t : Int)

/-- The caches after a query (unchanged if it does not return). -/
def after {α : Type} (c : Caches ι R) (o : Option (α × Caches ι R)) : Caches ι R :=
  match o with
  | some (_, c') => c'
  | none => c

/-- One event. -/
def stepE (s : World ι R T W × Caches ι R) : Event ι T W → World ι R T W × Caches ι R
  | .score u n => (s.1, after s.2 (scoreC s.1 n u s.2))
  | .lessonTrials u => (s.1, after s.2 (lessonTrialsC s.1 u s.2))
  | .courseTrials u n => (s.1, after s.2 (courseTrialsC s.1 n u s.2))
  | .practise e t => ({ s.1 with stats := fun x => if x = e then t else s.1.stats x },
      invalidate s.1.graph s.2 e)
  | .reward us r => ({ s.1 with rewards := fun x => if x ∈ us then r x else s.1.rewards x },
      us.foldl (fun c u => invalidate s.1.graph c u) s.2)
  | .blacklist u b => ({ s.1 with black := fun x => if x = u then b else s.1.black x },
      invalidate s.1.graph s.2 u)
  | .unblacklistPrefix p => ({ s.1 with black := fun x => !p x && s.1.black x }, invalidatePrefix p s.2)
  | .writeStats e t => ({ s.1 with stats := fun x => if x = e then t else s.1.stats x }, s.2)
  | .clock t => ({ s.1 with now := t }, s.2)

/-- A history, starting with empty caches. -/
def history (w : World ι R T W) (evs : List (Event ι T W)) : World ι R T W × Caches ι R :=
  evs.foldl stepE (w, {})

/-- The score of `u` computed with empty caches. -/
def Scratch (w : World ι R T W) (u : ι) (v : Option R) : Prop :=
  ∃ n c', scoreC w n u {} = some (v, c')

/-- The average trials of `u` computed with empty caches. -/
def ScratchTrials (w : World ι R T W) (u : ι) (v : Option R) : Prop :=
  ∃ n c', courseTrialsC w n u {} = some (v, c')

/-- The events covered by the partial theorem: queries, scoring and single blacklist edits; the unit
`Ustr::default()` (the empty name) is not written to. -/
def Covered (d : ι) : Event ι T W → Prop
  | .practise e _ => e ≠ d
  | .reward us _ => d ∉ us
  | .blacklist u _ => u ≠ d
  | .unblacklistPrefix _ => False
  | .writeStats _ _ => False
  | .clock _ => False
  | _ => True

theorem coh_rewards (us : List ι) (r : ι → W) (w : World ι R T W) (hg : Contained w.graph w.dflt)
    (hus : w.dflt ∉ us) (c : Caches ι R) (hc : Coh (Plain w.graph) w c) :
    Coh (Plain w.graph) { w with rewards := fun x => if x ∈ us then r x else w.rewards x }
      (us.foldl (fun c u => invalidate w.graph c u) c) := by
  induction us generalizing w c with
  | nil => simpa using hc
  | cons u us ih =>
    simp only [List.mem_cons, not_or] at hus
    have hd : Differ u w { w with rewards := fun x => if x = u then r x else w.rewards x } :=
      ⟨rfl, rfl, rfl, rfl, fun _ _ => rfl, fun x hx => by simp [hx], fun _ _ => rfl⟩
    have h1 := coh_write hd hg (fun e => hus.1 e.symm) hc
    have h2 := ih { w with rewards := fun x => if x = u then r x else w.rewards x } hg hus.2
      (invalidate w.graph c u) h1
    have e : (fun x => if x ∈ u :: us then r x else w.rewards x) =
        (fun x => if x ∈ us then r x else if x = u then r x else w.rewards x) := by
      funext x
      by_cases h : x = u <;> by_cases h' : x ∈ us <;> simp [h, h']
    rw [List.foldl_cons, e]
    exact h2

theorem coh_step (s : World ι R T W × Caches ι R) (ev : Event ι T W)
    (hg : Contained s.1.graph s.1.dflt) (hev : Covered s.1.dflt ev)
    (hc : Coh (Plain s.1.graph) s.1 s.2) :
    Coh (Plain (stepE s ev).1.graph) (stepE s ev).1 (stepE s ev).2 ∧
    (stepE s ev).1.graph = s.1.graph ∧ (stepE s ev).1.dflt = s.1.dflt := by
  obtain ⟨w, c⟩ := s
  cases ev with
  | score u n =>
    refine ⟨?_, rfl, rfl⟩
    unfold stepE after
    dsimp only
    split
    · rename_i h; exact (pres_score w n u).1 c _ _ hc h
    · exact hc
  | lessonTrials u =>
    refine ⟨?_, rfl, rfl⟩
    unfold stepE after
    dsimp only
    split
    · rename_i h; exact pres_of_sim w (sim_lessonTrials _ w u) c _ _ hc h
    · exact hc
  | courseTrials u n =>
    refine ⟨?_, rfl, rfl⟩
    unfold stepE after
    dsimp only
    split
    · rename_i h; exact pres_courseTrials w n u c _ _ hc h
    · exact hc
  | practise e t =>
    refine ⟨coh_write (u := e) (w := w)
      (w' := { w with stats := fun x => if x = e then t else w.stats x }) ⟨rfl, rfl, rfl, rfl, fun x hx => ?_, fun _ _ => rfl, fun _ _ => rfl⟩
      hg hev hc, rfl, rfl⟩
    simp [hx]
  | reward us r => exact ⟨coh_rewards us r w hg hev c hc, rfl, rfl⟩
  | blacklist u b =>
    refine ⟨coh_write (u := u) (w := w)
      (w' := { w with black := fun x => if x = u then b else w.black x }) ⟨rfl, rfl, rfl, rfl, fun _ _ => rfl, fun _ _ => rfl, fun x hx => ?_⟩
      hg hev hc, rfl, rfl⟩
    simp [hx]
  | unblacklistPrefix p => exact hev.elim
  | writeStats e t => exact hev.elim
  | clock t => exact hev.elim

theorem coh_history (w : World ι R T W) (hg : Contained w.graph w.dflt) (evs : List (Event ι T W))
    (hev : ∀ ev ∈ evs, Covered w.dflt ev) :
    Coh (Plain (history w evs).1.graph) (history w evs).1 (history w evs).2 ∧
    (history w evs).1.graph = w.graph := by
  have key : ∀ (evs : List (Event ι T W)) (s : World ι R T W × Caches ι R),
      Coh (Plain s.1.graph) s.1 s.2 → s.1.graph = w.graph → s.1.dflt = w.dflt →
      (∀ ev ∈ evs, Covered w.dflt ev) →
      Coh (Plain (evs.foldl stepE s).1.graph) (evs.foldl stepE s).1 (evs.foldl stepE s).2 ∧
      (evs.foldl stepE s).1.graph = w.graph := by
    intro evs
    induction evs with
    | nil => intro s h1 h2 _ _; exact ⟨h1, h2⟩
    | cons ev evs ih =>
      intro s h1 h2 h3 h4
      obtain ⟨a, b, c⟩ := coh_step s ev (by rw [h2, h3]; exact hg)
        (by rw [h3]; exact h4 ev List.mem_cons_self) h1
      exact ih (stepE s ev) a (b.trans h2) (c.trans h3) (fun e he => h4 e (List.mem_cons_of_mem _ he))
  exact key evs (w, {}) (coh_empty _ w) rfl rfl hev

/-- With coherent caches the answer is the one computed from scratch. -/
theorem answers_of_coh {w : World ι R T W} {c : Caches ι R} (hc : Coh (Plain w.graph) w c) (u : ι)
    (hu : w.graph.getUnitType u = some .exercise ∨ Plain w.graph u) (n : Nat) (hn : 0 < n) :
    ∃ v c', scoreC w n u c = some (v, c') ∧ Scratch w u v := by
  have hcl := closed_plain w.graph
  obtain ⟨n, rfl⟩ : ∃ k, n = k + 1 := ⟨n - 1, by omega⟩
  by_cases ht : w.graph.getUnitType u = some .exercise
  · have hex : ∀ c, Coh (Plain w.graph) w c →
        ∃ c', scoreC w (n + 1) u c = some (some (w.exRec u).score, c') := by
      intro c hc
      obtain ⟨c', h1, _⟩ := sim_exC (Plain w.graph) w u _ rfl c hc
      refine ⟨c', ?_⟩
      rw [scoreC, ht]
      change (exC w u c).bind _ = _
      rw [h1]; rfl
    obtain ⟨c1, h1⟩ := hex c hc
    obtain ⟨c2, h2⟩ := hex {} (coh_empty _ w)
    exact ⟨_, c1, h1, n + 1, c2, h2⟩
  · have hp : Plain w.graph u := hu.resolve_left ht
    obtain ⟨v, hv⟩ : ∃ v, scoreP w (n + 1) u = some v := by
      rw [scoreP]
      split
      · exact ⟨_, rfl⟩
      · exact ⟨_, rfl⟩
      · exact ⟨_, lessonP_plain w _ _ hp.self⟩
      · exact ⟨_, courseP_plain w _ _ hp⟩
    obtain ⟨c1, h1, _⟩ := sim_score _ w hcl (n + 1) u hp v hv c hc
    obtain ⟨c2, h2, _⟩ := sim_score _ w hcl (n + 1) u hp v hv {} (coh_empty _ w)
    exact ⟨v, c1, h1, n + 1, c2, h2⟩

/-- C27 (partial).  For every library and every history of queries, scoring and single blacklist edits,
the score answered for a unit equals the score computed from scratch from the stored data at that
moment — for every exercise, every lesson that nothing supersedes, and every course such that nothing
supersedes it or its lessons.  Missing: superseded units, prefix removals from the blacklist, direct
writes to the practice tables and the passing of time, for which C27 is false, see below. -/
theorem scores_not_stale_partial (ops : List (Graph.Op ι)) (w : World ι R T W)
    (hg : w.graph = Graph.run ops) (hd : w.graph.getUnitType w.dflt = none)
    (evs : List (Event ι T W)) (hev : ∀ ev ∈ evs, Covered w.dflt ev) (u : ι)
    (hu : w.graph.getUnitType u = some .exercise ∨ Plain w.graph u) (n : Nat) (hn : 0 < n) :
    ∃ v c', scoreC (history w evs).1 n u (history w evs).2 = some (v, c') ∧
      Scratch (history w evs).1 u v := by
  have hg' : Contained w.graph w.dflt := by
    rw [hg] at hd ⊢
    exact contained_run ops w.dflt hd
  obtain ⟨hc, hgr⟩ := coh_history w hg' evs hev
  rw [← hgr] at hu
  exact answers_of_coh hc u hu n hn

/-- C27 (partial), for the average number of trials: lessons without restriction, courses as above. -/
theorem trials_not_stale_partial (ops : List (Graph.Op ι)) (w : World ι R T W)
    (hg : w.graph = Graph.run ops) (hd : w.graph.getUnitType w.dflt = none)
    (evs : List (Event ι T W)) (hev : ∀ ev ∈ evs, Covered w.dflt ev) (u : ι) :
    (∃ v c' c'', lessonTrialsC (history w evs).1 u (history w evs).2 = some (v, c') ∧
      lessonTrialsC (history w evs).1 u {} = some (v, c'')) ∧
    (Plain w.graph u → ∀ n, ∃ v c',
      courseTrialsC (history w evs).1 n u (history w evs).2 = some (v, c') ∧
      ScratchTrials (history w evs).1 u v) := by
  have hg' : Contained w.graph w.dflt := by
    rw [hg] at hd ⊢
    exact contained_run ops w.dflt hd
  obtain ⟨hc, hgr⟩ := coh_history w hg' evs hev
  generalize history w evs = s at *
  obtain ⟨w', c⟩ := s
  dsimp only at *
  constructor
  · obtain ⟨c1, h1, _⟩ := sim_lessonTrials _ w' u _ rfl c hc
    obtain ⟨c2, h2, _⟩ := sim_lessonTrials (Plain w'.graph) w' u _ rfl {} (coh_empty _ w')
    exact ⟨_, c1, c2, h1, h2⟩
  · intro hp n
    rw [← hgr] at hp
    have hv := courseTrialsP_plain w' n hp
    obtain ⟨c1, h1, _⟩ := sim_courseTrials _ w' (closed_plain _) n u hp _ hv c hc
    obtain ⟨c2, h2, _⟩ := sim_courseTrials _ w' (closed_plain _) n u hp _ hv {} (coh_empty _ w')
    exact ⟨_, c1, h1, n, c2, h2⟩

/-- C27, while nothing is written: queries in any order, of any units (superseded ones included) of any
library, are answered as if computed from scratch. -/
theorem queries_not_stale (w : World ι R T W) (c : Caches ι R) (hc : Queried w c) (u : ι) (n : Nat)
    (v : Option R) (c' : Caches ι R) (h : scoreC w n u c = some (v, c')) : Scratch w u v := by
  obtain ⟨_, k, hk⟩ := snd_score w n u c v c' (coh_of_queried hc) h
  obtain ⟨c2, h2, _⟩ := sim_score Everything w (closed_everything _) k u trivial v hk {}
    (coh_empty _ w)
  exact ⟨k, c2, h2⟩

/-! ### Examples -/

/-- The hypotheses hold in the sample library, for a history that scores, blacklists and queries, and
the answers change along it. -/
example :
    let w := sampleWorld sampleGraph (fun _ => false) (fun _ => 3)
    let evs : List (Event Nat ℚ Unit) := [.score 1 5, .practise 100 5, .reward [10, 1] (fun _ => ()),
      .score 1 5, .blacklist 101 true, .courseTrials 1 5, .lessonTrials 10]
    w.graph.getUnitType w.dflt = none ∧ (∀ ev ∈ evs, Covered w.dflt ev) ∧ Plain w.graph 10 ∧
    Plain w.graph 2 ∧ w.graph.getUnitType 2 = some .course ∧
    answer (history w (evs.take 1)).1 5 10 = some (some 3) ∧
    answer (history w (evs.take 2)).1 5 10 = some (some 4) ∧
    answer (history w evs).1 5 10 = some (some 5) := by
  refine ⟨by decide +kernel, ?_, ⟨by decide +kernel, ?_⟩, ⟨by decide +kernel, ?_⟩, by decide +kernel,
    by decide +kernel, by decide +kernel, by decide +kernel⟩
  · simp [Covered, sampleWorld]
  · intro ls l h
    have : (sampleWorld sampleGraph (fun _ => false) (fun _ => 3)).graph.getCourseLessons 10 = none := by
      decide +kernel
    rw [this] at h; cases h
  · intro ls l h hl
    have : (sampleWorld sampleGraph (fun _ => false) (fun _ => 3)).graph.getCourseLessons 2
      = some [20] := by decide +kernel
    rw [this] at h; cases h
    rw [List.mem_singleton] at hl
    subst hl
    exact ⟨by decide +kernel, by decide +kernel⟩

/-! ### Where C27 fails -/

/-- The answer with the caches of the history, and the answer from scratch. -/
def cachedAndScratch (w : World Nat ℚ ℚ Unit) (evs : List (Event Nat ℚ Unit)) (n u : Nat) :
    Option (Option ℚ) × Option (Option ℚ) :=
  let s := history w evs
  ((scoreC s.1 n u s.2).map Prod.fst, answer s.1 n u)

/-- C27 fails for removals by prefix: exercise 101 is blacklisted and lesson 10 queried; removing the
prefix `101` from the blacklist leaves the old score of lesson 10 (and of course 1) in the cache. -/
theorem stale_after_prefix_removal :
    cachedAndScratch (sampleWorld sampleGraph (fun _ => false) (fun e => if e = 100 then 2 else 4))
      [.blacklist 101 true, .score 10 5, .unblacklistPrefix (fun u => u = 101)] 5 10 =
      (some (some 2), some (some 3)) := by decide +kernel

/-- C27 fails for superseded units: lesson 11 keeps its cached score after the lesson superseding it is
mastered, though it should have none. -/
theorem stale_after_superseding :
    cachedAndScratch (sampleWorld sampleGraph (fun _ => false) (fun _ => 3))
      [.score 11 5, .practise 200 5] 5 11 = (some (some 3), some none) := by decide +kernel

/-- C27 fails for direct writes to the practice tables. -/
theorem stale_after_direct_write :
    cachedAndScratch (sampleWorld sampleGraph (fun _ => false) (fun _ => 3))
      [.score 100 5, .writeStats 100 5] 5 100 = (some (some 3), some (some 5)) := by decide +kernel

/-- C27 fails as time passes: the score in the cache is the one at the time of the first query.  Here
scores lose one point per time unit. -/
theorem stale_after_time :
    cachedAndScratch { sampleWorld sampleGraph (fun _ => false) (fun _ => 3) with
        compute := fun _ now t _ _ => ⟨t - now, 0, none, 1⟩ }
      [.score 100 5, .clock 1] 5 100 = (some (some 3), some (some 2)) := by decide +kernel

end Trane.UnitScorer
