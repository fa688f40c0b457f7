import Verif.TestLib.Simulation
import Verif.Bench.Library

/-!
# C97: simulations on a library

The object of the simulation is a `Trane` object that opened a library from disk.
-/

namespace Trane.TestLib
open Trane.Store
open Trane.TopLevel
open Trane.Graph
open Trane.Library (Disk Lib FPath)
open Trane.Filters (UnitFilter)
open Trane.Bench (running_snoc no_empty_unit)

variable {α γ : Type}

/-- The calls of a simulation with the filter `f` on an object with the library `lib`.  There are no database errors.
A call that runs out of fuel, however much there is, would hang. -/
structure SimObject (d : Disk α γ) (ig : List FPath) (lib : Lib α γ) (b : Base ℚ) (f : Option (UnitFilter Str))
    (A : SimApi (TopLevel.Top ℚ) Str) : Prop where
  wait : ∀ t τ, A.wait t τ = (step b t (.wait τ)).1
  blacklist : ∀ t u, A.addToBlacklist t u =
    if (step b t (.addToBlacklist u false)).2 then some (step b t (.addToBlacklist u false)).1 else none
  batch : ∀ h t, Running d ig lib b h t → ∃ q, q.filter = f ∧ Batch.IsChoices q.choices ∧ Serves lib b t q ∧
    (∀ t' xs, A.batch t = some (t', xs) → ∃ fuel s, t.batch { q with fuel := fuel } = some (s, some xs) ∧
      t' = (step b t (.getBatch { q with fuel := fuel })).1) ∧
    (A.batch t = none → ∀ N, ∃ fuel, N ≤ fuel ∧ ∀ s xs, t.batch { q with fuel := fuel } ≠ some (s, some xs))
  score : ∀ t x g τ, ∃ order,
    (∀ t', A.score t x g τ = some t' → ∃ fuel, step b t (.scoreExercise x g τ fuel order {}) = (t', true)) ∧
    (A.score t x g τ = none → ∀ N, ∃ fuel, N ≤ fuel ∧ (step b t (.scoreExercise x g τ fuel order {})).2 = false)

section
variable {d : Disk α γ} {ig : List FPath} {lib : Lib α γ} {b : Base ℚ} {f : Option (UnitFilter Str)}
  {A : SimApi (TopLevel.Top ℚ) Str} {t₀ : TopLevel.Top ℚ}

/-- The objects that occur. -/
def SimOccurs (d : Disk α γ) (ig : List FPath) (lib : Lib α γ) (b : Base ℚ) (t₀ t : TopLevel.Top ℚ) : Prop :=
  t.blacklist = t₀.blacklist ∧ t.review = t₀.review ∧ ∃ h, Running d ig lib b h t ∧
    ∀ x ∈ gradedIds h, ∃ m, Library.DiskExercise d ig m ∧ m.id = x

/-- An exercise that the files describe; unless the filter is the review list, neither it nor its lesson or course is
blacklisted. -/
def Presentable (d : Disk α γ) (ig : List FPath) (f : Option (UnitFilter Str)) (t : TopLevel.Top ℚ) (x : Str) : Prop :=
  ∃ m l, OnDisk d ig x m l ∧
    (f ≠ some .reviewList → ∀ u ∈ [x, m.lessonId, m.courseId], t.blacklist.blacklisted u = false)

theorem graded_snoc {h : List (Call ℚ)} {c : Call ℚ} (hc : gradedIds [c] = [])
    (hg : ∀ x ∈ gradedIds h, ∃ m, Library.DiskExercise d ig m ∧ m.id = x) :
    ∀ x ∈ gradedIds (h ++ [c]), ∃ m, Library.DiskExercise d ig m ∧ m.id = x := by
  rw [gradedIds_snoc, hc, List.append_nil]
  exact hg

theorem simOccurs_wait (hA : SimObject d ig lib b f A) {t : TopLevel.Top ℚ} (τ : Int) (h : SimOccurs d ig lib b t₀ t) :
    SimOccurs d ig lib b t₀ (A.wait t τ) := by
  obtain ⟨h1, h1', h, h2, h3⟩ := h
  rw [hA.wait]
  exact ⟨h1, h1', _, running_snoc h2 _ (by simp [Restarts]) rfl, graded_snoc rfl h3⟩

theorem simOccurs_batch (hA : SimObject d ig lib b f A) (hne : NoEmptyId lib t₀)
    (hrev : f = some .reviewList → ∀ u ∈ ReviewList.entries t₀.review, Known lib.graph u) {t : TopLevel.Top ℚ}
    (h : SimOccurs d ig lib b t₀ t) :
    ∃ t' xs, A.batch t = some (t', xs) ∧ SimOccurs d ig lib b t₀ t' ∧ ∀ x ∈ xs, Presentable d ig f t₀ x := by
  obtain ⟨h1, h1', h, h2, h3⟩ := h
  have hne' : NoEmptyId lib t := by rw [NoEmptyId, h1]; exact hne
  obtain ⟨q, hf, hch, hq, hsome, hnone⟩ := hA.batch h t h2
  cases hb : A.batch t with
  | none =>
    obtain ⟨N, s, xs, hN⟩ := whole_batch_succeeds h2 hq hne' hch h3 (by rw [hf, h1']; exact hrev)
    obtain ⟨fuel, hfuel, hno⟩ := hnone hb N
    exact absurd (hN fuel hfuel) (hno s xs)
  | some r =>
    obtain ⟨t', xs⟩ := r
    obtain ⟨fuel, s, hs, ht⟩ := hsome t' xs hb
    have hq' : Serves lib b t { q with fuel := fuel } :=
      ⟨⟨hq.reads.score, hq.reads.known, hq.reads.trials, hq.reads.superseded⟩, hq.urgency, hq.course, hq.lesson,
        hq.exercise, hq.dflt⟩
    refine ⟨t', xs, rfl, ⟨?_, ?_, _, ht ▸ running_snoc h2 _ (by simp [Restarts]) rfl, graded_snoc rfl h3⟩, ?_⟩
    · rw [ht]
      rcases step_batch b t { q with fuel := fuel } with ⟨-, e⟩ | ⟨s, r, -, e⟩ <;> rw [e] <;> exact h1
    · rw [ht]
      rcases step_batch b t { q with fuel := fuel } with ⟨-, e⟩ | ⟨s, r, -, e⟩ <;> rw [e] <;> exact h1'
    · intro x hx
      obtain ⟨m, l, ho⟩ := whole_batch_known h2 hq' hne' hch hs x hx
      refine ⟨m, l, ho, fun hfr => ?_⟩
      have := whole_batch_not_blacklisted h2 hq' hne' hch hs (by change q.filter ≠ _; rw [hf]; exact hfr) hx ho
      rwa [h1] at this

theorem running_stored {h : List (Call ℚ)} {t : TopLevel.Top ℚ} (h2 : Running d ig lib b h t) :
    System.Stored (t.config b) t.sys := by
  obtain ⟨cs, s0, flag, -, -, -, hlib, -⟩ := Library.loads_inv h2.proper h2.loads
  have hg : t.sys.graph = lib.graph := h2.graph
  have hst := tables_of_sound h2.sound
  exact ⟨⟨_, by rw [hg, hlib]⟩, by rw [hg]; exact no_empty_unit h2.proper h2.loads, hst.trials, hst.deltas, hst.rewards⟩

theorem simOccurs_score (hA : SimObject d ig lib b f A) {t : TopLevel.Top ℚ} {x : Str} (g : MasteryScore) (τ : Int)
    (h : SimOccurs d ig lib b t₀ t) (hx : Presentable d ig f t₀ x) :
    ∃ t', A.score t x g τ = some t' ∧ SimOccurs d ig lib b t₀ t' ∧
      ∀ y, t'.trials.history y = t.trials.history y ++ (if x = y then [(g.toFloat, τ)] else []) := by
  obtain ⟨h1, h1', h, h2, h3⟩ := h
  obtain ⟨m, l, ho, -⟩ := hx
  obtain ⟨order, hsome, hnone⟩ := hA.score t x g τ
  have hstored := running_stored h2
  cases hs : A.score t x g τ with
  | none =>
    exfalso
    have hty : t.sys.graph.getUnitType x = some .exercise := by
      rw [show t.sys.graph = lib.graph from h2.graph, (Library.library_types h2.proper h2.loads x).2.2,
        ((Library.library_manifests h2.proper h2.loads x).2.2 m).2 ⟨ho.exercise, ho.id⟩]
      rfl
    obtain ⟨N, hN⟩ := System.score_terminates order g τ {} hstored hty
    obtain ⟨fuel, hfuel, hno⟩ := hnone hs N
    obtain ⟨o, hok⟩ := hN fuel hfuel
    have htrue := System.score_returns_ok hstored hok
    rcases step_score b t x g τ fuel order {} with ⟨e, -⟩ | ⟨s, ok, e, e'⟩
    · rw [e] at hok; cases hok
    · rw [e] at hok; cases hok
      rw [e'] at hno
      rw [hno] at htrue
      cases htrue
  | some t' =>
    obtain ⟨fuel, hf⟩ := hsome t' hs
    have hr := running_snoc h2 (.scoreExercise x g τ fuel order {}) (by simp [Restarts]) rfl
    rw [hf] at hr
    rcases step_score b t x g τ fuel order {} with ⟨-, e⟩ | ⟨s, ok, e0, e⟩
    · rw [e] at hf; cases hf
    · rw [e] at hf
      cases hf
      refine ⟨_, rfl, ⟨h1, h1', _, hr, ?_⟩, ?_⟩
      · rw [gradedIds_snoc]
        intro y hy
        rcases List.mem_append.1 hy with h | h
        · exact h3 y h
        · simp [gradedIds] at h
          subst h
          exact ⟨m, ho.exercise, ho.id⟩
      · obtain ⟨k1, k2, -⟩ := System.score_effects hstored e0
        intro y
        by_cases hy : x = y
        · subst hy
          rw [if_pos rfl]
          have : (t.putSys s).trials.history x = t.trials.history x ++ [(System.gradeVal ℚ g, τ)] := k1
          rw [this]
          simp [System.gradeVal]
        · rw [if_neg hy, List.append_nil]
          exact (k2 y (fun e => hy e.symm)).1

/-! ### The blacklist -/

/-- The object after the units were blacklisted. -/
theorem blacklists_succeeds (hA : SimObject d ig lib b f A) {us : List Str} (hus : [] ∉ us) {t : TopLevel.Top ℚ}
    (h : SimOccurs d ig lib b t t) (hne : NoEmptyId lib t) :
    ∃ t', Blacklists A us t t' ∧ SimOccurs d ig lib b t' t' ∧ NoEmptyId lib t' ∧ t'.review = t.review ∧
      t'.trials = t.trials ∧ ∀ u, t'.blacklist.blacklisted u = true ↔ t.blacklist.blacklisted u = true ∨ u ∈ us := by
  induction us generalizing t with
  | nil => exact ⟨t, .nil t, h, hne, rfl, rfl, by simp⟩
  | cons u us ih =>
    obtain ⟨-, -, hh, h2, h3⟩ := h
    obtain ⟨ops, hops⟩ := h2.sound.blacklist
    have hok : (step b t (.addToBlacklist u false)).2 = true := by
      show (t.blacklist.step (.add u false)).2 = true
      rw [hops]
      exact (Blacklist.blacklist_calls_succeed ops).1 u
    have hbl : ∀ v, (step b t (.addToBlacklist u false)).1.blacklist.blacklisted v = true ↔
        t.blacklist.blacklisted v = true ∨ v = u := by
      intro v
      have h1 : (t.blacklist.step (.add u false)).2 = true := hok
      show (t.blacklist.step (.add u false)).1.blacklisted v = true ↔ _
      rw [hops] at h1 ⊢
      have := (Blacklist.blacklist_refines_set ops (.add u false)).1
      rw [h1, Blacklist.run_snoc] at this
      simpa [Blacklist.AbsStep] using this v
    have hne1 : NoEmptyId lib (step b t (.addToBlacklist u false)).1 := by
      refine ⟨?_, hne.2⟩
      rw [Bool.eq_false_iff]
      intro hb
      rcases (hbl []).1 hb with hb | hb
      · rw [hne.1] at hb; cases hb
      · exact hus (hb ▸ List.mem_cons_self)
    obtain ⟨t', k1, k2, k3, k4, k5, k6⟩ := ih (t := (step b t (.addToBlacklist u false)).1)
      (fun hm => hus (List.mem_cons_of_mem _ hm))
      ⟨rfl, rfl, _, running_snoc h2 _ (by simp [Restarts]) rfl, graded_snoc rfl h3⟩ hne1
    refine ⟨t', .cons ?_ k1, k2, k3, k4, k5, ?_⟩
    · rw [hA.blacklist, if_pos hok]
    · intro v
      rw [k6, hbl]
      simp only [List.mem_cons]
      tauto

/-! ### The simulation -/

theorem simStory_occurs (hA : SimObject d ig lib b f A) (hne : NoEmptyId lib t₀)
    (hrev : f = some .reviewList → ∀ u ∈ ReviewList.entries t₀.review, Known lib.graph u)
    (h₀ : SimOccurs d ig lib b t₀ t₀) {answer : Nat → Str → Option MasteryScore} {clock : Nat → Int}
    {es : List (SimEvent Str)} {rest : List Str} {t : TopLevel.Top ℚ} (h : SimStory A answer clock t₀ es rest t) :
    SimOccurs d ig lib b t₀ t ∧ (∀ x ∈ rest, Presentable d ig f t₀ x) ∧
      (∀ x ∈ presentedIds es, Presentable d ig f t₀ x) ∧
      ∀ x, t.trials.history x = t₀.trials.history x ++ (gradesOf es x).map (fun p => (p.1.toFloat, p.2)) := by
  induction h with
  | start => exact ⟨h₀, by simp, by simp [presentedIds], by simp [gradesOf]⟩
  | wait _ ih =>
    obtain ⟨h1, h2, h3, h4⟩ := ih
    refine ⟨simOccurs_wait hA _ h1, h2, h3, fun x => ?_⟩
    rw [hA.wait]
    exact h4 x
  | @batch es o o' xs _ hb ih =>
    obtain ⟨h1, -, h3, h4⟩ := ih
    obtain ⟨t', xs', hb', k1, k2⟩ := simOccurs_batch hA hne hrev h1
    have htr : o'.trials = o.trials := by
      obtain ⟨_, _, hh, hr, _⟩ := h1
      obtain ⟨q, -, -, -, hsome, -⟩ := hA.batch hh o hr
      obtain ⟨fuel, s, -, ht⟩ := hsome o' xs hb
      rw [ht]
      rcases step_batch b o { q with fuel := fuel } with ⟨-, e⟩ | ⟨s, r, -, e⟩ <;> rw [e]
    rw [hb] at hb'
    cases hb'
    refine ⟨k1, k2, ?_, fun x => ?_⟩
    · intro x hx
      rw [presentedIds_snoc] at hx
      exact h3 x (by simpa using hx)
    · rw [htr, h4 x, gradesOf_snoc, show gradesOf [SimEvent.batch xs] x = [] from rfl, List.append_nil]
  | @skipped es rest x o _ ha ih =>
    obtain ⟨h1, h2, h3, h4⟩ := ih
    refine ⟨h1, fun y hy => h2 y (List.mem_append_left _ hy), ?_, fun y => ?_⟩
    · intro y hy
      rw [presentedIds_snoc] at hy
      rcases List.mem_append.1 hy with hy | hy
      · exact h3 y hy
      · rw [List.mem_singleton.1 hy]; exact h2 x (by simp)
    · rw [h4 y, gradesOf_snoc, show gradesOf [SimEvent.presented x none (clock (presentedIds es).length)] y = [] from rfl,
        List.append_nil]
  | @graded es rest x o o' g _ ha hs ih =>
    obtain ⟨h1, h2, h3, h4⟩ := ih
    have hx := h2 x (by simp)
    obtain ⟨t', hs', k1, k2⟩ := simOccurs_score hA g (clock (presentedIds es).length) h1 hx
    rw [hs] at hs'
    cases hs'
    refine ⟨k1, fun y hy => h2 y (List.mem_append_left _ hy), ?_, fun y => ?_⟩
    · intro y hy
      rw [presentedIds_snoc] at hy
      rcases List.mem_append.1 hy with hy | hy
      · exact h3 y hy
      · rw [List.mem_singleton.1 hy]; exact hx
    · rw [k2 y, h4 y, gradesOf_snoc]
      by_cases hy : x = y
      · subst hy
        simp [gradesOf]
      · simp [gradesOf, hy]

/-- **C97, simulations on a library**: whatever the answers, the clock and the choices, a simulation on a library that
opens succeeds.  The exercises that are presented are in the files; unless the filter is the review list, neither they
nor their lessons or courses are blacklisted, or among the units that were to be blacklisted.  Trane stores the grades. -/
theorem library_simulation (hA : SimObject d ig lib b f A) {h : List (Call ℚ)} (hr : Running d ig lib b h t₀)
    (hne : NoEmptyId lib t₀) (hgr : ∀ x ∈ gradedIds h, ∃ m, Library.DiskExercise d ig m ∧ m.id = x)
    (hrev : f = some .reviewList → ∀ u ∈ ReviewList.entries t₀.review, Known lib.graph u) {us : List Str} (hus : [] ∉ us)
    (answer : Nat → Str → Option MasteryScore) (clock : Nat → Int) (n : Nat) :
    ∃ s, runSimulation A answer clock n us t₀ = (s, true) ∧
      (∀ x ∈ presentedIds s.events, ∃ m l, OnDisk d ig x m l ∧ (f ≠ some .reviewList →
        ∀ u ∈ [x, m.lessonId, m.courseId], t₀.blacklist.blacklisted u = false ∧ u ∉ us)) ∧
      ∀ x, s.obj.trials.history x = t₀.trials.history x ++ (gradesOf s.events x).map (fun p => (p.1.toFloat, p.2)) := by
  obtain ⟨t₁, k1, k2, k3, k4, k5, k6⟩ := blacklists_succeeds hA hus ⟨rfl, rfl, h, hr, hgr⟩ hne
  have hrev1 : f = some .reviewList → ∀ u ∈ ReviewList.entries t₁.review, Known lib.graph u := by rw [k4]; exact hrev
  obtain ⟨s, hs⟩ := simLoop_succeeds (A := A) (answer := answer) (clock := clock) (P := SimOccurs d ig lib b t₁)
    (V := Presentable d ig f t₁) (fun o τ ho => simOccurs_wait hA τ ho) (fun o ho => simOccurs_batch hA k3 hrev1 ho)
    (fun o x g τ ho hx => by obtain ⟨o', h1, h2, -⟩ := simOccurs_score hA g τ ho hx; exact ⟨o', h1, h2⟩) n
    (s := { obj := t₁ }) k2 (by simp)
  have hrun : runSimulation A answer clock n us t₀ = (s, true) := by
    unfold runSimulation
    rw [blacklistAll_iff.2 k1]
    exact hs
  obtain ⟨t₁', hb, hst, -, -⟩ := simulation_runs hrun
  have e : t₁' = t₁ := by
    have h1 := blacklistAll_iff.2 hb
    rw [blacklistAll_iff.2 k1] at h1
    injection h1 with h1 _
    exact h1.symm
  subst e
  obtain ⟨-, -, hp, hh⟩ := simStory_occurs hA k3 hrev1 k2 hst
  refine ⟨s, hrun, ?_, fun x => by rw [hh x, k5]⟩
  intro x hx
  obtain ⟨m, l, ho, hbl⟩ := hp x hx
  refine ⟨m, l, ho, fun hf u hu => ?_⟩
  have h1 := hbl hf u hu
  rw [Bool.eq_false_iff] at h1 ⊢
  exact ⟨fun h2 => h1 ((k6 u).2 (Or.inl h2)), fun h2 => h1 ((k6 u).2 (Or.inr h2))⟩

/-- **C97, comparing scores on a library**: after a simulation on an object without grades for the exercise, comparing
its scores succeeds if the exercise got no two grades in the same second, or always the same grade. -/
theorem library_scores_match_partial (hA : SimObject d ig lib b f A) {h : List (Call ℚ)} (hr : Running d ig lib b h t₀)
    (hne : NoEmptyId lib t₀) (hgr : ∀ x ∈ gradedIds h, ∃ m, Library.DiskExercise d ig m ∧ m.id = x)
    (hrev : f = some .reviewList → ∀ u ∈ ReviewList.entries t₀.review, Known lib.graph u) {us : List Str} (hus : [] ∉ us)
    {answer : Nat → Str → Option MasteryScore} {clock : Nat → Int} {n : Nat} {s : Sim (TopLevel.Top ℚ) Str}
    (hs : runSimulation A answer clock n us t₀ = (s, true)) {x : Str} (hx : t₀.trials.history x = [])
    (ht : (∀ i j, i < j → clock i < clock j) ∨ ∀ i j, answer i x = answer j x) :
    scoresMatch s.history x (s.obj.trials.get b.sortV x 10) = true := by
  obtain ⟨t₁, k1, k2, k3, k4, k5, k6⟩ := blacklists_succeeds hA hus ⟨rfl, rfl, h, hr, hgr⟩ hne
  have hrev1 : f = some .reviewList → ∀ u ∈ ReviewList.entries t₁.review, Known lib.graph u := by rw [k4]; exact hrev
  obtain ⟨t₁', hb, hst, -, hh⟩ := simulation_runs hs
  have e : t₁' = t₁ := by
    have h1 := blacklistAll_iff.2 hb
    rw [blacklistAll_iff.2 k1] at h1
    injection h1 with h1 _
    exact h1.symm
  subst e
  obtain ⟨⟨-, -, h', hr', -⟩, -, -, hlog⟩ := simStory_occurs hA k3 hrev1 k2 hst
  obtain ⟨ops, hops⟩ := hr'.sound.trials
  have hnew := Table.get_scores_newest b.sortV ops x 10
  rw [← hops] at hnew
  refine scores_match_partial (hh x) ?_ hnew ?_
  · unfold Stored
    rw [hlog x, k5, hx, List.nil_append]
  · -- the times and grades of the story
    have key : ∀ {es : List (SimEvent Str)} {rest : List Str} {t : TopLevel.Top ℚ}, SimStory A answer clock t₁' es rest t →
        (∀ p ∈ gradesOf es x, ∃ i < (presentedIds es).length, p.2 = clock i ∧ answer i x = some p.1) ∧
        ((∀ i j, i < j → clock i < clock j) → (gradesOf es x).Pairwise (fun a b => a.2 < b.2)) := by
      intro es rest t hst
      induction hst with
      | start => exact ⟨by simp [gradesOf], fun _ => by simp [gradesOf]⟩
      | wait _ ih => exact ih
      | @batch es o o' xs _ _ ih =>
        rw [gradesOf_snoc, show gradesOf [SimEvent.batch xs] x = [] from rfl, List.append_nil, presentedIds_snoc]
        simpa using ih
      | @skipped es rest y o _ _ ih =>
        rw [gradesOf_snoc, show gradesOf [SimEvent.presented y none (clock (presentedIds es).length)] x = [] from rfl,
          List.append_nil, presentedIds_snoc]
        refine ⟨fun p hp => ?_, ih.2⟩
        obtain ⟨i, hi, h⟩ := ih.1 p hp
        exact ⟨i, by rw [List.length_append]; omega, h⟩
      | @graded es rest y o o' g _ ha _ ih =>
        rw [gradesOf_snoc, presentedIds_snoc]
        by_cases hy : y = x
        · subst hy
          have e : gradesOf [SimEvent.presented y (some g) (clock (presentedIds es).length)] y =
              [(g, clock (presentedIds es).length)] := by simp [gradesOf]
          rw [e]
          refine ⟨fun p hp => ?_, fun hm => ?_⟩
          · rcases List.mem_append.1 hp with hp | hp
            · obtain ⟨i, hi, h⟩ := ih.1 p hp
              exact ⟨i, by rw [List.length_append]; omega, h⟩
            · rw [List.mem_singleton.1 hp]
              exact ⟨_, by simp, rfl, ha⟩
          · rw [List.pairwise_append]
            refine ⟨ih.2 hm, by simp, ?_⟩
            intro p hp q hq
            rw [List.mem_singleton.1 hq]
            obtain ⟨i, hi, h, -⟩ := ih.1 p hp
            rw [h]
            exact hm _ _ hi
        · have e : gradesOf [SimEvent.presented y (some g) (clock (presentedIds es).length)] x = [] := by
            simp [gradesOf, hy]
          rw [e, List.append_nil]
          refine ⟨fun p hp => ?_, ih.2⟩
          obtain ⟨i, hi, h⟩ := ih.1 p hp
          exact ⟨i, by rw [List.length_append]; omega, h⟩
    obtain ⟨q1, q2⟩ := key hst
    rcases ht with ht | ht
    · exact Or.inl (q2 ht)
    · right
      cases hg : gradesOf s.events x with
      | nil => exact ⟨.one, by simp⟩
      | cons p ps =>
        rw [hg] at q1
        refine ⟨p.1, fun r hr => ?_⟩
        obtain ⟨i, _, _, hi⟩ := q1 r hr
        obtain ⟨j, _, _, hj⟩ := q1 p List.mem_cons_self
        rw [ht i j, hj] at hi
        injection hi with hi
        exact hi.symm

end

/-- The full claim fails: nothing orders two grades of the same second, and then Trane may report the older one first. -/
theorem scores_may_differ : ∃ (s : Sim Unit Str) (x : Str) (log ans : List (ℚ × Int)),
    s.history.find x = some ((gradesOf s.events x).map Prod.fst) ∧ Stored s.events x log ∧
    Table.IsNewest 10 log ans ∧ scoresMatch s.history x ans = false := by
  refine ⟨⟨(), [], [(['x'], [.one, .two])], 2, [.presented ['x'] (some .one) 0, .presented ['x'] (some .two) 0]⟩, ['x'],
    [(1, 0), (2, 0)], [(1, 0), (2, 0)], by decide +kernel, ?_, ?_, ?_⟩
  · unfold Stored; decide +kernel
  · exact ⟨by decide, by simp, [], by simp, by simp⟩
  · decide +kernel

end Trane.TestLib
