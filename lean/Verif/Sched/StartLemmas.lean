import Verif.Sched.SearchLemmas

/-! Helper lemmas: starting points of the search. -/

namespace Trane.Search
open Trane.Filters (KVFilter)
open Trane.Graph

variable {ι : Type} [DecidableEq ι] {e : Env ι}

theorem unitExists_iff (he : Sane e) (u : ι) : e.unitExists u = true ↔ Known e.graph u := by
  unfold Env.unitExists Known
  cases h : e.graph.getUnitType u with
  | none => simp
  | some t =>
    cases t with
    | course => simpa using (he.course u).1 h
    | lesson => simpa using (he.lesson u).1 h
    | exercise => simpa using (he.exercise u).1 h

theorem mem_startRound (us : List ι) (u : ι) :
    u ∈ startRound e us ↔ ∃ v ∈ us, (e.unitExists v = true ∧ u = v) ∨ (e.unitExists v = false ∧ u ∈ e.dependents v) := by
  have key : ∀ (us acc : List ι), u ∈ us.foldl
      (fun acc v => if e.unitExists v then acc.insert v else extendSet acc (e.dependents v)) acc ↔
      u ∈ acc ∨ ∃ v ∈ us, (e.unitExists v = true ∧ u = v) ∨ (e.unitExists v = false ∧ u ∈ e.dependents v) := by
    intro us
    induction us with
    | nil => simp
    | cons v us ih =>
      intro acc
      rw [List.foldl_cons, ih]
      by_cases hv : e.unitExists v = true
      · rw [if_pos hv, List.mem_insert_iff]
        simp only [List.mem_cons, exists_eq_or_imp, hv, true_and, Bool.true_eq_false, false_and, or_false]
        rw [or_assoc, or_left_comm]
      · rw [if_neg hv, mem_extendSet]
        have hv' : e.unitExists v = false := by simpa using hv
        simp only [List.mem_cons, exists_eq_or_imp, hv', true_and, Bool.false_eq_true, false_and, false_or]
        rw [or_assoc]
  unfold startRound
  rw [key]
  simp

/-- A set of existing units is not changed. -/
theorem startRound_fix (us : List ι) (h : ∀ u ∈ us, e.unitExists u = true) (u : ι) :
    u ∈ startRound e us ↔ u ∈ us := by
  rw [mem_startRound]
  constructor
  · rintro ⟨v, hv, h1 | h1⟩
    · rw [h1.2]; exact hv
    · rw [h v hv] at h1; simp at h1
  · intro hu; exact ⟨u, hu, Or.inl ⟨h u hu, rfl⟩⟩

theorem startRound_exists (he : Sane e) (us : List ι) (u : ι) (h : u ∈ startRound e us) :
    e.unitExists u = true := by
  rw [mem_startRound] at h
  obtain ⟨v, _, h | h⟩ := h
  · rw [h.2]; exact h.1
  · rw [unitExists_iff he]
    have := (he.wf.depInv _ _).2 ((mem_dependents e _ _).1 h.2)
    obtain ⟨s, hs, _⟩ := this
    exact he.wf.depTyped u s hs

theorem startLoop_spec (he : Sane e) (n : Nat) (hn : 2 ≤ n) (us : List ι) :
    ∃ us', startLoop e n us = some us' ∧ ∀ u, u ∈ us' ↔ u ∈ startRound e us := by
  obtain ⟨n, rfl⟩ : ∃ k, n = k + 2 := ⟨n - 2, by omega⟩
  rw [startLoop]
  split
  · rename_i h
    simp only [Bool.and_eq_true, List.all_eq_true, decide_eq_true_eq] at h
    exact ⟨us, rfl, fun u => ⟨h.2 u, h.1 u⟩⟩
  · rw [startLoop]
    have hfix := startRound_fix (startRound e us) (startRound_exists he us)
    rw [if_pos]
    · exact ⟨_, rfl, fun u => Iff.rfl⟩
    · simp only [Bool.and_eq_true, List.all_eq_true, decide_eq_true_eq]
      exact ⟨fun u hu => (hfix u).1 hu, fun u hu => (hfix u).2 hu⟩

/-- `get_all_starting_units` ends after at most two rounds with the starting units. -/
theorem allStartingUnits_spec (he : Sane e) (n : Nat) (hn : 2 ≤ n) :
    ∃ us, allStartingUnits e n = some us ∧ ∀ u, u ∈ us ↔ StartingUnit e u := by
  obtain ⟨us, h, hm⟩ := startLoop_spec he n hn e.graph.getDependencySinks
  refine ⟨_, by unfold allStartingUnits; rw [h]; rfl, ?_⟩
  intro u
  have hne : ∀ d, e.unitExists d = false ↔ ¬ Known e.graph d := fun d => by
    rw [← unitExists_iff he]; simp
  rw [List.mem_filter, hm, mem_startRound, List.all_eq_true]
  simp only [Bool.not_eq_true', hne, mem_deps, unitExists_iff he, mem_dependents, StartingUnit]
  constructor
  · rintro ⟨⟨v, hv, h | h⟩, h2⟩
    · obtain ⟨h, rfl⟩ := h
      exact ⟨h, Or.inl hv, h2⟩
    · have hd := (he.wf.depInv _ _).2 h.2
      obtain ⟨s, hs, _⟩ := hd
      exact ⟨he.wf.depTyped u s hs, Or.inr ⟨v, hv, h.1, (he.wf.depInv _ _).2 h.2⟩, h2⟩
  · rintro ⟨h1, h2 | ⟨d, hd, h3, h4⟩, h5⟩
    · exact ⟨⟨u, h2, Or.inl ⟨h1, rfl⟩⟩, h5⟩
    · exact ⟨⟨d, hd, Or.inr ⟨h3, (he.wf.depInv _ _).1 h4⟩⟩, h5⟩

theorem initialStack_spec (he : Sane e) {rnd : Rnd} (hr : IsRnd rnd) (mf : Option KVFilter) (n : Nat)
    (hn : 2 ≤ n) :
    ∃ st, initialStack e rnd mf n = some st ∧ ∀ u, u ∈ st.map Item.unit ↔ InitialUnit e mf u := by
  obtain ⟨us, h, hm⟩ := allStartingUnits_spec he n hn
  refine ⟨_, by unfold initialStack; rw [h]; rfl, ?_⟩
  intro u
  rw [((hr _ _ _).map _).mem_iff, List.mem_map]
  simp only [List.mem_flatMap, hm]
  constructor
  · rintro ⟨i, ⟨s, hs, hi⟩, rfl⟩
    split at hi
    · rename_i hemp
      simp only [List.mem_singleton] at hi
      subst hi
      refine ⟨s, hs, Or.inr ⟨rfl, ?_⟩⟩
      intro l hl hu
      have := (mem_validStarting he mf s l).2 ⟨hl, hu⟩
      rw [List.isEmpty_iff.1 hemp] at this
      simp at this
    · rw [List.mem_map] at hi
      obtain ⟨l, hl, rfl⟩ := hi
      exact ⟨s, hs, Or.inl ((mem_validStarting he mf s l).1 hl)⟩
  · rintro ⟨s, hs, h | ⟨rfl, h⟩⟩
    · refine ⟨⟨u, 0⟩, ⟨s, hs, ?_⟩, rfl⟩
      have hm := (mem_validStarting he mf s u).2 h
      rw [if_neg (by
        rw [List.isEmpty_iff]
        intro h0
        rw [h0] at hm
        simp at hm)]
      exact List.mem_map_of_mem hm
    · refine ⟨⟨u, 0⟩, ⟨u, hs, ?_⟩, rfl⟩
      rw [if_pos]
      · simp
      · rw [List.isEmpty_iff, List.eq_nil_iff_forall_not_mem]
        intro l hl
        have := (mem_validStarting he mf u l).1 hl
        exact h l this.1 this.2

/-- What the filter accepts does not include unknown units, so they gate nothing under a filter. -/
theorem gates_unknown {mf : Option KVFilter} {d t : ι} (hd : ¬ Known e.graph d)
    (h : Gates e mf d t) : mf = none ∧ t = d := by
  have hc : ¬ IsCourse e d := fun h => hd ⟨_, h⟩
  have hl : ¬ IsLesson e d := fun h => hd ⟨_, h⟩
  cases h with
  | self h =>
    cases mf with
    | none => exact ⟨rfl, rfl⟩
    | some f => exact absurd h (by rintro (h | h); exacts [hc h.1, hl h.1])
  | lastLesson _ h => exact absurd h hc
  | throughCourse _ h => exact absurd h hc
  | throughLesson _ h => exact absurd h hl
  | throughStart _ h => exact absurd h hl

theorem unlocked_of_starting (he : Sane e) (mf : Option KVFilter) {u : ι} (h : StartingUnit e u) :
    Unlocked e mf u := by
  intro d hd t ht
  have hk := h.2.2 d hd
  obtain ⟨_, rfl⟩ := gates_unknown hk ht
  have : e.graph.getUnitType t = none := by
    cases hh : e.graph.getUnitType t with
    | none => rfl
    | some x => exact absurd ⟨x, hh⟩ hk
  rcases he.unknownScore t this with h | h
  · exact Or.inr (Or.inr (Or.inr (Or.inl h)))
  · exact Or.inr (Or.inr (Or.inr (Or.inr (Or.inl h))))

/-- A lesson reached from the initial units has all its dependencies met. -/
theorem unlocked_of_reached {mf : Option KVFilter} {sc : Scope ι} {init : ι → Prop} {l : ι}
    (hl : IsLesson e l) (hi : init l → Unlocked e mf l) (h : Reached e mf sc init l) : Unlocked e mf l := by
  cases h with
  | init h => exact hi h
  | start _ _ _ _ h => exact h
  | past _ _ _ _ _ h => exact h
  | pastCourse _ _ _ _ _ h => exact h
  | allLessons _ hc => exact absurd hl (not_lesson_of_course hc)
  | pastFinished _ _ _ _ _ h => exact h

theorem unlocked_of_initial (he : Sane e) {mf : Option KVFilter} {u : ι} (h : InitialUnit e mf u) :
    Unlocked e mf u := by
  obtain ⟨s, hs, h | ⟨rfl, _⟩⟩ := h
  · exact h.2
  · exact unlocked_of_starting he mf hs

/-! ### Dependencies at a depth -/

/-- Each stack entry is replaced by its results. -/
theorem depthLoop_entry (e : Env ι) (depth : Nat) : ∀ (r : Nat) (u : ι) (d : Nat), d + r = depth →
    ∃ N L, (∀ t, t ∈ L ↔ AtDepth e r u t) ∧ ∀ n rest acc,
      depthLoop e depth (N + n) ((u, d) :: rest) acc = depthLoop e depth n rest (acc ++ L) := by
  intro r
  induction r with
  | zero =>
    intro u d hd
    refine ⟨1, [u], ?_, ?_⟩
    · intro t
      simp only [List.mem_singleton]
      constructor
      · rintro rfl; exact .here
      · intro h
        cases h with
        | here => rfl
        | leaf => rfl
    · intro n rest acc
      rw [Nat.add_comm 1 n, depthLoop, if_pos (by omega)]
  | succ r ih =>
    intro u d hd
    have hne : d ≠ depth := by omega
    have leaf : (∀ x, ¬ DependsOn e.graph u x) → ∀ t, t ∈ [u] ↔ AtDepth e (r + 1) u t := by
      intro hno t
      simp only [List.mem_singleton]
      constructor
      · rintro rfl; exact .leaf hno
      · intro h
        cases h with
        | leaf => rfl
        | step h _ => exact absurd h (hno _)
    cases hds : e.graph.getDependencies u with
    | none =>
      refine ⟨1, [u], leaf (fun x hx => by obtain ⟨s, h1, _⟩ := hx; rw [hds] at h1; simp at h1), ?_⟩
      intro n rest acc
      rw [Nat.add_comm 1 n, depthLoop, if_neg hne, hds]
    | some ds =>
      by_cases hemp : ds = []
      · subst hemp
        refine ⟨1, [u], leaf (fun x hx => by
          obtain ⟨s, h1, h2⟩ := hx; rw [hds] at h1; injection h1 with h1; subst h1; simp at h2), ?_⟩
        intro n rest acc
        rw [Nat.add_comm 1 n, depthLoop, if_neg hne, hds]
        rfl
      · have hlist : ∀ (xs : List ι), ∃ N L, (∀ t, t ∈ L ↔ ∃ x ∈ xs, AtDepth e r x t) ∧ ∀ n rest acc,
            depthLoop e depth (N + n) (xs.map (fun x => (x, d + 1)) ++ rest) acc =
              depthLoop e depth n rest (acc ++ L) := by
          intro xs
          induction xs with
          | nil => exact ⟨0, [], by simp, fun n rest acc => by simp⟩
          | cons x xs ihx =>
            obtain ⟨N1, L1, hm1, h1⟩ := ih x (d + 1) (by omega)
            obtain ⟨N2, L2, hm2, h2⟩ := ihx
            refine ⟨N1 + N2, L1 ++ L2, ?_, ?_⟩
            · intro t
              simp [hm1, hm2]
            · intro n rest acc
              rw [List.map_cons, List.cons_append, Nat.add_assoc, h1, h2, List.append_assoc]
        obtain ⟨N, L, hm, h⟩ := hlist ds.reverse
        refine ⟨N + 1, L, ?_, ?_⟩
        · intro t
          rw [hm]
          have hdep : ∀ x, DependsOn e.graph u x ↔ x ∈ ds := by
            intro x
            constructor
            · rintro ⟨s, h1, h2⟩
              rw [hds] at h1
              injection h1 with h1
              subst h1
              exact h2
            · intro hx; exact ⟨ds, hds, hx⟩
          constructor
          · rintro ⟨x, hx, ht⟩
            exact .step ((hdep x).2 (by simpa using hx)) ht
          · intro ht
            cases ht with
            | leaf hno =>
              obtain ⟨x, hx⟩ := List.exists_mem_of_ne_nil _ hemp
              exact absurd ((hdep x).2 hx) (hno x)
            | step hd' ht => exact ⟨_, by simpa using (hdep _).1 hd', ht⟩
        · intro n rest acc
          rw [Nat.add_right_comm, depthLoop, if_neg hne, hds]
          dsimp only
          rw [if_neg (by simpa [List.isEmpty_iff] using hemp), ← List.map_reverse]
          exact h n rest acc

theorem dependenciesAtDepth_spec (e : Env ι) (u : ι) (depth : Nat) :
    ∃ N, ∃ us, (∀ n ≥ N, dependenciesAtDepth e n u depth = some us) ∧
      ∀ t, t ∈ us ↔ AtDepth e depth u t ∧ Known e.graph t := by
  obtain ⟨N, L, hm, h⟩ := depthLoop_entry e depth depth u 0 (by omega)
  refine ⟨N + 1, L.filter (fun d => (e.graph.getUnitType d).isSome), ?_, ?_⟩
  · intro n hn
    obtain ⟨k, rfl⟩ : ∃ k, n = N + (k + 1) := ⟨n - N - 1, by omega⟩
    unfold dependenciesAtDepth
    rw [h]
    rfl
  · intro t
    rw [List.mem_filter, hm]
    simp only [Option.isSome_iff_exists, Known]

theorem depthUnits_spec (e : Env ι) (ids : List ι) (depth : Nat) :
    ∃ N, ∃ us, (∀ n ≥ N, depthUnits e n ids depth = some us) ∧
      ∀ t, t ∈ us ↔ ∃ u ∈ ids, AtDepth e depth u t ∧ Known e.graph t := by
  induction ids with
  | nil => exact ⟨0, [], fun n _ => rfl, by simp⟩
  | cons u ids ih =>
    obtain ⟨N1, us1, h1, m1⟩ := dependenciesAtDepth_spec e u depth
    obtain ⟨N2, us2, h2, m2⟩ := ih
    refine ⟨max N1 N2, us1 ++ us2, ?_, ?_⟩
    · intro n hn
      rw [depthUnits, h1 n (by omega), h2 n (by omega)]
    · intro t
      simp [m1, m2]

end Trane.Search
