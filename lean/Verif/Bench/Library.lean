import Verif.Bench.Props
import Verif.Top.WholeSample

/-!
# C95: the benchmark on a library

The object of the simulation is a `Trane` object that opened a library from disk.
-/

namespace Trane.Bench
open Trane.Store
open Trane.TopLevel
open Trane.Graph
open Trane.Library (Disk Lib FPath)

variable {α γ : Type}

/-- The calls of the benchmark on an object with the library `lib`.  Time is overridden, batches are asked for without a
filter, there are no database errors.  A call that runs out of fuel, however much there is, would hang.  The score of a
unit is asked for without the change that this makes to the caches, which changes no answer (C84). -/
structure Object (d : Disk α γ) (ig : List FPath) (lib : Lib α γ) (b : Base ℚ) (A : Api (TopLevel.Top ℚ) Str) : Prop where
  time : ∀ t τ, A.overrideTime t τ = (step b t (.overrideTime (some τ))).1
  batch : ∀ h t, Running d ig lib b h t → ∃ q, q.filter = none ∧ Batch.IsChoices q.choices ∧ Serves lib b t q ∧
    (∀ t' xs, A.batch t = some (t', xs) → ∃ fuel s, t.batch { q with fuel := fuel } = some (s, some xs) ∧
      t' = (step b t (.getBatch { q with fuel := fuel })).1) ∧
    (A.batch t = none → ∀ N, ∃ fuel, N ≤ fuel ∧ ∀ s xs, t.batch { q with fuel := fuel } ≠ some (s, some xs))
  score : ∀ t x g τ, ∃ order,
    (∀ t', A.score t x g τ = some t' → ∃ fuel, step b t (.scoreExercise x g τ fuel order {}) = (t', true)) ∧
    (A.score t x g τ = none → ∀ N, ∃ fuel, N ≤ fuel ∧ (step b t (.scoreExercise x g τ fuel order {})).2 = false)
  unitScore : ∀ t u v, A.unitScore t u = some v ↔ GetsScore b t u (some v)

/-- An exercise that the files describe and that is not blacklisted, nor is its lesson or course. -/
def Practicable (d : Disk α γ) (ig : List FPath) (t : TopLevel.Top ℚ) (x : Str) : Prop :=
  ∃ m l, OnDisk d ig x m l ∧ ∀ u ∈ [x, m.lessonId, m.courseId], t.blacklist.blacklisted u = false

section
variable {d : Disk α γ} {ig : List FPath} {lib : Lib α γ} {b : Base ℚ} {A : Api (TopLevel.Top ℚ) Str} {t₀ : TopLevel.Top ℚ}

/-- The objects that occur. -/
def Occurs (d : Disk α γ) (ig : List FPath) (lib : Lib α γ) (b : Base ℚ) (t₀ t : TopLevel.Top ℚ) : Prop :=
  t.blacklist = t₀.blacklist ∧ ∃ h, Running d ig lib b h t ∧
    ∀ x ∈ gradedIds h, ∃ m, Library.DiskExercise d ig m ∧ m.id = x

theorem no_empty_unit (hg : Library.GeneratesProper d) (h : Library.Loads d ig lib) :
    lib.graph.getUnitType [] = none := by
  obtain ⟨cs, s, flag, hoc, ho, hi, rfl, _⟩ := Library.loads_inv hg h
  obtain ⟨_, p1, p2, p3⟩ := Library.opened_proper d ig hg cs hoc
  cases hq : (Graph.run (Library.finalOps (cs.flatMap Library.items) flag)).getUnitType [] with
  | none => rfl
  | some t =>
    exfalso
    have hq' : s.graph.types.find [] = some t := by
      rw [← hq, Graph.getUnitType, (Library.final_frame _ s flag hi).1]
    obtain ⟨it, a, b, _⟩ := (hi.types _ _).1 hq'
    cases it with
    | course m => exact p1 m ((Library.mem_items_course cs m).1 a) b
    | lesson m => exact p2 m ((Library.mem_items_lesson cs m).1 a) b
    | exercise m => exact p3 m ((Library.mem_items_exercise cs m).1 a) b

theorem running_snoc {h : List (Call ℚ)} {t : TopLevel.Top ℚ} (hr : Running d ig lib b h t) (c : Call ℚ) (h1 : ¬ Restarts c)
    (h2 : toGraph c = none) : Running d ig lib b (h ++ [c]) (step b t c).1 := by
  obtain ⟨g0, clock, earlier, hok, rfl⟩ := hr.opened
  refine ⟨hr.proper, hr.loads, ⟨g0, clock, earlier, hok, (runs_snoc _ _ _ _).symm⟩, ?_, ?_⟩
  · intro c' hc'
    rcases List.mem_append.1 hc' with h | h
    · exact hr.stays c' h
    · rw [List.mem_singleton.1 h]; exact h1
  · rw [List.filterMap_append, hr.unedited]
    simp [h2]

theorem occurs_time (hA : Object d ig lib b A) {t : TopLevel.Top ℚ} (τ : Int) (h : Occurs d ig lib b t₀ t) :
    Occurs d ig lib b t₀ (A.overrideTime t τ) := by
  obtain ⟨h1, h, h2, h3⟩ := h
  rw [hA.time]
  refine ⟨h1, _, running_snoc h2 _ (by simp [Restarts]) rfl, ?_⟩
  rw [gradedIds_snoc]
  intro x hx
  rcases List.mem_append.1 hx with h | h
  · exact h3 x h
  · simp [gradedIds] at h

theorem noEmpty_of {t : TopLevel.Top ℚ} (hne : NoEmptyId lib t₀) (h : Occurs d ig lib b t₀ t) : NoEmptyId lib t := by
  rw [NoEmptyId, h.1]; exact hne

theorem occurs_batch (hA : Object d ig lib b A) (hne : NoEmptyId lib t₀) {t : TopLevel.Top ℚ} (h : Occurs d ig lib b t₀ t) :
    ∃ t' xs, A.batch t = some (t', xs) ∧ Occurs d ig lib b t₀ t' ∧ ∀ x ∈ xs, Practicable d ig t₀ x := by
  have hne' := noEmpty_of hne h
  obtain ⟨h1, h, h2, h3⟩ := h
  obtain ⟨q, hf, hch, hq, hsome, hnone⟩ := hA.batch h t h2
  cases hb : A.batch t with
  | none =>
    obtain ⟨N, s, xs, hN⟩ := whole_batch_succeeds h2 hq hne' hch h3 (by rw [hf]; intro h; cases h)
    obtain ⟨fuel, hfuel, hno⟩ := hnone hb N
    exact absurd (hN fuel hfuel) (hno s xs)
  | some r =>
    obtain ⟨t', xs⟩ := r
    obtain ⟨fuel, s, hs, ht⟩ := hsome t' xs hb
    have hq' : Serves lib b t { q with fuel := fuel } :=
      ⟨⟨hq.reads.score, hq.reads.known, hq.reads.trials, hq.reads.superseded⟩, hq.urgency, hq.course, hq.lesson,
        hq.exercise, hq.dflt⟩
    refine ⟨t', xs, rfl, ⟨?_, _, ht ▸ running_snoc h2 _ (by simp [Restarts]) rfl, ?_⟩, ?_⟩
    · rw [ht]
      rcases step_batch b t { q with fuel := fuel } with ⟨-, e⟩ | ⟨s, r, -, e⟩
      · rw [e]; exact h1
      · rw [e]; exact h1
    · rw [gradedIds_snoc]
      intro x hx
      rcases List.mem_append.1 hx with h | h
      · exact h3 x h
      · simp [gradedIds] at h
    · intro x hx
      obtain ⟨m, l, ho⟩ := whole_batch_known h2 hq' hne' hch hs x hx
      refine ⟨m, l, ho, ?_⟩
      have := whole_batch_not_blacklisted h2 hq' hne' hch hs (by change q.filter ≠ _; rw [hf]; intro h; cases h) hx ho
      rwa [h1] at this

theorem occurs_score (hA : Object d ig lib b A) {t : TopLevel.Top ℚ} {x : Str} (g : MasteryScore) (τ : Int)
    (h : Occurs d ig lib b t₀ t) (hx : Practicable d ig t₀ x) :
    ∃ t', A.score t x g τ = some t' ∧ Occurs d ig lib b t₀ t' := by
  obtain ⟨h1, h, h2, h3⟩ := h
  obtain ⟨m, l, ho, -⟩ := hx
  obtain ⟨order, hsome, hnone⟩ := hA.score t x g τ
  cases hs : A.score t x g τ with
  | none =>
    exfalso
    obtain ⟨cs, s0, flag, -, -, -, hlib, -⟩ := Library.loads_inv h2.proper h2.loads
    have hg : t.sys.graph = lib.graph := h2.graph
    have hst := tables_of_sound h2.sound
    have hty : t.sys.graph.getUnitType x = some .exercise := by
      rw [hg, (Library.library_types h2.proper h2.loads x).2.2,
        ((Library.library_manifests h2.proper h2.loads x).2.2 m).2 ⟨ho.exercise, ho.id⟩]
      rfl
    have hids := no_empty_unit h2.proper h2.loads
    have hstored : System.Stored (t.config b) t.sys :=
      ⟨⟨_, by rw [hg, hlib]⟩, by rw [hg]; exact hids, hst.trials, hst.deltas, hst.rewards⟩
    obtain ⟨N, hN⟩ := System.score_terminates order g τ {} hstored hty
    obtain ⟨fuel, hfuel, hno⟩ := hnone hs N
    obtain ⟨o, hok⟩ := hN fuel hfuel
    have htrue := System.score_returns_ok hstored hok
    rcases step_score b t x g τ fuel order {} with ⟨e, -⟩ | ⟨s, ok, e, e'⟩
    · rw [e] at hok; cases hok
    · rw [e] at hok; cases hok
      rw [e'] at hno
      rw [hno] at htrue
      cases htrue
  | some t' =>
    obtain ⟨fuel, hf⟩ := hsome t' hs
    have hr := running_snoc h2 (.scoreExercise x g τ fuel order {}) (by simp [Restarts]) rfl
    rw [hf] at hr
    refine ⟨t', rfl, ?_, _, hr, ?_⟩
    · rcases step_score b t x g τ fuel order {} with ⟨-, e⟩ | ⟨s, ok, -, e⟩
      · rw [e] at hf; cases hf
      · rw [e] at hf; cases hf; exact h1
    · rw [gradedIds_snoc]
      intro y hy
      rcases List.mem_append.1 hy with h | h
      · exact h3 y h
      · simp [gradedIds] at h
        subst h
        exact ⟨m, ho.exercise, ho.id⟩

theorem story_occurs (hA : Object d ig lib b A) (hne : NoEmptyId lib t₀) {p : Profile} {anchor : Int}
    (h₀ : Occurs d ig lib b t₀ t₀) {es : List (Event Str)} {rest : List Str} {t : TopLevel.Top ℚ}
    {ends : List (TopLevel.Top ℚ)} (h : Story A p anchor t₀ es rest t ends) :
    Occurs d ig lib b t₀ t ∧ (∀ x ∈ rest, Practicable d ig t₀ x) ∧
      (∀ x g τ, Event.scored x g τ ∈ es → Practicable d ig t₀ x) := by
  induction h with
  | start => exact ⟨h₀, by simp, by simp⟩
  | batch _ _ _ hb ih =>
    obtain ⟨h1, -, h3⟩ := ih
    obtain ⟨t', xs, hb', h4, h5⟩ := occurs_batch hA hne (occurs_time hA (timeOf p anchor _) h1)
    rw [hb] at hb'
    cases hb'
    refine ⟨h4, h5, fun x g τ hx => ?_⟩
    rcases List.mem_append.1 hx with h | h
    · exact h3 x g τ h
    · simp at h
  | grade _ _ _ hs ih =>
    obtain ⟨h1, h2, h3⟩ := ih
    have hx := h2 _ List.mem_cons_self
    obtain ⟨t', hs', h4⟩ := occurs_score hA _ _ h1 hx
    rw [hs] at hs'
    cases hs'
    refine ⟨h4, fun y hy => h2 y (List.mem_cons_of_mem _ hy), fun y g τ hy => ?_⟩
    rcases List.mem_append.1 hy with h | h
    · exact h3 y g τ h
    · simp at h
      rw [h.1]; exact hx
  | ended _ _ ho ih =>
    obtain ⟨h1, -, h3⟩ := ih
    rw [ho]
    exact ⟨occurs_time hA _ h1, by simp, h3⟩

/-- The simulation of a student on a library that opens succeeds, if the profile is sound: no call fails or panics.  All
exercises that the student practices are in the files, and neither they nor their lessons or courses are blacklisted. -/
theorem library_simulated (hA : Object d ig lib b A) {h : List (Call ℚ)} (hr : Running d ig lib b h t₀)
    (hne : NoEmptyId lib t₀) (hgr : ∀ x ∈ gradedIds h, ∃ m, Library.DiskExercise d ig m ∧ m.id = x) {p : Profile}
    (hi : ∀ i, 0 ≤ p.initial i) (hs : ∀ i, 0 ≤ p.stable i)
    (vi : verifyProbs p.initial = true) (vs : verifyProbs p.stable = true)
    (draws : Nat → Draw) (B : Settings Str) (courses : List Str) (anchor : Int) :
    ∃ r, simulate A p draws B courses anchor t₀ = .ok r ∧ Run A p B courses anchor t₀ r ∧
      ∀ x g τ, Event.scored x g τ ∈ r.events → Practicable d ig t₀ x := by
  have h₀ : Occurs d ig lib b t₀ t₀ := ⟨rfl, h, hr, hgr⟩
  obtain ⟨r, h⟩ := simulation_succeeds (A := A) (p := p) (draws := draws) (anchor := anchor) (obj₀ := t₀)
    (P := Occurs d ig lib b t₀) (V := Practicable d ig t₀) hi hs vi vs
    (fun o τ ho => occurs_time hA τ ho) (fun o ho => occurs_batch hA hne ho)
    (fun o x g τ ho hx => occurs_score hA g τ ho hx) h₀ B courses
  have hrun := simulate_run h
  obtain ⟨rest, obj, hst⟩ := hrun.story
  exact ⟨r, h, hrun, (story_occurs hA hne h₀ hst).2.2⟩

end

/-! There is such an object for every library without a cycle of superseding units and lessons. -/

open Classical in
/-- The calls on the object, with the given choices and order of rewards. -/
noncomputable def object (b : Base ℚ) (q : TopLevel.Top ℚ → Request) : Api (TopLevel.Top ℚ) Str where
  overrideTime t τ := (step b t (.overrideTime (some τ))).1
  batch t :=
    if h : ∃ r : Nat × Batch.Session Str × List Str, t.batch { q t with fuel := r.1 } = some (r.2.1, some r.2.2) then
      some ((step b t (.getBatch { q t with fuel := h.choose.1 })).1, h.choose.2.2)
    else none
  score t x g τ :=
    if h : ∃ fuel, (step b t (.scoreExercise x g τ fuel id {})).2 = true then
      some (step b t (.scoreExercise x g τ h.choose id {})).1
    else none
  unitScore t u := if h : ∃ v, GetsScore b t u (some v) then some h.choose else none

theorem object_exists (d : Disk α γ) (ig : List FPath) (lib : Lib α γ) (b : Base ℚ)
    (hc : ¬ HasCycle (OnDiskOver d ig)) : ∃ A, Object d ig lib b A := by
  classical
  have hq : ∀ t : TopLevel.Top ℚ, ∃ q : Request, q.filter = none ∧ Batch.IsChoices q.choices ∧
      ∀ h, Running d ig lib b h t → Serves lib b t q := by
    intro t
    by_cases hr : ∃ h, Running d ig lib b h t
    · obtain ⟨h, hr⟩ := hr
      obtain ⟨env, -, hs⟩ := serves_exists hr hc { sampleRequest with filter := none }
      exact ⟨_, rfl, Batch.firstOf_ok strOrder, fun _ _ => hs⟩
    · exact ⟨{ sampleRequest with filter := none }, rfl, Batch.firstOf_ok strOrder, fun h hh => absurd ⟨h, hh⟩ hr⟩
  choose q h1 h2 h3 using hq
  refine ⟨object b q, fun _ _ => rfl, ?_, ?_, ?_⟩
  · intro h t hr
    refine ⟨q t, h1 t, h2 t, h3 t h hr, ?_, ?_⟩
    · intro t' xs ht
      dsimp only [object] at ht
      split at ht
      · rename_i he
        cases ht
        exact ⟨_, _, he.choose_spec, rfl⟩
      · cases ht
    · intro ht N
      dsimp only [object] at ht
      split at ht
      · cases ht
      · rename_i he
        exact ⟨N, le_refl N, fun s xs e => he ⟨(N, s, xs), e⟩⟩
  · intro t x g τ
    refine ⟨id, ?_, ?_⟩
    · intro t' ht
      dsimp only [object] at ht
      split at ht
      · rename_i he
        cases ht
        exact ⟨_, Prod.ext rfl he.choose_spec⟩
      · cases ht
    · intro ht N
      dsimp only [object] at ht
      split at ht
      · cases ht
      · rename_i he
        refine ⟨N, le_refl N, ?_⟩
        rw [← Bool.not_eq_true]
        exact fun e => he ⟨N, e⟩
  · intro t u v
    dsimp only [object]
    constructor
    · intro h
      split at h
      · rename_i he
        cases h
        exact he.choose_spec
      · cases h
    · intro h
      rw [dif_pos ⟨v, h⟩]
      exact TopLevel.score_unique b t u (Exists.choose_spec (⟨v, h⟩ : ∃ v, GetsScore b t u (some v))) h

/-- A profile of the default benchmark, /repo/src/benchmark.rs:134-141. -/
def remedial : Profile where
  sessionFrequency := 4
  exercisesPerSession := 25
  initial := fun i => match i with | 0 => 3 / 10 | 1 => 2 / 10 | 2 => 25 / 100 | 3 => 15 / 100 | 4 => 1 / 10
  trialsBeforeStable := 5
  stable := fun i => match i with | 0 => 3 / 100 | 1 => 2 / 100 | 2 => 1 / 10 | 3 => 2 / 10 | 4 => 65 / 100
  lapseRate := 1 / 10

/-- The sample library, opened and used, with that profile. -/
example (draws : Nat → Draw) (anchor : Int) : ∃ A r, Object Library.sampleDisk [] (Library.sampleLib []) chainBase A ∧
    simulate A remedial draws ⟨['a'], 43 / 10, 2000⟩ [['a'], ['b']] anchor wholeTop = .ok r := by
  obtain ⟨A, hA⟩ := object_exists Library.sampleDisk [] (Library.sampleLib []) chainBase whole_acyclic
  obtain ⟨r, h, -⟩ := library_simulated hA whole_running whole_no_empty whole_graded (p := remedial)
    (by intro i; fin_cases i <;> norm_num [remedial]) (by intro i; fin_cases i <;> norm_num [remedial])
    (by decide +kernel) (by decide +kernel) draws ⟨['a'], 43 / 10, 2000⟩ [['a'], ['b']] anchor
  exact ⟨A, r, hA, h⟩

end Trane.Bench
