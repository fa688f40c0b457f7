import Verif.Sched.StartLemmas

/-! Helper lemmas: the modes of `get_initial_candidates`. -/

namespace Trane.Search
open Trane.Filters (KVFilter UnitFilter)
open Trane.Graph

variable {ι : Type} [DecidableEq ι] {e : Env ι}

/-! ### More fuel gives the same result -/

theorem loop_succ (rnd : Rnd) (q : Query ι) : ∀ (n : Nat) (s : State ι) (r : Option (State ι)),
    loop e rnd q n s = some r → loop e rnd q (n + 1) s = some r := by
  intro n
  induction n with
  | zero => intro s r h; simp [loop] at h
  | succ n ih =>
    intro s r h
    rw [loop] at h ⊢
    cases hs : s.stack with
    | nil => rw [hs] at h; exact h
    | cons item rest =>
      rw [hs] at h
      dsimp only at h ⊢
      cases hv : visit e rnd q item { s with stack := rest } with
      | next s' => rw [hv] at h; exact ih _ _ h
      | stop s' => rw [hv] at h; exact h
      | fail => rw [hv] at h; exact h

theorem const_of_succ {α : Type} (f : Nat → Option α) (h : ∀ n r, f n = some r → f (n + 1) = some r) {N : Nat}
    {r : α} (hN : f N = some r) : ∀ n ≥ N, f n = some r := by
  intro n hn
  induction n, hn using Nat.le_induction with
  | base => exact hN
  | succ n _ ih => exact h n r ih

theorem loop_total (he : Sane e) {rnd : Rnd} (hr : IsRnd rnd) (q : Query ι) (s : State ι) :
    ∃ r N, ∀ n ≥ N, loop e rnd q n s = some r := by
  obtain ⟨N, h⟩ := loop_terminates he hr q s
  obtain ⟨r, hr⟩ := h N le_rfl
  exact ⟨r, N, const_of_succ (fun n => loop e rnd q n s) (fun n r => loop_succ rnd q n s r) hr⟩

theorem startLoop_succ : ∀ (n : Nat) (us : List ι) (r : List ι),
    startLoop e n us = some r → startLoop e (n + 1) us = some r := by
  intro n
  induction n with
  | zero => intro s r h; simp [startLoop] at h
  | succ n ih =>
    intro us r h
    rw [startLoop] at h ⊢
    split
    · rename_i hc; rw [if_pos hc] at h; exact h
    · rename_i hc; rw [if_neg hc] at h; exact ih _ _ h

theorem initialStack_total (he : Sane e) (rnd : Rnd) (mf : Option KVFilter) :
    ∃ st, ∀ n ≥ 2, initialStack e rnd mf n = some st := by
  obtain ⟨us, h, _⟩ := startLoop_spec he 2 le_rfl e.graph.getDependencySinks
  have h' := const_of_succ (fun n => startLoop e n e.graph.getDependencySinks)
    (fun n r => startLoop_succ n _ r) h
  have key : ∀ n ≥ 2, initialStack e rnd mf n = initialStack e rnd mf 2 := by
    intro n hn
    unfold initialStack allStartingUnits
    rw [h, h' n hn]
  cases h2 : initialStack e rnd mf 2 with
  | none => unfold initialStack allStartingUnits at h2; rw [h] at h2; simp at h2
  | some st => exact ⟨st, fun n hn => (key n hn).trans h2⟩

/-- A computation that ends, with a result that does not depend on the fuel. -/
def Ends {α : Type} (f : Nat → Option α) : Prop := ∃ r N, ∀ n ≥ N, f n = some r

theorem fromGraph_ends (he : Sane e) {rnd : Rnd} (hr : IsRnd rnd) (stack : List (Item ι))
    (mf : Option KVFilter) : Ends (fun n => fromGraph e rnd n stack mf) := by
  obtain ⟨r, N, h⟩ := loop_total he hr ⟨mf, true, []⟩ { stack := stack, visited := [], rnd := 1 }
  refine ⟨r.map State.candidates, N, fun n hn => ?_⟩
  unfold fromGraph
  dsimp only
  rw [h n hn]
  rfl

theorem fromCourse_ends (he : Sane e) {rnd : Rnd} (hr : IsRnd rnd) (cs : List ι) :
    Ends (fun n => fromCourse e rnd n cs) := by
  obtain ⟨r, N, h⟩ := loop_total he hr ⟨none, false, cs⟩
    { stack := (cs.flatMap (fun c => (rnd 0 ι (e.starting c)).map (fun l => (⟨l, 0⟩ : Item ι)))).reverse,
      visited := extendSet [] cs, rnd := 1 }
  refine ⟨r.map State.candidates, N, fun n hn => ?_⟩
  unfold fromCourse
  dsimp only
  rw [h n hn]
  rfl

theorem wholeGraph_ends (he : Sane e) {rnd : Rnd} (hr : IsRnd rnd) (mf : Option KVFilter) :
    Ends (fun n => wholeGraph e rnd n mf) := by
  obtain ⟨st, h⟩ := initialStack_total he rnd mf
  obtain ⟨r, N, h'⟩ := fromGraph_ends he hr st mf
  refine ⟨r, max N 2, fun n hn => ?_⟩
  unfold wholeGraph
  dsimp only
  rw [h n (by omega)]
  exact h' n (by omega)

theorem reviewEntry_ends (he : Sane e) {rnd : Rnd} (hr : IsRnd rnd) (u : ι) :
    Ends (fun n => reviewEntry e rnd n u) := by
  unfold reviewEntry
  cases e.graph.getUnitType u with
  | none => exact ⟨_, 0, fun _ _ => rfl⟩
  | some t =>
    cases t with
    | course => exact fromCourse_ends he hr _
    | lesson => exact ⟨_, 0, fun _ _ => rfl⟩
    | exercise => exact ⟨_, 0, fun _ _ => rfl⟩

theorem collect_ends {α β : Type} (f : Nat → Nat → α → Res (List β))
    (h : ∀ i a, Ends (fun n => f n i a)) : ∀ (as : List α) (i : Nat), Ends (fun n => collect (f n) i as) := by
  intro as
  induction as with
  | nil => intro i; exact ⟨_, 0, fun _ _ => rfl⟩
  | cons a as ih =>
    intro i
    obtain ⟨r, N, h1⟩ := h i a
    obtain ⟨r', N', h2⟩ := ih (i + 1)
    cases r with
    | none =>
      refine ⟨none, N, fun n hn => ?_⟩
      have := h1 n hn
      dsimp only at this ⊢
      rw [collect, this]
    | some xs =>
      cases r' with
      | none =>
        refine ⟨none, max N N', fun n hn => ?_⟩
        have a1 := h1 n (by omega)
        have a2 := h2 n (by omega)
        dsimp only at a1 a2 ⊢
        rw [collect, a1, a2]
      | some ys =>
        refine ⟨some (xs ++ ys), max N N', fun n hn => ?_⟩
        have a1 := h1 n (by omega)
        have a2 := h2 n (by omega)
        dsimp only at a1 a2 ⊢
        rw [collect, a1, a2]

theorem collect_mem {α β : Type} {f : Nat → α → Res (List β)} : ∀ {as : List α} {i : Nat} {cs : List β},
    collect f i as = some (some cs) → ∀ c ∈ cs, ∃ j, ∃ a ∈ as, ∃ xs, f j a = some (some xs) ∧ c ∈ xs := by
  intro as
  induction as with
  | nil =>
    intro i cs h c hc
    simp only [collect, Option.some.injEq] at h
    subst h
    simp at hc
  | cons a as ih =>
    intro i cs h c hc
    rw [collect] at h
    cases h1 : f i a with
    | none => rw [h1] at h; simp at h
    | some r =>
      cases r with
      | none => rw [h1] at h; simp at h
      | some xs =>
        rw [h1] at h
        dsimp only at h
        cases h2 : collect f (i + 1) as with
        | none => rw [h2] at h; simp at h
        | some r' =>
          cases r' with
          | none => rw [h2] at h; simp at h
          | some ys =>
            rw [h2] at h
            simp only [Option.some.injEq] at h
            subst h
            rw [List.mem_append] at hc
            rcases hc with hc | hc
            · exact ⟨i, a, by simp, xs, h1, hc⟩
            · obtain ⟨j, b, hb, zs, hz, hcz⟩ := ih h2 c hc
              exact ⟨j, b, by simp [hb], zs, hz, hcz⟩

theorem collect_none {α β : Type} {f : Nat → α → Res (List β)} : ∀ {as : List α} {i : Nat},
    collect f i as = some none → ∃ j, ∃ a ∈ as, f j a = some none := by
  intro as
  induction as with
  | nil => intro i h; simp [collect] at h
  | cons a as ih =>
    intro i h
    rw [collect] at h
    cases h1 : f i a with
    | none => rw [h1] at h; simp at h
    | some r =>
      cases r with
      | none => exact ⟨i, a, by simp, h1⟩
      | some xs =>
        rw [h1] at h
        dsimp only at h
        cases h2 : collect f (i + 1) as with
        | none => rw [h2] at h; simp at h
        | some r' =>
          cases r' with
          | none =>
            obtain ⟨j, b, hb, hz⟩ := ih h2
            exact ⟨j, b, by simp [hb], hz⟩
          | some ys => rw [h2] at h; simp at h

/-! ### What a search returns -/

/-- The searches, with the state in which they end. -/
structure Ran (e : Env ι) (mf : Option KVFilter) (sc : Scope ι) (init : ι → Prop)
    (cs : List (Candidate ι)) (vis0 : List ι) (s : State ι) (q : Query ι) : Prop where
  filter : q.filter = mf
  scope : q.scope = sc
  inv : KInv e q init vis0 s
  result : s.candidates = cs
  complete : (∀ u ∈ vis0, ¬ IsLesson e u) → cs.length < e.opts.batchSize * maxCandidateFactor →
    ∀ l, IsLesson e l → Reached e mf sc init l → l ∈ s.visited

theorem ran_of_loop (he : Sane e) {rnd : Rnd} (hr : IsRnd rnd) {q : Query ι} {n : Nat} {stack : List (Item ι)}
    {vis0 : List ι} {k : Nat} {cs : List (Candidate ι)} (hv0 : q.allowCourses = true → vis0 = [])
    (h : (loop e rnd q n { stack := stack, visited := vis0, rnd := k }).map
      (fun r => r.map State.candidates) = some (some cs)) (init : ι → Prop)
    (hi : ∀ u, u ∈ stack.map Item.unit ↔ init u) :
    ∃ s, Ran e q.filter q.scope init cs vis0 s q := by
  have hinit : init = fun u => u ∈ stack.map Item.unit := by
    funext u; exact propext (hi u).symm
  subst hinit
  rw [Option.map_eq_some_iff] at h
  obtain ⟨r, hl, h⟩ := h
  rw [Option.map_eq_some_iff] at h
  obtain ⟨s, rfl, rfl⟩ := h
  refine ⟨s, rfl, rfl, search_candidates he hr hv0 hl, rfl, ?_⟩
  intro hv1 hlt
  exact (search_result he hr hv0 hv1 hl).2 hlt

theorem ran_of_fromGraph (he : Sane e) {rnd : Rnd} (hr : IsRnd rnd) {n : Nat} {stack : List (Item ι)}
    {mf : Option KVFilter} {cs : List (Candidate ι)} (h : fromGraph e rnd n stack mf = some (some cs))
    (init : ι → Prop) (hi : ∀ u, u ∈ stack.map Item.unit ↔ init u) :
    ∃ s q, Ran e mf .library init cs [] s q := by
  unfold fromGraph at h
  obtain ⟨s, hs⟩ := ran_of_loop he hr (q := ⟨mf, true, []⟩) (fun _ => rfl) h init hi
  exact ⟨s, _, hs⟩

theorem ran_of_wholeGraph (he : Sane e) {rnd : Rnd} (hr : IsRnd rnd) {n : Nat} {mf : Option KVFilter}
    {cs : List (Candidate ι)} (h : wholeGraph e rnd n mf = some (some cs)) :
    ∃ s q, Ran e mf .library (InitialUnit e mf) cs [] s q := by
  unfold wholeGraph at h
  cases hi : initialStack e rnd mf n with
  | none => rw [hi] at h; simp at h
  | some st =>
    rw [hi] at h
    dsimp only at h
    have hst : ∀ m ≥ n, initialStack e rnd mf m = some st := by
      apply const_of_succ (fun n => initialStack e rnd mf n) _ hi
      intro n r hr'
      unfold initialStack allStartingUnits at hr' ⊢
      cases hs : startLoop e n e.graph.getDependencySinks with
      | none => rw [hs] at hr'; simp at hr'
      | some us => rw [startLoop_succ n _ _ hs]; rw [hs] at hr'; exact hr'
    obtain ⟨st', h1, h2⟩ := initialStack_spec he hr mf (max n 2) (by omega)
    rw [hst _ (by omega)] at h1
    injection h1 with h1
    subst h1
    exact ran_of_fromGraph he hr h _ h2

theorem mem_courseStack {rnd : Rnd} (hr : IsRnd rnd) (cs : List ι) (l : ι) :
    l ∈ ((cs.flatMap (fun c => (rnd 0 ι (e.starting c)).map (fun l => (⟨l, 0⟩ : Item ι)))).reverse).map
      Item.unit ↔ ∃ c ∈ cs, CourseStartsWith e.graph c l := by
  simp only [List.mem_map, List.mem_reverse, List.mem_flatMap]
  constructor
  · rintro ⟨i, ⟨c, hc, x, hx, rfl⟩, rfl⟩
    exact ⟨c, hc, (mem_starting e c x).1 ((hr _ _ _).mem_iff.1 hx)⟩
  · rintro ⟨c, hc, h⟩
    exact ⟨⟨l, 0⟩, ⟨c, hc, l, (hr _ _ _).mem_iff.2 ((mem_starting e c l).2 h), rfl⟩, rfl⟩

theorem ran_of_fromCourse (he : Sane e) {rnd : Rnd} (hr : IsRnd rnd) {n : Nat} {cs : List ι}
    {ks : List (Candidate ι)} (h : fromCourse e rnd n cs = some (some ks)) :
    ∃ s q, Ran e none (.courses cs) (fun l => ∃ c ∈ cs, CourseStartsWith e.graph c l) ks (extendSet [] cs) s q := by
  unfold fromCourse at h
  obtain ⟨s, hs⟩ := ran_of_loop he hr (q := ⟨none, false, cs⟩) (by simp) h _ (mem_courseStack hr cs)
  exact ⟨s, _, hs⟩

theorem depthUnits_mem {n : Nat} {ids : List ι} {depth : Nat} {us : List ι}
    (h : depthUnits e n ids depth = some us) (t : ι) :
    t ∈ us ↔ ∃ u ∈ ids, AtDepth e depth u t ∧ Known e.graph t := by
  have mono : ∀ (ids : List ι) (n : Nat) (us : List ι), depthUnits e n ids depth = some us →
      depthUnits e (n + 1) ids depth = some us := by
    have dl : ∀ (n : Nat) (st : List (ι × Nat)) (acc r : List ι), depthLoop e depth n st acc = some r →
        depthLoop e depth (n + 1) st acc = some r := by
      intro n
      induction n with
      | zero => intro st acc r h; simp [depthLoop] at h
      | succ n ih =>
        intro st acc r h
        cases st with
        | nil => rw [depthLoop] at h ⊢; exact h
        | cons p rest =>
          obtain ⟨u, d⟩ := p
          rw [depthLoop] at h ⊢
          split
          · rename_i hd; rw [if_pos hd] at h; exact ih _ _ _ h
          · rename_i hd
            rw [if_neg hd] at h
            cases hg : e.graph.getDependencies u with
            | none => rw [hg] at h; exact ih _ _ _ h
            | some ds =>
              rw [hg] at h
              dsimp only at h ⊢
              split
              · rename_i hq; rw [if_pos hq] at h; exact ih _ _ _ h
              · rename_i hq; rw [if_neg hq] at h; exact ih _ _ _ h
    intro ids
    induction ids with
    | nil => intro n us h; exact h
    | cons u ids ih =>
      intro n us h
      rw [depthUnits] at h ⊢
      cases h1 : depthLoop e depth n [(u, 0)] [] with
      | none => rw [dependenciesAtDepth, h1] at h; simp at h
      | some a =>
        cases h2 : depthUnits e n ids depth with
        | none => rw [h2] at h; simp [dependenciesAtDepth] at h
        | some b =>
          rw [dependenciesAtDepth, h1, h2] at h
          rw [dependenciesAtDepth, dl _ _ _ _ h1, ih _ _ h2]
          exact h
  obtain ⟨N, us', h1, h2⟩ := depthUnits_spec e ids depth
  have := const_of_succ (fun n => depthUnits e n ids depth) (fun n r => mono ids n r) h (max n N) (by omega)
  rw [h1 _ (by omega)] at this
  injection this with this
  subst this
  exact h2 t

/-- The state with which the search ended. -/
theorem ran {rnds : Nat → Rnd} (he : Sane e) (hr : ∀ i, IsRnd (rnds i)) {n : Nat} {entries : List ι}
    {f : Option (UnitFilter ι)} {cs : List (Candidate ι)}
    (h : initialCandidates e rnds n entries f = some (some cs)) {mf : Option KVFilter} {sc : Scope ι}
    {init : ι → Prop} (hs : SearchOf e f = some (mf, sc, init)) :
    ∃ vis0 s q, Ran e mf sc init cs vis0 s q ∧
      ((vis0 = [] ∧ sc = .library) ∨ ∃ ids, f = some (.courses ids) ∧ vis0 = extendSet [] ids) := by
  cases f with
  | none =>
    simp only [SearchOf, Option.some.injEq, Prod.mk.injEq] at hs
    obtain ⟨rfl, rfl, rfl⟩ := hs
    obtain ⟨s, q, h⟩ := ran_of_wholeGraph he (hr 0) h
    exact ⟨_, s, q, h, Or.inl ⟨rfl, rfl⟩⟩
  | some f =>
    cases f with
    | courses ids =>
      simp only [SearchOf, Option.some.injEq, Prod.mk.injEq] at hs
      obtain ⟨rfl, rfl, rfl⟩ := hs
      obtain ⟨s, q, h⟩ := ran_of_fromCourse he (hr 0) h
      exact ⟨_, s, q, h, Or.inr ⟨ids, rfl, rfl⟩⟩
    | lessons ids => simp [SearchOf] at hs
    | metadata kv =>
      simp only [SearchOf, Option.some.injEq, Prod.mk.injEq] at hs
      obtain ⟨rfl, rfl, rfl⟩ := hs
      obtain ⟨s, q, h⟩ := ran_of_wholeGraph he (hr 0) h
      exact ⟨_, s, q, h, Or.inl ⟨rfl, rfl⟩⟩
    | reviewList => simp [SearchOf] at hs
    | dependents ids =>
      simp only [SearchOf, Option.some.injEq, Prod.mk.injEq] at hs
      obtain ⟨rfl, rfl, rfl⟩ := hs
      obtain ⟨s, q, h⟩ := ran_of_fromGraph he (hr 0) h (fun u => u ∈ ids)
        (by intro u; simp [List.map_reverse, Function.comp_def])
      exact ⟨_, s, q, h, Or.inl ⟨rfl, rfl⟩⟩
    | dependencies ids depth =>
      simp only [SearchOf, Option.some.injEq, Prod.mk.injEq] at hs
      obtain ⟨rfl, rfl, rfl⟩ := hs
      rw [initialCandidates] at h
      cases hd : depthUnits e n ids depth with
      | none => rw [hd] at h; simp at h
      | some us =>
        rw [hd] at h
        obtain ⟨s, q, h⟩ := ran_of_fromGraph he (hr 0) h
          (fun t => ∃ u ∈ ids, AtDepth e depth u t ∧ Known e.graph t)
          (by intro u; rw [← depthUnits_mem hd]; simp [List.map_reverse, Function.comp_def])
        exact ⟨_, s, q, h, Or.inl ⟨rfl, rfl⟩⟩

/-- What is known of each candidate outside the exercise entries of the review list. -/
structure Sound (e : Env ι) (c : Candidate ι) : Prop where
  fields : IsCandidate e c.lesson c
  offered : Offers e c.lesson c.exercise

theorem sound_of_ran {mf : Option KVFilter} {sc : Scope ι} {init : ι → Prop} {cs : List (Candidate ι)}
    {vis0 : List ι} {s : State ι} {q : Query ι} (h : Ran e mf sc init cs vis0 s q) : ∀ c ∈ cs, Sound e c := by
  intro c hc
  rw [← h.result] at hc
  exact ⟨(h.inv.fields c hc).1, (h.inv.fields c hc).2.1⟩

theorem contribution_of_fromLesson (he : Sane e) {rnd : Rnd} (hr : IsRnd rnd) {k : Nat} {l : ι}
    {cs : List (Candidate ι)} (h : fromLesson e rnd k l = some cs) : ∃ a, Contribution e l cs a := by
  unfold fromLesson at h
  rw [Option.map_eq_some_iff] at h
  obtain ⟨⟨cs', a⟩, h1, rfl⟩ := h
  exact ⟨a, lessonCandidates_spec he hr h1⟩

theorem sound_of_fromLesson (he : Sane e) {rnd : Rnd} (hr : IsRnd rnd) {k : Nat} {l : ι}
    {cs : List (Candidate ι)} (h : fromLesson e rnd k l = some cs) : ∀ c ∈ cs, c.lesson = l ∧ Sound e c := by
  obtain ⟨a, h⟩ := contribution_of_fromLesson he hr h
  intro c hc
  have hl := (h.fields c hc).lesson
  refine ⟨hl, ?_, ?_⟩
  · rw [hl]; exact h.fields c hc
  · rw [hl]; exact h.offered c hc

theorem searchOf_cases (e : Env ι) (f : Option (UnitFilter ι)) :
    (∃ p, SearchOf e f = some p) ∨ (∃ ids, f = some (.lessons ids)) ∨ f = some .reviewList := by
  cases f with
  | none => exact Or.inl ⟨_, rfl⟩
  | some f =>
    cases f with
    | courses ids => exact Or.inl ⟨_, rfl⟩
    | lessons ids => exact Or.inr (Or.inl ⟨_, rfl⟩)
    | metadata kv => exact Or.inl ⟨_, rfl⟩
    | reviewList => exact Or.inr (Or.inr rfl)
    | dependents ids => exact Or.inl ⟨_, rfl⟩
    | dependencies ids depth => exact Or.inl ⟨_, rfl⟩

theorem reviewCandidate_spec {x : ι} {c : Candidate ι} (h : reviewCandidate e x = some c) :
    c.exercise = x ∧ c.lesson = (e.graph.getExerciseLesson x).getD e.dflt ∧ c.course = e.courseOf c.lesson := by
  unfold reviewCandidate at h
  rw [Option.bind_eq_bind, Option.bind_eq_some_iff] at h
  obtain ⟨s, hs, h⟩ := h
  rw [Option.bind_eq_bind, Option.bind_eq_some_iff] at h
  obtain ⟨u, hu, h⟩ := h
  rw [Option.bind_eq_some_iff] at h
  obtain ⟨v, hv, h⟩ := h
  simp only [Option.pure_def, Option.some.injEq] at h
  subst h
  exact ⟨rfl, rfl, rfl⟩

theorem reviewCandidate_none {x : ι} (h : reviewCandidate e x = none) :
    e.score x = none ∨ e.urgency x = none ∨ e.velocity x = none := by
  unfold reviewCandidate at h
  cases h1 : e.score x with
  | none => exact Or.inl rfl
  | some a =>
    cases h2 : e.urgency x with
    | none => exact Or.inr (Or.inl rfl)
    | some b =>
      cases h3 : e.velocity x with
      | none => exact Or.inr (Or.inr rfl)
      | some c => simp [h1, h2, h3] at h

/-- Sound candidates in every mode, but for the exercises listed for review. -/
theorem sound_of_initial {rnds : Nat → Rnd} (he : Sane e) (hr : ∀ i, IsRnd (rnds i)) {n : Nat}
    {entries : List ι} {f : Option (UnitFilter ι)} {cs : List (Candidate ι)}
    (h : initialCandidates e rnds n entries f = some (some cs)) :
    ∀ c ∈ cs, Sound e c ∨ (f = some .reviewList ∧ c.exercise ∈ entries ∧
      e.graph.getUnitType c.exercise = some .exercise) := by
  rcases searchOf_cases e f with ⟨⟨mf, sc, init⟩, hs⟩ | ⟨ids, rfl⟩ | rfl
  · obtain ⟨vis0, s, q, hR, _⟩ := ran he hr h hs
    exact fun c hc => Or.inl (sound_of_ran hR c hc)
  · intro c hc
    obtain ⟨j, l, _, xs, hx, hcx⟩ := collect_mem h c hc
    rw [Option.some.injEq] at hx
    exact Or.inl ((sound_of_fromLesson he (hr j) hx c hcx).2)
  · intro c hc
    obtain ⟨j, u, hu, xs, hx, hcx⟩ := collect_mem h c hc
    unfold reviewEntry at hx
    cases ht : e.graph.getUnitType u with
    | none => rw [ht] at hx; simp at hx
    | some t =>
      rw [ht] at hx
      cases t with
      | course =>
        obtain ⟨s, q, hR⟩ := ran_of_fromCourse he (hr j) hx
        exact Or.inl (sound_of_ran hR c hcx)
      | lesson =>
        dsimp only at hx
        rw [Option.some.injEq] at hx
        exact Or.inl ((sound_of_fromLesson he (hr j) hx c hcx).2)
      | exercise =>
        dsimp only at hx
        rw [Option.some.injEq, Option.map_eq_some_iff] at hx
        obtain ⟨c', h1, rfl⟩ := hx
        rw [List.mem_singleton] at hcx
        subst hcx
        have := (reviewCandidate_spec h1).1
        refine Or.inr ⟨rfl, ?_, ?_⟩
        · rw [this]; exact hu
        · rw [this]; exact ht

theorem numToSelect_share (o : PassingScoreOptions) (h0 : 0 ≤ o.minFraction) (h1 : o.minFraction ≤ 1) (a : ℚ)
    (n : Nat) : numToSelect o a n = share o a n := by
  unfold numToSelect share fullCandidatesScore
  by_cases hc : a < o.minScore ∨ 4 ≤ a
  · rw [if_pos hc, if_pos hc.symm]
  · rw [if_neg hc, if_neg (fun h => hc h.symm)]
    push Not at hc
    obtain ⟨ha, ha4⟩ := hc
    have hm : clampQ o.minFraction 0 1 = o.minFraction := by
      unfold clampQ
      rw [if_neg (not_lt.2 h0), if_neg (not_lt.2 h1)]
    simp only [hm]
    set f := o.minFraction + (a - o.minScore) / (4 - o.minScore) * (1 - o.minFraction) with hf
    have hd : 0 < 4 - o.minScore := by linarith
    have hr0 : 0 ≤ (a - o.minScore) / (4 - o.minScore) := div_nonneg (by linarith) hd.le
    have hr1 : (a - o.minScore) / (4 - o.minScore) ≤ 1 := by
      rw [div_le_one hd]; linarith
    have hf0 : 0 ≤ f := by
      rw [hf]; nlinarith
    have hf1 : f ≤ 1 := by
      rw [hf]; nlinarith
    have hcl : clampQ f 0 1 = f := by
      unfold clampQ
      rw [if_neg (not_lt.2 hf0), if_neg (not_lt.2 hf1)]
    rw [hcl]
    by_cases hz : f = 0
    · rw [if_neg (by rw [hz]; simp), if_pos hz, hz]
      simp
    · have hpos : 0 < f := lt_of_le_of_ne hf0 (Ne.symm hz)
      rw [if_neg hz]
      by_cases hfl : ⌊f * (n : ℚ)⌋₊ = 0
      · rw [if_pos ⟨hpos, hfl⟩, hfl]; rfl
      · rw [if_neg (fun h => hfl h.2)]
        omega

theorem share_fraction (o : PassingScoreOptions) (h1 : o.minFraction ≤ 1) {a : ℚ}
    (ha : o.minScore ≤ a) (ha4 : a < 4) :
    o.minFraction ≤ o.minFraction + (a - o.minScore) / (4 - o.minScore) * (1 - o.minFraction) ∧
    o.minFraction + (a - o.minScore) / (4 - o.minScore) * (1 - o.minFraction) ≤ 1 := by
  have hd : 0 < 4 - o.minScore := by linarith
  have hr0 : 0 ≤ (a - o.minScore) / (4 - o.minScore) := div_nonneg (by linarith) hd.le
  have hr1 : (a - o.minScore) / (4 - o.minScore) ≤ 1 := by rw [div_le_one hd]; linarith
  constructor <;> nlinarith

end Trane.Search
