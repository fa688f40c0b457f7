import Verif.Sched.SearchSample

/-!
# Properties of the candidate search

The vocabulary is in `SearchSpec`.  `initialCandidates e rnds fuel entries f` is the model of
`get_initial_candidates` with filter `f`: `some (some cs)` means that it returned the candidates `cs`,
`some none` that it returned an error and `none` that the fuel was too small.  `rnds` are the shuffles: all
theorems hold for all of them.
-/

namespace Trane.Search
open Trane.Filters (KVFilter UnitFilter)
open Trane.Graph

variable {ι : Type} [DecidableEq ι] {e : Env ι} {rnds : Nat → Rnd} {fuel : Nat} {entries : List ι}
  {f : Option (UnitFilter ι)} {cs : List (Candidate ι)}

/-! ### C30 -/

/-- C30: whatever the graph (cycles and missing units included), the scores, the filter and the shuffles, the
search ends, and its outcome does not depend on the fuel. -/
theorem search_terminates (he : Sane e) (hr : ∀ i, IsRnd (rnds i)) (entries : List ι)
    (f : Option (UnitFilter ι)) :
    ∃ r N, ∀ fuel ≥ N, initialCandidates e rnds fuel entries f = some r := by
  cases f with
  | none => exact wholeGraph_ends he (hr 0) none
  | some f =>
    cases f with
    | courses ids => exact fromCourse_ends he (hr 0) ids
    | lessons ids =>
      exact collect_ends (fun _ i l => some (fromLesson e (rnds i) 0 l)) (fun i l => ⟨_, 0, fun _ _ => rfl⟩) ids 0
    | metadata kv => exact wholeGraph_ends he (hr 0) (some kv)
    | reviewList =>
      exact collect_ends (fun n i u => reviewEntry e (rnds i) n u) (fun i u => reviewEntry_ends he (hr i) u)
        entries 0
    | dependents ids => exact fromGraph_ends he (hr 0) _ none
    | dependencies ids depth =>
      obtain ⟨N, us, h, _⟩ := depthUnits_spec e ids depth
      obtain ⟨r, N', h'⟩ := fromGraph_ends he (hr 0) (us.map (fun u => (⟨u, 0⟩ : Item ι))).reverse none
      refine ⟨r, max N N', fun n hn => ?_⟩
      rw [initialCandidates, h n (by omega)]
      exact h' n (by omega)

/-- The search fails only if a value of an offered exercise or of an exercise listed for review cannot be
computed, or if the review list contains an unknown unit. -/
theorem search_error (he : Sane e) (hr : ∀ i, IsRnd (rnds i))
    (h : initialCandidates e rnds fuel entries f = some none) :
    (∃ x, (e.score x = none ∨ e.urgency x = none ∨ e.velocity x = none) ∧
      ((∃ l, Offers e l x) ∨ (f = some .reviewList ∧ x ∈ entries))) ∨
    (f = some .reviewList ∧ ∃ u ∈ entries, ¬ Known e.graph u) := by
  have hloop : ∀ (rnd : Rnd), IsRnd rnd → ∀ (q : Query ι) (s : State ι),
      (loop e rnd q fuel s).map (fun r => r.map State.candidates) = some none →
      ∃ x, (e.score x = none ∨ e.urgency x = none ∨ e.velocity x = none) ∧ ∃ l, Offers e l x := by
    intro rnd hrnd q s h
    rw [Option.map_eq_some_iff] at h
    obtain ⟨r, hl, h⟩ := h
    rw [Option.map_eq_none_iff] at h
    subst h
    obtain ⟨l, x, h1, h2⟩ := loop_steps he hrnd q fuel _ _ hl
    exact ⟨x, h2, l, h1⟩
  have hlesson : ∀ (rnd : Rnd), IsRnd rnd → ∀ l, fromLesson e rnd 0 l = none →
      ∃ x, (e.score x = none ∨ e.urgency x = none ∨ e.velocity x = none) ∧ ∃ l, Offers e l x := by
    intro rnd hrnd l h
    unfold fromLesson at h
    rw [Option.map_eq_none_iff] at h
    obtain ⟨x, h1, h2⟩ := lessonCandidates_none he hrnd h
    exact ⟨x, h2, _, h1⟩
  have hwhole : ∀ mf, wholeGraph e (rnds 0) fuel mf = some none →
      ∃ x, (e.score x = none ∨ e.urgency x = none ∨ e.velocity x = none) ∧ ∃ l, Offers e l x := by
    intro mf h
    unfold wholeGraph at h
    cases hi : initialStack e (rnds 0) mf fuel with
    | none => rw [hi] at h; simp at h
    | some st => rw [hi] at h; exact hloop _ (hr 0) _ _ h
  have fin : (∃ x, (e.score x = none ∨ e.urgency x = none ∨ e.velocity x = none) ∧ ∃ l, Offers e l x) →
      (∃ x, (e.score x = none ∨ e.urgency x = none ∨ e.velocity x = none) ∧
      ((∃ l, Offers e l x) ∨ (f = some .reviewList ∧ x ∈ entries))) ∨
      (f = some .reviewList ∧ ∃ u ∈ entries, ¬ Known e.graph u) := by
    rintro ⟨x, h1, h2⟩
    exact Or.inl ⟨x, h1, Or.inl h2⟩
  cases f with
  | none => exact fin (hwhole none h)
  | some f =>
    cases f with
    | courses ids => exact fin (hloop _ (hr 0) _ _ h)
    | lessons ids =>
      obtain ⟨j, l, _, hl⟩ := collect_none h
      rw [Option.some.injEq] at hl
      exact fin (hlesson _ (hr j) l hl)
    | metadata kv => exact fin (hwhole (some kv) h)
    | reviewList =>
      obtain ⟨j, u, hu, hl⟩ := collect_none h
      unfold reviewEntry at hl
      cases ht : e.graph.getUnitType u with
      | none => exact Or.inr ⟨rfl, u, hu, by rintro ⟨t, h⟩; rw [ht] at h; simp at h⟩
      | some t =>
        rw [ht] at hl
        cases t with
        | course => exact fin (hloop _ (hr j) _ _ hl)
        | lesson =>
          dsimp only at hl
          rw [Option.some.injEq] at hl
          exact fin (hlesson _ (hr j) u hl)
        | exercise =>
          dsimp only at hl
          rw [Option.some.injEq, Option.map_eq_none_iff] at hl
          exact Or.inl ⟨u, reviewCandidate_none hl, Or.inr ⟨rfl, hu⟩⟩
    | dependents ids => exact fin (hloop _ (hr 0) _ _ h)
    | dependencies ids depth =>
      rw [initialCandidates] at h
      cases hd : depthUnits e fuel ids depth with
      | none => rw [hd] at h; simp at h
      | some us => rw [hd] at h; exact fin (hloop _ (hr 0) _ _ h)

/-- The sample library: a first search finds the lessons without dependencies, and the one whose course
depends on a missing course. -/
example : exercises (initialCandidates fresh plain 60 [] none) = some (some [101, 100, 300]) := by decide +kernel

/-- Later also course 2 is found. -/
example : exercises (initialCandidates later plain 60 [] none) = some (some [101, 100, 200, 300]) := by
  decide +kernel

/-- A review list with an unknown unit does fail. -/
example : exercises (initialCandidates fresh plain 60 [10, 77] (some .reviewList)) = some none := by
  decide +kernel

/-! ### C31 -/

/-- C31: no exercise occurs twice among the candidates of a search. -/
theorem candidates_distinct (he : Sane e) (hr : ∀ i, IsRnd (rnds i))
    (h : initialCandidates e rnds fuel entries f = some (some cs)) {p} (hs : SearchOf e f = some p) :
    (cs.map Candidate.exercise).Nodup := by
  obtain ⟨mf, sc, init⟩ := p
  obtain ⟨vis0, s, q, hR, _⟩ := ran he hr h hs
  rw [← hR.result]
  exact hR.inv.nodup

example : ∃ cs, initialCandidates later plain 60 [] none = some (some cs) ∧ cs.length = 4 ∧
    (cs.map Candidate.exercise).Nodup := by
  obtain ⟨cs, h, h'⟩ := exercises_eq (r := initialCandidates later plain 60 [] none) (xs := [101, 100, 200, 300])
    (by decide +kernel)
  refine ⟨cs, h, ?_, candidates_distinct later_sane plain_isRnd h rfl⟩
  rw [← List.length_map (f := Candidate.exercise), h']
  rfl

/-- C31 for the lessons filter, provided it does not list a lesson twice.  Missing for the full claim: the
filter with repeated lessons and the review list with overlapping entries, for which it is false
(`lesson_filter_repeats`, `review_list_repeats`). -/
theorem candidates_distinct_partial (he : Sane e) (hr : ∀ i, IsRnd (rnds i)) {ids : List ι} (hn : ids.Nodup)
    (h : initialCandidates e rnds fuel entries (some (.lessons ids)) = some (some cs)) :
    (cs.map Candidate.exercise).Nodup := by
  change collect _ 0 ids = _ at h
  have key : ∀ (ids : List ι) (i : Nat) (cs : List (Candidate ι)), ids.Nodup →
      collect (fun i l => some (fromLesson e (rnds i) 0 l)) i ids = some (some cs) →
      (cs.map Candidate.exercise).Nodup ∧
        ∀ c ∈ cs, ∃ l ∈ ids, e.graph.getExerciseLesson c.exercise = some l := by
    intro ids
    induction ids with
    | nil =>
      intro i cs _ h
      simp only [collect, Option.some.injEq] at h
      subst h
      simp
    | cons l ids ih =>
      intro i cs hn h
      rw [List.nodup_cons] at hn
      rw [collect] at h
      cases h1 : fromLesson e (rnds i) 0 l with
      | none => rw [h1] at h; simp at h
      | some xs =>
        rw [h1] at h
        dsimp only at h
        cases h2 : collect (fun i l => some (fromLesson e (rnds i) 0 l)) (i + 1) ids with
        | none => rw [h2] at h; simp at h
        | some r' =>
          cases r' with
          | none => rw [h2] at h; simp at h
          | some ys =>
            rw [h2] at h
            simp only [Option.some.injEq] at h
            subst h
            obtain ⟨a, hC⟩ := contribution_of_fromLesson he (hr i) h1
            obtain ⟨ih1, ih2⟩ := ih _ _ hn.2 h2
            have hx : ∀ c ∈ xs, e.graph.getExerciseLesson c.exercise = some l := fun c hc =>
              (he.wf.exercise _ _).1 (hC.offered c hc).1
            constructor
            · rw [List.map_append, List.nodup_append]
              refine ⟨hC.nodup, ih1, ?_⟩
              intro a ha b hb hab
              subst hab
              rw [List.mem_map] at ha hb
              obtain ⟨c, hc, rfl⟩ := ha
              obtain ⟨d, hd, hde⟩ := hb
              obtain ⟨l', hl', h3⟩ := ih2 d hd
              rw [hde, hx c hc] at h3
              injection h3 with h3
              subst h3
              exact hn.1 hl'
            · intro c hc
              rw [List.mem_append] at hc
              rcases hc with hc | hc
              · exact ⟨l, by simp, hx c hc⟩
              · obtain ⟨l', hl', h3⟩ := ih2 c hc
                exact ⟨l', by simp [hl'], h3⟩
  exact (key ids 0 cs hn h).1

example : exercises (initialCandidates fresh plain 60 [] (some (.lessons [20, 10]))) =
    some (some [200, 101, 100]) := by decide +kernel

/-- A lesson that the filter lists twice gives its exercises twice. -/
theorem lesson_filter_repeats : ∃ cs, initialCandidates fresh plain 60 [] (some (.lessons [10, 10])) = some (some cs) ∧
    ¬ (cs.map Candidate.exercise).Nodup := by
  obtain ⟨cs, h, h'⟩ := exercises_eq
    (r := initialCandidates fresh plain 60 [] (some (.lessons [10, 10]))) (xs := [101, 100, 101, 100]) (by decide +kernel)
  exact ⟨cs, h, by rw [h']; decide⟩

/-- A lesson and one of its exercises on the review list give the exercise twice, although no unit is listed
twice. -/
theorem review_list_repeats : ∃ cs, initialCandidates fresh plain 60 [10, 100] (some .reviewList) = some (some cs) ∧
    ¬ (cs.map Candidate.exercise).Nodup := by
  obtain ⟨cs, h, h'⟩ := exercises_eq
    (r := initialCandidates fresh plain 60 [10, 100] (some .reviewList)) (xs := [101, 100, 100]) (by decide +kernel)
  exact ⟨cs, h, by rw [h']; decide⟩

/-! ### C32 -/

/-- C32: with any filter but the review list, no candidate is blacklisted, nor is its lesson or course; and
the lesson and course named in the candidate are those of the exercise. -/
theorem candidates_not_blacklisted (he : Sane e) (hr : ∀ i, IsRnd (rnds i))
    (h : initialCandidates e rnds fuel entries f = some (some cs)) (hf : f ≠ some .reviewList) :
    ∀ c ∈ cs, e.black c.exercise = false ∧ e.black c.lesson = false ∧ e.black c.course = false ∧
      e.graph.getExerciseLesson c.exercise = some c.lesson ∧ e.graph.getLessonCourse c.lesson = some c.course := by
  intro c hc
  rcases sound_of_initial he hr h c hc with h | h
  · obtain ⟨h1, h2, h3, h4⟩ := h.offered
    have hle := (he.wf.exercise _ _).1 h1
    obtain ⟨k, hk⟩ := he.lessonHasCourse _ ((he.wf.tyE _ _ hle).2)
    have hco : c.course = k := by rw [h.fields.course, courseOf_some e hk]
    rw [hco]
    exact ⟨h2, h3, h4 k hk, hle, hk⟩
  · exact absurd h.1 hf

/-- C32 for the review list: a candidate is blacklisted, directly or with its lesson or course, only if it is
an exercise that is listed itself.  Missing for the full claim: those exercises, for which it is false
(`review_list_ignores_blacklist`). -/
theorem candidates_not_blacklisted_partial (he : Sane e) (hr : ∀ i, IsRnd (rnds i))
    (h : initialCandidates e rnds fuel entries f = some (some cs)) :
    ∀ c ∈ cs, c.exercise ∉ entries →
      e.black c.exercise = false ∧ e.black c.lesson = false ∧ e.black c.course = false := by
  intro c hc hn
  rcases sound_of_initial he hr h c hc with h | h
  · obtain ⟨h1, h2, h3, h4⟩ := h.offered
    have hle := (he.wf.exercise _ _).1 h1
    obtain ⟨k, hk⟩ := he.lessonHasCourse _ ((he.wf.tyE _ _ hle).2)
    have hco : c.course = k := by rw [h.fields.course, courseOf_some e hk]
    rw [hco]
    exact ⟨h2, h3, h4 k hk⟩
  · exact absurd h.2.1 hn

/-- The blacklisted exercise 110 is not found although its lesson is in use. -/
example : ∃ cs, initialCandidates later plain 60 [] none = some (some cs) ∧ cs ≠ [] ∧ later.black 110 = true ∧
    ∀ c ∈ cs, c.exercise ≠ 110 := by
  obtain ⟨cs, h, h'⟩ := exercises_eq (r := initialCandidates later plain 60 [] none) (xs := [101, 100, 200, 300])
    (by decide +kernel)
  have hb : later.black 110 = true := by decide +kernel
  refine ⟨cs, h, ?_, hb, ?_⟩
  · rintro rfl; simp at h'
  · intro c hc h1
    have := (candidates_not_blacklisted later_sane plain_isRnd h (by simp) c hc).1
    rw [h1, hb] at this
    simp at this

/-- The full C32 fails: a blacklisted exercise on the review list is scheduled. -/
theorem review_list_ignores_blacklist : ∃ cs,
    initialCandidates later plain 60 [110] (some .reviewList) = some (some cs) ∧
    ∃ c ∈ cs, later.black c.exercise = true := by
  obtain ⟨cs, h, h'⟩ := exercises_eq (r := initialCandidates later plain 60 [110] (some .reviewList)) (xs := [110])
    (by decide +kernel)
  have hm : 110 ∈ cs.map Candidate.exercise := by rw [h']; simp
  rw [List.mem_map] at hm
  obtain ⟨c, hc, h1⟩ := hm
  exact ⟨cs, h, c, hc, by rw [h1]; decide +kernel⟩

/-! ### C33 -/

/-- C33: without a filter, or with a metadata filter, a lesson gives candidates only if all its
dependencies are met. -/
theorem candidates_unlocked (he : Sane e) (hr : ∀ i, IsRnd (rnds i)) (mf : Option KVFilter)
    (h : initialCandidates e rnds fuel entries (mf.map .metadata) = some (some cs)) :
    ∀ c ∈ cs, Unlocked e mf c.lesson := by
  intro c hc
  have hs : SearchOf e (mf.map .metadata) = some (mf, .library, InitialUnit e mf) := by cases mf <;> rfl
  obtain ⟨vis0, s, q, hR, _⟩ := ran he hr h hs
  rw [← hR.result] at hc
  obtain ⟨_, h1, h2, _⟩ := hR.inv.lesson c hc
  rw [hR.filter, hR.scope] at h2
  exact unlocked_of_reached h1 (unlocked_of_initial he) h2

/-- C33, without filter and spelled out: each dependency of the lesson is blacklisted, belongs to a
blacklisted course, is superseded, has no score or no trials, or has a passing score and enough trials. -/
theorem candidates_dependencies_satisfied (he : Sane e) (hr : ∀ i, IsRnd (rnds i))
    (h : initialCandidates e rnds fuel entries none = some (some cs)) :
    ∀ c ∈ cs, ∀ d, DependsOn e.graph c.lesson d → Satisfied e d := by
  intro c hc d hd
  exact candidates_unlocked he hr none h c hc d hd d (.self trivial)

/-- C33, with any search: a lesson gives candidates only if one gets to it from the starting points of the
search through material that is left out or passed. -/
theorem candidates_reached (he : Sane e) (hr : ∀ i, IsRnd (rnds i))
    (h : initialCandidates e rnds fuel entries f = some (some cs)) {mf sc init}
    (hs : SearchOf e f = some (mf, sc, init)) :
    ∀ c ∈ cs, Reached e mf sc init c.lesson ∧ ¬ LessonSkipped e mf c.lesson := by
  intro c hc
  obtain ⟨vis0, s, q, hR, _⟩ := ran he hr h hs
  rw [← hR.result] at hc
  obtain ⟨_, h1, h2, _, h3⟩ := hR.inv.lesson c hc
  rw [hR.filter] at h3
  rw [hR.filter, hR.scope] at h2
  exact ⟨h2, h3⟩

/-- The dead-end mark says exactly that the search could not go on past the candidate's lesson. -/
theorem dead_end_iff (he : Sane e) (hr : ∀ i, IsRnd (rnds i))
    (h : initialCandidates e rnds fuel entries f = some (some cs)) {p} (hs : SearchOf e f = some p) :
    ∀ c ∈ cs, c.deadEnd = true ↔ ¬ LessonPassed e c.lesson := by
  intro c hc
  obtain ⟨mf, sc, init⟩ := p
  obtain ⟨vis0, s, q, hR, _⟩ := ran he hr h hs
  rw [← hR.result] at hc
  exact (hR.inv.fields c hc).2.2

/-- Lesson 11 of the sample depends on lesson 10 and is not offered in the fresh library. -/
example : ∃ cs, initialCandidates fresh plain 60 [] none = some (some cs) ∧ cs ≠ [] ∧
    DependsOn fresh.graph 11 10 ∧ ∀ c ∈ cs, c.lesson ≠ 11 := by
  obtain ⟨cs, h, h'⟩ := exercises_eq (r := initialCandidates fresh plain 60 [] none) (xs := [101, 100, 300])
    (by decide +kernel)
  have hd : DependsOn fresh.graph 11 10 := ⟨[10], by decide +kernel, by simp⟩
  refine ⟨cs, h, by rintro rfl; simp at h', hd, ?_⟩
  intro c hc h1
  have := candidates_dependencies_satisfied fresh_sane plain_isRnd h c hc 10 (by rw [h1]; exact hd)
  have hs : fresh.score 10 = some (some 0) := by decide +kernel
  have ht : fresh.trials 10 = some 0 := by decide +kernel
  have hcourse : fresh.graph.getLessonCourse 10 = some 1 := by decide +kernel
  have hb : fresh.black 10 = false := by decide +kernel
  have hb1 : fresh.black 1 = false := by decide +kernel
  rcases this with h | ⟨k, h, h2⟩ | h | h | h | h | ⟨s, n, h1, h2, h3, h4⟩
  · rw [hb] at h; simp at h
  · rw [hcourse] at h; injection h with h; subst h; rw [hb1] at h2; simp at h2
  · exact absurd h (by decide +kernel)
  · rw [hs] at h; simp at h
  · rw [hs] at h; simp at h
  · rw [ht] at h; simp at h
  · rw [hs] at h1
    simp only [Option.some.injEq] at h1
    subst h1
    exact absurd h3 (by decide +kernel)

/-- Only the dependencies of the lesson itself are enforced: a lesson that depends on a lesson of another
course is offered although a dependency of its own course is not met. -/
theorem course_dependencies_bypassed : ∃ cs,
    initialCandidates bypass plain 60 [] none = some (some cs) ∧
    ∃ c ∈ cs, ∃ d, DependsOn bypass.graph c.course d ∧ ¬ Satisfied bypass d := by
  obtain ⟨cs, h, h'⟩ := exercises_eq (r := initialCandidates bypass plain 60 [] none) (xs := [300, 200, 100])
    (by decide +kernel)
  have hm : 200 ∈ cs.map Candidate.exercise := by rw [h']; simp
  rw [List.mem_map] at hm
  obtain ⟨c, hc, h1⟩ := hm
  obtain ⟨_, _, _, h2, h3⟩ := candidates_not_blacklisted bypass_sane plain_isRnd h (by simp) c hc
  have hl : c.lesson = 20 := by
    rw [h1] at h2
    have : bypass.graph.getExerciseLesson 200 = some 20 := by decide +kernel
    rw [this] at h2
    injection h2 with h2
    exact h2.symm
  have hco : c.course = 2 := by
    rw [hl] at h3
    have : bypass.graph.getLessonCourse 20 = some 2 := by decide +kernel
    rw [this] at h3
    injection h3 with h3
    exact h3.symm
  refine ⟨cs, h, c, hc, 1, ?_, ?_⟩
  · rw [hco]; exact ⟨[1], by decide +kernel, by simp⟩
  · have hs : bypass.score 1 = some (some 0) := by decide +kernel
    have ht : bypass.trials 1 = some 0 := by decide +kernel
    have hcourse : bypass.graph.getLessonCourse 1 = none := by decide +kernel
    rintro (h | ⟨k, h, h2⟩ | h | h | h | h | ⟨s, n, h1, h2, h3, h4⟩)
    · exact absurd h (by decide +kernel)
    · rw [hcourse] at h; simp at h
    · exact absurd h (by decide +kernel)
    · rw [hs] at h; simp at h
    · rw [hs] at h; simp at h
    · rw [ht] at h; simp at h
    · rw [hs] at h1
      simp only [Option.some.injEq] at h1
      subst h1
      exact absurd h3 (by decide +kernel)

/-! ### C34 -/

/-- C34: with a course filter all candidates belong to the courses asked for. -/
theorem course_filter_scope (he : Sane e) (hr : ∀ i, IsRnd (rnds i)) {ids : List ι}
    (h : initialCandidates e rnds fuel entries (some (.courses ids)) = some (some cs)) :
    ∀ c ∈ cs, ∃ k ∈ ids, e.graph.getLessonCourse c.lesson = some k ∧ c.course = k := by
  intro c hc
  have hb := candidates_not_blacklisted he hr h (by simp) c hc
  obtain ⟨vis0, s, q, hR, _⟩ := ran he hr h rfl
  rw [← hR.result] at hc
  obtain ⟨_, _, _, h3, _⟩ := hR.inv.lesson c hc
  have := (inScope_iff hb.2.2.2.2).2 h3
  rw [hR.scope] at this
  obtain ⟨k, hk, h4⟩ := this
  refine ⟨k, hk, h4, ?_⟩
  rw [hb.2.2.2.2] at h4
  injection h4

/-- C34: with a lesson filter all candidates belong to the lessons asked for. -/
theorem lesson_filter_scope (he : Sane e) (hr : ∀ i, IsRnd (rnds i)) {ids : List ι}
    (h : initialCandidates e rnds fuel entries (some (.lessons ids)) = some (some cs)) :
    ∀ c ∈ cs, c.lesson ∈ ids ∧ e.graph.getExerciseLesson c.exercise = some c.lesson := by
  intro c hc
  refine ⟨?_, (candidates_not_blacklisted he hr h (by simp) c hc).2.2.2.1⟩
  obtain ⟨j, l, hl, xs, hx, hcx⟩ := collect_mem h c hc
  rw [Option.some.injEq] at hx
  rw [(sound_of_fromLesson he (hr j) hx c hcx).1]
  exact hl

/-- C34: with a metadata filter all candidates belong to lessons that the filter accepts. -/
theorem metadata_filter_scope (he : Sane e) (hr : ∀ i, IsRnd (rnds i)) {kv : KVFilter}
    (h : initialCandidates e rnds fuel entries (some (.metadata kv)) = some (some cs)) :
    ∀ c ∈ cs, ∃ k cm lm, e.graph.getLessonCourse c.lesson = some k ∧ e.courseMeta k = some cm ∧
      e.lessonMeta c.lesson = some lm ∧ kv.applyToLesson cm lm = true := by
  intro c hc
  have hb := candidates_not_blacklisted he hr h (by simp) c hc
  obtain ⟨vis0, s, q, hR, _⟩ := ran he hr h rfl
  rw [← hR.result] at hc
  obtain ⟨_, h1, _, _, h3⟩ := hR.inv.lesson c hc
  rw [hR.filter] at h3
  have ha : Accepts e (some kv) c.lesson := by
    by_contra hn
    exact h3 (Or.inr (Or.inl hn))
  rcases ha with ⟨hc', _⟩ | ⟨_, k, cm, lm, h4, h5, h6, h7⟩
  · exact absurd h1 (not_lesson_of_course hc')
  · exact ⟨k, cm, lm, h4, h5, h6, h7⟩

/-- C34: with the review list every candidate is listed or belongs to a lesson or course that is listed. -/
theorem review_list_scope (he : Sane e) (hr : ∀ i, IsRnd (rnds i))
    (h : initialCandidates e rnds fuel entries (some .reviewList) = some (some cs)) :
    ∀ c ∈ cs, c.exercise ∈ entries ∨
      (e.graph.getExerciseLesson c.exercise = some c.lesson ∧
        (c.lesson ∈ entries ∨ ∃ k ∈ entries, e.graph.getLessonCourse c.lesson = some k)) := by
  intro c hc
  rcases sound_of_initial he hr h c hc with hS | hS
  · have hle := (he.wf.exercise _ _).1 hS.offered.1
    obtain ⟨k0, hk0⟩ := he.lessonHasCourse _ ((he.wf.tyE _ _ hle).2)
    obtain ⟨j, u, hu, xs, hx, hcx⟩ := collect_mem h c hc
    unfold reviewEntry at hx
    cases ht : e.graph.getUnitType u with
    | none => rw [ht] at hx; simp at hx
    | some t =>
      rw [ht] at hx
      cases t with
      | course =>
        refine Or.inr ⟨hle, Or.inr ?_⟩
        obtain ⟨s, q, hR⟩ := ran_of_fromCourse he (hr j) hx
        rw [← hR.result] at hcx
        obtain ⟨_, _, _, h3, _⟩ := hR.inv.lesson c hcx
        have := (inScope_iff hk0).2 h3
        rw [hR.scope] at this
        obtain ⟨k, hk, h4⟩ := this
        rw [List.mem_singleton] at hk
        subst hk
        exact ⟨k, hu, h4⟩
      | lesson =>
        dsimp only at hx
        rw [Option.some.injEq] at hx
        refine Or.inr ⟨hle, Or.inl ?_⟩
        rw [(sound_of_fromLesson he (hr j) hx c hcx).1]
        exact hu
      | exercise =>
        dsimp only at hx
        rw [Option.some.injEq, Option.map_eq_some_iff] at hx
        obtain ⟨c', h1, rfl⟩ := hx
        rw [List.mem_singleton] at hcx
        subst hcx
        left
        rw [(reviewCandidate_spec h1).1]
        exact hu
  · exact Or.inl hS.2.1

example : exercises (initialCandidates fresh plain 60 [] (some (.courses [1, 3]))) = some (some [300, 101, 100]) ∧
    exercises (initialCandidates fresh plain 60 [] (some (.metadata (.lesson ['k'] ['x'] .incl)))) =
      some (some [300]) ∧
    exercises (initialCandidates fresh plain 60 [100, 2] (some .reviewList)) = some (some [100, 200]) := by
  refine ⟨?_, ?_, ?_⟩ <;> decide +kernel

/-! ### C35 -/

/-- C35: among the lessons that give candidates, at most `max_lessons_in_progress` have an average score not
above the target window. -/
theorem lessons_in_progress_capped (he : Sane e) (hr : ∀ i, IsRnd (rnds i))
    (h : initialCandidates e rnds fuel entries f = some (some cs)) {p} (hs : SearchOf e f = some p)
    (ls : List ι) (hn : ls.Nodup)
    (hl : ∀ l ∈ ls, (∃ c ∈ cs, c.lesson = l) ∧ ∃ a, LessonAverage e l a ∧ a ≤ e.opts.targetWindow.hi) :
    ls.length ≤ e.opts.maxLessonsInProgress := by
  obtain ⟨mf, sc, init⟩ := p
  obtain ⟨vis0, s, q, hR, _⟩ := ran he hr h hs
  refine le_trans ?_ hR.inv.progCap
  apply List.Subperm.length_le
  apply List.subperm_of_subset hn
  intro l hm
  obtain ⟨⟨c, hc, rfl⟩, a, ha, hle⟩ := hl l hm
  rw [← hR.result] at hc
  exact hR.inv.progAll c hc a ha hle

/-- With at most one lesson in progress only one of the two lessons of the fresh library gives candidates. -/
example : exercises (initialCandidates
    { fresh with opts := { SchedulerOptions.default with maxLessonsInProgress := 1 } } plain 60 [] none) =
      some (some [101, 100]) := by decide +kernel

/-! ### C36 -/

/-- C36: a search that stays below its candidate limit leaves nothing out.  Every lesson that can be reached
from the starting points through material that is left out or passed, that the search may use and that is not
itself left out, gives the number of exercises that is due, unless its average score is not above the target
window and the maximum number of such lessons are already giving candidates. -/
theorem search_complete (he : Sane e) (hr : ∀ i, IsRnd (rnds i))
    (h : initialCandidates e rnds fuel entries f = some (some cs)) {mf sc init}
    (hs : SearchOf e f = some (mf, sc, init))
    (hids : ∀ ids, f = some (.courses ids) → ∀ u ∈ ids, ¬ IsLesson e u)
    (hf0 : 0 ≤ e.opts.passing.minFraction) (hf1 : e.opts.passing.minFraction ≤ 1)
    (hlim : cs.length < 10 * e.opts.batchSize)
    {l : ι} (hl : IsLesson e l) (hrl : Reached e mf sc init l) (hsc : InScope e sc l)
    (hsk : ¬ LessonSkipped e mf l) {n : Nat} (hn : LessonSize e l n) (hpos : 0 < n) {a : ℚ}
    (ha : LessonAverage e l a) :
    (cs.filter (fun c => c.lesson = l)).length = share e.opts.passing a n ∨
    (a ≤ e.opts.targetWindow.hi ∧ (∀ c ∈ cs, c.lesson ≠ l) ∧
      ∃ ls : List ι, ls.Nodup ∧ ls.length = e.opts.maxLessonsInProgress ∧
        ∀ l' ∈ ls, (∃ c ∈ cs, c.lesson = l') ∧ ∃ a', LessonAverage e l' a' ∧ a' ≤ e.opts.targetWindow.hi) := by
  obtain ⟨vis0, s, q, hR, hv⟩ := ran he hr h hs
  have hv1 : ∀ u ∈ vis0, ¬ IsLesson e u := by
    rcases hv with hv | ⟨ids, h1, h2⟩
    · rw [hv.1]; simp
    · rw [h2]
      intro u hu
      rw [mem_extendSet] at hu
      exact hids ids h1 u (by simpa using hu)
  have hvis := hR.complete hv1 (by unfold maxCandidateFactor; omega) l hl hrl
  obtain ⟨k, hk⟩ := he.lessonHasCourse l hl
  have hout : ¬ OutOfScope e q l := by
    rw [← inScope_iff hk, hR.scope]
    exact hsc
  obtain ⟨ds, a', dead, hC, hcase⟩ := hR.inv.contrib l hvis (fun h0 => hv1 l h0 hl) hl hout
    (by rw [hR.filter]; exact hsk)
  have hex : ∃ x, Offers e l x := by
    obtain ⟨xs, _, h2, rfl⟩ := hn
    obtain ⟨x, hx⟩ := List.exists_mem_of_length_pos hpos
    exact ⟨x, (h2 x).1 hx⟩
  have haa : a' = a := lessonAverage_unique (hC.avg hex) ha
  subst haa
  rcases hcase with hcase | ⟨h1, h2, h3, h4, h5⟩
  · left
    have : (cs.filter (fun c => c.lesson = l)) = ofLesson s.candidates l := by rw [hR.result]; rfl
    rw [this, hcase, List.length_map, hC.size n hn hpos, numToSelect_share _ hf0 hf1]
  · right
    rw [hR.result] at h1
    refine ⟨h3, ?_, s.inProgress, hR.inv.progNodup, le_antisymm hR.inv.progCap h5, ?_⟩
    · intro c hc hcl
      have : c ∈ ofLesson cs l := by
        unfold ofLesson
        rw [List.mem_filter]
        exact ⟨hc, by simpa using hcl⟩
      rw [h1] at this
      simp at this
    · rw [← hR.result]
      exact hR.inv.progIs

/-- In the fresh library lesson 10 meets the hypotheses and gives its two exercises. -/
example : ∃ cs, initialCandidates fresh plain 60 [] none = some (some cs) ∧ cs.length < 10 * fresh.opts.batchSize ∧
    IsLesson fresh 10 ∧ Reached fresh none .library (InitialUnit fresh none) 10 ∧ ¬ LessonSkipped fresh none 10 ∧
    LessonSize fresh 10 2 ∧ LessonAverage fresh 10 0 := by
  obtain ⟨cs, h, h'⟩ := exercises_eq (r := initialCandidates fresh plain 60 [] none) (xs := [101, 100, 300])
    (by decide +kernel)
  have hlen : cs.length = 3 := by rw [← List.length_map (f := Candidate.exercise), h']; rfl
  have hdep : ∀ u, fresh.graph.getDependencies u = some [] → ∀ d, ¬ DependsOn fresh.graph u d := by
    rintro u hu d ⟨s, hs, hd⟩
    rw [hu] at hs
    injection hs with hs
    subst hs
    simp at hd
  have h1 : fresh.graph.getDependencies 1 = some [] := by decide +kernel
  have h10 : fresh.graph.getDependencies 10 = some [] := by decide +kernel
  have hoff : ∀ x, x ∈ [101, 100] ↔ Offers fresh 10 x := by
    intro x
    have hv : fresh.validInLesson 10 = [101, 100] := by decide +kernel
    rw [← hv, mem_validInLesson fresh_sane]
  have hl10 : IsLesson fresh 10 := show fresh.graph.getUnitType 10 = some .lesson by decide +kernel
  refine ⟨cs, h, ?_, hl10, .init ⟨1, ⟨⟨.course, by decide +kernel⟩, Or.inl (by decide +kernel), ?_⟩, Or.inl ⟨?_, ?_⟩⟩,
    ?_, ⟨[101, 100], by decide, hoff, rfl⟩, [101, 100], by decide, by decide, hoff, ?_⟩
  · rw [hlen]; decide +kernel
  · exact fun d hd => absurd hd (hdep 1 h1 d)
  · exact ⟨[10], by decide +kernel, by simp⟩
  · exact fun d hd => absurd hd (hdep 10 h10 d)
  · rw [← skipLesson_iff fresh_sane none 10 hl10]
    decide +kernel
  · decide +kernel

/-- A lesson that no search without filter ever offers, whatever the student has mastered: lesson 41 of a
course without dependencies, itself without dependencies, next to a starting lesson that depends on another
course.  This is why C36 speaks of the starting points that the graph reports. -/
theorem starting_lesson_stranded (score trials : Nat → ℚ) (black : Nat → Bool) :
    let e := libraryOf strandedOps score trials black
    CourseStartsWith e.graph 4 41 ∧ (∀ d, ¬ DependsOn e.graph 4 d) ∧ (∀ d, ¬ DependsOn e.graph 41 d) ∧
    ¬ Reached e none .library (InitialUnit e none) 41 := by
  have h4 : (run strandedOps).getDependencies 4 = some [] := by decide +kernel
  have h41 : (run strandedOps).getDependencies 41 = some [] := by decide +kernel
  have hsink : (run strandedOps).getDependencySinks = [1] := by decide +kernel
  have hk1 : (run strandedOps).getUnitType 1 = some .course := by decide +kernel
  have hst : ∀ c l, CourseStartsWith (run strandedOps) c l → (l = 41 ↔ c = 4) ∨ l = 40 := by
    rintro c l ⟨s, hs, hl⟩
    have hc : c ∈ (run strandedOps).startingLessons.keys := (AMap.mem_keys_iff _ _).2 ⟨_, hs⟩
    have key : ∀ c ∈ (run strandedOps).startingLessons.keys,
        ∀ l ∈ ((run strandedOps).getStartingLessons c).getD [], (l = 41 ↔ c = 4) ∨ l = 40 := by decide +kernel
    exact key c hc l (by rw [hs]; exact hl)
  have no4 : ∀ d, ¬ DependsOn (run strandedOps) 4 d := by
    rintro d ⟨s, hs, h⟩
    rw [h4] at hs; injection hs with hs; subst hs; simp at h
  have no41 : ∀ d, ¬ DependsOn (run strandedOps) 41 d := by
    rintro d ⟨s, hs, h⟩
    rw [h41] at hs; injection hs with hs; subst hs; simp at h
  have hs41 : CourseStartsWith (run strandedOps) 4 41 := ⟨[41, 40], by decide +kernel, by simp⟩
  refine ⟨hs41, no4, no41, ?_⟩
  have key : ∀ u, Reached (libraryOf strandedOps score trials black) none .library
      (InitialUnit (libraryOf strandedOps score trials black) none) u → u ≠ 41 ∧ u ≠ 4 := by
    intro u hu
    induction hu with
    | @init u h =>
      obtain ⟨s, ⟨_, h1, _⟩, h2⟩ := h
      have hs : s = 1 := by
        change s ∈ (run strandedOps).getDependencySinks ∨ ∃ d ∈ (run strandedOps).getDependencySinks, _ at h1
        rw [hsink] at h1
        rcases h1 with h1 | ⟨d, hd, hn, _⟩
        · simpa using h1
        · rw [List.mem_singleton] at hd
          subst hd
          exact absurd ⟨_, hk1⟩ hn
      subst hs
      rcases h2 with ⟨h2, _⟩ | ⟨rfl, _⟩
      · obtain ⟨s, hs, hl⟩ := h2
        have : (run strandedOps).getStartingLessons 1 = some [10] := by decide +kernel
        rw [show (libraryOf strandedOps score trials black).graph = run strandedOps from rfl, this] at hs
        injection hs with hs
        subst hs
        rw [List.mem_singleton] at hl
        subst hl
        decide
      · decide
    | @start c l _ _ _ h _ ih =>
      have := hst c l h
      have hne : l ≠ 4 := by
        rintro rfl
        obtain ⟨s, hs, hl⟩ := h
        have hc : c ∈ (run strandedOps).startingLessons.keys := (AMap.mem_keys_iff _ _).2 ⟨_, hs⟩
        have key : ∀ c ∈ (run strandedOps).startingLessons.keys,
            4 ∉ ((run strandedOps).getStartingLessons c).getD [] := by decide +kernel
        exact key c hc (by rw [show (run strandedOps).getStartingLessons c = some s from hs]; exact hl)
      refine ⟨?_, hne⟩
      rintro rfl
      rcases this with h | h
      · exact ih.2 (h.1 rfl)
      · exact absurd h (by decide)
    | past _ _ _ _ h _ _ =>
      constructor
      · rintro rfl; exact no41 _ h
      · rintro rfl; exact no4 _ h
    | pastCourse _ _ _ _ h _ _ =>
      constructor
      · rintro rfl; exact no41 _ h
      · rintro rfl; exact no4 _ h
    | @allLessons c _ hc _ h ih =>
      have hle : CourseHasLesson (run strandedOps) 4 41 := ⟨[41, 40], by decide +kernel, by simp⟩
      constructor
      · rintro rfl
        have : (run strandedOps).getUnitType 41 = some .lesson := by decide +kernel
        have hc' : (run strandedOps).getUnitType 41 = some .course := hc
        rw [this] at hc'
        simp at hc'
      · rintro rfl
        exact (ih 41 hle).1 rfl
    | pastFinished _ _ _ _ h _ _ _ =>
      constructor
      · rintro rfl; exact no41 _ h
      · rintro rfl; exact no4 _ h
  intro h
  exact (key 41 h).1 rfl

/-- The stranded library meets the hypotheses of `search_complete`. -/
example (score trials : Nat → ℚ) (black : Nat → Bool) : Sane (libraryOf strandedOps score trials black) :=
  libraryOf_sane _ _ _ _ (by decide +kernel) strandedOps_course

/-! ### C37 -/

/-- C37: a lesson that gives candidates in a search gives exactly the number that is due. -/
theorem lesson_share (he : Sane e) (hr : ∀ i, IsRnd (rnds i))
    (h : initialCandidates e rnds fuel entries f = some (some cs)) {p} (hs : SearchOf e f = some p)
    (hids : ∀ ids, f = some (.courses ids) → ∀ u ∈ ids, ¬ IsLesson e u)
    (hf0 : 0 ≤ e.opts.passing.minFraction) (hf1 : e.opts.passing.minFraction ≤ 1)
    {c : Candidate ι} (hc : c ∈ cs) {n : Nat} (hn : LessonSize e c.lesson n) {a : ℚ}
    (ha : LessonAverage e c.lesson a) :
    (cs.filter (fun c' => c'.lesson = c.lesson)).length = share e.opts.passing a n := by
  obtain ⟨mf, sc, init⟩ := p
  obtain ⟨vis0, s, q, hR, hv⟩ := ran he hr h hs
  have hv1 : ∀ u ∈ vis0, ¬ IsLesson e u := by
    rcases hv with hv | ⟨ids, h1, h2⟩
    · rw [hv.1]; simp
    · rw [h2]
      intro u hu
      rw [mem_extendSet] at hu
      exact hids ids h1 u (by simpa using hu)
  have hc' : c ∈ s.candidates := by rw [hR.result]; exact hc
  obtain ⟨h1, h2, _, h4, h5⟩ := hR.inv.lesson c hc'
  have hoff := (hR.inv.fields c hc').2.1
  obtain ⟨ds, a', dead, hC, hcase⟩ := hR.inv.contrib c.lesson h1 (fun h0 => hv1 _ h0 h2) h2 h4 h5
  have haa : a' = a := lessonAverage_unique (hC.avg ⟨_, hoff⟩) ha
  subst haa
  have hpos : 0 < n := by
    obtain ⟨xs, _, h2, rfl⟩ := hn
    exact List.length_pos_of_mem ((h2 _).2 hoff)
  rcases hcase with hcase | ⟨h1, _⟩
  · have : (cs.filter (fun c' => c'.lesson = c.lesson)) = ofLesson s.candidates c.lesson := by
      rw [hR.result]; rfl
    rw [this, hcase, List.length_map, hC.size n hn hpos, numToSelect_share _ hf0 hf1]
  · have : c ∈ ofLesson s.candidates c.lesson := by
      unfold ofLesson
      rw [List.mem_filter]
      exact ⟨hc', by simp⟩
    rw [h1] at this
    simp at this

/-- C37: below the passing score, and from a score of 4, all exercises are given. -/
theorem share_full (o : PassingScoreOptions) (a : ℚ) (n : Nat) (h : a < o.minScore ∨ 4 ≤ a) :
    share o a n = n := by
  rw [share, if_pos h]

/-- C37: from the passing score on, a better average never gives fewer exercises. -/
theorem share_mono (o : PassingScoreOptions) (h0 : 0 ≤ o.minFraction) (h1 : o.minFraction ≤ 1) {a b : ℚ}
    (ha : o.minScore ≤ a) (hab : a ≤ b) {n : Nat} (hn : 0 < n) : share o a n ≤ share o b n := by
  have hle : ∀ a, share o a n ≤ n := fun a => by
    rw [← numToSelect_share o h0 h1]; exact numToSelect_le o a n hn
  by_cases hb4 : 4 ≤ b
  · rw [share_full o b n (Or.inr hb4)]; exact hle a
  · push Not at hb4
    have ha4 : a < 4 := lt_of_le_of_lt hab hb4
    have hb : o.minScore ≤ b := le_trans ha hab
    have hca : ¬ (a < o.minScore ∨ 4 ≤ a) := by push Not; exact ⟨ha, ha4⟩
    have hcb : ¬ (b < o.minScore ∨ 4 ≤ b) := by push Not; exact ⟨hb, hb4⟩
    unfold share
    rw [if_neg hca, if_neg hcb]
    have hd : 0 < 4 - o.minScore := by linarith
    have hfa := share_fraction o h1 ha ha4
    have hfab : o.minFraction + (a - o.minScore) / (4 - o.minScore) * (1 - o.minFraction) ≤
        o.minFraction + (b - o.minScore) / (4 - o.minScore) * (1 - o.minFraction) := by
      have : (a - o.minScore) / (4 - o.minScore) ≤ (b - o.minScore) / (4 - o.minScore) :=
        div_le_div_of_nonneg_right (by linarith) hd.le
      nlinarith
    dsimp only
    generalize hA : o.minFraction + (a - o.minScore) / (4 - o.minScore) * (1 - o.minFraction) = A at *
    generalize hB : o.minFraction + (b - o.minScore) / (4 - o.minScore) * (1 - o.minFraction) = B at *
    by_cases hA0 : A = 0
    · rw [if_pos hA0]; omega
    · have hB0 : B ≠ 0 := fun hB0 => hA0 (by linarith [hfa.1])
      rw [if_neg hA0, if_neg hB0]
      have : ⌊A * (n : ℚ)⌋₊ ≤ ⌊B * (n : ℚ)⌋₊ := by
        apply Nat.floor_le_floor
        have : (0 : ℚ) ≤ n := by positivity
        nlinarith
      omega

/-- C37: at least the configured fraction of the exercises is given, rounded down, and at least one if the
fraction is positive. -/
theorem share_lower (o : PassingScoreOptions) (h0 : 0 ≤ o.minFraction) (h1 : o.minFraction ≤ 1) (a : ℚ)
    {n : Nat} (hn : 0 < n) :
    ⌊o.minFraction * n⌋₊ ≤ share o a n ∧ (0 < o.minFraction → 1 ≤ share o a n) := by
  unfold share
  have hn' : (0 : ℚ) ≤ n := by positivity
  split
  · refine ⟨?_, fun _ => hn⟩
    apply Nat.floor_le_of_le
    nlinarith
  · rename_i hc
    push Not at hc
    have hf := share_fraction o h1 hc.1 hc.2
    dsimp only
    generalize o.minFraction + (a - o.minScore) / (4 - o.minScore) * (1 - o.minFraction) = A at *
    have hfl : ⌊o.minFraction * (n : ℚ)⌋₊ ≤ ⌊A * (n : ℚ)⌋₊ := Nat.floor_le_floor (by nlinarith [hf.1])
    split
    · rename_i hA
      subst hA
      have : o.minFraction = 0 := le_antisymm hf.1 h0
      rw [this]
      simp
    · exact ⟨by omega, fun _ => by omega⟩

example : share SchedulerOptions.default.passing 0 8 = 8 ∧
    share SchedulerOptions.default.passing SchedulerOptions.default.passing.minScore 8 < 8 ∧
    share SchedulerOptions.default.passing 4 8 = 8 := by decide +kernel

end Trane.Search
