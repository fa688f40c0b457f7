import Verif.Sched.BatchSpec

/-! Lemmas for the batch properties. -/

namespace Trane.Batch
open Trane.Search
open Trane.Filters (UnitFilter)
open Trane.CandidateFilter (Disjoint quotas adjusted)

variable {ι : Type} [DecidableEq ι]

theorem insideBlacklisted_iff {e : Env ι} (hd : e.black e.dflt = false)
    (hg : e.graph.getLessonCourse e.dflt = none) (x : ι) :
    insideBlacklisted e x = true ↔ Blacklisted e x := by
  unfold insideBlacklisted Blacklisted Env.courseOf
  by_cases hx : e.black x = true
  · simp [hx]
  · rw [if_neg hx]
    cases hl : e.graph.getExerciseLesson x with
    | none => simp [hx, hd, hg]
    | some l =>
      cases hc : e.graph.getLessonCourse l with
      | none => simp [hx, hd, hc]
      | some c => simp [hx, hc]

theorem mem_cleanPile {e : Env ι} (he : Sane e) {pile : List ι} {x : ι} :
    x ∈ cleanPile e pile ↔ x ∈ pile ∧ ¬ Blacklisted e x := by
  have hc : e.graph.getLessonCourse e.dflt = none := by
    by_contra hn
    obtain ⟨c, hc⟩ := Option.ne_none_iff_exists'.1 hn
    have := (he.wf.tyL _ _ hc).1
    rw [he.dfltUnknown] at this
    cases this
  unfold cleanPile
  rw [List.mem_filter, ← insideBlacklisted_iff he.dfltBlack hc]
  simp

theorem nodup_of_subperm {l l' : List ι} (h : l.Subperm l') (hn : l'.Nodup) : l.Nodup := by
  obtain ⟨m, hp, hs⟩ := h
  exact hp.nodup_iff.1 (hn.sublist hs)

theorem mem_updatePile (pile : List ι) (x y : ι) (g : MasteryScore) :
    y ∈ updatePile pile x g ↔ if y = x then failing g = true else y ∈ pile := by
  unfold updatePile
  by_cases hg : failing g = true
  · rw [if_pos hg, List.mem_insert_iff]
    by_cases h : y = x <;> simp [h, hg]
  · rw [if_neg hg, List.mem_filter]
    by_cases h : y = x <;> simp [h, hg]

theorem nodup_updatePile {pile : List ι} (h : pile.Nodup) (x : ι) (g : MasteryScore) :
    (updatePile pile x g).Nodup := by
  unfold updatePile
  split
  · exact h.insert
  · exact h.filter _

theorem find_countBatch (freq : AMap ι Nat) (xs : List ι) (y : ι) :
    ((countBatch freq xs).find y).getD 0 = (freq.find y).getD 0 + xs.count y := by
  induction xs generalizing freq with
  | nil => simp [countBatch]
  | cons x xs ih =>
    have e : countBatch freq (x :: xs) = countBatch (freq.upd x 0 (· + 1)) xs := rfl
    rw [e, ih, AMap.find_upd, List.count_cons]
    by_cases h : x = y
    · subst h; simp; omega
    · have h' : ¬ y = x := fun e => h e.symm
      simp [h, h']

theorem subperm_map {α β : Type} (f : α → β) {l l' : List α} (h : l.Subperm l') :
    (l.map f).Subperm (l'.map f) := by
  obtain ⟨m, hp, hs⟩ := h
  exact ⟨m.map f, hp.map f, hs.map f⟩

/-- How a batch comes about: some exercises of the candidates, and those of a sample of the relearn pile that
are not among them, in some order. -/
structure Shape (e : Env ι) (options : SchedulerOptions) (s : Session ι)
    (cs : List (Candidate ι)) (xs main sampled : List ι) : Prop where
  perm : xs.Perm (main ++ sampled.filter (fun x => !decide (x ∈ main)))
  sub : main ⊆ cs.map Candidate.exercise
  nodup : Disjoint options → (cs.map Candidate.exercise).Nodup → main.Nodup
  pile : sampled.Subperm (cleanPile e s.pile)
  count : sampled.length = min (relearnCount options) (cleanPile e s.pile).length
  bound : ∃ n, n ≤ options.batchSize ∧ (10 ≤ options.batchSize → 10 ≤ n) ∧
    (options.batchSize < 10 → n = options.batchSize) ∧
    main.length ≤ max n (quotas n (adjusted options (successRate s)))
  default : CandidateFilter.DefaultShares options → 10 ≤ options.batchSize → main.length ≤ options.batchSize

theorem final_shape {e : Env ι} {options : SchedulerOptions} {ch : Choices ι} (hch : IsChoices ch)
    {fuel : Nat} {s : Session ι} {cs final : List (Candidate ι)}
    (h : finalCandidates e options ch fuel s cs = some final) :
    ∃ main sampled, Shape e options s cs (final.map Candidate.exercise) main sampled := by
  unfold finalCandidates at h
  rw [Option.map_eq_some_iff] at h
  obtain ⟨r, hk, rfl⟩ := h
  obtain ⟨hs1, hs2⟩ := Knocker.knock_out_sublist _ _ _ _ _ _ hk
  dsimp only
  generalize hf : CandidateFilter.filterCandidates ch.pick options (successRate s) r = filtered
  refine ⟨filtered.map Candidate.exercise, ch.sample (relearnCount options) (cleanPile e s.pile),
    ?_, ?_, ?_, (hch.sample _ _).1, (hch.sample _ _).2, ?_, ?_⟩
  · refine ((Shuffler.shuffle_spec ch.le hch.order ch.shuffle hch.shuffle ch.draw e.opts _).1.map _).trans ?_
    rw [List.map_append]
    refine List.Perm.append_left _ (List.Perm.of_eq ?_)
    unfold relearnCandidates
    rw [List.filter_map, List.map_map]
    have : (Candidate.exercise ∘ fun x => ({ exercise := x, lesson := e.dflt, course := e.dflt } : Candidate ι))
        = id := rfl
    rw [this, List.map_id]
    apply List.filter_congr
    intro x _
    simp only [Function.comp]
    congr 1
    rw [Bool.eq_iff_iff]
    simp [List.any_eq_true]
  · intro x hx
    rw [List.mem_map] at hx
    obtain ⟨c, hc, rfl⟩ := hx
    rw [← hf] at hc
    have := CandidateFilter.batch_from_candidates ch.pick hch.pick options _ r hs2.subset hc
    exact hs1.subset (List.mem_map_of_mem this)
  · intro hd hn
    rw [← hf]
    exact CandidateFilter.batch_no_duplicates ch.pick hch.pick options hd _ r hs2.subperm (hn.sublist hs1)
  · rw [List.length_map, ← hf]
    exact CandidateFilter.batch_size_bound ch.pick hch.pick options _ r
  · intro hd h10
    rw [List.length_map, ← hf]
    exact CandidateFilter.batch_size_default ch.pick hch.pick options hd h10 _ r

/-- What a successful call does. -/
theorem getBatch_ok {e : Env ι} {options : SchedulerOptions} {ch : Choices ι} (hch : IsChoices ch)
    {fuel : Nat} {entries : List ι} {s s' : Session ι} {f : Option (UnitFilter ι)} {xs : List ι}
    (h : getBatch e options ch fuel entries s f = some (s', some xs)) :
    ∃ cs main sampled, initialCandidates e ch.rnds fuel entries f = some (some cs) ∧
      Shape e options s cs xs main sampled ∧ (∀ x ∈ xs, e.hasExercise x = true) ∧
      s' = { s with pile := cleanPile e s.pile, freq := countBatch s.freq xs } := by
  unfold getBatch at h
  split at h
  · cases h
  · cases h
  · rename_i cs hcs
    rw [Option.map_eq_some_iff] at h
    obtain ⟨final, hf, h⟩ := h
    dsimp only at h
    split at h
    · rename_i hall
      simp only [Prod.mk.injEq, Option.some.injEq] at h
      obtain ⟨h1, rfl⟩ := h
      obtain ⟨main, sampled, hs⟩ := final_shape hch hf
      exact ⟨cs, main, sampled, hcs, hs, List.all_eq_true.1 hall, h1.symm⟩
    · cases h

/-- What a failing call does. -/
theorem getBatch_err {e : Env ι} {options : SchedulerOptions} {ch : Choices ι} (hch : IsChoices ch)
    {fuel : Nat} {entries : List ι} {s s' : Session ι} {f : Option (UnitFilter ι)}
    (h : getBatch e options ch fuel entries s f = some (s', none)) :
    (initialCandidates e ch.rnds fuel entries f = some none ∧ s' = s) ∨
    ∃ cs xs main sampled, initialCandidates e ch.rnds fuel entries f = some (some cs) ∧
      Shape e options s cs xs main sampled ∧ (∃ x ∈ xs, e.hasExercise x = false) ∧
      s' = { s with pile := cleanPile e s.pile } := by
  unfold getBatch at h
  split at h
  · cases h
  · rename_i hcs
    cases h
    exact Or.inl ⟨hcs, rfl⟩
  · rename_i cs hcs
    rw [Option.map_eq_some_iff] at h
    obtain ⟨final, hf, h⟩ := h
    dsimp only at h
    split at h
    · cases h
    · rename_i hall
      simp only [Prod.mk.injEq, and_true] at h
      obtain ⟨main, sampled, hs⟩ := final_shape hch hf
      refine Or.inr ⟨cs, _, main, sampled, hcs, hs, ?_, h.symm⟩
      rw [Bool.not_eq_true, List.all_eq_false] at hall
      simpa using hall

theorem filter_nonempty {ch : Choices ι} (hch : IsChoices ch) (options : SchedulerOptions) (rate : ℚ)
    (r : Knocker.Result ι) (c : Candidate ι) (hc : c ∈ r.candidates)
    (hw : ∃ w ∈ options.windows, w.inWindow c.score = true) (hh : r.highlyEncompassed ⊆ r.candidates) :
    CandidateFilter.filterCandidates ch.pick options rate r ≠ [] := by
  by_cases hx : r.highlyEncompassed = []
  · obtain ⟨w, hw, hs⟩ := hw
    obtain ⟨c', hc', -⟩ := CandidateFilter.batch_represents_windows ch.pick hch.pick options rate r w hw c hc hs
      (by simp [CandidateFilter.ids, hx])
    exact List.ne_nil_of_mem hc'
  · intro h0
    unfold CandidateFilter.filterCandidates at h0
    obtain ⟨x1, x2, x3, x4, x5, he, -⟩ := CandidateFilter.fill_shape ch.pick hch.pick (adjusted options rate)
      (CandidateFilter.dynamicBatchSize (adjusted options rate).batchSize r.candidates.length) r
    rw [he] at h0
    simp only [List.append_eq_nil_iff] at h0
    have h1 := h0.1.1.1.1.1.1.1.1.1
    have hl := (CandidateFilter.select_fst (pick := ch.pick 0) (fun n cs hn => hch.pick 0 n cs hn)
      (CandidateFilter.inWindow r.candidates (CandidateFilter.ids r.highlyEncompassed)
        (adjusted options rate).masteredWindow ++ r.highlyEncompassed)
      (CandidateFilter.quota (CandidateFilter.dynamicBatchSize (adjusted options rate).batchSize
        r.candidates.length) (adjusted options rate).masteredWindow)).2
    rw [h1] at hl
    have hq := CandidateFilter.quota_pos (CandidateFilter.dynamicBatchSize (adjusted options rate).batchSize
        r.candidates.length) (adjusted options rate).masteredWindow
    have hp : 0 < r.highlyEncompassed.length := List.length_pos_of_ne_nil hx
    simp only [List.length_nil, List.length_append] at hl
    omega

section
variable {e : Env ι} {options : SchedulerOptions} {s : Session ι} {cs : List (Candidate ι)}
  {xs main sampled : List ι}

theorem shape_nodup (h : Shape e options s cs xs main sampled) (hd : Disjoint options) (hp : s.pile.Nodup)
    (hn : (cs.map Candidate.exercise).Nodup) : xs.Nodup := by
  rw [h.perm.nodup_iff, List.nodup_append]
  refine ⟨h.nodup hd hn, (nodup_of_subperm h.pile (hp.filter _)).filter _, ?_⟩
  intro a ha b hb hab
  subst hab
  rw [List.mem_filter] at hb
  simp [ha] at hb

theorem shape_mem (h : Shape e options s cs xs main sampled) {x : ι} (hx : x ∈ xs) :
    (∃ c ∈ cs, c.exercise = x) ∨ x ∈ cleanPile e s.pile := by
  rw [h.perm.mem_iff, List.mem_append, List.mem_filter] at hx
  rcases hx with hx | ⟨hx, -⟩
  · exact Or.inl (List.mem_map.1 (h.sub hx))
  · exact Or.inr (h.pile.subset hx)

theorem shape_length (h : Shape e options s cs xs main sampled) :
    xs.length ≤ main.length + relearnCount options := by
  rw [h.perm.length_eq, List.length_append]
  have h1 := List.length_filter_le (fun x => !decide (x ∈ main)) sampled
  have h2 := h.count
  omega

end

theorem candidate_known {e : Env ι} (he : Sane e) {rnds : Nat → Rnd} (hr : ∀ i, IsRnd (rnds i)) {fuel : Nat}
    {entries : List ι} {f : Option (UnitFilter ι)} {cs : List (Candidate ι)}
    (h : initialCandidates e rnds fuel entries f = some (some cs)) :
    ∀ c ∈ cs, e.graph.getUnitType c.exercise = some .exercise := by
  intro c hc
  rcases sound_of_initial he hr h c hc with hs | ⟨-, -, ht⟩
  · exact (he.wf.tyE _ _ ((he.wf.exercise _ _).1 hs.offered.1)).1
  · exact ht

theorem review_candidate_units {e : Env ι} (he : Sane e) {rnds : Nat → Rnd} (hr : ∀ i, IsRnd (rnds i))
    {fuel : Nat} {entries : List ι} {f : Option (UnitFilter ι)} {cs : List (Candidate ι)}
    (h : initialCandidates e rnds fuel entries f = some (some cs)) :
    ∀ c ∈ cs, c.exercise ∉ entries →
      e.graph.getExerciseLesson c.exercise = some c.lesson ∧ e.graph.getLessonCourse c.lesson = some c.course := by
  intro c hc hne
  rcases sound_of_initial he hr h c hc with hs | ⟨-, hm, -⟩
  · have h1 := (he.wf.exercise _ _).1 hs.offered.1
    refine ⟨h1, ?_⟩
    obtain ⟨k, hk⟩ := he.lessonHasCourse c.lesson (he.wf.tyE _ _ h1).2
    rw [hs.fields.course, Env.courseOf, hk]
    rfl
  · exact absurd hm hne

theorem searchOf_isSome_of_ne {e : Env ι} {f : Option (UnitFilter ι)} (h1 : ∀ ids, f ≠ some (.lessons ids))
    (h2 : f ≠ some .reviewList) : ∃ p, SearchOf e f = some p := by
  rcases searchOf_cases e f with h | ⟨ids, h⟩ | h
  · exact h
  · exact absurd h (h1 ids)
  · exact absurd h h2

/-- A candidate with a score below 4.5 is never knocked out. -/
theorem knock_keeps {g : Graph ι} {fuel : Nat} {starts starts' : List ι} {cs : List (Candidate ι)}
    {r : Knocker.Result ι} (h : Knocker.knockOut g fuel starts starts' cs = some r) {c : Candidate ι}
    (hc : c ∈ cs) (hs : c.score < 9 / 2) : ∃ c' ∈ r.candidates, c'.exercise = c.exercise ∧ c'.score = c.score := by
  unfold Knocker.knockOut at h
  rw [Option.bind_eq_some_iff] at h
  obtain ⟨m1, -, h⟩ := h
  rw [Option.map_eq_some_iff] at h
  obtain ⟨m2, -, rfl⟩ := h
  dsimp only
  unfold Knocker.removeVeryHighly
  refine ⟨{ c with encompasses := (m2.find c.exercise).getD 0, encompassed := (m1.find c.exercise).getD 0 },
    List.mem_filter.2 ⟨List.mem_map_of_mem (f := fun c => { c with
      encompasses := (m2.find c.exercise).getD 0, encompassed := (m1.find c.exercise).getD 0 }) hc, ?_⟩, rfl, rfl⟩
  simp [Knocker.veryHighlyScore, not_le.2 hs]

theorem final_nonempty {e : Env ι} {options : SchedulerOptions} {ch : Choices ι} (hch : IsChoices ch)
    {fuel : Nat} {s : Session ι} {cs final : List (Candidate ι)}
    (h : finalCandidates e options ch fuel s cs = some final) {c : Candidate ι} (hc : c ∈ cs)
    (hs : c.score < 9 / 2) (hw : ∃ w ∈ options.windows, w.inWindow c.score = true) : final ≠ [] := by
  unfold finalCandidates at h
  rw [Option.map_eq_some_iff] at h
  obtain ⟨r, hk, rfl⟩ := h
  dsimp only
  obtain ⟨c', hc', -, hsc⟩ := knock_keeps hk hc hs
  obtain ⟨-, hs2⟩ := Knocker.knock_out_sublist _ _ _ _ _ _ hk
  have hne := filter_nonempty hch options (successRate s) r c' hc' (by rw [hsc]; exact hw) hs2.subset
  intro h0
  have hp := (Shuffler.shuffle_spec ch.le hch.order ch.shuffle hch.shuffle ch.draw e.opts
    (CandidateFilter.filterCandidates ch.pick options (successRate s) r ++
      (relearnCandidates e options ch.sample (cleanPile e s.pile)).filter (fun c =>
        !(CandidateFilter.filterCandidates ch.pick options (successRate s) r).any
          (fun c' => decide (c'.exercise = c.exercise))))).1
  rw [h0] at hp
  have := List.Perm.eq_nil hp.symm
  rw [List.append_eq_nil_iff] at this
  exact hne this.1

theorem traverse_succ {g : Graph ι} {reverse : Bool} (n : Nat) :
    ∀ (st : List (Knocker.Item ι)) (vis : List ι) (m : AMap ι ℚ) (r : List ι × AMap ι ℚ),
      Knocker.traverse g reverse n st vis m = some r → Knocker.traverse g reverse (n + 1) st vis m = some r := by
  induction n with
  | zero =>
    intro st vis m r h
    cases st with
    | nil => rw [Knocker.traverse] at h ⊢; exact h
    | cons i st => rw [Knocker.traverse] at h; cases h
  | succ n ih =>
    intro st vis m r h
    cases st with
    | nil => rw [Knocker.traverse] at h ⊢; exact h
    | cons i st =>
      rw [Knocker.traverse] at h ⊢
      split at h
      · rename_i hv; rw [if_pos hv]; exact ih _ _ _ _ h
      · rename_i hv; rw [if_neg hv]; exact ih _ _ _ _ h

theorem unitWeights_succ {g : Graph ι} {reverse : Bool} (n : Nat) : ∀ (starts : List ι) (m r : AMap ι ℚ),
    Knocker.unitWeights g reverse n starts m = some r →
    Knocker.unitWeights g reverse (n + 1) starts m = some r := by
  intro starts
  induction starts with
  | nil => intro m r h; exact h
  | cons a rest ih =>
    intro m r h
    rw [Knocker.unitWeights, Option.bind_eq_some_iff] at h ⊢
    obtain ⟨x, h1, h2⟩ := h
    exact ⟨x, traverse_succ n _ _ _ _ h1, ih _ _ h2⟩

theorem knockOut_succ {g : Graph ι} (starts starts' : List ι) (cs : List (Candidate ι)) (n : Nat)
    (r : Knocker.Result ι) (h : Knocker.knockOut g n starts starts' cs = some r) :
    Knocker.knockOut g (n + 1) starts starts' cs = some r := by
  unfold Knocker.knockOut Knocker.encompassingMap at h ⊢
  rw [Option.bind_eq_some_iff] at h
  obtain ⟨m1, h1, h⟩ := h
  rw [Option.map_eq_some_iff] at h1 h
  obtain ⟨w1, h1, rfl⟩ := h1
  obtain ⟨m2, h2, rfl⟩ := h
  rw [Option.map_eq_some_iff] at h2
  obtain ⟨w2, h2, rfl⟩ := h2
  rw [unitWeights_succ n _ _ _ h1, unitWeights_succ n _ _ _ h2]
  rfl

theorem lessonAverage_exists {e : Env ι} (he : Sane e) (l : ι) {x : ι} (hx : Offers e l x) :
    ∃ a, LessonAverage e l a := by
  obtain ⟨xs, h1, h2, -⟩ := lessonSize_valid he l
  exact ⟨_, xs, List.ne_nil_of_mem ((h2 x).2 hx), h1, h2, rfl⟩

theorem disjoint_of_ordered {o : SchedulerOptions} (h : OrderedWindows o) : Disjoint o := by
  intro s
  by_cases h0 : 0 ≤ s
  · by_cases h5 : s ≤ 5
    · exact (one_window_partial o h s h0 h5).le
    · obtain ⟨h1, h2, h3, h4, h6, h7, h8, h9, h10, h11, h12⟩ := h
      have key : ∀ w ∈ [o.newWindow, o.targetWindow, o.currentWindow, o.easyWindow],
          w.inWindow s = false := by
        intro w hw
        have hh : w.hi < 5 := by
          simp only [List.mem_cons, List.not_mem_nil, or_false] at hw
          rcases hw with rfl | rfl | rfl | rfl <;> linarith
        unfold MasteryWindow.inWindow
        rw [if_neg (fun h => absurd h.1 (not_le.2 hh))]
        simp only [Bool.and_eq_false_iff, decide_eq_false_iff_not]
        right
        linarith
      simp only [SchedulerOptions.windows]
      have a := key o.newWindow (by simp)
      have b := key o.targetWindow (by simp)
      have c := key o.currentWindow (by simp)
      have d := key o.easyWindow (by simp)
      simp [List.countP_cons, a, b, c, d]
      split <;> simp
  · obtain ⟨h1, h2, h3, h4, h6, h7, h8, h9, h10, h11, h12⟩ := h
    have key : ∀ w ∈ o.windows, w.inWindow s = false := by
      intro w hw
      have hh : 0 ≤ w.lo := by
        simp only [SchedulerOptions.windows, List.mem_cons, List.not_mem_nil, or_false] at hw
        rcases hw with rfl | rfl | rfl | rfl | rfl <;> linarith
      unfold MasteryWindow.inWindow
      rw [if_neg (fun h => by linarith [h.2])]
      simp only [Bool.and_eq_false_iff, decide_eq_false_iff_not]
      left
      linarith
    have : o.windows.countP (fun w => w.inWindow s) = 0 := by
      rw [List.countP_eq_zero]
      intro w hw
      simp [key w hw]
    omega

end Trane.Batch
