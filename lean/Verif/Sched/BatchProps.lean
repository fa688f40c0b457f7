import Verif.Sched.BatchSample
import Verif.Graph.CycleProps

/-!
# Properties of the batch handed to the user

The batch is what `get_exercise_batch` returns.  C31, C32, C34 and C38 for the final batch, C41 for the
relearn pile, C64 for the counting of handed-out exercises, C65 for when a batch is not empty.
-/

namespace Trane.Batch
open Trane.Search
open Trane.Filters (UnitFilter KVFilter)
open Trane.Graph (CourseHasLesson LessonHasExercise)
open Trane.CandidateFilter (Disjoint quotas adjusted DefaultShares)

variable {ι : Type} [DecidableEq ι] {e : Env ι} {options : SchedulerOptions} {ch : Choices ι} {fuel : Nat}
  {entries : List ι} {s s' : Session ι} {f : Option (UnitFilter ι)} {xs : List ι}

/-- C30: asking for a batch always ends, with an outcome that does not depend on the fuel. -/
theorem batch_terminates (he : Sane e) (hch : IsChoices ch) {ops : List (Graph.Op ι)}
    (hg : e.graph = Graph.run ops) (options : SchedulerOptions) (entries : List ι) (s : Session ι)
    (f : Option (UnitFilter ι)) :
    ∃ r N, ∀ fuel ≥ N, getBatch e options ch fuel entries s f = some r := by
  obtain ⟨r, N, hN⟩ := search_terminates he hch.rnds entries f
  obtain ⟨N', hN'⟩ := Knocker.knock_out_terminates ops
  have hk : ∀ cs, ∃ r, ∀ fuel ≥ N', Knocker.knockOut e.graph fuel (ch.starts cs) (ch.starts' cs) cs = some r := by
    intro cs
    obtain ⟨r, hr⟩ := hN' N' le_rfl (ch.starts cs) (ch.starts' cs) cs
    refine ⟨r, fun fuel hf => ?_⟩
    rw [hg]
    exact const_of_succ (fun n => Knocker.knockOut (Graph.run ops) n (ch.starts cs) (ch.starts' cs) cs)
      (fun n r => knockOut_succ _ _ _ n r) hr fuel hf
  cases r with
  | none =>
    refine ⟨(s, none), N, fun fuel hf => ?_⟩
    unfold getBatch
    rw [hN fuel hf]
  | some cs =>
    obtain ⟨r, hr⟩ := hk cs
    have hfin : ∃ cs', ∀ fuel ≥ N', finalCandidates e options ch fuel s cs = some cs' := by
      have h1 : ∀ fuel ≥ N', finalCandidates e options ch fuel s cs = finalCandidates e options ch N' s cs := by
        intro fuel hf
        unfold finalCandidates
        rw [hr fuel hf, hr N' le_rfl]
      have h2 : (finalCandidates e options ch N' s cs).isSome = true := by
        unfold finalCandidates
        rw [hr N' le_rfl]
        rfl
      obtain ⟨cs', h3⟩ := Option.isSome_iff_exists.1 h2
      exact ⟨cs', fun fuel hf => (h1 fuel hf).trans h3⟩
    obtain ⟨cs', h3⟩ := hfin
    have h4 : ∀ fuel ≥ max N N', getBatch e options ch fuel entries s f =
        getBatch e options ch (max N N') entries s f := by
      intro fuel hf
      unfold getBatch
      rw [hN fuel (le_trans (le_max_left _ _) hf), hN _ (le_max_left _ _)]
      dsimp only
      rw [h3 fuel (le_trans (le_max_right _ _) hf), h3 _ (le_max_right _ _)]
    have h5 : (getBatch e options ch (max N N') entries s f).isSome = true := by
      unfold getBatch
      rw [hN _ (le_max_left _ _)]
      dsimp only
      rw [h3 _ (le_max_right _ _)]
      rfl
    obtain ⟨r', h6⟩ := Option.isSome_iff_exists.1 h5
    exact ⟨r', max N N', fun fuel hf => (h4 fuel hf).trans h6⟩

/-- C31: no exercise occurs twice in a batch, whatever the relearn pile adds, provided no score is in two
windows of the options; for all filters but the lessons filter and the review list. -/
theorem batch_distinct (he : Sane e) (hch : IsChoices ch) (hd : Disjoint options) (hp : s.pile.Nodup)
    (h : getBatch e options ch fuel entries s f = some (s', some xs)) {p} (hs : SearchOf e f = some p) :
    xs.Nodup := by
  obtain ⟨cs, main, sampled, hcs, hsh, -, -⟩ := getBatch_ok hch h
  refine shape_nodup hsh hd hp ?_
  exact candidates_distinct he hch.rnds hcs hs

/-- C31 for the lessons filter, provided it does not list a lesson twice.  Missing for the full claim: the
filter with repeated lessons and the review list with overlapping entries, for which it is false
(`batch_repeats`). -/
theorem batch_distinct_partial (he : Sane e) (hch : IsChoices ch) (hd : Disjoint options) (hp : s.pile.Nodup)
    {ids : List ι} (hn : ids.Nodup)
    (h : getBatch e options ch fuel entries s (some (.lessons ids)) = some (s', some xs)) : xs.Nodup := by
  obtain ⟨cs, main, sampled, hcs, hsh, -, -⟩ := getBatch_ok hch h
  exact shape_nodup hsh hd hp (candidates_distinct_partial he hch.rnds hn hcs)

/-- C32: with any filter but the review list, no exercise of a batch is blacklisted, directly or with its
lesson or course. -/
theorem batch_not_blacklisted (he : Sane e) (hch : IsChoices ch)
    (h : getBatch e options ch fuel entries s f = some (s', some xs)) (hf : f ≠ some .reviewList) :
    ∀ x ∈ xs, ¬ Blacklisted e x := by
  obtain ⟨cs, main, sampled, hcs, hsh, -, -⟩ := getBatch_ok hch h
  intro x hx
  rcases shape_mem hsh hx with ⟨c, hc, rfl⟩ | hx
  · obtain ⟨h1, h2, h3, h4, h5⟩ := candidates_not_blacklisted he hch.rnds hcs hf c hc
    rintro (hb | ⟨l, hl, hb | ⟨k, hk, hb⟩⟩)
    · exact absurd (h1.symm.trans hb) (by simp)
    · have : l = c.lesson := Option.some.inj (hl.symm.trans h4)
      subst this
      exact absurd (h2.symm.trans hb) (by simp)
    · have : l = c.lesson := Option.some.inj (hl.symm.trans h4)
      subst this
      have : k = c.course := Option.some.inj (hk.symm.trans h5)
      subst this
      exact absurd (h3.symm.trans hb) (by simp)
  · exact (mem_cleanPile he).1 hx |>.2

/-- C32 for the review list: an exercise of a batch is blacklisted, directly or with its lesson or course, only
if it is listed for review itself.  Missing for the full claim: those exercises, for which it is false
(`review_list_ignores_blacklist`). -/
theorem batch_not_blacklisted_partial (he : Sane e) (hch : IsChoices ch)
    (h : getBatch e options ch fuel entries s f = some (s', some xs)) :
    ∀ x ∈ xs, x ∉ entries → ¬ Blacklisted e x := by
  by_cases hf : f = some .reviewList
  · subst hf
    obtain ⟨cs, main, sampled, hcs, hsh, -, -⟩ := getBatch_ok hch h
    intro x hx hne
    rcases shape_mem hsh hx with ⟨c, hc, rfl⟩ | hx
    · obtain ⟨h1, h2, h3⟩ := candidates_not_blacklisted_partial he hch.rnds hcs c hc hne
      obtain ⟨h4, h5⟩ := review_candidate_units he hch.rnds hcs c hc hne
      rintro (hb | ⟨l, hl, hb | ⟨k, hk, hb⟩⟩)
      · exact absurd (h1.symm.trans hb) (by simp)
      · have : l = c.lesson := Option.some.inj (hl.symm.trans h4)
        subst this
        exact absurd (h2.symm.trans hb) (by simp)
      · have : l = c.lesson := Option.some.inj (hl.symm.trans h4)
        subst this
        have : k = c.course := Option.some.inj (hk.symm.trans h5)
        subst this
        exact absurd (h3.symm.trans hb) (by simp)
    · exact (mem_cleanPile he).1 hx |>.2
  · exact fun x hx _ => batch_not_blacklisted he hch h hf x hx

/-- C34: with a course filter every exercise of the batch belongs to a course asked for or is being
relearned. -/
theorem batch_course_scope (he : Sane e) (hch : IsChoices ch) {ids : List ι}
    (h : getBatch e options ch fuel entries s (some (.courses ids)) = some (s', some xs)) :
    ∀ x ∈ xs, (∃ l, LessonHasExercise e.graph l x ∧ ∃ k ∈ ids, CourseHasLesson e.graph k l) ∨ x ∈ s.pile := by
  obtain ⟨cs, main, sampled, hcs, hsh, -, -⟩ := getBatch_ok hch h
  intro x hx
  rcases shape_mem hsh hx with ⟨c, hc, rfl⟩ | hx
  · obtain ⟨k, hk, h1, -⟩ := course_filter_scope he hch.rnds hcs c hc
    obtain ⟨-, -, -, h4, -⟩ := candidates_not_blacklisted he hch.rnds hcs (by simp) c hc
    exact Or.inl ⟨c.lesson, (he.wf.exercise _ _).2 h4, k, hk, (he.wf.lesson _ _).2 h1⟩
  · exact Or.inr ((mem_cleanPile he).1 hx).1

/-- C34: with a lesson filter every exercise of the batch belongs to a lesson asked for or is being
relearned. -/
theorem batch_lesson_scope (he : Sane e) (hch : IsChoices ch) {ids : List ι}
    (h : getBatch e options ch fuel entries s (some (.lessons ids)) = some (s', some xs)) :
    ∀ x ∈ xs, (∃ l ∈ ids, LessonHasExercise e.graph l x) ∨ x ∈ s.pile := by
  obtain ⟨cs, main, sampled, hcs, hsh, -, -⟩ := getBatch_ok hch h
  intro x hx
  rcases shape_mem hsh hx with ⟨c, hc, rfl⟩ | hx
  · obtain ⟨h1, h2⟩ := lesson_filter_scope he hch.rnds hcs c hc
    exact Or.inl ⟨c.lesson, h1, (he.wf.exercise _ _).2 h2⟩
  · exact Or.inr ((mem_cleanPile he).1 hx).1

/-- C34: with a metadata filter every exercise of the batch belongs to a lesson that the filter accepts or is
being relearned. -/
theorem batch_metadata_scope (he : Sane e) (hch : IsChoices ch) {kv : KVFilter}
    (h : getBatch e options ch fuel entries s (some (.metadata kv)) = some (s', some xs)) :
    ∀ x ∈ xs, (∃ l k cm lm, LessonHasExercise e.graph l x ∧ CourseHasLesson e.graph k l ∧
      e.courseMeta k = some cm ∧ e.lessonMeta l = some lm ∧ kv.applyToLesson cm lm = true) ∨ x ∈ s.pile := by
  obtain ⟨cs, main, sampled, hcs, hsh, -, -⟩ := getBatch_ok hch h
  intro x hx
  rcases shape_mem hsh hx with ⟨c, hc, rfl⟩ | hx
  · obtain ⟨k, cm, lm, h1, h2, h3, h4⟩ := metadata_filter_scope he hch.rnds hcs c hc
    obtain ⟨-, -, -, h5, -⟩ := candidates_not_blacklisted he hch.rnds hcs (by simp) c hc
    exact Or.inl ⟨c.lesson, k, cm, lm, (he.wf.exercise _ _).2 h5, (he.wf.lesson _ _).2 h1, h2, h3, h4⟩
  · exact Or.inr ((mem_cleanPile he).1 hx).1

/-- C34: with the review list every exercise of the batch is listed, belongs to a listed lesson or course, or
is being relearned. -/
theorem batch_review_scope (he : Sane e) (hch : IsChoices ch)
    (h : getBatch e options ch fuel entries s (some .reviewList) = some (s', some xs)) :
    ∀ x ∈ xs, x ∈ entries ∨ (∃ l, LessonHasExercise e.graph l x ∧
      (l ∈ entries ∨ ∃ k ∈ entries, CourseHasLesson e.graph k l)) ∨ x ∈ s.pile := by
  obtain ⟨cs, main, sampled, hcs, hsh, -, -⟩ := getBatch_ok hch h
  intro x hx
  rcases shape_mem hsh hx with ⟨c, hc, rfl⟩ | hx
  · rcases review_list_scope he hch.rnds hcs c hc with h1 | ⟨h1, h2⟩
    · exact Or.inl h1
    · refine Or.inr (Or.inl ⟨c.lesson, (he.wf.exercise _ _).2 h1, ?_⟩)
      rcases h2 with h2 | ⟨k, hk, h2⟩
      · exact Or.inl h2
      · exact Or.inr ⟨k, hk, (he.wf.lesson _ _).2 h2⟩
  · exact Or.inr (Or.inr ((mem_cleanPile he).1 hx).1)

/-- C33 for the batch: without a filter, or with a metadata filter, every exercise of the batch belongs to a
lesson all of whose dependencies are met, or is being relearned. -/
theorem batch_unlocked (he : Sane e) (hch : IsChoices ch) (mf : Option KVFilter)
    (h : getBatch e options ch fuel entries s (mf.map .metadata) = some (s', some xs)) :
    ∀ x ∈ xs, (∃ l, LessonHasExercise e.graph l x ∧ Unlocked e mf l) ∨ x ∈ s.pile := by
  obtain ⟨cs, main, sampled, hcs, hsh, -, -⟩ := getBatch_ok hch h
  intro x hx
  rcases shape_mem hsh hx with ⟨c, hc, rfl⟩ | hx
  · have h1 := candidates_unlocked he hch.rnds mf hcs c hc
    obtain ⟨-, -, -, h5, -⟩ := candidates_not_blacklisted he hch.rnds hcs
      (by cases mf <;> simp) c hc
    exact Or.inl ⟨c.lesson, (he.wf.exercise _ _).2 h5, h1⟩
  · exact Or.inr ((mem_cleanPile he).1 hx).1

/-- C38: everything in a batch is an exercise of the library. -/
theorem batch_known (he : Sane e) (hch : IsChoices ch)
    (h : getBatch e options ch fuel entries s f = some (s', some xs)) :
    ∀ x ∈ xs, e.graph.getUnitType x = some .exercise := by
  obtain ⟨cs, main, sampled, hcs, hsh, hall, -⟩ := getBatch_ok hch h
  exact fun x hx => (he.exercise x).2 (hall x hx)

/-- C38: the size of the batch is bounded by the larger of its target size and the window quotas, plus the
share reserved for relearning. -/
theorem batch_size (hch : IsChoices ch)
    (h : getBatch e options ch fuel entries s f = some (s', some xs)) :
    ∃ n, n ≤ options.batchSize ∧ (10 ≤ options.batchSize → 10 ≤ n) ∧
      (options.batchSize < 10 → n = options.batchSize) ∧
      xs.length ≤ max n (quotas n (adjusted options (successRate s))) +
        ⌊(options.batchSize : ℚ) * options.relearnFraction⌋₊ := by
  obtain ⟨cs, main, sampled, hcs, hsh, -, -⟩ := getBatch_ok hch h
  obtain ⟨n, h1, h2, h3, h4⟩ := hsh.bound
  exact ⟨n, h1, h2, h3, le_trans (shape_length hsh) (Nat.add_le_add_right h4 _)⟩

/-- C38: with the default shares and a batch size of at least 10, the batch is at most the configured size
plus the share reserved for relearning. -/
theorem batch_size_default_relearn (hch : IsChoices ch) (hd : DefaultShares options)
    (h10 : 10 ≤ options.batchSize)
    (h : getBatch e options ch fuel entries s f = some (s', some xs)) :
    xs.length ≤ options.batchSize + ⌊(options.batchSize : ℚ) * options.relearnFraction⌋₊ := by
  obtain ⟨cs, main, sampled, hcs, hsh, -, -⟩ := getBatch_ok hch h
  exact le_trans (shape_length hsh) (Nat.add_le_add_right (hsh.default hd h10) _)

/-- C41: of the pile, as many exercises are in the batch as the relearn share asks for, or all of them if there
are fewer. -/
theorem relearned_included (he : Sane e) (hch : IsChoices ch) (hp : s.pile.Nodup)
    (h : getBatch e options ch fuel entries s f = some (s', some xs)) :
    ∃ ys : List ι, ys.Nodup ∧ (∀ y ∈ ys, y ∈ xs ∧ y ∈ s.pile ∧ ¬ Blacklisted e y) ∧
      ∀ zs : List ι, zs.Nodup → (∀ z ∈ zs, z ∈ s.pile ∧ ¬ Blacklisted e z) →
        min ⌊(options.batchSize : ℚ) * options.relearnFraction⌋₊ zs.length ≤ ys.length := by
  obtain ⟨cs, main, sampled, hcs, hsh, -, -⟩ := getBatch_ok hch h
  have hcn : (cleanPile e s.pile).Nodup := hp.filter _
  refine ⟨sampled, (nodup_of_subperm hsh.pile hcn), fun y hy => ⟨?_, ?_⟩, fun zs hz hzs => ?_⟩
  · rw [hsh.perm.mem_iff, List.mem_append, List.mem_filter]
    by_cases hm : y ∈ main
    · exact Or.inl hm
    · exact Or.inr ⟨hy, by simp [hm]⟩
  · exact (mem_cleanPile he).1 (hsh.pile.subset hy)
  · rw [hsh.count]
    refine min_le_min_left _ ?_
    exact (hz.subperm (fun z hzz => (mem_cleanPile he).2 (hzs z hzz))).length_le

/-- C41: a call leaves the pile as it was, except that blacklisted exercises are dropped. -/
theorem pile_after_batch (he : Sane e) (hch : IsChoices ch) {r : Option (List ι)}
    (h : getBatch e options ch fuel entries s f = some (s', r)) :
    (r ≠ none → ∀ x, x ∈ s'.pile ↔ x ∈ s.pile ∧ ¬ Blacklisted e x) ∧
    (r = none → (∀ x, x ∈ s'.pile ↔ x ∈ s.pile) ∨ ∀ x, x ∈ s'.pile ↔ x ∈ s.pile ∧ ¬ Blacklisted e x) ∧
    s'.pile.Sublist s.pile ∧ s'.passed = s.passed ∧ s'.failed = s.failed := by
  cases r with
  | some xs =>
    obtain ⟨cs, main, sampled, hcs, hsh, -, rfl⟩ := getBatch_ok hch h
    exact ⟨fun _ x => mem_cleanPile he, fun h => (by cases h), List.filter_sublist, rfl, rfl⟩
  | none =>
    rcases getBatch_err hch h with ⟨-, rfl⟩ | ⟨_, _, _, _, -, -, -, rfl⟩
    · exact ⟨fun h => absurd rfl h, fun _ => Or.inl (fun _ => Iff.rfl), List.Sublist.refl _, rfl, rfl⟩
    · exact ⟨fun h => absurd rfl h, fun _ => Or.inr (fun x => mem_cleanPile he), List.filter_sublist, rfl, rfl⟩

/-- C64: a batch counts each of its exercises once more as handed out, and nothing else; a failing call counts
nothing. -/
theorem batch_counted (hch : IsChoices ch) {r : Option (List ι)}
    (h : getBatch e options ch fuel entries s f = some (s', r)) (x : ι) :
    (s'.freq.find x).getD 0 = (s.freq.find x).getD 0 + (r.getD []).count x := by
  cases r with
  | some xs =>
    obtain ⟨cs, main, sampled, hcs, hsh, -, rfl⟩ := getBatch_ok hch h
    exact find_countBatch _ _ _
  | none =>
    rcases getBatch_err hch h with ⟨-, rfl⟩ | ⟨_, _, _, _, -, -, -, rfl⟩ <;> simp

/-- When a call fails: a value of an offered exercise or of an exercise listed for review cannot be computed,
the review list contains an unknown unit, or the relearn pile contains an id that is not an exercise. -/
theorem batch_error (he : Sane e) (hch : IsChoices ch)
    (h : getBatch e options ch fuel entries s f = some (s', none)) :
    (∃ x, (e.score x = none ∨ e.urgency x = none ∨ e.velocity x = none) ∧
      ((∃ l, Offers e l x) ∨ (f = some .reviewList ∧ x ∈ entries))) ∨
    (f = some .reviewList ∧ ∃ u ∈ entries, ¬ Graph.Known e.graph u) ∨
    ∃ x ∈ s.pile, e.graph.getUnitType x ≠ some .exercise := by
  rcases getBatch_err hch h with ⟨hn, -⟩ | ⟨cs, xs, main, sampled, hcs, hsh, ⟨x, hx, hex⟩, -⟩
  · rcases search_error he hch.rnds hn with h1 | h1
    · exact Or.inl h1
    · exact Or.inr (Or.inl h1)
  · right; right
    have hne : e.graph.getUnitType x ≠ some .exercise := fun ht => by
      have := (he.exercise x).1 ht
      rw [hex] at this
      cases this
    rcases shape_mem hsh hx with ⟨c, hc, rfl⟩ | hx
    · exact absurd (candidate_known he hch.rnds hcs c hc) hne
    · exact ⟨x, ((mem_cleanPile he).1 hx).1, hne⟩

/-- C65: the batch is not empty if some lesson can be reached that is not left out and offers an exercise, and
the exercises that the library offers have scores from 0 up to, but not including, 4.5 (none counts as 0).
(Exercises with better scores can all be knocked out: `all_knocked_out`.)  The options must be valid, with a
positive fraction of exercises at the passing score. -/
theorem batch_nonempty_partial (he : Sane e) (hch : IsChoices ch) (ho : OrderedWindows options)
    (h : getBatch e options ch fuel entries s f = some (s', some xs)) {mf sc init}
    (hs : SearchOf e f = some (mf, sc, init))
    (hids : ∀ ids, f = some (.courses ids) → ∀ u ∈ ids, ¬ IsLesson e u)
    (hf0 : 0 < e.opts.passing.minFraction) (hf1 : e.opts.passing.minFraction ≤ 1)
    (hb : 0 < e.opts.batchSize) (hm : 0 < e.opts.maxLessonsInProgress)
    (hscore : ∀ l x v, Offers e l x → e.score x = some (some v) → 0 ≤ v ∧ v < 9 / 2)
    {l x : ι} (hrl : Reached e mf sc init l) (hsc : InScope e sc l)
    (hsk : ¬ LessonSkipped e mf l) (hx : Offers e l x) : xs ≠ [] := by
  have h' := h
  unfold getBatch at h'
  split at h'
  · cases h'
  · cases h'
  rename_i cs hcs
  rw [Option.map_eq_some_iff] at h'
  obtain ⟨final, hfin, h'⟩ := h'
  dsimp only at h'
  split at h'
  swap
  · cases h'
  simp only [Prod.mk.injEq, Option.some.injEq] at h'
  obtain ⟨-, rfl⟩ := h'
  have hne : cs ≠ [] := by
    by_cases hlim : cs.length < 10 * e.opts.batchSize
    · have hl : IsLesson e l := (he.wf.tyE _ _ ((he.wf.exercise _ _).1 hx.1)).2
      have hsz := lessonSize_valid he l
      have hpos : 0 < (e.validInLesson l).length := List.length_pos_of_mem ((mem_validInLesson he l x).2 hx)
      obtain ⟨a, ha⟩ := lessonAverage_exists he l hx
      rcases search_complete he hch.rnds hcs hs hids hf0.le hf1 hlim hl hrl hsc hsk hsz hpos ha with h1 | h1
      · have := (share_lower e.opts.passing hf0.le hf1 a hpos).2 hf0
        rw [← h1] at this
        rintro rfl
        simp at this
      · obtain ⟨-, -, ls, -, hlen, hls⟩ := h1
        rintro rfl
        cases ls with
        | nil => simp at hlen; omega
        | cons l' ls => obtain ⟨⟨c, hc, -⟩, -⟩ := hls l' (by simp); simp at hc
    · rintro rfl
      simp at hlim
      omega
  obtain ⟨c, hc⟩ := List.exists_mem_of_ne_nil _ hne
  obtain ⟨vis0, st, q, hR, -⟩ := ran he hch.rnds hcs hs
  have hsd := sound_of_ran hR c hc
  have hsc : 0 ≤ c.score ∧ c.score < 9 / 2 := by
    rcases hsd.fields.score with h1 | ⟨-, h1⟩
    · exact hscore _ _ _ hsd.offered h1
    · rw [h1]; norm_num
  have hw : ∃ w ∈ options.windows, w.inWindow c.score = true := by
    have := one_window_partial options ho c.score hsc.1 (by linarith)
    have hp : 0 < options.windows.countP (fun w => w.inWindow c.score) := by omega
    rw [List.countP_pos_iff] at hp
    exact hp
  intro h0
  exact final_nonempty hch hfin hc hsc.2 hw (List.map_eq_nil_iff.1 h0)

/-! ### Where the claims fail -/

/-- C31: false for a lessons filter that names a lesson twice and for a review list that names an exercise
together with its lesson. -/
theorem batch_repeats :
    (∃ s' xs, getBatch fresh .default firstChoices 60 [] {} (some (.lessons [30, 30])) = some (s', some xs) ∧
      ¬ xs.Nodup) ∧
    ∃ s' xs, getBatch fresh .default firstChoices 60 [30, 300] {} (some .reviewList) = some (s', some xs) ∧
      ¬ xs.Nodup := by
  have h : ∀ entries f, drafted fresh .default 60 entries {} f = some [300, 300] →
      ∃ s' xs, getBatch fresh .default firstChoices 60 entries {} f = some (s', some xs) ∧ ¬ xs.Nodup := by
    intro entries f h
    obtain ⟨xs, hp, hg⟩ := getBatch_drafted h
    rw [if_pos (by decide +kernel)] at hg
    exact ⟨_, xs, hg, fun hn => absurd (hp.nodup_iff.1 hn) (by decide)⟩
  exact ⟨h _ _ (by decide +kernel), h _ _ (by decide +kernel)⟩

/-- C34: exercises being relearned are added whatever the filter: with a filter for course 1 only, the batch
contains exercise 300 of course 3. -/
theorem relearn_ignores_filter : ∃ s' xs, getBatch fresh .default firstChoices 60 [] { pile := [300] }
    (some (.courses [1])) = some (s', some xs) ∧ 300 ∈ xs ∧ fresh.graph.getExerciseLesson 300 = some 30 ∧
    fresh.graph.getLessonCourse 30 = some 3 := by
  have h : drafted fresh .default 60 [] { pile := [300] } (some (.courses [1])) = some [101, 100, 300] := by
    decide +kernel
  obtain ⟨xs, hp, hg⟩ := getBatch_drafted h
  rw [if_pos (by decide +kernel)] at hg
  exact ⟨_, xs, hg, hp.mem_iff.2 (by decide), by decide +kernel, by decide +kernel⟩

/-- C38: the relearn share comes on top of the batch size, here with eleven exercises in a batch of ten. -/
theorem relearn_exceeds_batch_size : ∃ e o s s' xs, Sane e ∧ o.verify = true ∧ DefaultShares o ∧
    getBatch e o firstChoices 400 [] s none = some (s', some xs) ∧ o.batchSize = 10 ∧ xs.length = 11 := by
  have h : drafted (libraryOf coveringOps (fun _ => 3) (fun _ => 5) (fun _ => false))
      { SchedulerOptions.default with batchSize := 10 } 400 [] { pile := [110] } none =
      some [300, 119, 118, 117, 116, 115, 114, 113, 112, 111, 110] := by decide +kernel
  obtain ⟨xs, hp, hg⟩ := getBatch_drafted h
  rw [if_pos (by decide +kernel)] at hg
  exact ⟨_, _, _, _, xs, libraryOf_sane _ _ _ _ (by decide +kernel) coveringOps_course, by decide +kernel,
    by unfold DefaultShares; decide +kernel, hg, rfl, hp.length_eq⟩

/-- After an id that is not an exercise has been given a failing score, every batch of this library fails,
although the library offers exercises. -/
theorem unknown_relearn_fails : ∃ s', getBatch fresh .default firstChoices 60 [] { pile := [77] } none =
    some (s', none) ∧ 77 ∈ s'.pile := by
  have h : drafted fresh .default 60 [] { pile := [77] } none = some [101, 100, 300, 77] := by
    decide +kernel
  obtain ⟨xs, hp, hg⟩ := getBatch_drafted h
  rw [if_neg (by decide +kernel)] at hg
  exact ⟨_, hg, by decide +kernel⟩

/-- C65: false once scores reach 4.5: in a library accepted by the cycle check, in which everything can be
reached and nothing is blacklisted, all exercises cover each other and the batch is empty. -/
theorem all_knocked_out : ∃ (o : Graph.KeyOrder Nat) (s' : Session Nat), Sane covering ∧ o.Valid ∧
    covering.graph.checkCycles o 100 = some (.ok ()) ∧
    (∃ l x, Offers covering l x) ∧
    getBatch covering .default firstChoices 400 [] {} none = some (s', some []) := by
  have h : drafted covering .default 400 [] {} none = some [] := by decide +kernel
  obtain ⟨xs, hp, hg⟩ := getBatch_drafted h
  rw [if_pos (by decide +kernel)] at hg
  rw [hp.eq_nil] at hg
  refine ⟨Graph.idOrder Nat, _, covering_sane, ⟨fun _ _ => Iff.rfl, fun _ _ _ => Iff.rfl⟩, ?_, ⟨30, 300, ?_⟩, hg⟩
  · have : covering.graph.checkCycles (Graph.idOrder Nat) 100 = some (.ok ()) := by decide +kernel
    exact this
  · refine ⟨(covering_sane.wf.exercise _ _).2 (by decide +kernel), by decide +kernel, by decide +kernel, ?_⟩
    intro c hc
    simp [covering, libraryOf]

/-! ### Examples -/

/-- The hypotheses of the theorems of this file are met: a batch of the fresh library with an exercise of
course 3 in the pile. -/
example : Sane fresh ∧ IsChoices firstChoices ∧ OrderedWindows .default ∧ Disjoint .default ∧
    DefaultShares .default ∧ 10 ≤ SchedulerOptions.default.batchSize ∧
    fresh.graph = Graph.run sampleOps ∧ ([110] : List Nat).Nodup ∧
    (∃ s' xs, getBatch fresh .default firstChoices 60 [] { pile := [110] } none = some (s', some xs) ∧
      xs.Perm [101, 100, 300, 110]) ∧
    (∃ s' xs, getBatch fresh .default firstChoices 60 [] { pile := [110] } (some (.lessons [10, 30])) =
      some (s', some xs) ∧ xs ≠ []) ∧
    (∃ s' xs, getBatch fresh .default firstChoices 60 [11, 300] {} (some .reviewList) =
      some (s', some xs) ∧ xs.Perm [300, 110]) := by
  refine ⟨fresh_sane, firstChoices_ok, default_ordered, disjoint_of_ordered default_ordered,
    by unfold DefaultShares; decide +kernel, by decide +kernel, rfl, by decide, ?_, ?_, ?_⟩
  · have h : drafted fresh .default 60 [] { pile := [110] } none = some [101, 100, 300, 110] := by
      decide +kernel
    obtain ⟨xs, hp, hg⟩ := getBatch_drafted h
    rw [if_pos (by decide +kernel)] at hg
    exact ⟨_, xs, hg, hp⟩
  · have h : ∃ ys, drafted fresh .default 60 [] { pile := [110] } (some (.lessons [10, 30])) = some ys ∧
        ys ≠ [] ∧ ys.all fresh.hasExercise = true := by
      refine ⟨[101, 100, 300, 110], ?_⟩
      decide +kernel
    obtain ⟨ys, h, h1, h2⟩ := h
    obtain ⟨xs, hp, hg⟩ := getBatch_drafted h
    rw [if_pos h2] at hg
    exact ⟨_, xs, hg, fun h0 => h1 (by rw [h0] at hp; exact hp.nil_eq.symm)⟩
  · have h : ∃ ys, drafted fresh .default 60 [11, 300] {} (some .reviewList) = some ys ∧
        ys.Perm [300, 110] ∧ ys.all fresh.hasExercise = true := by
      exact ⟨[110, 300], by decide +kernel, List.Perm.swap _ _ _, by decide +kernel⟩
    obtain ⟨ys, h, h1, h2⟩ := h
    obtain ⟨xs, hp, hg⟩ := getBatch_drafted h
    rw [if_pos h2] at hg
    exact ⟨_, xs, hg, hp.trans h1⟩

/-- The remaining hypotheses of `batch_nonempty_partial` in the fresh library; `SearchProps` shows that lesson 10 is
reached there and offers exercises. -/
example : 0 < fresh.opts.passing.minFraction ∧ fresh.opts.passing.minFraction ≤ 1 ∧ 0 < fresh.opts.batchSize ∧
    0 < fresh.opts.maxLessonsInProgress ∧
    ∀ l x v, Offers fresh l x → fresh.score x = some (some v) → 0 ≤ v ∧ v < 9 / 2 := by
  refine ⟨by decide +kernel, by decide +kernel, by decide +kernel, by decide +kernel, ?_⟩
  intro l x v _ h
  simp only [fresh, libraryOf] at h
  split at h
  · cases h
  · simp only [Option.some.injEq] at h
    subst h
    norm_num

end Trane.Batch
