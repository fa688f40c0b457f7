import Verif.Sched.OfferOrder

/-!
# C106: searches of the same material offer the same
-/

namespace Trane.Search
open Trane.Graph
open Trane.Filters (KVFilter UnitFilter)

variable {ι : Type} [DecidableEq ι] {e e' : Env ι} {rnds rnds' : Nat → Rnd} {fuel fuel' : Nat}
  {entries entries' : List ι} {f : Option (UnitFilter ι)} {cs cs' : List (Candidate ι)}

/-- **C106.**  The student has access to the same units in both libraries, whatever the filter. -/
theorem order_same_access (h : SameMaterial e e') (he : Sane e) (he' : Sane e') {mf mf' sc sc' init init'}
    (hs : SearchOf e f = some (mf, sc, init)) (hs' : SearchOf e' f = some (mf', sc', init')) (u : ι) :
    Reached e' mf' sc' init' u ↔ Reached e mf sc init u := by
  obtain ⟨i, h1, h2⟩ := same_searchOf h he he' hs
  rw [h1] at hs'
  cases hs'
  exact ⟨reached_mono h.symm he' he mf sc (fun u => (h2 u).1), reached_mono h he he' mf sc (fun u => (h2 u).2)⟩

theorem scope_of_candidate (he : Sane e) (hr : ∀ i, IsRnd (rnds i))
    (h : initialCandidates e rnds fuel entries f = some (some cs)) {mf sc init}
    (hs : SearchOf e f = some (mf, sc, init)) {c : Candidate ι} (hc : c ∈ cs) : InScope e sc c.lesson := by
  match f, hs with
  | none, hs => cases hs; trivial
  | some (.metadata k), hs => cases hs; trivial
  | some (.dependents ids), hs => cases hs; trivial
  | some (.dependencies ids n), hs => cases hs; trivial
  | some (.courses ids), hs =>
    cases hs
    obtain ⟨k, hk, h1, _⟩ := course_filter_scope he hr h c hc
    exact ⟨k, hk, h1⟩

theorem not_review {mf sc init} (hs : SearchOf e f = some (mf, sc, init)) : f ≠ some .reviewList := by
  rintro rfl; cases hs

/-- What a candidate says about its lesson. -/
theorem candidate_lesson (he : Sane e) (hr : ∀ i, IsRnd (rnds i))
    (h : initialCandidates e rnds fuel entries f = some (some cs)) {mf sc init}
    (hs : SearchOf e f = some (mf, sc, init)) {c : Candidate ι} (hc : c ∈ cs) :
    IsLesson e c.lesson ∧ Offers e c.lesson c.exercise := by
  obtain ⟨h1, h2, h3, h4, h5⟩ := candidates_not_blacklisted he hr h (not_review hs) c hc
  refine ⟨(he.wf.tyE _ _ h4).2, (he.wf.exercise _ _).2 h4, h1, h2, fun k hk => ?_⟩
  rw [h5] at hk
  cases hk
  exact h3

/-- **C106.**  Below the limits a search takes its exercises from exactly the lessons that the student has access to and
that are not left out, and from each of them the number that is due. -/
theorem search_exact (he : Sane e) (hr : ∀ i, IsRnd (rnds i))
    (h : initialCandidates e rnds fuel entries f = some (some cs)) {mf sc init}
    (hs : SearchOf e f = some (mf, sc, init))
    (hids : ∀ ids, f = some (.courses ids) → ∀ u ∈ ids, ¬ IsLesson e u)
    (hf0 : 0 ≤ e.opts.passing.minFraction) (hf1 : e.opts.passing.minFraction ≤ 1) (hb : BelowLimits e cs)
    {l : ι} (hl : IsLesson e l) {n : Nat} (hn : LessonSize e l n) (hpos : 0 < n) {a : ℚ} (ha : LessonAverage e l a) :
    (Reached e mf sc init l ∧ InScope e sc l ∧ ¬ LessonSkipped e mf l →
      (cs.filter (fun c => c.lesson = l)).length = share e.opts.passing a n) ∧
    (¬ (Reached e mf sc init l ∧ InScope e sc l ∧ ¬ LessonSkipped e mf l) →
      (cs.filter (fun c => c.lesson = l)).length = 0) := by
  constructor
  · rintro ⟨h1, h2, h3⟩
    rcases search_complete he hr h hs hids hf0 hf1 hb.candidates hl h1 h2 h3 hn hpos ha with h4 | ⟨_, _, ls, h4, h5, h6⟩
    · exact h4
    · exact absurd (hb.lessons ls h4 h6) (by omega)
  · intro hno
    rw [List.length_eq_zero_iff, List.filter_eq_nil_iff]
    intro c hc hcl
    have hcl : c.lesson = l := by simpa using hcl
    obtain ⟨h1, h2⟩ := candidates_reached he hr h hs c hc
    have h3 := scope_of_candidate he hr h hs hc
    rw [hcl] at h1 h2 h3
    exact hno ⟨h1, h3, h2⟩

theorem count_le (h : SameMaterial e e') (he : Sane e) (he' : Sane e') (hr : ∀ i, IsRnd (rnds i))
    (hr' : ∀ i, IsRnd (rnds' i)) (hc : initialCandidates e rnds fuel entries f = some (some cs))
    (hc' : initialCandidates e' rnds' fuel' entries' f = some (some cs')) {p} (hs : SearchOf e f = some p)
    (hids : ∀ ids, f = some (.courses ids) → ∀ u ∈ ids, ¬ IsLesson e u)
    (hf0 : 0 ≤ e.opts.passing.minFraction) (hf1 : e.opts.passing.minFraction ≤ 1)
    (hb' : BelowLimits e' cs') {l : ι} (hl : ∃ c ∈ cs, c.lesson = l) :
    (cs'.filter (fun c => c.lesson = l)).length = (cs.filter (fun c => c.lesson = l)).length := by
  obtain ⟨c, hcm, rfl⟩ := hl
  obtain ⟨mf, sc, init⟩ := p
  obtain ⟨h1, h2⟩ := candidate_lesson he hr hc hs hcm
  obtain ⟨h3, h4⟩ := candidates_reached he hr hc hs c hcm
  have h5 := scope_of_candidate he hr hc hs hcm
  obtain ⟨init', hs', hi⟩ := same_searchOf h he he' hs
  have hne : e.validInLesson c.lesson ≠ [] := by
    intro h0
    have := (mem_validInLesson he c.lesson c.exercise).2 h2
    rw [h0] at this
    cases this
  have hsz := lessonSize_valid he c.lesson
  have hav : LessonAverage e c.lesson _ := ⟨_, hne, validInLesson_nodup he _, mem_validInLesson he _, rfl⟩
  rw [lesson_share he hr hc hs hids hf0 hf1 hcm hsz hav]
  have := (search_exact he' hr' hc' hs' (fun ids h6 u hu h7 => hids ids h6 u hu ((same_isLesson h u).1 h7))
    (by rw [h.opts]; exact hf0) (by rw [h.opts]; exact hf1) hb' ((same_isLesson h _).2 h1)
    ((same_lessonSize h he he' _ _).2 hsz) (List.length_pos_iff.2 hne) ((same_lessonAverage h he he' _ _).2 hav)).1
    ⟨reached_mono h he he' mf sc (fun u => (hi u).2) h3, (same_inScope h sc _).2 h5,
      fun h6 => h4 ((same_lessonSkipped h mf _).1 h6)⟩
  rw [this, h.opts]

/-- **C106.**  Two searches of the same material that stay below the limits take the same number of exercises from every
lesson, whatever the order of the sets in the graph and the random choices. -/
theorem order_same_search (h : SameMaterial e e') (he : Sane e) (he' : Sane e') (hr : ∀ i, IsRnd (rnds i))
    (hr' : ∀ i, IsRnd (rnds' i)) (hc : initialCandidates e rnds fuel entries f = some (some cs))
    (hc' : initialCandidates e' rnds' fuel' entries' f = some (some cs')) {p} (hs : SearchOf e f = some p)
    (hids : ∀ ids, f = some (.courses ids) → ∀ u ∈ ids, ¬ IsLesson e u)
    (hf0 : 0 ≤ e.opts.passing.minFraction) (hf1 : e.opts.passing.minFraction ≤ 1)
    (hb : BelowLimits e cs) (hb' : BelowLimits e' cs') (l : ι) :
    (cs'.filter (fun c => c.lesson = l)).length = (cs.filter (fun c => c.lesson = l)).length := by
  by_cases hl : ∃ c ∈ cs, c.lesson = l
  · exact count_le h he he' hr hr' hc hc' hs hids hf0 hf1 hb' hl
  by_cases hl' : ∃ c ∈ cs', c.lesson = l
  · obtain ⟨mf, sc, init⟩ := p
    obtain ⟨init', hs', _⟩ := same_searchOf h he he' hs
    exact (count_le h.symm he' he hr' hr hc' hc hs' (fun ids h6 u hu h7 => hids ids h6 u hu ((same_isLesson h u).1 h7))
      (by rw [h.opts]; exact hf0) (by rw [h.opts]; exact hf1) hb hl').symm
  · have z : ∀ {xs : List (Candidate ι)}, (¬ ∃ c ∈ xs, c.lesson = l) → (xs.filter (fun c => c.lesson = l)).length = 0 := by
      intro xs hx
      rw [List.length_eq_zero_iff, List.filter_eq_nil_iff]
      exact fun c hc hcl => hx ⟨c, hc, by simpa using hcl⟩
    rw [z hl, z hl']

/-- **C106.**  From a lesson below the passing score, or with an average of at least 4, the exercises are the same ones:
all that the lesson offers. -/
theorem order_same_exercises (h : SameMaterial e e') (he : Sane e) (he' : Sane e') (hr : ∀ i, IsRnd (rnds i))
    (hr' : ∀ i, IsRnd (rnds' i)) (hc : initialCandidates e rnds fuel entries f = some (some cs))
    (hc' : initialCandidates e' rnds' fuel' entries' f = some (some cs')) {p} (hs : SearchOf e f = some p)
    (hids : ∀ ids, f = some (.courses ids) → ∀ u ∈ ids, ¬ IsLesson e u)
    (hf0 : 0 ≤ e.opts.passing.minFraction) (hf1 : e.opts.passing.minFraction ≤ 1)
    (hb' : BelowLimits e' cs') {c : Candidate ι} (hm : c ∈ cs) {a : ℚ} (ha : LessonAverage e c.lesson a)
    (hfull : a < e.opts.passing.minScore ∨ 4 ≤ a) :
    ∃ c' ∈ cs', c'.exercise = c.exercise ∧ c'.lesson = c.lesson ∧ c'.course = c.course := by
  obtain ⟨mf, sc, init⟩ := p
  obtain ⟨init', hs', _⟩ := same_searchOf h he he' hs
  have hoff := (candidate_lesson he hr hc hs hm).2
  have hsz := lessonSize_valid he c.lesson
  have h1 : (cs'.filter (fun x => x.lesson = c.lesson)).length = (e.validInLesson c.lesson).length := by
    rw [count_le h he he' hr hr' hc hc' hs hids hf0 hf1 hb' ⟨c, hm, rfl⟩,
      lesson_share he hr hc hs hids hf0 hf1 hm hsz ha, share_full _ _ _ hfull]
  set ys := (cs'.filter (fun x => x.lesson = c.lesson)).map Candidate.exercise with hys
  have hnd : ys.Nodup := (candidates_distinct he' hr' hc' hs').sublist (List.filter_sublist.map _)
  have hsub : ys ⊆ e.validInLesson c.lesson := by
    intro y hy
    rw [hys, List.mem_map] at hy
    obtain ⟨c', h2, rfl⟩ := hy
    rw [List.mem_filter] at h2
    have h3 : c'.lesson = c.lesson := by simpa using h2.2
    have h4 := (candidate_lesson he' hr' hc' hs' h2.1).2
    rw [h3] at h4
    exact (mem_validInLesson he _ _).2 ((same_offers h he he' _ _).1 h4)
  have hperm : ys.Perm (e.validInLesson c.lesson) :=
    (List.subperm_of_subset hnd hsub).perm_of_length_le (by rw [hys, List.length_map, h1])
  have hin := hperm.mem_iff.2 ((mem_validInLesson he _ _).2 hoff)
  rw [hys, List.mem_map] at hin
  obtain ⟨c', h2, h3⟩ := hin
  rw [List.mem_filter] at h2
  have h4 : c'.lesson = c.lesson := by simpa using h2.2
  refine ⟨c', h2.1, h3, h4, ?_⟩
  obtain ⟨_, _, _, _, h5⟩ := candidates_not_blacklisted he hr hc (not_review hs) c hm
  obtain ⟨_, _, _, _, h6⟩ := candidates_not_blacklisted he' hr' hc' (not_review hs') c' h2.1
  rw [h.units.lessonCourse, h4, h5] at h6
  exact (Option.some.inj h6).symm

/-- **C106.**  A library with fewer lessons than may be in progress and fewer exercises than ten batches always stays below
the limits. -/
theorem small_below_limits (he : Sane e) (hr : ∀ i, IsRnd (rnds i))
    (h : initialCandidates e rnds fuel entries f = some (some cs)) {p} (hs : SearchOf e f = some p)
    {ls xs : List ι} (hl : ∀ l, IsLesson e l → l ∈ ls) (hx : ∀ l x, LessonHasExercise e.graph l x → x ∈ xs)
    (h1 : ls.length < e.opts.maxLessonsInProgress) (h2 : xs.length < 10 * e.opts.batchSize) : BelowLimits e cs := by
  obtain ⟨mf, sc, init⟩ := p
  constructor
  · have hn := candidates_distinct he hr h hs
    have hsub : cs.map Candidate.exercise ⊆ xs := by
      intro x hm
      obtain ⟨c, hc, rfl⟩ := List.mem_map.1 hm
      exact hx _ _ (candidate_lesson he hr h hs hc).2.1
    have := (List.subperm_of_subset hn hsub).length_le
    rw [List.length_map] at this
    omega
  · intro ks hn hk
    have hsub : ks ⊆ ls := by
      intro l hm
      obtain ⟨⟨c, hc, rfl⟩, _⟩ := hk l hm
      exact hl _ (candidate_lesson he hr h hs hc).1
    have := (List.subperm_of_subset hn hsub).length_le
    omega

end Trane.Search
