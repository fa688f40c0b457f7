import Mathlib.Algebra.Order.Floor.Semifield
import Verif.Top.ScoreProps
import Verif.Library.Props

/-!
# C86: the whole way from the files to a batch

An object opens a library from disk, is used, and is asked for a batch.  The hypotheses speak of the files, the calls and
the request only; that the search sees a sane library is a consequence.
-/

namespace Trane.TopLevel
open Trane.Store
open Trane.Graph
open Trane.Library (Disk Lib FPath Loads GeneratesProper DiskExercise DiskLesson)
open Trane.UnitScorer (scoreC exC)

variable {α γ : Type}

/-- `t` is an object that, with whatever data were stored before, opened the library `lib` from the disk `d` and then
went through the calls `h`, none of which closes the object or edits the graph. -/
structure Running (d : Disk α γ) (ig : List FPath) (lib : Lib α γ) (b : Base ℚ) (h : List (Call ℚ)) (t : Top ℚ) :
    Prop where
  proper : GeneratesProper d
  loads : Loads d ig lib
  opened : ∃ g0 clock earlier,
    (step b (runs b (fresh g0 clock) earlier) (.restart lib.graph)).2 = true ∧
    t = runs b (step b (runs b (fresh g0 clock) earlier) (.restart lib.graph)).1 h
  stays : ∀ c ∈ h, ¬ Restarts c
  unedited : h.filterMap toGraph = []

/-- The request is answered from the manifests of the library and by the unit scorer. -/
structure Serves (lib : Lib α γ) (b : Base ℚ) (t : Top ℚ) (q : Request) : Prop where
  reads : Reads b t q
  urgency : ∀ x, ∃ r c', exC (t.sys.world (t.config b)) x t.caches = some (r, c') ∧
    q.env.urgency x = some r.urgency ∧ q.env.velocity x = some r.velocity
  course : ∀ u, q.env.courseMeta u = (lib.getCourseManifest u).map (fun m => m.metadata.getD [])
  lesson : ∀ u, q.env.lessonMeta u = (lib.getLessonManifest u).map (fun m => m.metadata.getD [])
  exercise : ∀ u, q.env.hasExercise u = (lib.getExerciseManifest u).isSome
  dflt : q.env.dflt = []

/-- The empty id is not used: it is not on the blacklist and no manifest supersedes it. -/
def NoEmptyId (lib : Lib α γ) (t : Top ℚ) : Prop :=
  t.blacklist.blacklisted [] = false ∧ lib.graph.getSupersededBy [] = none

/-- The ids graded by the calls. -/
def gradedIds (h : List (Call ℚ)) : List Str :=
  h.filterMap (fun c => match c with | .scoreExercise x .. => some x | _ => none)

section
variable {d : Disk α γ} {ig : List FPath} {lib : Lib α γ} {b : Base ℚ} {h : List (Call ℚ)} {t : Top ℚ} {q : Request}

theorem restart_ok {b : Base ℚ} {t : Top ℚ} {g : Graph Str} (h : (step b t (.restart g)).2 = true) :
    (step b t (.restart g)).1.graph = g ∧ (step b t (.restart g)).1.session = {} ∧
      (step b t (.restart g)).1.options = OptionsApi.create (schedulerOptions t.prefs) ∧
      (schedulerOptions t.prefs).verify = true := by
  rcases step_restart b t g with e | ⟨hv, e⟩
  · rw [e] at h; cases h
  · rw [e]; exact ⟨rfl, rfl, rfl, hv⟩

theorem Running.graph (hr : Running d ig lib b h t) : t.graph = lib.graph := by
  obtain ⟨g0, clock, earlier, hok, ht⟩ := hr.opened
  rw [ht, library_of_history_partial b _ h hr.stays (by rw [hr.unedited]; simp), hr.unedited]
  exact (restart_ok hok).1

theorem Running.sound (hr : Running d ig lib b h t) : Sound b t := by
  obtain ⟨g0, clock, earlier, hok, ht⟩ := hr.opened
  rw [ht]
  exact sound_runs b _ h (sound_step b _ _ (sound_runs b _ earlier (sound_fresh b g0 clock)))

/-- The search sees a sane library. -/
theorem running_sane (hr : Running d ig lib b h t) (hq : Serves lib b t q) (he : NoEmptyId lib t) :
    Search.Sane (t.env q) := by
  have hg := hr.graph
  refine Library.library_sane hr.proper hr.loads (t.env q) ⟨hg, hq.course, hq.lesson, hq.exercise, hq.dflt⟩ he.1 ?_ ?_
  · change q.env.superseded [] = false
    refine UnitScorer.superseded_unique _ _ _ (hq.reads.superseded []) ⟨0, t.caches, ?_⟩
    unfold UnitScorer.checkC
    have : (t.sys.world (t.config b)).graph.getSupersededBy [] = none := by
      change t.graph.getSupersededBy [] = none
      rw [hg]; exact he.2
    rw [this]
    rfl
  · intro u hu
    change q.env.score u = none ∨ q.env.score u = some none
    cases hs : q.env.score u with
    | none => exact .inl rfl
    | some v =>
      right
      congr 1
      refine score_unique b t u (hq.reads.score u v hs) ⟨1, t.caches, ?_⟩
      have : (t.sys.world (t.config b)).graph.getUnitType u = none := by
        change t.graph.getUnitType u = none
        rw [hg]; exact hu
      unfold scoreC
      rw [this]
      rfl

theorem updatePile_keeps {ι : Type} [DecidableEq ι] {pile : List ι} (g : MasteryScore) (x : ι) (hn : pile.Nodup) :
    (Batch.updatePile pile x g).Nodup ∧ ∀ y ∈ Batch.updatePile pile x g, y = x ∨ y ∈ pile := by
  unfold Batch.updatePile
  split
  · exact ⟨hn.insert, fun y hy => List.mem_insert_iff.1 hy⟩
  · exact ⟨hn.filter _, fun y hy => .inr (List.mem_filter.1 hy).1⟩

/-- A call keeps the relearn pile free of duplicates and adds at most the graded id. -/
theorem pile_step {b : Base ℚ} {t : Top ℚ} (hs : Sound b t) (c : Call ℚ) (hr : ¬ Restarts c)
    (hn : t.session.pile.Nodup) : (step b t c).1.session.pile.Nodup ∧
    ∀ x ∈ (step b t c).1.session.pile, x ∈ t.session.pile ∨ x ∈ gradedIds [c] := by
  have same : ∀ c' : Top ℚ, c'.session = t.session → c'.session.pile.Nodup ∧
      ∀ x ∈ c'.session.pile, x ∈ t.session.pile ∨ x ∈ gradedIds [c] := by
    intro c' e
    rw [e]
    exact ⟨hn, fun x hx => .inl hx⟩
  cases c with
  | scoreExercise x g ts fuel order f =>
    rcases step_score b t x g ts fuel order f with ⟨-, e⟩ | ⟨s, ok, hsc, e⟩
    · rw [e]; exact same _ rfl
    · rw [e]
      obtain ⟨v, c1, r, c, -, -, hE⟩ := System.ends_of_score (tables_of_sound hs) hsc
      have key : s.session = t.session ∨ s.session = Batch.graded t.session x g := by
        cases hE with
        | deltaFailed => exact .inl rfl
        | trialFailed => exact .inl rfl
        | rewardFailed => exact .inr rfl
        | done => exact .inr rfl
      change s.session.pile.Nodup ∧ ∀ y ∈ s.session.pile, _
      rcases key with k | k
      · exact same (t.putSys s) k
      · rw [k]
        unfold Batch.graded
        rw [Batch.updateRate_pile]
        obtain ⟨k1, k2⟩ := updatePile_keeps g x hn
        refine ⟨k1, fun y hy => ?_⟩
        rcases k2 y hy with rfl | hy
        · exact .inr (by simp [gradedIds])
        · exact .inl hy
  | getBatch q =>
    rcases step_batch b t q with ⟨-, e⟩ | ⟨s, r, hb, e⟩
    · rw [e]; exact same _ rfl
    · rw [e]
      change s.pile.Nodup ∧ ∀ y ∈ s.pile, _
      have key : s.pile = t.session.pile ∨ s.pile = Batch.cleanPile (t.env q) t.session.pile := by
        unfold Top.batch Batch.getBatch at hb
        split at hb
        · cases hb
        · cases hb; exact .inl rfl
        · rw [Option.map_eq_some_iff] at hb
          obtain ⟨final, -, hb⟩ := hb
          dsimp only at hb
          split at hb <;> (cases hb; exact .inr rfl)
      rcases key with k | k
      · rw [k]; exact ⟨hn, fun x hx => .inl hx⟩
      · rw [k]; exact ⟨hn.filter _, fun y hy => .inl (List.mem_filter.1 hy).1⟩
  | setPreferences p f => cases f <;> exact same _ rfl
  | options o => cases o <;> exact same _ rfl
  | restart g => exact absurd trivial hr
  | _ => exact same _ rfl

theorem gradedIds_snoc (h : List (Call ℚ)) (c : Call ℚ) : gradedIds (h ++ [c]) = gradedIds h ++ gradedIds [c] := by
  simp [gradedIds]

theorem pile_runs {b : Base ℚ} {t : Top ℚ} (hs : Sound b t) (hp : t.session.pile = []) (h : List (Call ℚ))
    (hr : ∀ c ∈ h, ¬ Restarts c) :
    (runs b t h).session.pile.Nodup ∧ ∀ x ∈ (runs b t h).session.pile, x ∈ gradedIds h := by
  induction h using List.reverseRecOn with
  | nil => rw [show runs b t [] = t from rfl, hp]; simp
  | append_singleton h c ih =>
    obtain ⟨h1, h2⟩ := ih (fun c hc => hr c (List.mem_append_left _ hc))
    obtain ⟨h3, h4⟩ := pile_step (sound_runs b t h hs) c (hr c (by simp)) h1
    rw [runs_snoc, gradedIds_snoc]
    refine ⟨h3, fun x hx => ?_⟩
    rcases h4 x hx with h5 | h5
    · exact List.mem_append_left _ (h2 x h5)
    · exact List.mem_append_right _ h5

theorem Running.pile (hr : Running d ig lib b h t) :
    t.session.pile.Nodup ∧ ∀ x ∈ t.session.pile, x ∈ gradedIds h := by
  obtain ⟨g0, clock, earlier, hok, ht⟩ := hr.opened
  rw [ht]
  exact pile_runs (sound_step b _ _ (sound_runs b _ earlier (sound_fresh b g0 clock)))
    (by rw [(restart_ok hok).2.1]) h hr.stays

theorem calls_made (s : OptionsApi.Scheduler) (cs : List OptionsApi.Call) : (s.calls cs).made = s.made := by
  induction cs generalizing s with
  | nil => rfl
  | cons c cs ih =>
    change ((s.call c).calls cs).made = _
    rw [ih]
    cases c <;> rfl

/-- The options the batch is built with: the default ones, with the preferred batch size. -/
theorem Running.made (hr : Running d ig lib b h t) :
    ∃ n, t.options.made = { SchedulerOptions.default with batchSize := n } ∧ t.options.made.verify = true := by
  obtain ⟨g0, clock, earlier, hok, ht⟩ := hr.opened
  obtain ⟨-, -, ho, hv⟩ := restart_ok hok
  have : t.options.made = schedulerOptions (runs b (fresh g0 clock) earlier).prefs := by
    rw [ht, options_of_history b _ h hr.stays, calls_made, ho]
    rfl
  rw [this]
  refine ⟨(schedulerOptions (runs b (fresh g0 clock) earlier).prefs).batchSize, ?_, hv⟩
  unfold schedulerOptions
  split <;> rfl

/-- **C86.** The batch request ends and succeeds, whatever the random choices, if all ids graded since the opening are exercises
of the library and, for the review list, if its units are in the library. -/
theorem whole_batch_succeeds (hr : Running d ig lib b h t) (hq : Serves lib b t q) (he : NoEmptyId lib t)
    (hch : Batch.IsChoices q.choices) (hgr : ∀ x ∈ gradedIds h, ∃ m, DiskExercise d ig m ∧ m.id = x)
    (hrev : q.filter = some .reviewList → ∀ u ∈ ReviewList.entries t.review, Known lib.graph u) :
    ∃ N s xs, ∀ fuel ≥ N, t.batch { q with fuel := fuel } = some (s, some xs) := by
  have hsane := running_sane hr hq he
  have hg := hr.graph
  obtain ⟨cs, s0, flag, -, -, -, hlib, -⟩ := Library.loads_inv hr.proper hr.loads
  obtain ⟨⟨s, r⟩, N, hN⟩ := Batch.batch_terminates hsane hch
    (show (t.env q).graph = Graph.run (Library.finalOps (cs.flatMap Library.items) flag) by
      change t.graph = _
      rw [hg, hlib])
    t.options.made (ReviewList.entries t.review) t.session q.filter
  cases r with
  | some xs => exact ⟨N, s, xs, hN⟩
  | none =>
    exfalso
    have hB := hN N le_rfl
    have known : ∀ x, Known lib.graph x → q.env.score x ≠ none := by
      intro x hx
      obtain ⟨k, hk⟩ := hx
      exact hq.reads.known x (by rw [hg, hk]; simp)
    have nofail : ∀ x, Known lib.graph x →
        ¬ ((t.env q).score x = none ∨ (t.env q).urgency x = none ∨ (t.env q).velocity x = none) := by
      rintro x hx (k | k | k)
      · exact known x hx k
      · obtain ⟨r, c', -, h1, h2⟩ := hq.urgency x
        rw [show q.env.urgency x = none from k] at h1; cases h1
      · obtain ⟨r, c', -, h1, h2⟩ := hq.urgency x
        rw [show q.env.velocity x = none from k] at h2; cases h2
    rcases Batch.batch_error hsane hch hB with ⟨x, hx, ⟨l, ho⟩ | ⟨hf, hm⟩⟩ | ⟨hf, u, hu, hk⟩ | ⟨x, hx, hne⟩
    · refine nofail x ?_ hx
      have h1 : lib.graph.getExerciseLesson x = some l := by
        rw [← hg]; exact (hsane.wf.exercise _ _).1 ho.1
      obtain ⟨m, hm, -⟩ := ((Library.library_parents hr.proper hr.loads).2.1 x l).1 h1
      exact ⟨.exercise, ((Library.library_types hr.proper hr.loads x).2.2).2 (by rw [hm]; rfl)⟩
    · exact nofail x (hrev hf x hm) hx
    · exact hk (by rw [show (t.env q).graph = lib.graph from hg]; exact hrev hf u hu)
    · apply hne
      obtain ⟨m, hm, rfl⟩ := hgr x (hr.pile.2 x hx)
      rw [show (t.env q).graph = lib.graph from hg, (Library.library_types hr.proper hr.loads m.id).2.2,
        ((Library.library_manifests hr.proper hr.loads m.id).2.2 m).2 ⟨hm, rfl⟩]
      rfl

/-- The exercise `x` is described by the files: its own manifest and that of its lesson. -/
structure OnDisk (d : Disk α γ) (ig : List FPath) (x : Str) (m : Library.ExerciseM α) (l : Library.LessonM α) :
    Prop where
  exercise : DiskExercise d ig m
  id : m.id = x
  lesson : DiskLesson d ig l
  lessonId : l.id = m.lessonId
  courseId : l.courseId = m.courseId

theorem onDisk_lookup (hr : Running d ig lib b h t) {x : Str} {m : Library.ExerciseM α} {l : Library.LessonM α}
    (ho : OnDisk d ig x m l) : lib.graph.getExerciseLesson x = some m.lessonId ∧
      lib.graph.getLessonCourse m.lessonId = some m.courseId ∧ lib.getLessonManifest m.lessonId = some l := by
  have hm : lib.getExerciseManifest x = some m := ((Library.library_manifests hr.proper hr.loads x).2.2 m).2
    ⟨ho.exercise, ho.id⟩
  have hl : lib.getLessonManifest m.lessonId = some l := ((Library.library_manifests hr.proper hr.loads _).2.1 l).2
    ⟨ho.lesson, ho.lessonId⟩
  exact ⟨((Library.library_parents hr.proper hr.loads).2.1 _ _).2 ⟨m, hm, rfl⟩,
    ((Library.library_parents hr.proper hr.loads).1 _ _).2 ⟨l, hl, ho.courseId⟩, hl⟩

/-- **C86.** Every exercise of a batch has a manifest on disk, in a lesson that has one. -/
theorem whole_batch_known (hr : Running d ig lib b h t) (hq : Serves lib b t q) (he : NoEmptyId lib t)
    (hch : Batch.IsChoices q.choices) {s : Batch.Session Str} {xs : List Str} (hb : t.batch q = some (s, some xs)) :
    ∀ x ∈ xs, ∃ m l, OnDisk d ig x m l := by
  intro x hx
  have h1 := Batch.batch_known (running_sane hr hq he) hch hb x hx
  rw [show (t.env q).graph = lib.graph from hr.graph, (Library.library_types hr.proper hr.loads x).2.2,
    Option.isSome_iff_exists] at h1
  obtain ⟨m, hm⟩ := h1
  obtain ⟨l, hl, hc⟩ := (Library.library_parents hr.proper hr.loads).2.2.2 x m hm
  obtain ⟨k1, k2⟩ := ((Library.library_manifests hr.proper hr.loads x).2.2 m).1 hm
  obtain ⟨k3, k4⟩ := ((Library.library_manifests hr.proper hr.loads _).2.1 l).1 hl
  exact ⟨m, l, k1, k2, k3, k4, hc⟩

/-- **C86.** With any filter but the review list, no exercise of a batch is blacklisted, nor its lesson, nor its
course. -/
theorem whole_batch_not_blacklisted (hr : Running d ig lib b h t) (hq : Serves lib b t q) (he : NoEmptyId lib t)
    (hch : Batch.IsChoices q.choices) {s : Batch.Session Str} {xs : List Str} (hb : t.batch q = some (s, some xs))
    (hf : q.filter ≠ some .reviewList) {x : Str} (hx : x ∈ xs) {m : Library.ExerciseM α} {l : Library.LessonM α}
    (ho : OnDisk d ig x m l) : ∀ u ∈ [x, m.lessonId, m.courseId], t.blacklist.blacklisted u = false := by
  have h1 := Batch.batch_not_blacklisted (running_sane hr hq he) hch hb hf x hx
  obtain ⟨k1, k2, -⟩ := onDisk_lookup hr ho
  intro u hu
  rw [Bool.eq_false_iff]
  intro hbl
  apply h1
  have hg : (t.env q).graph = lib.graph := hr.graph
  simp only [List.mem_cons, List.not_mem_nil, or_false] at hu
  rcases hu with rfl | rfl | rfl
  · exact .inl hbl
  · exact .inr ⟨_, by rw [hg]; exact k1, .inl hbl⟩
  · exact .inr ⟨_, by rw [hg]; exact k1, .inr ⟨_, by rw [hg]; exact k2, hbl⟩⟩

/-- **C86.** Without filter, every exercise of a batch that is not being relearned is in a lesson all of whose listed
dependencies are met by the scores the object answers. -/
theorem whole_batch_unlocked (hr : Running d ig lib b h t) (hq : Serves lib b t q) (he : NoEmptyId lib t)
    (hch : Batch.IsChoices q.choices) {s : Batch.Session Str} {xs : List Str} (hb : t.batch q = some (s, some xs))
    (hf : q.filter = none) {x : Str} (hx : x ∈ xs) (hp : x ∉ t.session.pile) {m : Library.ExerciseM α}
    {l : Library.LessonM α} (ho : OnDisk d ig x m l) : ∀ dep ∈ l.deps, MetNow b t dep := by
  have hsane := running_sane hr hq he
  obtain ⟨k1, k2, k3⟩ := onDisk_lookup hr ho
  rcases batch_follows_scores b t q hq.reads hsane hch hf hb x hx with h1 | ⟨l', h1, h2⟩
  · exact absurd h1 hp
  · have e := (hsane.wf.exercise _ _).1 h1
    rw [show (t.env q).graph = lib.graph from hr.graph, k1] at e
    cases e
    intro dep hd
    refine h2 dep ?_
    rw [hr.graph]
    exact ((Library.library_relations hr.proper hr.loads m.lessonId dep 0).1).2
      ⟨l.deps, l.enc, l.sup, .inr ⟨l, k3, rfl, rfl, rfl⟩, hd⟩

/-- **C86.** A batch has no exercise twice, unless the filter is a list of lessons or the review list. -/
theorem whole_batch_distinct (hr : Running d ig lib b h t) (hq : Serves lib b t q) (he : NoEmptyId lib t)
    (hch : Batch.IsChoices q.choices) {s : Batch.Session Str} {xs : List Str} (hb : t.batch q = some (s, some xs))
    (hf : q.filter ≠ some .reviewList) (hl : ∀ ids, q.filter ≠ some (.lessons ids)) : xs.Nodup := by
  obtain ⟨n, hm, -⟩ := hr.made
  have hd : CandidateFilter.Disjoint t.options.made := by
    rw [hm]; exact CandidateFilter.default_disjoint
  have : ∃ p, Search.SearchOf (t.env q) q.filter = some p := by
    cases hq' : q.filter with
    | none => exact ⟨_, rfl⟩
    | some f =>
      cases f with
      | reviewList => exact absurd hq' hf
      | lessons ids => exact absurd hq' (hl ids)
      | _ => exact ⟨_, rfl⟩
  obtain ⟨p, hp⟩ := this
  exact Batch.batch_distinct (running_sane hr hq he) hch hd hr.pile.1 hb hp

/-- **C86.** A batch has at most the preferred number of exercises, if that is 10 or more, and a tenth on top of it for
relearning. -/
theorem whole_batch_size (hr : Running d ig lib b h t) (hch : Batch.IsChoices q.choices) {s : Batch.Session Str}
    {xs : List Str} (hb : t.batch q = some (s, some xs)) (h10 : 10 ≤ t.options.made.batchSize) :
    xs.length ≤ t.options.made.batchSize + t.options.made.batchSize / 10 := by
  obtain ⟨n, hm, -⟩ := hr.made
  have hd : CandidateFilter.DefaultShares t.options.made := by rw [hm]; rfl
  have h1 := Batch.batch_size_default_relearn hch hd h10 hb
  have h2 : t.options.made.relearnFraction = 1 / 10 := by rw [hm]; rfl
  rw [h2] at h1
  have h3 : ⌊(t.options.made.batchSize : ℚ) * (1 / 10)⌋₊ = t.options.made.batchSize / 10 := by
    rw [mul_one_div]
    exact_mod_cast Nat.floor_div_natCast (K := ℚ) (t.options.made.batchSize : ℚ) 10
  rw [h3] at h1
  exact h1

end

end Trane.TopLevel
