import Verif.Top.FivesProps
import Verif.Top.ProgressProps
import Verif.Top.SessionProps
import Verif.Sched.CoherentAnswers

/-! Lemmas for C111: what a session of fives leaves in the tables, and what the tables mean for the search. -/

namespace Trane.TopLevel
open Trane.Store
open Trane.Store.Table (IsNewest get_newest)
open Trane.Graph
open Trane.UnitScorer (Coh Plain Caches scoreC exC ExRec World lessonTrialsP exercise_score lesson_score lesson_score_empty Queried)
open Trane.System (gradeVal NoEmpty Fresh)

/-! ### What is stored about an exercise -/

/-- The newest grades stored for the exercise, as many as a score looks at, are fives, given within a day of the time in force (and
a week by the clock of the computer), and the newest deltas are not negative. -/
structure WellKnown (b : Base ℚ) (t : Top ℚ) (x : Str) : Prop where
  often : (t.trials.get b.sortV x t.options.made.numTrials).length = t.options.made.numTrials
  fives : ∀ p ∈ t.trials.get b.sortV x t.options.made.numTrials,
    p.1 = 5 ∧ t.override.getD t.clock ≤ p.2 + 86400 ∧ t.clock < p.2 + 604800
  deltas : ∀ p ∈ t.deltas.get b.sortV x t.options.made.numTrials, 0 ≤ p.1

/-- This holds of all exercises of the lesson that are not blacklisted. -/
def LessonKnown (b : Base ℚ) (t : Top ℚ) (l : Str) : Prop :=
  ∀ x, LessonHasExercise t.graph l x → t.blacklist.blacklisted x = false → WellKnown b t x

theorem wellKnown_score {b : Base ℚ} {θ : ℚ} (hb : Fair b θ) {t : Top ℚ} {x : Str} (hN : 1 ≤ t.options.made.numTrials)
    (h : WellKnown b t x) : θ ≤ ((t.sys.world (t.config b)).exRec x).score ∧
      ((t.sys.world (t.config b)).exRec x).trials = t.options.made.numTrials := by
  refine ⟨hb.fives _ _ _ _ _ _ (get_pairwise _ _ _ _) ?_ h.fives h.deltas, h.often⟩
  intro hnil
  have h1 : (t.trials.get b.sortV x t.options.made.numTrials).length = 0 := List.length_eq_zero_iff.2 hnil
  rw [h.often] at h1
  omega

/-- The request reads the answers of the unit scorer as computed from the stored data. -/
theorem reads_scratch {b : Base ℚ} {t : Top ℚ} {q : Request} (hr : Reads b t q)
    (hc : UnitScorer.SameAnswers (t.sys.world (t.config b)) {} t.caches) :
    Search.ReadsFrom (t.sys.world (t.config b)) {} (t.env q) := by
  refine ⟨rfl, fun _ => rfl, fun u hk => ?_, fun l hl => ?_, fun c hc' => ?_, fun u => ?_⟩
  · obtain ⟨ty, hty⟩ := hk
    have hne : t.graph.getUnitType u ≠ none := by
      rw [show t.graph.getUnitType u = some ty from hty]; simp
    obtain ⟨v, hv⟩ := Option.ne_none_iff_exists'.1 (hr.known u hne)
    exact ⟨v, hv, (hc.score u v).2 (hr.score u v hv)⟩
  · have := hr.trials l
    unfold GetsTrials at this
    rw [show t.graph.getUnitType l = some .lesson from hl] at this
    exact (hc.lessonTrials l _).2 this
  · have := hr.trials c
    unfold GetsTrials at this
    rw [show t.graph.getUnitType c = some .course from hc'] at this
    exact (hc.courseTrials c _).2 this
  · exact (hc.superseded u _).2 (hr.superseded u)

/-- A lesson all of whose exercises are well known holds nothing back and the search goes past it. -/
theorem known_mastered {b : Base ℚ} {θ : ℚ} (hb : Fair b θ) {t : Top ℚ} {q : Request}
    (hr : Search.ReadsFrom (t.sys.world (t.config b)) {} (t.env q)) (hsane : Search.Sane (t.env q))
    (hN : 1 ≤ t.options.made.numTrials) (hscore : t.options.current.passing.minScore ≤ θ)
    (htrials : t.options.current.passing.minAvgTrials ≤ (t.options.made.numTrials : ℚ)) {l : Str}
    (hl : Search.IsLesson (t.env q) l) (hx : ∃ x, Search.Offers (t.env q) l x) (hk : LessonKnown b t l) :
    Search.Satisfied (t.env q) l ∧ Search.LessonPassed (t.env q) l := by
  set e := t.env q with he
  set w := t.sys.world (t.config b) with hw
  have hty : w.graph.getUnitType l = some .lesson := hl
  have hval : ∀ x, LessonHasExercise t.graph l x → t.blacklist.blacklisted x = false →
      θ ≤ (w.exRec x).score ∧ (w.exRec x).trials = t.options.made.numTrials :=
    fun x h1 h2 => wellKnown_score hb hN (hk x h1 h2)
  obtain ⟨x0, hx0⟩ := hx
  obtain ⟨es, hes, hm0⟩ : ∃ es, t.graph.getLessonExercises l = some es ∧ x0 ∈ es := hx0.1
  have hes' : w.graph.getLessonExercises l = some es := hes
  have hbx0 : w.black x0 = false := hx0.2.1
  have hmem : ∀ x ∈ es.filter (fun e => !w.black e), LessonHasExercise t.graph l x ∧ t.blacklist.blacklisted x = false := by
    intro x hx
    obtain ⟨m1, m2⟩ := List.mem_filter.1 hx
    refine ⟨⟨es, hes, m1⟩, ?_⟩
    have m3 : w.black x = false := by simpa using m2
    exact m3
  have hne : es.filter (fun e => !w.black e) ≠ [] := by
    intro h0
    have : x0 ∈ es.filter (fun e => !w.black e) := List.mem_filter.2 ⟨hm0, by simpa using hbx0⟩
    rw [h0] at this
    simp at this
  -- the number of trials
  have htr : e.trials l = some (t.options.made.numTrials : ℚ) := by
    rw [Search.read_lesson_trials Queried.empty hr hl]
    unfold lessonTrialsP
    rw [hes']
    have hemp : (es.filter (fun e => !w.black e)).isEmpty = false := by
      rw [List.isEmpty_eq_false_iff]; exact hne
    simp only [hemp, Bool.false_eq_true, if_false]
    have hne2 : (es.filter (fun e => !w.black e)).map (fun e => ((w.exRec e).trials : ℚ)) ≠ [] := by
      intro h0; exact hne (List.map_eq_nil_iff.1 h0)
    have := UnitScorer.mean_between (lo := (t.options.made.numTrials : ℚ)) (hi := (t.options.made.numTrials : ℚ)) _ hne2 (by
      intro y hy
      obtain ⟨x, hx, rfl⟩ := List.mem_map.1 hy
      obtain ⟨m1, m2⟩ := hmem x hx
      rw [(hval x m1 m2).2]
      exact ⟨le_rfl, le_rfl⟩)
    exact congrArg some (le_antisymm this.2 this.1)
  constructor
  · -- nothing is held back
    obtain ⟨v, hv, hsc⟩ := Search.read_score Queried.empty hr (u := l) ⟨_, hl⟩
    cases hvn : v with
    | none => rw [hvn] at hv; exact .inr (.inr (.inr (.inr (.inl hv))))
    | some s =>
      refine .inr (.inr (.inr (.inr (.inr (.inr ⟨s, _, by rw [hv, hvn], htr, ?_, htrials⟩)))))
      have := (lesson_score w l hty es hes' v hsc).2 s hvn
      rw [this]
      refine hscore.trans (Search.le_mean _ ?_ ?_)
      · intro h0; exact hne (List.map_eq_nil_iff.1 h0)
      · intro y hy
        obtain ⟨x, hx, rfl⟩ := List.mem_map.1 hy
        obtain ⟨m1, m2⟩ := hmem x hx
        exact (hval x m1 m2).1
  · -- the search goes on
    refine .inr (.inr ⟨_, _, ⟨(es.filter (fun e => !w.black e)).dedup, ?_, List.nodup_dedup _, ?_, rfl⟩, htr, .inl ⟨?_, htrials⟩⟩)
    · intro h0
      exact hne (List.eq_nil_iff_forall_not_mem.2 fun a ha => by
        have := List.mem_dedup.2 ha
        rw [h0] at this
        simp at this)
    · intro x
      rw [List.mem_dedup]
      constructor
      · intro hx
        obtain ⟨m1, m2⟩ := hmem x hx
        exact ⟨m1, m2, hx0.2.2⟩
      · rintro ⟨⟨es', h1, h2⟩, h3, -⟩
        rw [show t.graph.getLessonExercises l = some es' from h1] at hes
        cases hes
        have h4 : w.black x = false := h3
        exact List.mem_filter.2 ⟨h2, by simpa using h4⟩
    · refine hscore.trans ?_
      have := Search.le_mean (m := θ) ((es.filter (fun e => !w.black e)).dedup.map (fun x => ((e.score x).getD none).getD 0)) ?_ ?_
      · unfold UnitScorer.mean at this
        rwa [List.length_map] at this
      · intro h0
        rw [List.map_eq_nil_iff] at h0
        exact hne (List.eq_nil_iff_forall_not_mem.2 fun a ha => by
          have := List.mem_dedup.2 ha
          rw [h0] at this
          simp at this)
      · intro y hy
        obtain ⟨x, hx, rfl⟩ := List.mem_map.1 hy
        obtain ⟨m1, m2⟩ := hmem x (List.mem_dedup.1 hx)
        have htx : e.graph.getUnitType x = some .exercise := (hsane.wf.tyE _ _ ((hsane.wf.exercise _ _).1 m1)).1
        obtain ⟨v, hv, hsc⟩ := Search.read_score Queried.empty hr (u := x) ⟨_, htx⟩
        have := (exercise_score w x htx v).1 hsc
        rw [hv, this]
        exact (hval x m1 m2).1

/-! ### What the session stores -/

/-- A call of a session in which exercises are graded five, no earlier than the instant `since`, and anything may be asked for. -/
def Studies (since : Int) : Call ℚ → Prop
  | .scoreExercise x g ts _ order f => x ≠ [] ∧ g = .five ∧ since ≤ ts ∧ (∀ l, (order l).Perm l) ∧ f.trial = false
  | .blacklisted _ | .getUnitScore _ _ | .getBatch _ | .addToReviewList _ _ | .removeFromReviewList _ _ | .setPreferences _ _ => True
  | _ => False

/-- The call grades the exercise. -/
def gradesOf (x : Str) : Call ℚ → Bool
  | .scoreExercise y .. => decide (y = x)
  | _ => false

/-- How often the calls grade the exercise. -/
def timesGraded (x : Str) (h : List (Call ℚ)) : Nat := (h.filter (gradesOf x)).length

theorem clean_of_studies {since : Int} {c : Call ℚ} (h : Studies since c) : Clean c := by
  cases c with
  | scoreExercise x g ts fuel order f => exact ⟨h.1, h.2.2.2.2, h.2.2.2.1⟩
  | _ => first | trivial | exact h.elim

/-- What a session leaves as it was, and what it adds for an exercise. -/
structure Banked (t0 : Top ℚ) (x : Str) (since : Int) (m : Nat) (t : Top ℚ) : Prop where
  graph : t.graph = t0.graph
  black : ∀ u, t.blacklist.blacklisted u = t0.blacklist.blacklisted u
  options : t.options = t0.options
  override : t.override = t0.override
  clock : t.clock = t0.clock
  trials : ∃ new, t.trials.history x = t0.trials.history x ++ new ∧ new.length = m ∧ ∀ p ∈ new, p.1 = 5 ∧ since ≤ p.2
  deltas : ∃ new, t.deltas.history x = t0.deltas.history x ++ new ∧ m ≤ new.length + 1 ∧ ∀ p ∈ new, 0 ≤ p.1 ∧ since ≤ p.2

theorem banked_refl (t : Top ℚ) (x : Str) (since : Int) : Banked t x since 0 t :=
  ⟨rfl, fun _ => rfl, rfl, rfl, rfl, ⟨[], by simp⟩, ⟨[], by simp⟩⟩

theorem banked_step {b : Base ℚ} {θ : ℚ} (hb : Fair b θ) {ops : List (Graph.Op Str)} {t0 t : Top ℚ} {x : Str} {since : Int} {m : Nat}
    (hk : Banked t0 x since m t) (hg : Good b ops t) (hN : 1 ≤ t0.options.made.numTrials) {c : Call ℚ}
    (hx : gradesOf x c = true → t.graph.getUnitType x = some .exercise) (hc : Studies since c)
    (hok : Grades c → (step b t c).2 = true) :
    Banked t0 x since (m + if gradesOf x c then 1 else 0) (step b t c).1 := by
  cases c with
  | scoreExercise y g ts fuel order f =>
    obtain ⟨-, rfl, hs, -, -⟩ := hc
    have hok := hok trivial
    rcases step_score b t y .five ts fuel order f with ⟨-, e⟩ | ⟨s, ok, he, e⟩
    · rw [e] at hok; cases hok
    rw [e] at hok ⊢
    dsimp only at hok ⊢
    subst hok
    obtain ⟨v, c1, r, c, h1, h2, hend⟩ := System.ends_of_score (tables_of_sound hg.sound) he
    obtain ⟨-, hr, hrv⟩ := System.coh_queried hg.fresh h1 h2
    have hv : y = x → v.getD 0 ≤ 5 := by
      rintro rfl
      rw [hrv (hx (by simp [gradesOf]))]
      exact hb.le _ _ _ _ _ _ (get_pairwise _ _ _ _)
    cases hend with
    | done rs ids hd ht hw hprop hids =>
      obtain ⟨nt1, -, -⟩ := System.newTrials_spec (tables_of_sound hg.sound) y .five ts
      obtain ⟨nd1, -, -⟩ := System.newDeltas_spec (tables_of_sound hg.sound) y .five ts v r
      refine ⟨hk.graph, hk.black, hk.options, hk.override, hk.clock, ?_, ?_⟩
      · obtain ⟨new, n1, n2, n3⟩ := hk.trials
        refine ⟨new ++ (if y = x then [(gradeVal ℚ .five, ts)] else []), ?_, ?_, ?_⟩
        · rw [← List.append_assoc, ← n1]; exact nt1 x
        · rw [List.length_append, n2]
          unfold gradesOf
          by_cases hyx : y = x <;> simp [hyx]
        · intro p hp
          rcases List.mem_append.1 hp with h | h
          · exact n3 p h
          · split at h
            · simp only [List.mem_singleton] at h; subst h; exact ⟨five_val, hs⟩
            · simp at h
      · obtain ⟨new, n1, n2, n3⟩ := hk.deltas
        refine ⟨new ++ (if 0 < r.trials ∧ y = x then [(gradeVal ℚ .five - v.getD 0, ts)] else []), ?_, ?_, ?_⟩
        · rw [← List.append_assoc, ← n1]; exact nd1 x
        · rw [List.length_append]
          unfold gradesOf
          by_cases hyx : y = x
          · subst hyx
            by_cases hm : m = 0
            · simp only [decide_true, if_true]; omega
            · have hpos : 0 < r.trials := by
                rw [hr]
                show 0 < (t.trials.get b.sortV y t.options.made.numTrials).length
                obtain ⟨new', m1, m2, -⟩ := hk.trials
                rw [(get_newest b.sortV t.trials y _).1, m1, List.length_append, hk.options]
                omega
              simp only [hpos, and_true, decide_true, if_true, List.length_singleton]
              omega
          · simp only [hyx, decide_false, and_false, if_false, List.length_nil, Bool.false_eq_true]; omega
        · intro p hp
          rcases List.mem_append.1 hp with h | h
          · exact n3 p h
          · split at h
            · rename_i hyx
              simp only [List.mem_singleton] at h
              subst h
              exact ⟨by rw [five_val, sub_nonneg]; exact hv hyx.2, hs⟩
            · simp at h
  | getBatch q =>
    rcases step_batch b t q with ⟨-, e⟩ | ⟨s, r, -, e⟩
    · rw [e]; exact ⟨hk.graph, hk.black, hk.options, hk.override, hk.clock, hk.trials, hk.deltas⟩
    · rw [e]; exact ⟨hk.graph, hk.black, hk.options, hk.override, hk.clock, hk.trials, hk.deltas⟩
  | setPreferences p f =>
    cases f <;> exact ⟨hk.graph, hk.black, hk.options, hk.override, hk.clock, hk.trials, hk.deltas⟩
  | blacklisted u =>
    have hi := hg.sound.inv
    have hi' := (sound_step b t (.blacklisted u) hg.sound).inv
    refine ⟨hk.graph, fun y => ?_, hk.options, hk.override, hk.clock, hk.trials, hk.deltas⟩
    rw [← hk.black y]
    exact (same_blacklist hi hi' (Blacklist.hasEntry_eq _ u hi).2.1).2 y
  | getUnitScore u n => exact ⟨hk.graph, hk.black, hk.options, hk.override, hk.clock, hk.trials, hk.deltas⟩
  | addToReviewList u f => exact ⟨hk.graph, hk.black, hk.options, hk.override, hk.clock, hk.trials, hk.deltas⟩
  | removeFromReviewList u f => exact ⟨hk.graph, hk.black, hk.options, hk.override, hk.clock, hk.trials, hk.deltas⟩
  | _ => exact absurd hc id

theorem banked_runs {b : Base ℚ} {θ : ℚ} (hb : Fair b θ) {ops : List (Graph.Op Str)} {t0 : Top ℚ} (hg : Good b ops t0)
    (he : (Graph.run ops).getUnitType [] = none) (hn : NoEmpty (Graph.run ops)) {x : Str}
    (hN : 1 ≤ t0.options.made.numTrials) {since : Int} (h : List (Call ℚ))
    (hs : ∀ c ∈ h, Studies since c) (hok : GradingsOk b t0 h)
    (hx : (∃ c ∈ h, gradesOf x c = true) → t0.graph.getUnitType x = some .exercise) : Banked t0 x since (timesGraded x h) (runs b t0 h) := by
  induction h using List.reverseRecOn with
  | nil => exact banked_refl t0 x since
  | append_singleton h c ih =>
    rw [gradingsOk_append] at hok
    have h1 := ih (fun c hc => hs c (List.mem_append_left _ hc)) hok.1
      (fun ⟨c, h1, h2⟩ => hx ⟨c, List.mem_append_left _ h1, h2⟩)
    have hg' := good_runs hg he hn h (fun c hc => clean_of_studies (hs c (List.mem_append_left _ hc)))
    rw [runs_snoc]
    have hm : timesGraded x (h ++ [c]) = timesGraded x h + if gradesOf x c then 1 else 0 := by
      unfold timesGraded
      rw [List.filter_append, List.length_append]
      cases e : gradesOf x c <;> simp [e]
    rw [hm]
    exact banked_step hb h1 hg' hN (fun hc => by rw [h1.graph]; exact hx ⟨c, by simp, hc⟩) (hs c (by simp)) hok.2.1

/-! ### Libraries in which nothing is superseded -/

theorem lessons_not_empty {ι : Type} [DecidableEq ι] (ops : List (Graph.Op ι)) : ∀ c s, (Graph.run ops).courseLessons.find c = some s → s ≠ [] := by
  induction ops using List.reverseRecOn with
  | nil => intro c s h; cases h
  | append_singleton ops o ih =>
    rw [run_snoc]
    generalize Graph.run ops = g at ih ⊢
    cases o with
    | addCourse c => rcases addCourse_cases g c with ⟨_, e⟩ | ⟨_, e⟩ <;> simp only [Graph.step, e] <;> exact ih
    | addLesson l c =>
      rcases addLesson_cases g l c with ⟨_, e⟩ | ⟨_, _, e⟩ | ⟨_, _, _, e⟩ <;> simp only [Graph.step, e]
      · exact ih
      · exact ih
      · intro c' s h
        by_cases hc : c' = c
        · subst hc
          rw [AMap.find_upd] at h
          simp only [if_true] at h
          cases h
          intro h0
          exact List.ne_nil_of_mem (List.mem_insert_self (a := l)) h0
        · rw [AMap.find_upd, if_neg (fun e => hc e.symm)] at h
          exact ih c' s h
    | addExercise l c =>
      rcases addExercise_cases g l c with ⟨_, e⟩ | ⟨_, _, e⟩ | ⟨_, _, _, e⟩ <;> simp only [Graph.step, e] <;> exact ih
    | addDependencies u t ds => rcases step_addDependencies g u t ds with e | ⟨_, e⟩ <;> rw [e] <;> exact ih
    | addEncompassed u ds es => rcases addEncompassed_cases g u ds es with ⟨_, e⟩ | ⟨_, e⟩ <;> simp only [Graph.step, e] <;> exact ih
    | setEncompassingEqualsDependency => exact ih
    | addSuperseded u ss => simp only [Graph.step, addSuperseded_eq]; split <;> exact ih
    | updateStartingLessons =>
      obtain ⟨s, st, e⟩ := updateStartingLessons_frame g
      simp only [Graph.step, e]; exact ih

theorem all_plain (ops : List (Graph.Op Str)) (h : ∀ u, (Graph.run ops).getSupersededBy u = none) (u : Str) :
    Plain (Graph.run ops) u := by
  refine ⟨h u, fun ls l hls hl => ⟨h l, ?_⟩⟩
  have hw := wf_run ops
  have hl' := (hw.tyL l u ((hw.lesson u l).1 ⟨ls, hls, hl⟩)).1
  cases hc : (Graph.run ops).getCourseLessons l with
  | none => rfl
  | some s =>
    exfalso
    cases s with
    | nil => exact lessons_not_empty ops l [] hc rfl
    | cons a s =>
      have := (hw.tyL a l ((hw.lesson l a).1 ⟨_, hc, by simp⟩)).2
      rw [this] at hl'
      cases hl'

end Trane.TopLevel
