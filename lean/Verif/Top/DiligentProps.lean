import Verif.Top.DiligentLemmas

/-!
# C111: a student who always succeeds opens the whole library

`everything_known_opens`: when all exercises on offer in lessons still to be learned are well known (their stored grades are fives of
the last day), nothing is locked.  `fives_are_known`: grading an exercise five more often than a score looks at makes it well known.
`diligent_student_opens_everything`: hence, whoever takes up at each round some lesson still to be learned and gets fives in it, has
the whole library open after at most as many rounds as there are lessons.
-/

namespace Trane.TopLevel
open Trane.Store
open Trane.Store.Table (get_newest)
open Trane.Graph
open Trane.Library (Disk Lib FPath)
open Trane.UnitScorer (Plain SameAnswers Coh Everything coh_everything same_of_coh)
open Trane.System (NoEmpty)

variable {α γ : Type} {d : Disk α γ} {ig : List FPath} {lib : Lib α γ} {b : Base ℚ} {h : List (Call ℚ)} {t : Top ℚ}
  {q : Request} {θ : ℚ} {t0 : Top ℚ} {since : Int}

/-- The options let a lesson pass whose exercises are well known: a score looks at one grade at least, the score asked of a
dependency is no more than what fives give, and no more grades are asked for than a score looks at. -/
structure CanPass (θ : ℚ) (t : Top ℚ) : Prop where
  one : 1 ≤ t.options.made.numTrials
  score : t.options.current.passing.minScore ≤ θ
  trials : t.options.current.passing.minAvgTrials ≤ (t.options.made.numTrials : ℚ)

/-- A lesson whose exercises are well known is not one still to be learned. -/
theorem known_not_to_learn (hr : Running d ig lib b h t) (hq : Serves lib b t q) (he : NoEmptyId lib t)
    (hc : SameAnswers (t.sys.world (t.config b)) {} t.caches) (hb : Fair b θ) (hp : CanPass θ t) {l : Str}
    (hk : LessonKnown b t l) : ¬ Search.ToLearn (t.env q) l := by
  rintro ⟨h1, -, -, h4, h5⟩
  obtain ⟨a1, a2⟩ := known_mastered hb (reads_scratch hq.reads hc) (running_sane hr hq he) hp.one hp.score hp.trials h1 h4 hk
  rcases h5 with h | h
  · exact h a1
  · exact h a2

/-- **C111.**  An object has opened a library and its caches hold nothing out of date.  If the exercises of every lesson on offer
and still to be learned are well known, a search without filter gets to every lesson and course: there are no such lessons left,
and nothing is locked. -/
theorem everything_known_opens (hr : Running d ig lib b h t) (hq : Serves lib b t q) (he : NoEmptyId lib t)
    (hc : SameAnswers (t.sys.world (t.config b)) {} t.caches) (hw : lib.WellLaidOut) (hs : Search.NothingStranded (t.env q))
    (hb : Fair b θ) (hp : CanPass θ t) (hk : ∀ l, Search.ToLearn (t.env q) l → LessonKnown b t l) {u : Str}
    (hu : (lib.getLessonManifest u).isSome = true ∨ (lib.getCourseManifest u).isSome = true) : Search.Open (t.env q) u := by
  by_contra hl
  obtain ⟨l, -, hl⟩ := object_waits_for_offer_partial hr hq he hc hw hs hu hl
  exact known_not_to_learn hr hq he hc hb hp (hk l hl) hl

/-! ### A session of fives -/

/-- No manifest names a unit that supersedes another, and the empty id is not among the encompassed units. -/
structure Simple (lib : Lib α γ) : Prop where
  unsuperseded : ∀ u, lib.graph.getSupersededBy u = none
  noEmpty : NoEmpty lib.graph

theorem library_ops (hg : Library.GeneratesProper d) (hl : Library.Loads d ig lib) :
    (∃ ops, lib.graph = Graph.run ops) ∧ lib.graph.getUnitType [] = none := by
  obtain ⟨cs, s, flag, hoc, ho, hi, rfl, _⟩ := Library.loads_inv hg hl
  refine ⟨⟨_, rfl⟩, ?_⟩
  obtain ⟨_, p1, p2, p3⟩ := Library.opened_proper d ig hg cs hoc
  cases hq : (run (Library.finalOps (cs.flatMap Library.items) flag)).getUnitType [] with
  | none => rfl
  | some t =>
    have hq' : s.graph.types.find [] = some t := by
      rw [← hq, getUnitType, (Library.final_frame _ s flag hi).1]
    obtain ⟨it, a, b, _⟩ := (hi.types _ _).1 hq'
    cases it with
    | course m => exact (p1 m ((Library.mem_items_course cs m).1 a) b).elim
    | lesson m => exact (p2 m ((Library.mem_items_lesson cs m).1 a) b).elim
    | exercise m => exact (p3 m ((Library.mem_items_exercise cs m).1 a) b).elim

/-- A session of an object that has just opened a library: every call is a grading with five no earlier than `since`, a request for
a batch or a score, or about the review list or the preferences; no grading fails; what was stored before is older than `since`; and
the time in force and the clock are no more than a day and a week later than `since`. -/
structure FivesSession (d : Disk α γ) (ig : List FPath) (lib : Lib α γ) (b : Base ℚ) (t0 : Top ℚ) (since : Int)
    (h : List (Call ℚ)) : Prop where
  opened : Running d ig lib b [] t0
  simple : Simple lib
  studies : ∀ c ∈ h, Studies since c
  accepted : GradingsOk b t0 h
  oldTrials : ∀ x, ∀ p ∈ t0.trials.history x, p.2 < since
  oldDeltas : ∀ x, ∀ p ∈ t0.deltas.history x, p.2 < since
  today : t0.override.getD t0.clock ≤ since + 86400
  week : t0.clock < since + 604800

theorem session_good (hf : FivesSession d ig lib b t0 since h) :
    ∃ ops, lib.graph = Graph.run ops ∧ Good b ops t0 ∧ Good b ops (runs b t0 h) := by
  obtain ⟨⟨ops, hops⟩, he⟩ := library_ops hf.opened.proper hf.opened.loads
  have hn := hf.simple.noEmpty
  rw [hops] at he hn
  have hg : Good b ops t0 := by
    obtain ⟨g0, clock, earlier, hok, ht⟩ := hf.opened.opened
    have hso := sound_step b _ (.restart lib.graph) (sound_runs b _ earlier (sound_fresh b g0 clock))
    rw [ht]
    show Good b ops (step b (runs b (fresh g0 clock) earlier) (.restart lib.graph)).1
    rcases step_restart b (runs b (fresh g0 clock) earlier) lib.graph with e | ⟨-, e⟩
    · rw [e] at hok; cases hok
    · rw [e] at hso ⊢
      exact ⟨hso, hops, UnitScorer.coh_empty _ _⟩
  exact ⟨ops, hops, hg, good_runs hg he hn h (fun c hc => clean_of_studies (hf.studies c hc))⟩

theorem session_running (hf : FivesSession d ig lib b t0 since h) : Running d ig lib b h (runs b t0 h) := by
  refine ⟨hf.opened.proper, hf.opened.loads, ?_, ?_, ?_⟩
  · obtain ⟨g0, clock, earlier, hok, ht⟩ := hf.opened.opened
    exact ⟨g0, clock, earlier, hok, by rw [ht]; rfl⟩
  · intro c hc hr
    have := hf.studies c hc
    cases c <;> first | exact hr | exact this
  · rw [List.filterMap_eq_nil_iff]
    intro c hc
    have := hf.studies c hc
    cases c <;> first | rfl | exact this.elim

theorem session_answers (hf : FivesSession d ig lib b t0 since h) :
    SameAnswers ((runs b t0 h).sys.world ((runs b t0 h).config b)) {} (runs b t0 h).caches := by
  obtain ⟨ops, h1, -, h3⟩ := session_good hf
  refine same_of_coh (coh_everything (fun u => ?_) h3.fresh)
  show Plain (runs b t0 h).graph u
  rw [h3.graph]
  exact all_plain ops (by rw [← h1]; exact hf.simple.unsuperseded) u

theorem session_banked (hf : FivesSession d ig lib b t0 since h) (hb : Fair b θ) (hp : CanPass θ t0) {x : Str}
    (hx : (∃ c ∈ h, gradesOf x c = true) → lib.graph.getUnitType x = some .exercise) :
    Banked t0 x since (timesGraded x h) (runs b t0 h) := by
  obtain ⟨ops, h1, h2, -⟩ := session_good hf
  have he := (library_ops hf.opened.proper hf.opened.loads).2
  have hn := hf.simple.noEmpty
  rw [h1] at he hn
  exact banked_runs hb h2 he hn hp.one h hf.studies hf.accepted (fun hc => by rw [h2.graph, ← h1]; exact hx hc)

/-- **C111.**  In such a session an exercise that was graded more often than a score looks at is well known. -/
theorem fives_are_known (hf : FivesSession d ig lib b t0 since h) (hb : Fair b θ) (hp : CanPass θ t0) {x : Str}
    (hx : lib.graph.getUnitType x = some .exercise) (hn : t0.options.made.numTrials < timesGraded x h) :
    WellKnown b (runs b t0 h) x := by
  have hk := session_banked hf hb hp (fun _ => hx)
  obtain ⟨new, n1, n2, n3⟩ := hk.trials
  obtain ⟨new', m1, m2, m3⟩ := hk.deltas
  have g1 := get_newest b.sortV (runs b t0 h).trials x (runs b t0 h).options.made.numTrials
  have g2 := get_newest b.sortV (runs b t0 h).deltas x (runs b t0 h).options.made.numTrials
  rw [n1] at g1
  rw [m1] at g2
  have a1 := newest_since g1 (hf.oldTrials x) (fun p hp => (n3 p hp).2) (by rw [hk.options, n2]; omega)
  have a2 := newest_since g2 (hf.oldDeltas x) (fun p hp => (m3 p hp).2) (by rw [hk.options]; omega)
  have t1 := hf.today
  have t2 := hf.week
  refine ⟨a1.1, fun p hp => ?_, fun p hp => (m3 p (a2.2 p hp)).1⟩
  obtain ⟨p1, p2⟩ := n3 p (a1.2 p hp)
  rw [hk.override, hk.clock]
  exact ⟨p1, by omega, by omega⟩

/-- The options and the blacklist are as they were when the library was opened. -/
theorem session_same (hf : FivesSession d ig lib b t0 since h) (hb : Fair b θ) (hp : CanPass θ t0) :
    (runs b t0 h).options = t0.options ∧ ∀ u, (runs b t0 h).blacklist.blacklisted u = t0.blacklist.blacklisted u := by
  have hk := session_banked (x := []) hf hb hp (fun ⟨c, hc, hg⟩ => by
    have := hf.studies c hc
    cases c with
    | scoreExercise y g ts fuel order f =>
      simp only [gradesOf, decide_eq_true_eq] at hg
      exact absurd hg this.1
    | _ => cases hg)
  exact ⟨hk.options, hk.black⟩

theorem unsuperseded_not_stranded (hr : Running d ig lib b h t) (hq : Serves lib b t q) (hl : Simple lib) :
    Search.NothingStranded (t.env q) := by
  intro c l _ hsup
  exfalso
  have h3 : GetsSuperseded b t c false := by
    refine ⟨0, t.caches, ?_⟩
    unfold UnitScorer.checkC
    have : (t.sys.world (t.config b)).graph.getSupersededBy c = none := by
      change t.graph.getSupersededBy c = none
      rw [hr.graph]; exact hl.unsuperseded c
    rw [this]
    rfl
  have h4 := UnitScorer.superseded_unique _ _ _ (hq.reads.superseded c) h3
  have h5 : q.env.superseded c = true := hsup
  rw [h5] at h4
  cases h4

/-! ### Rounds -/

/-- **C111.**  Rounds `0, 1, 2, …` of a session: `hs n` are the calls made up to round `n`, and `qs n` a request made then.  Whenever
there is a lesson on offer and still to be learned, by the next round all exercises offered by one such lesson have been graded five,
more often than a score looks at.  Then at all rounds but at most as many as the library has lessons, a search without filter gets to
every lesson and course. -/
theorem diligent_student_opens_everything {t0 : Top ℚ} {since : Int} (hs : ℕ → List (Call ℚ)) (qs : ℕ → Request)
    (hgrow : ∀ n, hs n <+: hs (n + 1)) (hf : ∀ n, FivesSession d ig lib b t0 since (hs n))
    (hq : ∀ n, Serves lib b (runs b t0 (hs n)) (qs n)) (he : t0.blacklist.blacklisted [] = false) (hw : lib.WellLaidOut)
    (hb : Fair b θ) (hp : CanPass θ t0)
    (hdil : ∀ n, (∃ l, Search.ToLearn ((runs b t0 (hs n)).env (qs n)) l) →
      ∃ l, Search.ToLearn ((runs b t0 (hs n)).env (qs n)) l ∧
        ∀ x, Search.Offers ((runs b t0 (hs n)).env (qs n)) l x → t0.options.made.numTrials < timesGraded x (hs (n + 1)))
    (rounds : Finset ℕ)
    (hlocked : ∀ n ∈ rounds, ∃ u, ((lib.getLessonManifest u).isSome = true ∨ (lib.getCourseManifest u).isSome = true) ∧
      ¬ Search.Open ((runs b t0 (hs n)).env (qs n)) u) :
    rounds.card ≤ lib.lessons.keys.length := by
  have hid : ∀ n, NoEmptyId lib (runs b t0 (hs n)) := fun n =>
    ⟨((session_same (hf n) hb hp).2 []).trans he, (hf n).simple.unsuperseded []⟩
  have hp' : ∀ n, CanPass θ (runs b t0 (hs n)) := fun n => by
    have := (session_same (hf n) hb hp).1
    exact ⟨by rw [this]; exact hp.one, by rw [this]; exact hp.score, by rw [this]; exact hp.trials⟩
  have hto : ∀ n ∈ rounds, ∃ l, Search.ToLearn ((runs b t0 (hs n)).env (qs n)) l ∧
      ∀ x, Search.Offers ((runs b t0 (hs n)).env (qs n)) l x → t0.options.made.numTrials < timesGraded x (hs (n + 1)) := by
    intro n hn
    obtain ⟨u, hu, hl⟩ := hlocked n hn
    have hr := session_running (hf n)
    obtain ⟨l, -, hl⟩ := object_waits_for_offer_partial hr (hq n) (hid n) (session_answers (hf n)) hw
      (unsuperseded_not_stranded hr (hq n) (hf n).simple) hu hl
    exact hdil n ⟨l, hl⟩
  choose! f hf1 hf2 using hto
  have hmono : ∀ n k, hs n <+: hs (n + k) := by
    intro n k
    induction k with
    | zero => exact List.prefix_rfl
    | succ k ih => exact ih.trans (hgrow (n + k))
  have hnever : ∀ n ∈ rounds, ∀ m, n < m → ¬ Search.ToLearn ((runs b t0 (hs m)).env (qs m)) (f n) := by
    intro n hn m hm hl
    have hrn := session_running (hf n)
    have hrm := session_running (hf m)
    refine known_not_to_learn hrm (hq m) (hid m) (session_answers (hf m)) hb (hp' m) ?_ hl
    intro x hx hbx
    have hsane := running_sane hrn (hq n) (hid n)
    have hx' : LessonHasExercise (runs b t0 (hs n)).graph (f n) x := by rw [hrn.graph, ← hrm.graph]; exact hx
    have hty : lib.graph.getUnitType x = some .exercise := by
      rw [← hrn.graph]
      exact (hsane.wf.tyE _ _ ((hsane.wf.exercise _ _).1 hx')).1
    obtain ⟨-, -, -, ⟨y, hy⟩, -⟩ := hf1 n hn
    have hoff : Search.Offers ((runs b t0 (hs n)).env (qs n)) (f n) x := by
      refine ⟨hx', ?_, hy.2.2⟩
      show (runs b t0 (hs n)).blacklist.blacklisted x = false
      rw [(session_same (hf n) hb hp).2 x, ← (session_same (hf m) hb hp).2 x]
      exact hbx
    have hgr := hf2 n hn x hoff
    refine fives_are_known (hf m) hb hp hty (lt_of_lt_of_le hgr ?_)
    obtain ⟨k, rfl⟩ : ∃ k, m = n + 1 + k := ⟨m - (n + 1), by omega⟩
    exact List.Sublist.length_le ((hmono (n + 1) k).sublist.filter _)
  have hinj : Set.InjOn f rounds := by
    intro n hn m hm hnm
    rcases lt_trichotomy n m with h | h | h
    · exact absurd (hnm ▸ hf1 m hm) (hnever n hn m h)
    · exact h
    · exact absurd (hnm ▸ hf1 n hn) (hnever m hm n h)
  rw [← Finset.card_image_of_injOn hinj]
  refine (Finset.card_le_card (t := lib.lessons.keys.toFinset) ?_).trans (List.toFinset_card_le _)
  intro l hl
  obtain ⟨n, hn, rfl⟩ := Finset.mem_image.1 hl
  have h1 : (runs b t0 (hs n)).graph.getUnitType (f n) = some .lesson := (hf1 n hn).1
  rw [(session_running (hf n)).graph, (Library.library_types (hf n).opened.proper (hf n).opened.loads _).2.1] at h1
  rw [List.mem_toFinset]
  obtain ⟨m, hm⟩ := Option.isSome_iff_exists.1 h1
  exact List.mem_map.2 ⟨_, AMap.mem_of_find hm, rfl⟩

/-- **C111.**  So at one of the first rounds, no later than the number of lessons, everything is open. -/
theorem diligent_student_done {t0 : Top ℚ} {since : Int} (hs : ℕ → List (Call ℚ)) (qs : ℕ → Request)
    (hgrow : ∀ n, hs n <+: hs (n + 1)) (hf : ∀ n, FivesSession d ig lib b t0 since (hs n))
    (hq : ∀ n, Serves lib b (runs b t0 (hs n)) (qs n)) (he : t0.blacklist.blacklisted [] = false) (hw : lib.WellLaidOut)
    (hb : Fair b θ) (hp : CanPass θ t0)
    (hdil : ∀ n, (∃ l, Search.ToLearn ((runs b t0 (hs n)).env (qs n)) l) →
      ∃ l, Search.ToLearn ((runs b t0 (hs n)).env (qs n)) l ∧
        ∀ x, Search.Offers ((runs b t0 (hs n)).env (qs n)) l x → t0.options.made.numTrials < timesGraded x (hs (n + 1))) :
    ∃ n ≤ lib.lessons.keys.length, ∀ u,
      (lib.getLessonManifest u).isSome = true ∨ (lib.getCourseManifest u).isSome = true →
      Search.Open ((runs b t0 (hs n)).env (qs n)) u := by
  by_contra hno
  push Not at hno
  have := diligent_student_opens_everything hs qs hgrow hf hq he hw hb hp hdil
    (Finset.range (lib.lessons.keys.length + 1)) (fun n hn => hno n (by have := Finset.mem_range.1 hn; omega))
  rw [Finset.card_range] at this
  omega

end Trane.TopLevel
