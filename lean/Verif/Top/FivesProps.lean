import Verif.Top.FivesCaches

/-!
# C110: practice pays

Whatever the student did before: exercises that are graded five often enough have high scores, a lesson all of whose exercises were
practised like this counts as mastered, and what depends on such lessons only is open.
-/

namespace Trane.TopLevel
open Trane.Store
open Trane.UnitScorer (Caches scoreC exC invalidate appScore ExRec World mean mean_between lessonMean lessonO scoreO lessonTrialsO
  over over_exRec lessonP lessonTrialsP agrees_iff ag_score ag_lessonTrials grown_refl)
open Trane.Scorer (Kind)
open Trane.Graph

variable {R : Type} [Field R] [LinearOrder R] [IsStrictOrderedRing R]

/-- A run of grades of five for exercises, all accepted, none before the instant `since`, which was at most a day ago at the time
that is in force and less than a week ago by the clock of the computer. -/
structure Practice (b : Base R) (t : Top R) (since : Int) (ps : List Five) : Prop where
  accepted : ∀ r ∈ resultsOf b t (ps.map Five.call), r = true
  exercises : ∀ p ∈ ps, t.graph.getUnitType p.exercise = some .exercise
  later : ∀ p ∈ ps, since ≤ p.time
  today : t.override.getD t.clock ≤ since + 86400
  week : t.clock < since + 604800

/-- The exercise is graded more often than the number of trials that a score looks at, and everything that was stored about it
before is older. -/
structure Enough (t : Top R) (since : Int) (ps : List Five) (x : Str) : Prop where
  often : t.options.made.numTrials < timesOf x ps
  trials : ∀ p ∈ t.trials.history x, p.2 < since
  deltas : ∀ p ∈ t.deltas.history x, p.2 < since

/-- The lesson was practised: it has exercises that are not blacklisted, and all of them are graded often enough. -/
structure PractisedLesson (t : Top R) (since : Int) (ps : List Five) (l : Str) : Prop where
  isLesson : t.graph.getUnitType l = some .lesson
  some : ∃ x, LessonHasExercise t.graph l x ∧ t.blacklist.blacklisted x = false
  enough : ∀ x, LessonHasExercise t.graph l x → t.blacklist.blacklisted x = false → Enough t since ps x

/-- The graph was built by the library, so that exercises know their lessons. -/
structure Placed (g : Graph Str) : Prop where
  lesson : ∀ l x, LessonHasExercise g l x ↔ g.getExerciseLesson x = some l
  exercise : ∀ l x, LessonHasExercise g l x → g.getUnitType x = some .exercise

theorem placed_run (ops : List (Graph.Op Str)) : Placed (Graph.run ops) :=
  ⟨(containment_maps_agree ops).2, fun l x h => ((containment_unique_and_typed ops).2.2.2 l x h).1⟩

/-- Grades change neither the library nor the options. -/
theorem fives_keep (b : Base R) (ps : List Five) (t : Top R) :
    (runs b t (ps.map Five.call)).graph = t.graph ∧ (runs b t (ps.map Five.call)).options = t.options := by
  induction ps generalizing t with
  | nil => exact ⟨rfl, rfl⟩
  | cons p ps ih =>
    obtain ⟨i1, i2⟩ := ih (step b t p.call).1
    have : (step b t p.call).1.graph = t.graph ∧ (step b t p.call).1.options = t.options := by
      rcases step_score b t p.exercise .five p.time p.fuel p.order {} with ⟨-, e⟩ | ⟨s, ok, -, e⟩
      · unfold Five.call; rw [e]; exact ⟨rfl, rfl⟩
      · unfold Five.call; rw [e]; exact ⟨rfl, rfl⟩
    exact ⟨i1.trans this.1, i2.trans this.2⟩

section
variable {b : Base R} {θ : R} {t : Top R} {since : Int} {ps : List Five} {g0 : Graph Str} {clock : Int} {h : List (Call R)}

theorem practice_keeping (hb : Fair b θ) (ht : t = runs b (fresh g0 clock) h) (hp : Practice b t since ps)
    (hN : 1 ≤ t.options.made.numTrials) {x l : Str} (hx : t.graph.getUnitType x = some .exercise)
    (hl : t.graph.getExerciseLesson x = some l) : Keeping b t x l since (timesOf x ps) (runs b t (ps.map Five.call)) := by
  have h0 : Keeping b t x l since 0 t := by
    refine ⟨rfl, rfl, rfl, rfl, rfl, ?_, ⟨[], by simp⟩, ⟨[], by simp⟩, fun r hr => ⟨rfl, ?_⟩, fun h => absurd h (by omega)⟩
    · rw [ht]; exact sound_runs b _ h (sound_fresh b g0 clock)
    · rw [ht] at hr; exact (atMost5_runs hb g0 clock h).ex x r hr
  have := keeping_runs hb hN hx hl ps (fun p h => ⟨hp.exercises p h, hp.later p h⟩) t 0 h0 hp.accepted
  rwa [Nat.zero_add] at this

/-- **C110, exercises.**  Whatever calls were made before, an exercise that is graded five more often than a score looks back has at least the
score `θ` (4.5 for the scorers of the application) within a day. -/
theorem fives_raise_exercise (hb : Fair b θ) (ht : t = runs b (fresh g0 clock) h) (hp : Practice b t since ps)
    (hN : 1 ≤ t.options.made.numTrials) {x l : Str} (hx : t.graph.getUnitType x = some .exercise)
    (hl : t.graph.getExerciseLesson x = some l) (he : Enough t since ps x) (n : Nat) :
    ∃ v, answer b (runs b t (ps.map Five.call)) x (n + 1) = some (some v) ∧ θ ≤ v := by
  have hk := practice_keeping hb ht hp hN hx hl
  obtain ⟨k1, k2, -⟩ := keeping_score hb hk hN he.often he.trials he.deltas hp.today hp.week
  refine ⟨_, ?_, k2⟩
  unfold answer
  have e : ((runs b t (ps.map Five.call)).sys.world ((runs b t (ps.map Five.call)).config b)).graph.getUnitType x = some .exercise := by
    show (runs b t (ps.map Five.call)).graph.getUnitType x = _
    rw [hk.graph]; exact hx
  rw [scoreC, e]
  simp only [exC, bind, StateT.bind, k1, Option.bind_some, pure, StateT.pure, Option.map_some]

/-- **C110, lessons.**  A lesson that was practised like this has no score (it is blacklisted, superseded or has nothing to
practise) or one of at least `θ`; and its number of trials is the number that a score looks back. -/
theorem fives_raise_lesson (hb : Fair b θ) (ht : t = runs b (fresh g0 clock) h) (hg : Placed t.graph) (hp : Practice b t since ps)
    (hN : 1 ≤ t.options.made.numTrials) {l : Str} (hl : PractisedLesson t since ps l) :
    (∀ v, GetsScore b (runs b t (ps.map Five.call)) l v → v = none ∨ ∃ s, v = some s ∧ θ ≤ s) ∧
    (∀ n, GetsTrials b (runs b t (ps.map Five.call)) l n → n = none ∨ n = some (t.options.made.numTrials : R)) := by
  set t' := runs b t (ps.map Five.call) with ht'
  set w := t'.sys.world (t'.config b) with hw
  have hall : ∀ x, LessonHasExercise t.graph l x → t.blacklist.blacklisted x = false →
      Keeping b t x l since (timesOf x ps) t' ∧ t'.caches.ex.find x = none ∧ θ ≤ (w.exRec x).score ∧
        (w.exRec x).trials = t.options.made.numTrials := by
    intro x h1 h2
    have he := hl.enough x h1 h2
    have hk := practice_keeping hb ht hp hN (hg.exercise l x h1) ((hg.lesson l x).1 h1)
    exact ⟨hk, keeping_score hb hk hN he.often he.trials he.deltas hp.today hp.week⟩
  obtain ⟨x0, hx0, hb0⟩ := hl.some
  obtain ⟨hk0, -⟩ := hall x0 hx0 hb0
  have hles := hk0.lesson (by have := (hl.enough x0 hx0 hb0).often; omega)
  have hgr : w.graph = t.graph := hk0.graph
  have hbl : w.black = t.blacklist.blacklisted := by
    show t'.blacklist.blacklisted = _
    rw [hk0.black]
  have hvalid : ∀ es, w.graph.getLessonExercises l = some es → ∀ x ∈ es.filter (fun e => !w.black e),
      (over w t'.caches).exRec x = w.exRec x ∧ θ ≤ (w.exRec x).score ∧ (w.exRec x).score ≤ 5 ∧
        (w.exRec x).trials = t.options.made.numTrials := by
    intro es hes x hx
    obtain ⟨m1, m2⟩ := List.mem_filter.1 hx
    rw [hgr] at hes
    rw [hbl] at m2
    obtain ⟨-, k1, k2, k3⟩ := hall x ⟨es, hes, m1⟩ (by simpa using m2)
    refine ⟨by rw [over_exRec, k1]; rfl, k2, hb.le _ _ _ _ _ _ (get_pairwise _ _ _ _), k3⟩
  have hlt : w.graph.getUnitType l = some .lesson := by rw [hgr]; exact hl.isLesson
  constructor
  · intro v hv
    obtain ⟨k, hk⟩ := (agrees_iff (fun n => ag_score w t'.caches n l) (grown_refl w t'.caches) v).1 hv
    cases k with
    | zero => simp [scoreO] at hk
    | succ k =>
      rw [scoreO, hlt] at hk
      dsimp only at hk
      unfold lessonO at hk
      rw [hles.1] at hk
      dsimp only at hk
      unfold lessonP at hk
      split at hk
      · cases hk; exact .inl rfl
      · simp only [Option.bind_eq_bind, Option.bind_eq_some_iff] at hk
        obtain ⟨sup, -, hk⟩ := hk
        split at hk
        · cases hk; exact .inl rfl
        · simp only [Option.pure_def, Option.some.injEq] at hk
          subst hk
          unfold lessonMean
          split
          · exact .inl rfl
          · rename_i es hes
            dsimp only
            split
            · exact .inl rfl
            · rename_i hne
              refine .inr ⟨_, rfl, (mean_between (lo := θ) (hi := 5) _ ?_ ?_).1⟩
              · intro h
                exact hne (by rw [List.map_eq_nil_iff] at h; rw [h]; rfl)
              · intro y hy
                obtain ⟨x, hx, rfl⟩ := List.mem_map.1 hy
                obtain ⟨e1, e2, e3, -⟩ := hvalid es hes x hx
                rw [e1]
                exact ⟨e2, e3⟩
  · intro n hn
    unfold GetsTrials at hn
    have hlt' : t'.graph.getUnitType l = some .lesson := hlt
    rw [hlt'] at hn
    dsimp only at hn
    obtain ⟨c', hn⟩ := hn
    obtain ⟨-, k, hk⟩ := (ag_lessonTrials w t'.caches l).snd _ _ _ (grown_refl w t'.caches) hn
    simp only [Option.some.injEq] at hk
    subst hk
    unfold lessonTrialsO
    rw [hles.2]
    dsimp only
    unfold lessonTrialsP
    split
    · exact .inl rfl
    · rename_i es hes
      dsimp only
      split
      · exact .inl rfl
      · rename_i hne
        refine .inr ?_
        have := mean_between (lo := (t.options.made.numTrials : R)) (hi := (t.options.made.numTrials : R))
          ((es.filter (fun e => !(over w t'.caches).black e)).map (fun e => (((over w t'.caches).exRec e).trials : R))) ?_ ?_
        · rw [le_antisymm this.2 this.1]
        · intro h
          exact hne (by rw [List.map_eq_nil_iff] at h; rw [h]; rfl)
        · intro y hy
          obtain ⟨x, hx, rfl⟩ := List.mem_map.1 hy
          obtain ⟨e1, -, -, e4⟩ := hvalid es hes x hx
          rw [e1, e4]
          exact ⟨le_rfl, le_rfl⟩

end

/-! ### What depends on practised lessons -/

section
variable {b : Base ℚ} {θ : ℚ} {t : Top ℚ} {since : Int} {ps : List Five} {g0 : Graph Str} {clock : Int} {h : List (Call ℚ)}

/-- **C110, the way ahead.**  After such a practice a request for a batch, which reads the scores from the object, does not find
anything held back by the practised lessons: a unit that depends on practised lessons only is unlocked. -/
theorem practice_unlocks (hb : Fair b θ) (ht : t = runs b (fresh g0 clock) h) (hg : Placed t.graph) (hp : Practice b t since ps)
    (hN : 1 ≤ t.options.made.numTrials) {q : Request} (hr : Reads b (runs b t (ps.map Five.call)) q)
    (hscore : t.options.current.passing.minScore ≤ θ)
    (htrials : t.options.current.passing.minAvgTrials ≤ (t.options.made.numTrials : ℚ)) {u : Str}
    (hu : ∀ d, DependsOn t.graph u d → PractisedLesson t since ps d) :
    Search.Unlocked ((runs b t (ps.map Five.call)).env q) none u := by
  intro d hd x hx
  have hx' : x = d := by
    cases hx with
    | self => rfl
    | lastLesson hna => exact absurd trivial hna
    | throughCourse hna => exact absurd trivial hna
    | throughLesson hna => exact absurd trivial hna
    | throughStart hna => exact absurd trivial hna
  subst hx'
  obtain ⟨hg', ho'⟩ := fives_keep b ps t
  have hl := hu x (by rw [← hg']; exact hd)
  obtain ⟨h1, h2⟩ := fives_raise_lesson hb ht hg hp hN hl
  set t' := runs b t (ps.map Five.call) with ht'
  unfold Search.Satisfied
  have hkn := hr.known x (by rw [hg', hl.isLesson]; simp)
  have e1 : (t'.env q).score = q.env.score := rfl
  have e2 : (t'.env q).trials = q.env.trials := rfl
  have e3 : (t'.env q).opts = t.options.current := by
    show t'.options.current = _
    rw [ho']
  rw [e1, e2, e3]
  have hsc := hr.score x
  have htr := h2 _ (hr.trials x)
  generalize q.env.trials x = n at htr
  generalize q.env.score x = sc at hkn hsc
  obtain ⟨v, rfl⟩ := Option.ne_none_iff_exists'.1 hkn
  rcases h1 v (hsc v rfl) with rfl | ⟨s, rfl, hs⟩
  · exact .inr (.inr (.inr (.inr (.inl rfl))))
  · rcases htr with rfl | rfl
    · exact .inr (.inr (.inr (.inr (.inr (.inl rfl)))))
    · exact .inr (.inr (.inr (.inr (.inr (.inr ⟨s, _, rfl, rfl, hscore.trans hs, htrials⟩)))))

end

/-! ### The scorers of the application -/

section
variable (kind : Str → Kind) (inRange : ℤ → Bool) (sortW : SortDesc (ℚ × ℚ))

theorem appScore_fair (clock : ℤ) (x : Str) (now : ℤ) (r : UnitScorer.Record) (l c : List RewardScorer.Reward)
    (hs : Scorer.NewestFirst r.trials) (hne : r.trials ≠ [])
    (h5 : ∀ e ∈ r.trials, e.value = 5 ∧ now ≤ e.time + 86400 ∧ clock < e.time + 604800) (hd : ∀ d ∈ r.deltas, 0 ≤ d.value) :
    9 / 2 ≤ (appScore kind inRange clock x now r l c).score := by
  obtain ⟨trials, deltas⟩ := r
  cases trials with
  | nil => exact absurd rfl hne
  | cons last rest =>
    obtain ⟨s, e, h⟩ := Scorer.fives_score (kind x) last rest deltas now hs (fun e he => (h5 e he).1) hd (h5 last (by simp)).2.1
    unfold appScore
    rw [e]
    dsimp only
    split
    · rename_i ha
      have := Scorer.fives_reward clock _ last rest (fun e he => (h5 e he).1) (h5 last (by simp)).2.2 ha
      unfold Scorer.clamp
      split_ifs <;> linarith
    · exact h

/-- **C110, the application.**  The exercise scorer and the reward scorer of the application satisfy what the theorems above ask
of a scorer: 4.5 is reached. -/
theorem app_fair (sortV : SortDesc ℝ) : Fair (appBase kind inRange sortV sortW) (9 / 2) := by
  have hn : ∀ st : List (ℝ × Int), st.Pairwise (fun p q => q.2 ≤ p.2) → Scorer.NewestFirst (entries st) := by
    intro st h
    unfold Scorer.NewestFirst entries
    rw [List.pairwise_map]
    exact h
  refine ⟨fun clock x now st l c h => ?_, fun clock x now st l c h hne h5 hd => ?_⟩
  · exact (appScore_good kind inRange clock x now _ (hn _ h) _ _).1.2
  · refine appScore_fair kind inRange clock x now _ _ _ (hn _ h) ?_ ?_ ?_
    · intro he
      exact hne (List.map_eq_nil_iff.1 he)
    · intro e he
      obtain ⟨p, hp, rfl⟩ := List.mem_map.1 he
      exact h5 p hp
    · intro e he
      obtain ⟨p, hp, rfl⟩ := List.mem_map.1 he
      exact hd p hp

/-- A table of rational numbers, as one of real numbers. -/
def castAll (l : List (ℚ × Int)) : List (ℝ × Int) := l.map (fun p => ((p.1 : ℝ), p.2))

/-- The scores of the application, /repo/src/scheduler/unit_scorer.rs:190-246, rounded down to thousandths; grades and deltas are
rational numbers. -/
noncomputable def milliBase (sortV : SortDesc ℚ) : Base ℚ where
  sortV := sortV
  sortW := sortW
  scorer := fun clock x now st l c =>
    ((⌊1000 * (appScore kind inRange clock x now ⟨entries (castAll st.1), entries (castAll st.2)⟩ (rewardsOf l)
      (rewardsOf c)).score⌋ : ℚ) / 1000, 0, none)

theorem milli_bounds (y : ℝ) : (y ≤ 5 → (⌊1000 * y⌋ : ℚ) / 1000 ≤ 5) ∧ (9 / 2 ≤ y → 9 / 2 ≤ (⌊1000 * y⌋ : ℚ) / 1000) := by
  constructor
  · intro h
    rw [div_le_iff₀ (by norm_num)]
    have h2 : ⌊1000 * y⌋ ≤ 5000 := by
      rw [← Int.lt_add_one_iff, Int.floor_lt]
      push_cast
      linarith
    have h3 : ((⌊1000 * y⌋ : ℤ) : ℚ) ≤ ((5000 : ℤ) : ℚ) := by exact_mod_cast h2
    push_cast at h3
    linarith
  · intro h
    rw [le_div_iff₀ (by norm_num)]
    have h2 : 4500 ≤ ⌊1000 * y⌋ := by
      rw [Int.le_floor]
      push_cast
      linarith
    have h3 : ((4500 : ℤ) : ℚ) ≤ ((⌊1000 * y⌋ : ℤ) : ℚ) := by exact_mod_cast h2
    push_cast at h3
    linarith

/-- **C110, the application.**  The same of its scores rounded to thousandths, which are rational numbers. -/
theorem milli_fair (sortV : SortDesc ℚ) : Fair (milliBase kind inRange sortW sortV) (9 / 2) := by
  have hn : ∀ st : List (ℚ × Int), st.Pairwise (fun p q => q.2 ≤ p.2) → Scorer.NewestFirst (entries (castAll st)) := by
    intro st h
    unfold Scorer.NewestFirst entries castAll
    rw [List.map_map, List.pairwise_map]
    exact h
  have hm : ∀ (l : List (ℚ × Int)), ∀ e ∈ entries (castAll l), ∃ p ∈ l, e = ⟨(p.1 : ℝ), p.2⟩ := by
    intro l e he
    obtain ⟨p, hp, rfl⟩ := List.mem_map.1 he
    obtain ⟨q, hq, rfl⟩ := List.mem_map.1 hp
    exact ⟨q, hq, rfl⟩
  refine ⟨fun clock x now st l c h => ?_, fun clock x now st l c h hne h5 hd => ?_⟩
  · exact (milli_bounds _).1 (appScore_good kind inRange clock x now ⟨entries (castAll st.1), _⟩ (hn _ h) _ _).1.2
  · refine (milli_bounds _).2 (appScore_fair kind inRange clock x now ⟨entries (castAll st.1), _⟩ _ _ (hn _ h) ?_ ?_ ?_)
    · intro he
      exact hne (List.map_eq_nil_iff.1 (List.map_eq_nil_iff.1 he))
    · intro e he
      obtain ⟨p, hp, rfl⟩ := hm _ e he
      obtain ⟨q1, q2⟩ := h5 p hp
      exact ⟨by show ((p.1 : ℚ) : ℝ) = 5; rw [q1]; norm_num, q2⟩
    · intro e he
      obtain ⟨p, hp, rfl⟩ := hm _ e he
      exact Rat.cast_nonneg.2 (hd p hp)

end
end Trane.TopLevel
