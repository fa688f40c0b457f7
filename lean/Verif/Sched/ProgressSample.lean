import Verif.Sched.ProgressScores
import Verif.Sched.SearchProps

/-!
# C105: what the search makes of it, and libraries in which material stays locked

The samples read their scores from the model of the unit scorer.
-/

namespace Trane.Search
open Trane.Graph
open Trane.UnitScorer
open Relation (TransGen ReflTransGen)

variable {ι : Type} [DecidableEq ι]

/-- **C105.**  While something is locked, a search without filter that stays below its candidate limit gives
exercises of a lesson that it waits for, or the maximum number of lessons in progress already give exercises. -/
theorem search_offers_what_unlocks_partial {e : Env ι} {rnds : Nat → Rnd} {fuel : Nat} {entries : List ι}
    {cs : List (Candidate ι)} (he : Sane e) (ho : Orderly e) (hc : CourseFollows e)
    (hs : NothingStranded e) (hm : EmptyHoldsNothing e) (hr : ∀ i, IsRnd (rnds i))
    (h : initialCandidates e rnds fuel entries none = some (some cs))
    (hf0 : 0 < e.opts.passing.minFraction) (hf1 : e.opts.passing.minFraction ≤ 1)
    (hlim : cs.length < 10 * e.opts.batchSize) {u : ι} (hu : IsLesson e u ∨ IsCourse e u) (hl : ¬ Open e u) :
    ∃ l, TransGen (Before e) u l ∧ ToLearn e l ∧ ((∃ x ∈ cs, x.lesson = l) ∨
      ∃ ls : List ι, ls.Nodup ∧ ls.length = e.opts.maxLessonsInProgress ∧
        ∀ l' ∈ ls, (∃ c ∈ cs, c.lesson = l') ∧ ∃ a', LessonAverage e l' a' ∧ a' ≤ e.opts.targetWindow.hi) := by
  obtain ⟨l, hul, hl'⟩ := locked_waits_for_offer_partial he ho hc hs hm hu hl
  refine ⟨l, hul, hl', ?_⟩
  obtain ⟨h1, h2, h3, ⟨x, hx⟩, _⟩ := hl'
  have hmem := mem_validInLesson he l
  have hne : e.validInLesson l ≠ [] := by
    intro h0
    have := (hmem x).2 hx
    rw [h0] at this
    simp at this
  have hpos : 0 < (e.validInLesson l).length := List.length_pos_iff.2 hne
  rcases search_complete he hr h rfl (by intro ids hf; cases hf) hf0.le hf1 hlim h1 h2 trivial h3
      (lessonSize_valid he l) hpos ⟨_, hne, validInLesson_nodup he l, hmem, rfl⟩ with h4 | ⟨_, _, h4⟩
  · left
    have : 0 < (cs.filter (fun c => c.lesson = l)).length := by
      rw [h4]
      unfold share
      split
      · exact hpos
      · rename_i hcond
        rw [not_or, not_lt, not_le] at hcond
        set a := (List.map (fun x => ((e.score x).getD none).getD 0) (e.validInLesson l)).sum /
          ((e.validInLesson l).length : ℚ) with ha
        have hpos4 : 0 < 4 - e.opts.passing.minScore := by linarith [hcond.1, hcond.2]
        have hfr : 0 ≤ (a - e.opts.passing.minScore) / (4 - e.opts.passing.minScore) *
            (1 - e.opts.passing.minFraction) :=
          mul_nonneg (div_nonneg (by linarith [hcond.1]) hpos4.le) (by linarith)
        have hne0 : e.opts.passing.minFraction + (a - e.opts.passing.minScore) /
            (4 - e.opts.passing.minScore) * (1 - e.opts.passing.minFraction) ≠ 0 := by linarith
        simp only [if_neg hne0]
        omega
    obtain ⟨y, hy⟩ := List.exists_mem_of_length_pos this
    rw [List.mem_filter] at hy
    exact ⟨y, hy.1, by simpa using hy.2⟩
  · exact .inr h4

/-! ### Libraries of numbered units whose scores come from the unit scorer -/

/-- Score and number of trials of every exercise. -/
def practisedWorld (ops : List (Op Nat)) (stats : Nat → ℚ × Nat) : World Nat ℚ (ℚ × Nat) Unit where
  graph := run ops
  black := fun _ => false
  stats := stats
  rewards := fun _ => ()
  now := 0
  compute := fun _ _ t _ _ => ⟨t.1, 0, none, t.2⟩
  supScore := 4
  dflt := 0

/-- The search in this state, with everything read from the unit scorer. -/
def practised (ops : List (Op Nat)) (stats : Nat → ℚ × Nat) : Env Nat :=
  let w := practisedWorld ops stats
  { libraryOf ops (fun _ => 0) (fun _ => 0) (fun _ => false) with
    black := fun _ => false
    score := fun u => scoreP w 6 u
    trials := fun u =>
      match (run ops).getUnitType u with
      | some .course => (courseTrialsP w 6 u).getD none
      | some .lesson => lessonTrialsP w u
      | _ => none
    superseded := fun u => (checkP w (scoreP w 6) 6 u).getD false }

/-- The queries of the sample end within the fuel used for it. -/
def Answered (ops : List (Op Nat)) (stats : Nat → ℚ × Nat) : Bool :=
  let w := practisedWorld ops stats
  (run ops).types.keys.all (fun u => (scoreP w 6 u).isSome && (courseTrialsP w 6 u).isSome) &&
    (run ops).supBy.keys.all (fun u => (checkP w (scoreP w 6) 6 u).isSome)

theorem practised_reads {ops : List (Op Nat)} {stats : Nat → ℚ × Nat} (h : Answered ops stats = true) :
    ReadsFrom (practisedWorld ops stats) {} (practised ops stats) := by
  unfold Answered at h
  simp only [Bool.and_eq_true, List.all_eq_true] at h
  obtain ⟨h1, h2⟩ := h
  have hk : ∀ u, Known (run ops) u → u ∈ (run ops).types.keys := fun u hu => (AMap.mem_keys_iff _ _).2 hu
  refine ⟨rfl, fun _ => rfl, fun u hu => ?_, fun l hl => ?_, fun u hu => ?_, fun u => ?_⟩
  · obtain ⟨v, hv⟩ := Option.isSome_iff_exists.1 (h1 u (hk u hu)).1
    obtain ⟨c', hc, _⟩ := sim_score Everything (practisedWorld ops stats) (closed_everything _) 6 u trivial v hv {}
      (coh_empty _ _)
    exact ⟨v, hv, 6, c', hc⟩
  · have hl' : (run ops).getUnitType l = some .lesson := hl
    have : (practised ops stats).trials l = lessonTrialsP (practisedWorld ops stats) l := by
      simp only [practised, hl']
    rw [this]
    obtain ⟨c', hc, _⟩ := sim_lessonTrials Everything (practisedWorld ops stats) l _ rfl {} (coh_empty _ _)
    exact ⟨c', hc⟩
  · have hu' : (run ops).getUnitType u = some .course := hu
    obtain ⟨v, hv⟩ := Option.isSome_iff_exists.1 (h1 u (hk u ⟨_, hu⟩)).2
    have : (practised ops stats).trials u = v := by
      simp only [practised, hu', hv, Option.getD_some]
    rw [this]
    obtain ⟨c', hc, _⟩ := sim_courseTrials Everything (practisedWorld ops stats) (closed_everything _) 6 u trivial v hv {}
      (coh_empty _ _)
    exact ⟨6, c', hc⟩
  · have hd : ∃ b, checkP (practisedWorld ops stats) (scoreP (practisedWorld ops stats) 6) 6 u = some b := by
      cases hs : (run ops).getSupersededBy u with
      | none =>
        refine ⟨false, ?_⟩
        unfold checkP
        rw [show (practisedWorld ops stats).graph.getSupersededBy u = none from hs]
      | some ids => exact Option.isSome_iff_exists.1 (h2 u ((AMap.mem_keys_iff _ _).2 ⟨ids, hs⟩))
    obtain ⟨b, hb⟩ := hd
    have : (practised ops stats).superseded u = b := by simp only [practised, hb, Option.getD_some]
    rw [this]
    obtain ⟨c', hc, _⟩ := sim_check Everything (practisedWorld ops stats) (closed_everything _)
      (fun u hu => sim_score Everything _ (closed_everything _) 6 u hu) 6 u trivial b hb {} (coh_empty _ _)
    exact ⟨6, c', hc⟩

theorem practised_sane (ops : List (Op Nat)) (stats : Nat → ℚ × Nat)
    (h0 : (run ops).getUnitType 0 = none)
    (hc : ∀ l ∈ (run ops).types.keys, (run ops).getUnitType l = some .lesson →
      ((run ops).getLessonCourse l).isSome = true)
    (hs : (practised ops stats).superseded 0 = false) : Sane (practised ops stats) := by
  have := libraryOf_sane ops (fun _ => 0) (fun _ => 0) (fun _ => false) h0
    (fun l hl => Option.isSome_iff_exists.1 (hc l ((AMap.mem_keys_iff _ _).2 ⟨_, hl⟩) hl))
  exact ⟨this.wf, this.course, this.lesson, this.exercise, this.lessonHasCourse, h0, rfl, hs,
    fun u hu => .inr (show scoreP (practisedWorld ops stats) 6 u = some none by
      rw [scoreP, show (practisedWorld ops stats).graph.getUnitType u = none from hu])⟩

/-- A set of units that no search without filter gets into. -/
theorem stays_locked {e : Env ι} (he : Sane e) (B : ι → Prop) (h : ∀ u, B u →
    (¬ InitialUnit e none u) ∧ (∀ c, CourseStartsWith e.graph c u → B c ∨ ¬ Unlocked e none u) ∧
    (∀ d, DependsOn e.graph u d → B d ∨ e.graph.getUnitType d = some .exercise ∨ ¬ Unlocked e none u) ∧
    (IsCourse e u → ∃ l, CourseHasLesson e.graph u l ∧ B l)) {u : ι} (hu : B u) : ¬ Open e u := by
  have key : ∀ v, Open e v → ¬ B v := by
    intro v hv
    induction hv with
    | init hi => exact fun hb => (h _ hb).1 hi
    | start _ _ _ hst hun ih =>
      intro hb
      rcases (h _ hb).2.1 _ hst with h1 | h1
      · exact ih h1
      · exact h1 hun
    | past _ hl _ _ hd hun ih =>
      intro hb
      rcases (h _ hb).2.2.1 _ hd with h1 | h1 | h1
      · exact ih h1
      · rw [IsLesson, h1] at hl; simp at hl
      · exact h1 hun
    | pastCourse _ _ hc _ hd hun ih =>
      intro hb
      rcases (h _ hb).2.2.1 _ hd with h1 | h1 | h1
      · exact ih h1
      · rw [IsCourse, h1] at hc; simp at hc
      · exact h1 hun
    | allLessons _ hc _ _ ih =>
      intro hb
      obtain ⟨l, h1, h2⟩ := (h _ hb).2.2.2 hc
      exact ih l h1 h2
    | pastFinished _ _ hc _ hd hun ih _ =>
      intro hb
      rcases (h _ hb).2.2.1 _ hd with h1 | h1 | h1
      · exact ih h1
      · rw [IsCourse, h1] at hc; simp at hc
      · exact h1 hun
  exact fun ho => key u ho hu

end Trane.Search
