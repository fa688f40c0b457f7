import Verif.Scorer.FivesProps
import Verif.Top.LaterProps
import Verif.Top.AppProps
import Verif.Top.ScoreProps

/-! Lemmas for C110: what grades of five leave in the tables and in the caches. -/

namespace Trane.TopLevel
open Trane.Store
open Trane.Store.Table (IsNewest get_newest)
open Trane.UnitScorer (Caches scoreC exC invalidate survives_invalidate ExRec World)
open Trane.System (gradeVal)

/-- An exercise is graded five: the exercise, the timestamp, and how deep the scores and rewards may be followed and in what order
the rewards are written. -/
structure Five where
  exercise : Str
  time : Int
  fuel : Nat := 30
  order : List Reward → List Reward := id

/-- The call of `score_exercise`, /repo/src/scheduler.rs:1097-1159. -/
def Five.call {R : Type} (p : Five) : Call R := .scoreExercise p.exercise .five p.time p.fuel p.order {}

/-- How often an exercise is graded. -/
def timesOf (x : Str) (ps : List Five) : Nat := (ps.filter (fun p => decide (p.exercise = x))).length

variable {R : Type} [Field R] [LinearOrder R] [IsStrictOrderedRing R]

/-- What is asked of the scorer of exercises: no score is above five, and a score is at least `θ` if the grades are all fives of
the last day, in order, and no delta is negative.  The times are the one in force and the one of the computer. -/
structure Fair (b : Base R) (θ : R) : Prop where
  le : ∀ clock x now st l c, st.1.Pairwise (fun p q => q.2 ≤ p.2) → (b.scorer clock x now st l c).1 ≤ 5
  fives : ∀ clock x now st l c, st.1.Pairwise (fun p q => q.2 ≤ p.2) → st.1 ≠ [] →
    (∀ p ∈ st.1, p.1 = 5 ∧ now ≤ p.2 + 86400 ∧ clock < p.2 + 604800) → (∀ d ∈ st.2, 0 ≤ d.1) →
    θ ≤ (b.scorer clock x now st l c).1

/-- The newest `n` of a log that has at least `n` entries since an instant are of those. -/
theorem newest_since {α : Type} {n : Nat} {old new ans : List (α × Int)} {since : Int} (h : IsNewest n (old ++ new) ans)
    (ho : ∀ p ∈ old, p.2 < since) (hn : ∀ p ∈ new, since ≤ p.2) (hlen : n ≤ new.length) :
    ans.length = n ∧ ∀ p ∈ ans, p ∈ new := by
  obtain ⟨h1, -, rest, h3, h4⟩ := h
  have hl : ans.length = n := by rw [h1, List.length_append]; omega
  refine ⟨hl, fun p hp => ?_⟩
  have hm : p ∈ old ++ new := h3.subset (List.mem_append_left _ hp)
  rcases List.mem_append.1 hm with h | h
  · exfalso
    have hp1 := ho p h
    have hr : ∀ q ∈ rest, ¬ since ≤ q.2 := fun q hq hs => by have := h4 p hp q hq; omega
    have hc := (h3.filter (fun q => decide (since ≤ q.2))).length_eq
    have e1 : rest.filter (fun q => decide (since ≤ q.2)) = [] :=
      List.filter_eq_nil_iff.2 (fun q hq => by simpa using hr q hq)
    have e2 : old.filter (fun q => decide (since ≤ q.2)) = [] :=
      List.filter_eq_nil_iff.2 (fun q hq => by have := ho q hq; simpa using this)
    have e3 : new.filter (fun q => decide (since ≤ q.2)) = new :=
      List.filter_eq_self.2 (fun q hq => by simpa using hn q hq)
    rw [List.filter_append, List.filter_append, List.length_append, List.length_append, e1, e2, e3] at hc
    have hlt : (ans.filter (fun q => decide (since ≤ q.2))).length < ans.length := by
      rw [List.length_filter_lt_length_iff_exists]
      exact ⟨p, hp, by simpa using hp1⟩
    simp only [List.length_nil, Nat.zero_add, Nat.add_zero] at hc
    omega
  · exact h

theorem get_pairwise (S : SortDesc R) (t : Table R) (u : Str) (n : Nat) :
    (t.get S u n).Pairwise (fun p q => q.2 ≤ p.2) := (get_newest S t u n).2.1

theorem five_val : gradeVal R .five = 5 := by
  unfold gradeVal
  norm_num [MasteryScore.toFloat]

/-- Asking for the score of an exercise touches its own record only. -/
theorem score_own {T W : Type} (w : World Str R T W) (n : Nat) (x : Str) (c c' : Caches Str R) (v : Option R)
    (hx : w.graph.getUnitType x = some .exercise) (h : scoreC w n x c = some (v, c')) :
    c'.les = c.les ∧ c'.lesT = c.lesT ∧ (∀ y, y ≠ x → c'.ex.find y = c.ex.find y) ∧
      v = some ((c.ex.find x).getD (w.exRec x)).score ∧ c'.ex.find x = some ((c.ex.find x).getD (w.exRec x)) := by
  cases n with
  | zero => simp [scoreC] at h
  | succ n =>
    rw [scoreC, hx] at h
    simp only [exC, bind, StateT.bind] at h
    cases hu : c.ex.find x with
    | some r =>
      rw [hu] at h
      cases h
      exact ⟨rfl, rfl, fun _ _ => rfl, rfl, hu⟩
    | none =>
      rw [hu] at h
      cases h
      refine ⟨rfl, rfl, fun y hy => ?_, rfl, AMap.find_put_self _ _ _⟩
      exact AMap.find_put_ne _ _ (Ne.symm hy)

/-- The part of the object that grades of five, since an instant, leave for an exercise of a lesson. -/
structure Keeping (b : Base R) (t0 : Top R) (x l : Str) (since : Int) (m : Nat) (t : Top R) : Prop where
  graph : t.graph = t0.graph
  black : t.blacklist = t0.blacklist
  options : t.options = t0.options
  override : t.override = t0.override
  clock : t.clock = t0.clock
  sound : Sound b t
  trials : ∃ new, t.trials.history x = t0.trials.history x ++ new ∧ new.length = m ∧ ∀ p ∈ new, p.1 = 5 ∧ since ≤ p.2
  deltas : ∃ new, t.deltas.history x = t0.deltas.history x ++ new ∧ m ≤ new.length + 1 ∧ ∀ p ∈ new, 0 ≤ p.1 ∧ since ≤ p.2
  cached : ∀ r, t.caches.ex.find x = some r → m = 0 ∧ r.score ≤ 5
  lesson : 0 < m → t.caches.les.find l = none ∧ t.caches.lesT.find l = none

theorem foldl_less (g : Graph Str) (us : List Str) (c : Caches Str R) :
    (∀ e r, (us.foldl (fun c u => invalidate g c u) c).ex.find e = some r → c.ex.find e = some r) ∧
    (∀ e r, (us.foldl (fun c u => invalidate g c u) c).les.find e = some r → c.les.find e = some r) ∧
    (∀ e r, (us.foldl (fun c u => invalidate g c u) c).lesT.find e = some r → c.lesT.find e = some r) := by
  induction us generalizing c with
  | nil => exact ⟨fun _ _ h => h, fun _ _ h => h, fun _ _ h => h⟩
  | cons u us ih =>
    obtain ⟨i1, i2, i3⟩ := ih (invalidate g c u)
    have s := survives_invalidate g c u
    exact ⟨fun e r h => (s.ex e r (i1 e r h)).1, fun e r h => (s.les e r).1 (i2 e r h), fun e r h => (s.les e r).2.1 (i3 e r h)⟩

theorem none_of {α : Type} {o : Option α} (h : ∀ r, o = some r → False) : o = none := by
  cases o with
  | none => rfl
  | some r => exact (h r rfl).elim

/-- One grade. -/
theorem keeping_step {b : Base R} {θ : R} (hb : Fair b θ) {t0 t : Top R} {x l : Str} {since : Int} {m : Nat}
    (hk : Keeping b t0 x l since m t) (hN : 1 ≤ t0.options.made.numTrials)
    (hx : t0.graph.getUnitType x = some .exercise) (hl : t0.graph.getExerciseLesson x = some l) (p : Five)
    (hp : t0.graph.getUnitType p.exercise = some .exercise) (hs : since ≤ p.time)
    (hok : (step b t p.call).2 = true) :
    Keeping b t0 x l since (m + if p.exercise = x then 1 else 0) (step b t p.call).1 := by
  have hsound := sound_step b t p.call hk.sound
  rcases step_score b t p.exercise .five p.time p.fuel p.order {} with ⟨-, e⟩ | ⟨s, ok, he, e⟩
  · unfold Five.call at hok; rw [e] at hok; cases hok
  unfold Five.call at hok hsound ⊢
  rw [e] at hok hsound ⊢
  dsimp only at hok hsound ⊢
  subst hok
  obtain ⟨v, c1, r, c, h1, h2, hend⟩ := System.ends_of_score (tables_of_sound hk.sound) he
  have hgt : t.sys.graph = t0.graph := hk.graph
  have hpt : (t.sys.world (t.config b)).graph.getUnitType p.exercise = some .exercise := by
    show t.sys.graph.getUnitType p.exercise = _
    rw [hgt]; exact hp
  obtain ⟨a1, a2, a3, a4, a5⟩ := score_own _ _ _ _ _ _ hpt h1
  have h2' : r = (t.sys.caches.ex.find p.exercise).getD ((t.sys.world (t.config b)).exRec p.exercise) ∧ c = c1 := by
    unfold exC at h2
    rw [a5] at h2
    cases h2
    exact ⟨rfl, rfl⟩
  obtain ⟨hr, rfl⟩ := h2'
  cases hend with
  | done rs ids hd ht hw hprop hids =>
    obtain ⟨nt1, -, -⟩ := System.newTrials_spec (tables_of_sound hk.sound) p.exercise .five p.time
    obtain ⟨nd1, -, -⟩ := System.newDeltas_spec (tables_of_sound hk.sound) p.exercise .five p.time v r
    have hfold := foldl_less t.sys.graph ids (invalidate t.sys.graph c p.exercise)
    have hsurv := survives_invalidate t.sys.graph c p.exercise
    refine ⟨hk.graph, hk.black, hk.options, hk.override, hk.clock, hsound, ?_, ?_, ?_, ?_⟩
    · obtain ⟨new, n1, n2, n3⟩ := hk.trials
      have := nt1 x
      refine ⟨new ++ (if p.exercise = x then [(gradeVal R .five, p.time)] else []), ?_, ?_, ?_⟩
      · rw [← List.append_assoc, ← n1]; exact this
      · rw [List.length_append, n2]; split <;> rfl
      · intro q hq
        rcases List.mem_append.1 hq with h | h
        · exact n3 q h
        · split at h
          · simp only [List.mem_singleton] at h; subst h; exact ⟨five_val, hs⟩
          · simp at h
    · obtain ⟨new, n1, n2, n3⟩ := hk.deltas
      have := nd1 x
      refine ⟨new ++ (if 0 < r.trials ∧ p.exercise = x then [(gradeVal R .five - v.getD 0, p.time)] else []), ?_, ?_, ?_⟩
      · rw [← List.append_assoc, ← n1]; exact this
      · rw [List.length_append]
        by_cases hpx : p.exercise = x
        · rw [if_pos hpx]
          by_cases hm : m = 0
          · omega
          · have hnone : t.sys.caches.ex.find x = none := none_of (fun r h => hm (hk.cached r h).1)
            have hpos : 0 < r.trials := by
              rw [hr, hpx, hnone, Option.getD_none]
              show 0 < (t.trials.get b.sortV x t.options.made.numTrials).length
              obtain ⟨new', m1, m2, -⟩ := hk.trials
              rw [(get_newest b.sortV t.trials x _).1, m1, List.length_append, hk.options]
              omega
            rw [if_pos ⟨hpos, hpx⟩]
            simp only [List.length_singleton]
            omega
        · rw [if_neg hpx]; omega
      · intro q hq
        rcases List.mem_append.1 hq with h | h
        · exact n3 q h
        · split at h
          · rename_i hc
            simp only [List.mem_singleton] at h
            subst h
            refine ⟨?_, hs⟩
            rw [five_val, a4, Option.getD_some, sub_nonneg]
            cases hf : t.sys.caches.ex.find p.exercise with
            | some r' => rw [hc.2] at hf; exact (hk.cached r' hf).2
            | none =>
              exact hb.le _ _ _ _ _ _ (get_pairwise _ _ _ _)
          · simp at h
    · intro r' h'
      have g1 := hfold.1 x r' h'
      obtain ⟨g2, g3, -⟩ := hsurv.ex x r' g1
      rw [a3 x g3] at g2
      rw [if_neg (Ne.symm g3)]
      exact hk.cached r' g2
    · intro _
      by_cases hpx : p.exercise = x
      · have hkill : ∀ w, (invalidate t.sys.graph c p.exercise).les.find l = some w ∨
            (invalidate t.sys.graph c p.exercise).lesT.find l = some w → False := by
          intro w hw
          refine ((hsurv.les l w).2.2 hw).2.1 ?_ ?_
          · rw [hgt]; exact hp
          · rw [hgt, hpx]; exact hl
        exact ⟨none_of (fun w hw => hkill w (.inl (hfold.2.1 l w hw))), none_of (fun w hw => hkill w (.inr (hfold.2.2 l w hw)))⟩
      · rename_i hpos
        rw [if_neg hpx] at hpos
        obtain ⟨q1, q2⟩ := hk.lesson hpos
        refine ⟨none_of (fun w hw => ?_), none_of (fun w hw => ?_)⟩
        · have := (hsurv.les l w).1 (hfold.2.1 l w hw)
          rw [a1] at this
          exact absurd (q1.symm.trans this) (by simp)
        · have := (hsurv.les l w).2.1 (hfold.2.2 l w hw)
          rw [a2] at this
          exact absurd (q2.symm.trans this) (by simp)

theorem keeping_runs {b : Base R} {θ : R} (hb : Fair b θ) {t0 : Top R} {x l : Str} {since : Int}
    (hN : 1 ≤ t0.options.made.numTrials)
    (hx : t0.graph.getUnitType x = some .exercise) (hl : t0.graph.getExerciseLesson x = some l) (ps : List Five)
    (hp : ∀ p ∈ ps, t0.graph.getUnitType p.exercise = some .exercise ∧ since ≤ p.time) :
    ∀ (t : Top R) (m : Nat), Keeping b t0 x l since m t → (∀ r ∈ resultsOf b t (ps.map Five.call), r = true) →
      Keeping b t0 x l since (m + timesOf x ps) (runs b t (ps.map Five.call)) := by
  induction ps with
  | nil => intro t m hk _; exact hk
  | cons p ps ih =>
    intro t m hk hok
    have h1 := keeping_step hb hk hN hx hl p (hp p (by simp)).1 (hp p (by simp)).2
      (hok _ (by simp [resultsOf]))
    have h2 := ih (fun q hq => hp q (by simp [hq])) _ _ h1 (fun r hr => hok r (by simp [resultsOf, hr]))
    have e : m + timesOf x (p :: ps) = m + (if p.exercise = x then 1 else 0) + timesOf x ps := by
      unfold timesOf
      rw [List.filter_cons]
      by_cases hpx : p.exercise = x
      · simp [hpx]; omega
      · simp [hpx]
    rw [e]
    exact h2

/-- In the end the computed record is good. -/
theorem keeping_score {b : Base R} {θ : R} (hb : Fair b θ) {t0 t : Top R} {x l : Str} {since : Int} {m : Nat}
    (hk : Keeping b t0 x l since m t) (hN : 1 ≤ t0.options.made.numTrials) (hm : t0.options.made.numTrials + 1 ≤ m)
    (hot : ∀ p ∈ t0.trials.history x, p.2 < since) (hod : ∀ p ∈ t0.deltas.history x, p.2 < since)
    (hnow : t0.override.getD t0.clock ≤ since + 86400) (hclock : t0.clock < since + 604800) :
    t.caches.ex.find x = none ∧ θ ≤ ((t.sys.world (t.config b)).exRec x).score ∧
      ((t.sys.world (t.config b)).exRec x).trials = t0.options.made.numTrials := by
  obtain ⟨new, n1, n2, n3⟩ := hk.trials
  obtain ⟨newD, d1, d2, d3⟩ := hk.deltas
  have ht := get_newest b.sortV t.trials x t.options.made.numTrials
  have hd := get_newest b.sortV t.deltas x t.options.made.numTrials
  rw [n1] at ht
  rw [d1] at hd
  rw [hk.options] at ht hd
  obtain ⟨t1, t2⟩ := newest_since ht hot (fun p hp => (n3 p hp).2) (by omega)
  obtain ⟨e1, e2⟩ := newest_since hd hod (fun p hp => (d3 p hp).2) (by omega)
  refine ⟨none_of (fun r h => by have := (hk.cached r h).1; omega), ?_, ?_⟩
  · refine hb.fives _ _ _ _ _ _ (get_pairwise _ _ _ _) ?_ ?_ ?_
    · intro hnil
      have : (t.trials.get b.sortV x t.options.made.numTrials).length = 0 := by
        exact List.length_eq_zero_iff.2 hnil
      rw [hk.options, t1] at this
      omega
    · intro p hp
      have hp' : p ∈ t.trials.get b.sortV x t0.options.made.numTrials := by rw [← hk.options]; exact hp
      obtain ⟨q1, q2⟩ := n3 p (t2 p hp')
      refine ⟨q1, ?_, ?_⟩
      · show t.override.getD t.clock ≤ _
        rw [hk.override, hk.clock]; omega
      · rw [hk.clock]; omega
    · intro p hp
      have hp' : p ∈ t.deltas.get b.sortV x t0.options.made.numTrials := by rw [← hk.options]; exact hp
      exact (d3 p (e2 p hp')).1
  · show (t.trials.get b.sortV x t.options.made.numTrials).length = _
    rw [hk.options]
    exact t1

end Trane.TopLevel
