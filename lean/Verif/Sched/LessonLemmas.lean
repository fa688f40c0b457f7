import Verif.Sched.ResolveLemmas
import Mathlib.Tactic.Positivity
import Mathlib.Tactic.FieldSimp
import Mathlib.Algebra.Order.Floor.Semiring
import Mathlib.Data.List.Perm.Basic
import Mathlib.Algebra.BigOperators.Group.List.Basic

/-! Helper lemmas: the candidates taken from one lesson. -/

namespace Trane.Search
open Trane.Filters (KVFilter)
open Trane.Graph

variable {ι : Type} [DecidableEq ι]

/-- The random choices only reorder. -/
def IsRnd (rnd : Rnd) : Prop := ∀ n (α : Type) (l : List α), (rnd n α l).Perm l

theorem clampQ_mem (p : ℚ) : 0 ≤ clampQ p 0 1 ∧ clampQ p 0 1 ≤ 1 := by
  unfold clampQ
  split
  · norm_num
  · split
    · norm_num
    · constructor <;> linarith

theorem numToSelect_le (o : PassingScoreOptions) (a : ℚ) (n : Nat) (hn : 0 < n) : numToSelect o a n ≤ n := by
  unfold numToSelect
  split
  · exact le_rfl
  · dsimp only
    split
    · omega
    · rename_i h1 h2
      apply Nat.floor_le_of_le
      have := clampQ_mem (clampQ o.minFraction 0 1 +
        (a - o.minScore) / (fullCandidatesScore - o.minScore) * (1 - clampQ o.minFraction 0 1))
      have hn' : (0 : ℚ) ≤ n := by positivity
      nlinarith [this.2]

/-- Nothing is selected only at the passing score with a fraction of 0. -/
theorem numToSelect_eq_zero (o : PassingScoreOptions) (a : ℚ) (n : Nat) (hn : 0 < n) :
    numToSelect o a n = 0 ↔ a = o.minScore ∧ a < 4 ∧ o.minFraction ≤ 0 := by
  unfold numToSelect fullCandidatesScore
  split
  · rename_i h
    constructor
    · intro h; omega
    · rintro ⟨rfl, h2, _⟩
      rcases h with h | h <;> linarith
  · rename_i h
    push Not at h
    obtain ⟨h1, h2⟩ := h
    dsimp only
    set m := clampQ o.minFraction 0 1 with hm
    have hmm := clampQ_mem o.minFraction
    rw [← hm] at hmm
    set f := m + (a - o.minScore) / (4 - o.minScore) * (1 - m) with hf
    have hpos : 0 < 4 - o.minScore := by linarith
    have hq : 0 ≤ (a - o.minScore) / (4 - o.minScore) := div_nonneg (by linarith) hpos.le
    have hf0 : 0 ≤ f := by rw [hf]; nlinarith [hmm.1, hmm.2]
    have key : f = 0 ↔ a = o.minScore ∧ o.minFraction ≤ 0 := by
      constructor
      · intro h0
        have hm0 : m = 0 := by nlinarith [hmm.1, hmm.2]
        have hmf : o.minFraction ≤ 0 := by
          by_contra hc
          push Not at hc
          rw [hm] at hm0
          unfold clampQ at hm0
          rw [if_neg (by linarith)] at hm0
          split at hm0 <;> linarith
        rw [hm0] at hf
        have : (a - o.minScore) / (4 - o.minScore) = 0 := by linarith
        rw [div_eq_zero_iff] at this
        rcases this with h | h
        · exact ⟨by linarith, hmf⟩
        · linarith
      · rintro ⟨h3, h4⟩
        have hm0 : m = 0 := by
          rw [hm]
          unfold clampQ
          split
          · rfl
          · split
            · linarith
            · linarith
        rw [hf, hm0, h3]; simp
    by_cases hc : f = 0
    · have : clampQ f 0 1 = 0 := by rw [hc]; unfold clampQ; norm_num
      rw [this]
      simp only [gt_iff_lt, lt_irrefl, false_and, if_false, zero_mul, Nat.floor_zero, true_iff]
      exact ⟨(key.1 hc).1, h1, (key.1 hc).2⟩
    · have hfp : 0 < f := lt_of_le_of_ne hf0 (Ne.symm hc)
      have hcl : 0 < clampQ f 0 1 := by
        unfold clampQ
        rw [if_neg (by linarith)]
        split
        · norm_num
        · exact hfp
      constructor
      · intro h0
        split at h0
        · omega
        · rename_i hh
          exact absurd ⟨hcl, h0⟩ hh
      · rintro ⟨h3, _, h5⟩
        exact absurd (key.2 ⟨h3, h5⟩) hc

/-- The fields of a candidate taken from lesson `l`. -/
structure IsCandidate (e : Env ι) (l : ι) (c : Candidate ι) : Prop where
  lesson : c.lesson = l
  course : c.course = e.courseOf l
  score : e.score c.exercise = some (some c.score) ∨ (e.score c.exercise = some none ∧ c.score = 0)
  urgency : e.urgency c.exercise = some c.urgency
  velocity : e.velocity c.exercise = some c.velocity
  frequency : c.frequency = e.frequency c.exercise

theorem candidate_spec {e : Env ι} {item : Item ι} {x : ι} {c : Candidate ι}
    (h : candidate e item x = some c) :
    c.exercise = x ∧ IsCandidate e item.unit c ∧ c.deadEnd = false ∧
      c.score = ((e.score x).getD none).getD 0 := by
  unfold candidate at h
  rw [Option.bind_eq_bind, Option.bind_eq_some_iff] at h
  obtain ⟨s, hs, h⟩ := h
  rw [Option.bind_eq_bind, Option.bind_eq_some_iff] at h
  obtain ⟨u, hu, h⟩ := h
  rw [Option.bind_eq_some_iff] at h
  obtain ⟨v, hv, h⟩ := h
  simp only [Option.pure_def, Option.some.injEq] at h
  subst h
  refine ⟨rfl, ⟨rfl, rfl, ?_, hu, hv, rfl⟩, rfl, ?_⟩
  · cases s with
    | none => right; exact ⟨hs, rfl⟩
    | some s => left; exact hs
  · simp [hs]

theorem mapM_spec {α β : Type} (f : α → Option β) :
    ∀ (l : List α) (r : List β), l.mapM f = some r → List.Forall₂ (fun a b => f a = some b) l r := by
  intro l
  induction l with
  | nil => intro r h; simp at h; subst h; exact .nil
  | cons a l ih =>
    intro r h
    rw [List.mapM_cons, Option.bind_eq_bind, Option.bind_eq_some_iff] at h
    obtain ⟨b, hb, h⟩ := h
    rw [Option.bind_eq_bind, Option.bind_eq_some_iff] at h
    obtain ⟨bs, hbs, h⟩ := h
    simp only [Option.pure_def, Option.some.injEq] at h
    subst h
    exact .cons hb (ih _ hbs)

theorem mapM_none {α β : Type} (f : α → Option β) :
    ∀ (l : List α), l.mapM f = none → ∃ a ∈ l, f a = none := by
  intro l
  induction l with
  | nil => intro h; simp at h
  | cons a l ih =>
    intro h
    rw [List.mapM_cons, Option.bind_eq_bind, Option.bind_eq_none_iff] at h
    cases hb : f a with
    | none => exact ⟨a, by simp, hb⟩
    | some b =>
      have := h b hb
      rw [Option.bind_eq_bind, Option.bind_eq_none_iff] at this
      cases hl : l.mapM f with
      | none =>
        obtain ⟨x, hx, hn⟩ := ih hl
        exact ⟨x, by simp [hx], hn⟩
      | some bs => simpa using this bs hl

/-- What a lesson contributes: candidates and average score. -/
structure Contribution (e : Env ι) (l : ι) (cs : List (Candidate ι)) (a : ℚ) : Prop where
  fields : ∀ c ∈ cs, IsCandidate e l c
  live : ∀ c ∈ cs, c.deadEnd = false
  offered : ∀ c ∈ cs, Offers e l c.exercise
  nodup : (cs.map Candidate.exercise).Nodup
  none : (∀ x, ¬ Offers e l x) → cs = []
  avg : (∃ x, Offers e l x) → LessonAverage e l a
  size : ∀ n, LessonSize e l n → 0 < n → cs.length = numToSelect e.opts.passing a n

theorem lessonSize_unique {e : Env ι} {l : ι} {n m : Nat} (h : LessonSize e l n) (h' : LessonSize e l m) :
    n = m := by
  obtain ⟨xs, h1, h2, rfl⟩ := h
  obtain ⟨ys, h3, h4, rfl⟩ := h'
  exact (List.perm_of_nodup_nodup_toFinset_eq h1 h3 (by ext x; simp [h2, h4])).length_eq

theorem lessonAverage_unique {e : Env ι} {l : ι} {a b : ℚ} (h : LessonAverage e l a)
    (h' : LessonAverage e l b) : a = b := by
  obtain ⟨xs, _, h1, h2, rfl⟩ := h
  obtain ⟨ys, _, h3, h4, rfl⟩ := h'
  have hp := List.perm_of_nodup_nodup_toFinset_eq h1 h3 (by ext x; simp [h2, h4])
  rw [hp.length_eq, (hp.map _).sum_eq]

theorem lessonSize_valid {e : Env ι} (he : Sane e) (l : ι) : LessonSize e l (e.validInLesson l).length :=
  ⟨_, validInLesson_nodup he l, mem_validInLesson he l, rfl⟩

theorem lessonCandidates_spec {e : Env ι} (he : Sane e) {rnd : Rnd} (hr : IsRnd rnd) {k : Nat}
    {item : Item ι} {cs : List (Candidate ι)} {a : ℚ}
    (h : lessonCandidates e rnd k item = some (cs, a)) : Contribution e item.unit cs a := by
  unfold lessonCandidates at h
  have hp := hr k ι (e.validInLesson item.unit)
  have hmem : ∀ x, x ∈ rnd k ι (e.validInLesson item.unit) ↔ Offers e item.unit x := fun x => by
    rw [hp.mem_iff, mem_validInLesson he]
  dsimp only at h
  split at h
  · rename_i hemp
    simp only [Option.some.injEq, Prod.mk.injEq] at h
    obtain ⟨rfl, rfl⟩ := h
    have hno : ∀ x, ¬ Offers e item.unit x := fun x hx => by
      rw [← hmem, List.isEmpty_iff.1 hemp] at hx
      simp at hx
    refine ⟨by simp, by simp, by simp, by simp, fun _ => rfl, fun ⟨x, hx⟩ => absurd hx (hno x), ?_⟩
    rintro n ⟨xs, _, hx, rfl⟩ hn
    obtain ⟨x, hx'⟩ := List.exists_mem_of_length_pos hn
    exact absurd ((hx x).1 hx') (hno x)
  · rename_i hemp
    rw [Option.bind_eq_bind, Option.bind_eq_some_iff] at h
    obtain ⟨all, hall, h⟩ := h
    replace hall := mapM_spec _ _ _ hall
    simp only [Option.pure_def, Option.some.injEq, Prod.mk.injEq] at h
    obtain ⟨rfl, rfl⟩ := h
    set xs := rnd k ι (e.validInLesson item.unit) with hxs
    have hxn : xs.Nodup := hp.nodup_iff.2 (validInLesson_nodup he _)
    have hex : all.map Candidate.exercise = xs := by
      clear_value xs
      clear hp hmem hemp hxs hxn
      induction hall with
      | nil => rfl
      | cons h _ ih => rw [List.map_cons, ih, (candidate_spec h).1]
    have hlen : all.length = xs.length := by rw [← hex, List.length_map]
    have hscore : (all.map Candidate.score) = xs.map (fun x => ((e.score x).getD none).getD 0) := by
      clear_value xs
      clear hp hmem hemp hxs hxn hex hlen
      induction hall with
      | nil => rfl
      | cons h _ ih => rw [List.map_cons, List.map_cons, ih, (candidate_spec h).2.2.2]
    have hfield : ∀ c ∈ all, IsCandidate e item.unit c ∧ c.deadEnd = false := by
      clear_value xs
      clear hp hmem hemp hxs hxn hex hlen hscore
      intro c hc
      induction hall with
      | nil => simp at hc
      | cons h _ ih =>
        rcases List.mem_cons.1 hc with rfl | hc
        · exact ⟨(candidate_spec h).2.1, (candidate_spec h).2.2.1⟩
        · exact ih hc
    have hne : xs ≠ [] := by simpa [List.isEmpty_iff] using hemp
    have havg : LessonAverage e item.unit ((all.map Candidate.score).sum / (all.length : ℚ)) :=
      ⟨xs, hne, hxn, hmem, by rw [hscore, hlen]⟩
    set a := (all.map Candidate.score).sum / (all.length : ℚ) with ha
    have hpos : 0 < all.length := by rw [hlen]; exact List.length_pos_iff.2 hne
    have hsel : ∃ sel, selectCandidates (rnd (k + 1) (Candidate ι)) all a e.opts.passing = sel ∧
        (∃ full : List (Candidate ι), full.Perm all ∧ sel.Sublist full) ∧
        sel.length = numToSelect e.opts.passing a all.length := by
      refine ⟨_, rfl, ?_⟩
      unfold selectCandidates
      rw [if_neg (by simpa [List.isEmpty_iff] using List.length_pos_iff.1 hpos)]
      split
      · rename_i hfull
        refine ⟨⟨all, List.Perm.refl _, List.Sublist.refl _⟩, ?_⟩
        unfold numToSelect
        rw [if_pos hfull]
      · have hp2 := hr (k + 1) (Candidate ι) all
        refine ⟨⟨_, hp2, List.take_sublist _ _⟩, ?_⟩
        rw [List.length_take, hp2.length_eq]
        exact min_eq_left (numToSelect_le _ _ _ hpos)
    obtain ⟨sel, hseleq, ⟨full, hfp, hsub⟩, hsl⟩ := hsel
    rw [hseleq]
    have hselmem : ∀ c ∈ sel, c ∈ all := fun c hc => hfp.mem_iff.1 (hsub.subset hc)
    refine ⟨fun c hc => (hfield c (hselmem c hc)).1, fun c hc => (hfield c (hselmem c hc)).2, ?_, ?_, ?_,
      fun _ => havg, ?_⟩
    · intro c hc
      rw [← hmem, ← hex]
      exact List.mem_map_of_mem (hselmem c hc)
    · apply (hsub.map _).nodup
      rw [(hfp.map _).nodup_iff, hex]
      exact hxn
    · intro hno
      obtain ⟨x, hx⟩ := List.exists_mem_of_ne_nil _ hne
      exact absurd ((hmem x).1 hx) (hno x)
    · intro n hn _
      have : LessonSize e item.unit all.length := ⟨xs, hxn, hmem, hlen.symm⟩
      rw [hsl, lessonSize_unique hn this]

/-- Taking the candidates of a lesson fails only if a score, urgency or velocity cannot be computed. -/
theorem lessonCandidates_none {e : Env ι} (he : Sane e) {rnd : Rnd} (hr : IsRnd rnd) {k : Nat}
    {item : Item ι} (h : lessonCandidates e rnd k item = none) :
    ∃ x, Offers e item.unit x ∧ (e.score x = none ∨ e.urgency x = none ∨ e.velocity x = none) := by
  unfold lessonCandidates at h
  have hp := hr k ι (e.validInLesson item.unit)
  dsimp only at h
  split at h
  · simp at h
  · rw [Option.bind_eq_bind, Option.bind_eq_none_iff] at h
    cases hm : (rnd k ι (e.validInLesson item.unit)).mapM (candidate e item) with
    | some cs => simpa using h cs hm
    | none =>
      obtain ⟨x, hx, hn⟩ := mapM_none _ _ hm
      refine ⟨x, (mem_validInLesson he _ _).1 (hp.mem_iff.1 hx), ?_⟩
      by_contra hcon
      push Not at hcon
      obtain ⟨h1, h2, h3⟩ := hcon
      obtain ⟨s, hs⟩ := Option.ne_none_iff_exists'.1 h1
      obtain ⟨u, hu⟩ := Option.ne_none_iff_exists'.1 h2
      obtain ⟨v, hv⟩ := Option.ne_none_iff_exists'.1 h3
      simp [candidate, hs, hu, hv] at hn

/-- The decision to go on past a lesson. -/
theorem threshold_iff {e : Env ι} (he : Sane e) {l : ι} {cs : List (Candidate ι)} {a : ℚ}
    (h : Contribution e l cs a) :
    Env.passesThreshold e.opts.passing (if cs.length > 0 then some a else none) (e.trials l) = true ↔
      LessonPassed e l := by
  by_cases hno : ∃ x, Offers e l x
  · have havg := h.avg hno
    have hsz := lessonSize_valid he l
    have hpos : 0 < (e.validInLesson l).length := by
      obtain ⟨x, hx⟩ := hno
      exact List.length_pos_of_mem ((mem_validInLesson he l x).2 hx)
    have hlen := h.size _ hsz hpos
    have hz := numToSelect_eq_zero e.opts.passing a _ hpos
    rw [← hlen] at hz
    unfold LessonPassed Env.passesThreshold
    cases ht : e.trials l with
    | none =>
      simp only [reduceCtorEq, false_and, or_true, iff_true, true_or]
      split <;> simp_all
    | some n =>
      by_cases hc : cs.length = 0
      · simp only [hc, gt_iff_lt, lt_irrefl, if_false, true_iff]
        right; right
        exact ⟨a, n, havg, rfl, Or.inr (hz.1 hc)⟩
      · rw [if_pos (by omega)]
        simp only [Bool.and_eq_true, decide_eq_true_eq, ge_iff_le]
        constructor
        · rintro h
          right; right
          exact ⟨a, n, havg, rfl, Or.inl h⟩
        · rintro (h | h | ⟨b, m, hb, hm, hh⟩)
          · obtain ⟨x, hx⟩ := hno; exact absurd hx (h x)
          · simp at h
          · have := lessonAverage_unique hb havg
            subst this
            injection hm with hm
            subst hm
            rcases hh with hh | hh
            · exact hh
            · exact absurd (hz.2 hh) hc
  · have hcs := h.none (fun x hx => hno ⟨x, hx⟩)
    subst hcs
    simp only [List.length_nil, gt_iff_lt, lt_irrefl, if_false]
    constructor
    · intro _; exact Or.inl (fun x hx => hno ⟨x, hx⟩)
    · intro _; simp [Env.passesThreshold]

end Trane.Search
