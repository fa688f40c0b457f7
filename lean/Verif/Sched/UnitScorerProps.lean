import Verif.Sched.UnitScorerSound
import Verif.Graph.CycleProps
import Mathlib.Data.Finset.Card
import Mathlib.Data.Finset.Filter
import Mathlib.Algebra.Order.Ring.Rat
import Mathlib.Tactic.Linarith
import Mathlib.Tactic.Positivity
import Mathlib.Tactic.FieldSimp

/-!
# Properties of unit scores: C26 and C60

The theorems speak of `ScoreIs w u v`: some run of the cached code, started with empty caches and
after any number of other queries, answers `v` for the score of `u`.  (All such runs give the same
answer, `score_unique`.)
-/

namespace Trane.UnitScorer

variable {ι R T W : Type} [DecidableEq ι] [Field R] [LinearOrder R]

/-! ### Specification -/

/-- The caches that queries can produce, starting with empty caches, while the world stays `w`. -/
inductive Queried (w : World ι R T W) : Caches ι R → Prop
  | empty : Queried w {}
  | score {c : Caches ι R} (u : ι) (n : Nat) {v : Option R} {c' : Caches ι R} (h : Queried w c)
      (hq : scoreC w n u c = some (v, c')) : Queried w c'
  | lessonTrials {c : Caches ι R} (u : ι) {v : Option R} {c' : Caches ι R} (h : Queried w c)
      (hq : lessonTrialsC w u c = some (v, c')) : Queried w c'
  | courseTrials {c : Caches ι R} (u : ι) (n : Nat) {v : Option R} {c' : Caches ι R}
      (h : Queried w c) (hq : courseTrialsC w n u c = some (v, c')) : Queried w c'

/-- `get_unit_score(u)` can answer `v`. -/
def ScoreIs (w : World ι R T W) (u : ι) (v : Option R) : Prop :=
  ∃ c n c', Queried w c ∧ scoreC w n u c = some (v, c')

/-- All valid (not blacklisted) exercises of `u` have a positive score. -/
def Seen (w : World ι R T W) (u : ι) : Prop := ∀ e ∈ w.allValid u, 0 < (w.exRec e).score

/-- No unit of the nonempty set `S` has a score below the superseding score. -/
def Mastered (w : World ι R T W) (S : ι → Prop) : Prop :=
  (∃ s, S s) ∧ ∀ s, S s → ∀ v, ScoreIs w s (some v) → w.supScore ≤ v

/-- `u` is listed as superseded by `s`. -/
def ListedBy (w : World ι R T W) (u s : ι) : Prop :=
  ∃ ids, w.graph.getSupersededBy u = some ids ∧ s ∈ ids

/-- `u` was replaced by the units listed as superseding it. -/
def Replaced (w : World ι R T W) (u : ι) : Prop := Seen w u ∧ Mastered w (ListedBy w u)

/-- The units superseding `u` once replaced units give way to the units superseding them. -/
inductive Effective (w : World ι R T W) : ι → ι → Prop
  | keep {u s : ι} (h : ListedBy w u s) (hs : ¬ Replaced w s) : Effective w u s
  | follow {u m s : ι} (h : ListedBy w u m) (hm : Replaced w m) (hs : Effective w m s) :
      Effective w u s

/-- `u` is superseded. -/
def Superseded (w : World ι R T W) (u : ι) : Prop := Seen w u ∧ Mastered w (Effective w u)

/-! ### Helpers -/

theorem coh_of_queried {w : World ι R T W} {c : Caches ι R} (h : Queried w c) :
    Coh Everything w c := by
  induction h with
  | empty => exact coh_empty _ w
  | score u n _ hq ih => exact (snd_score w n u _ _ _ ih hq).1
  | lessonTrials u _ hq ih =>
    obtain ⟨c1, h1, hc1⟩ := sim_lessonTrials Everything w u _ rfl _ ih
    rw [h1] at hq; cases hq; exact hc1
  | courseTrials u n _ hq ih => exact (snd_courseTrials w n u _ _ _ ih hq).1

theorem scoreIs_iff (w : World ι R T W) (u : ι) (v : Option R) :
    ScoreIs w u v ↔ ∃ k, scoreP w k u = some v := by
  constructor
  · rintro ⟨c, n, c', hc, h⟩
    exact (snd_score w n u c v c' (coh_of_queried hc) h).2
  · rintro ⟨k, hk⟩
    obtain ⟨c', h, _⟩ := sim_score Everything w (closed_everything _) k u trivial v hk {}
      (coh_empty _ w)
    exact ⟨{}, k, c', .empty, h⟩

theorem seenP_iff (w : World ι R T W) (u : ι) : seenP w u = true ↔ Seen w u := by
  simp [seenP, Seen]

theorem mapM_length_mem {α β : Type} {f : α → Option β} (xs : List α) (vs : List β)
    (h : xs.mapM f = some vs) : (∀ x ∈ xs, ∃ v ∈ vs, f x = some v) ∧
      ∀ v ∈ vs, ∃ x ∈ xs, f x = some v := by
  induction xs generalizing vs with
  | nil => simp at h; subst h; simp
  | cons x xs ih =>
    simp only [List.mapM_cons, Option.bind_eq_bind, Option.bind_eq_some_iff, Option.pure_def] at h
    obtain ⟨a, ha, b, hb, e⟩ := h
    cases e
    obtain ⟨h1, h2⟩ := ih b hb
    constructor
    · intro y hy
      rcases List.mem_cons.1 hy with rfl | hy
      · exact ⟨a, List.mem_cons_self, ha⟩
      · obtain ⟨v, hv, e⟩ := h1 y hy
        exact ⟨v, List.mem_cons_of_mem _ hv, e⟩
    · intro v hv
      rcases List.mem_cons.1 hv with rfl | hv
      · exact ⟨x, List.mem_cons_self, ha⟩
      · obtain ⟨y, hy, e⟩ := h2 v hv
        exact ⟨y, List.mem_cons_of_mem _ hy, e⟩

theorem scoreP_unique {w : World ι R T W} {k n : Nat} {u : ι} {v v' : Option R}
    (h : scoreP w k u = some v) (h' : scoreP w n u = some v') : v = v' := by
  have a := scoreP_mono w (le_max_left k n) u v h
  have b := scoreP_mono w (le_max_right k n) u v' h'
  rw [a] at b; exact Option.some.inj b

theorem supersededP_iff (w : World ι R T W) (k : Nat) (u : ι) (ids : List ι) (b : Bool)
    (h : supersededP w (scoreP w k) u ids = some b) :
    b = true ↔ Seen w u ∧ Mastered w (· ∈ ids) := by
  unfold supersededP at h
  split at h
  · rename_i h0
    cases h
    rw [List.isEmpty_iff] at h0
    subst h0
    simp [Mastered]
  · rename_i h0
    split at h
    · rename_i h1
      cases h
      have : ¬ Seen w u := by rw [← seenP_iff]; simpa using h1
      simp [this]
    · rename_i h1
      have hseen : Seen w u := by rw [← seenP_iff]; simpa using h1
      simp only [Option.bind_eq_bind, Option.bind_eq_some_iff] at h
      obtain ⟨vs, hvs, e⟩ := h
      cases e
      obtain ⟨m1, m2⟩ := mapM_length_mem ids vs hvs
      have hne : ∃ s, s ∈ ids := by
        rcases ids with _ | ⟨a, l⟩
        · simp at h0
        · exact ⟨a, List.mem_cons_self⟩
      simp only [List.all_eq_true, decide_eq_true_eq, List.reduceOption_mem_iff]
      constructor
      · intro hall
        refine ⟨hseen, hne, fun s hs v hv => ?_⟩
        obtain ⟨k', hk'⟩ := (scoreIs_iff w s _).1 hv
        obtain ⟨v', hv', e⟩ := m1 s hs
        have := scoreP_unique hk' e
        subst this
        exact hall v hv'
      · rintro ⟨_, _, hall⟩ v hv
        obtain ⟨s, hs, e⟩ := m2 _ hv
        exact hall s hs v ((scoreIs_iff w s _).2 ⟨k, e⟩)

theorem mastered_congr {w : World ι R T W} {S S' : ι → Prop} (h : ∀ s, S s ↔ S' s) :
    Mastered w S ↔ Mastered w S' := by
  have : S = S' := funext fun s => propext (h s)
  rw [this]

theorem replaceP_iff (w : World ι R T W) (k n : Nat) (ids r : List ι)
    (h : replaceP w (scoreP w k) n ids = some r) (s : ι) :
    s ∈ r ↔ ∃ id ∈ ids, (¬ Replaced w id ∧ s = id) ∨ (Replaced w id ∧ Effective w id s) := by
  induction n generalizing ids r s with
  | zero => simp [replaceP] at h
  | succ n ih =>
    rw [replaceP] at h
    have key : ∀ (l acc r : List ι),
        l.foldlM (fun acc id =>
          match w.graph.getSupersededBy id with
          | some s => do
            let b ← supersededP w (scoreP w k) id s
            if b then
              let r ← replaceP w (scoreP w k) n s
              return extendSet acc r
            else return acc.insert id
          | none => some (acc.insert id)) acc = some r → ∀ s, s ∈ r ↔ s ∈ acc ∨
            ∃ id ∈ l, (¬ Replaced w id ∧ s = id) ∨ (Replaced w id ∧ Effective w id s) := by
      intro l
      induction l with
      | nil =>
        intro acc r h s
        simp only [List.foldlM_nil, Option.pure_def, Option.some.injEq] at h
        subst h; simp
      | cons y l ihl =>
        intro acc r h s
        simp only [List.foldlM_cons, Option.bind_eq_bind, Option.bind_eq_some_iff] at h
        obtain ⟨acc', h1, h2⟩ := h
        rw [ihl acc' r h2 s]
        have hstep : s ∈ acc' ↔ s ∈ acc ∨
            ((¬ Replaced w y ∧ s = y) ∨ (Replaced w y ∧ Effective w y s)) := by
          split at h1
          · rename_i ss hs
            simp only [Option.bind_eq_some_iff] at h1
            obtain ⟨b, hb, h1⟩ := h1
            have hlist : ∀ x, x ∈ ss ↔ ListedBy w y x := by
              intro x
              constructor
              · intro hx; exact ⟨ss, hs, hx⟩
              · rintro ⟨ids', e, hx⟩
                rw [hs] at e; cases e; exact hx
            have hrep : b = true ↔ Replaced w y := by
              rw [supersededP_iff w k y ss b hb]
              unfold Replaced
              rw [mastered_congr hlist]
            split at h1
            · rename_i hbt
              simp only [Option.bind_eq_some_iff] at h1
              obtain ⟨r', hr', h1⟩ := h1
              cases h1
              have hR := hrep.1 hbt
              rw [mem_extendSet, ih ss r' hr' s]
              constructor
              · rintro (h | ⟨id, hid, ⟨h, rfl⟩ | ⟨h, h'⟩⟩)
                · exact Or.inl h
                · exact Or.inr (Or.inr ⟨hR, .keep ((hlist _).1 hid) h⟩)
                · exact Or.inr (Or.inr ⟨hR, .follow ((hlist _).1 hid) h h'⟩)
              · rintro (h | ⟨h, _⟩ | ⟨_, h⟩)
                · exact Or.inl h
                · exact absurd hR h
                · right
                  cases h with
                  | keep h hs => exact ⟨s, (hlist _).2 h, Or.inl ⟨hs, rfl⟩⟩
                  | follow h hm hs => exact ⟨_, (hlist _).2 h, Or.inr ⟨hm, hs⟩⟩
            · rename_i hbt
              cases h1
              have hR : ¬ Replaced w y := fun h => hbt (hrep.2 h)
              rw [List.mem_insert_iff]
              constructor
              · rintro (h | h)
                · exact Or.inr (Or.inl ⟨hR, h⟩)
                · exact Or.inl h
              · rintro (h | ⟨_, h⟩ | ⟨h, _⟩)
                · exact Or.inr h
                · exact Or.inl h
                · exact absurd h hR
          · rename_i hs
            cases h1
            have hR : ¬ Replaced w y := by
              rintro ⟨_, ⟨s, ids', e, _⟩, _⟩
              rw [hs] at e; cases e
            rw [List.mem_insert_iff]
            constructor
            · rintro (h | h)
              · exact Or.inr (Or.inl ⟨hR, h⟩)
              · exact Or.inl h
            · rintro (h | ⟨_, h⟩ | ⟨h, _⟩)
              · exact Or.inr h
              · exact Or.inl h
              · exact absurd h hR
        rw [hstep]
        simp only [List.mem_cons, exists_eq_or_imp]
        exact or_assoc
    rw [key ids [] r h s]
    simp

theorem checkP_iff (w : World ι R T W) (k : Nat) (u : ι) (b : Bool)
    (h : checkP w (scoreP w k) k u = some b) : b = true ↔ Superseded w u := by
  unfold checkP at h
  split at h
  · rename_i hs
    cases h
    have : ¬ Superseded w u := by
      rintro ⟨_, ⟨s, hs'⟩, _⟩
      cases hs' with
      | keep h _ => obtain ⟨ids, e, _⟩ := h; rw [hs] at e; cases e
      | follow h _ _ => obtain ⟨ids, e, _⟩ := h; rw [hs] at e; cases e
    simp [this]
  · rename_i ids hs
    simp only [Option.bind_eq_bind, Option.bind_eq_some_iff] at h
    obtain ⟨r, hr, hb⟩ := h
    rw [supersededP_iff w k u r b hb]
    unfold Superseded
    rw [mastered_congr]
    intro s
    rw [replaceP_iff w k k ids r hr s]
    constructor
    · rintro ⟨id, hid, ⟨h, rfl⟩ | ⟨h, h'⟩⟩
      · exact .keep ⟨ids, hs, hid⟩ h
      · exact .follow ⟨ids, hs, hid⟩ h h'
    · intro h
      cases h with
      | keep h h' =>
        obtain ⟨ids', e, hid⟩ := h
        rw [hs] at e; cases e
        exact ⟨s, hid, Or.inl ⟨h', rfl⟩⟩
      | follow h h' h'' =>
        obtain ⟨ids', e, hid⟩ := h
        rw [hs] at e; cases e
        exact ⟨_, hid, Or.inr ⟨h', h''⟩⟩

/-! ### C26 -/

/-- The answers do not depend on the caches. -/
theorem score_unique (w : World ι R T W) (u : ι) (v v' : Option R) (h : ScoreIs w u v)
    (h' : ScoreIs w u v') : v = v' := by
  obtain ⟨k, hk⟩ := (scoreIs_iff w u v).1 h
  obtain ⟨n, hn⟩ := (scoreIs_iff w u v').1 h'
  exact scoreP_unique hk hn

/-- C26, exercises: the score is the stored one. -/
theorem exercise_score (w : World ι R T W) (e : ι) (ht : w.graph.getUnitType e = some .exercise)
    (v : Option R) : ScoreIs w e v ↔ v = some (w.exRec e).score := by
  rw [scoreIs_iff]
  constructor
  · rintro ⟨k, hk⟩
    cases k with
    | zero => simp [scoreP] at hk
    | succ k => rw [scoreP, ht] at hk; cases hk; rfl
  · rintro rfl
    exact ⟨1, by rw [scoreP, ht]⟩

/-- C26, exercises: the score is computed from the trials of the exercise, the rewards of its lesson and
the rewards of its course, in this order. -/
theorem exercise_score_of_data (w : World ι R T W) {e l c : ι}
    (ht : w.graph.getUnitType e = some .exercise) (hl : w.graph.getExerciseLesson e = some l)
    (hc : w.graph.getLessonCourse l = some c) (v : Option R) :
    ScoreIs w e v ↔
      v = some (w.compute e w.now (w.stats e) (w.rewards l) (w.rewards c)).score := by
  rw [exercise_score w e ht, World.exRec, hl, Option.getD_some, hc, Option.getD_some]

theorem lessonP_spec {w : World ι R T W} {k : Nat} {l : ι} {v : Option R}
    (hk : lessonP w (scoreP w k) k l = some v) {es : List ι}
    (hes : w.graph.getLessonExercises l = some es) :
    let scores := (es.filter (fun e => !w.black e)).map (fun e => (w.exRec e).score)
    (v = none ↔ w.black l = true ∨ Superseded w l ∨ ∀ e ∈ es, w.black e = true) ∧
    (∀ x, v = some x → x = scores.sum / (scores.length : R)) := by
  intro scores
  unfold lessonP at hk
  split at hk
  · rename_i hb
    cases hk
    exact ⟨by simp [hb], by simp⟩
  · rename_i hb
    simp only [Option.bind_eq_bind, Option.bind_eq_some_iff] at hk
    obtain ⟨b, hcb, hk⟩ := hk
    have hsup := checkP_iff w k l b hcb
    split at hk
    · rename_i hbt
      cases hk
      exact ⟨by simp [hsup.1 hbt], by simp⟩
    · rename_i hbt
      have hns : ¬ Superseded w l := fun h => hbt (hsup.2 h)
      cases hk
      unfold lessonMean
      rw [hes]
      dsimp only
      split
      · rename_i hem
        rw [List.isEmpty_iff, List.filter_eq_nil_iff] at hem
        refine ⟨?_, by simp⟩
        simp only [true_iff]
        right; right
        intro e he
        simpa using hem e he
      · rename_i hem
        rw [List.isEmpty_iff, List.filter_eq_nil_iff] at hem
        refine ⟨?_, ?_⟩
        · simp only [reduceCtorEq, hb, hns, false_or, false_iff]
          intro hall
          exact hem (fun e he => by simp [hall e he])
        · intro x hx
          cases hx
          rfl

/-- C26, lessons: an answered score is the mean over the exercises that are not blacklisted, and it is
absent exactly when the lesson is blacklisted or superseded or has no such exercise. -/
theorem lesson_score (w : World ι R T W) (l : ι) (ht : w.graph.getUnitType l = some .lesson)
    (es : List ι) (hes : w.graph.getLessonExercises l = some es) (v : Option R)
    (hv : ScoreIs w l v) :
    let scores := (es.filter (fun e => !w.black e)).map (fun e => (w.exRec e).score)
    (v = none ↔ w.black l = true ∨ Superseded w l ∨ ∀ e ∈ es, w.black e = true) ∧
    (∀ x, v = some x → x = scores.sum / (scores.length : R)) := by
  obtain ⟨k, hk⟩ := (scoreIs_iff w l v).1 hv
  cases k with
  | zero => simp [scoreP] at hk
  | succ k =>
    rw [scoreP, ht] at hk
    exact lessonP_spec hk hes

/-- C26, a lesson with no exercise record has no score. -/
theorem lesson_score_empty (w : World ι R T W) (l : ι) (ht : w.graph.getUnitType l = some .lesson)
    (hes : w.graph.getLessonExercises l = none) (v : Option R) (hv : ScoreIs w l v) : v = none := by
  obtain ⟨k, hk⟩ := (scoreIs_iff w l v).1 hv
  cases k with
  | zero => simp [scoreP] at hk
  | succ k =>
    rw [scoreP, ht] at hk
    unfold lessonP at hk
    dsimp only at hk
    split at hk
    · cases hk; rfl
    · simp only [Option.bind_eq_bind, Option.bind_eq_some_iff] at hk
      obtain ⟨b, _, hk⟩ := hk
      split at hk
      · cases hk; rfl
      · cases hk; unfold lessonMean; rw [hes]

theorem mapM_eq_map {α β : Type} {f : α → Option β} (xs : List α) (vs : List β) (g : α → β)
    (h : xs.mapM f = some vs) (hg : ∀ x ∈ xs, ∀ v, f x = some v → v = g x) : vs = xs.map g := by
  induction xs generalizing vs with
  | nil => simp at h; simp [h]
  | cons x xs ih =>
    simp only [List.mapM_cons, Option.bind_eq_bind, Option.bind_eq_some_iff, Option.pure_def] at h
    obtain ⟨a, ha, b, hb, e⟩ := h
    cases e
    rw [List.map_cons, hg x List.mem_cons_self a ha,
      ih b hb (fun y hy => hg y (List.mem_cons_of_mem _ hy))]

/-- C26, courses: whenever a course is given a score its lessons have scores `σ` too, and the score of
the course is the mean of those that are present; it is absent exactly when the course is blacklisted or
superseded or no lesson has a score. -/
theorem course_score (w : World ι R T W) (u : ι) (ht : w.graph.getUnitType u = some .course)
    (ls : List ι) (hls : w.graph.getCourseLessons u = some ls)
    (htl : ∀ l ∈ ls, w.graph.getUnitType l = some .lesson) (σ : ι → Option R)
    (hσ : ∀ l ∈ ls, ∀ v, ScoreIs w l v → σ l = v) (v : Option R) (hv : ScoreIs w u v) :
    (v = none ↔ w.black u = true ∨ Superseded w u ∨ ∀ l ∈ ls, σ l = none) ∧
    (∀ x, v = some x → (∀ l ∈ ls, ScoreIs w l (σ l)) ∧
      x = (ls.filterMap σ).sum / ((ls.filterMap σ).length : R)) := by
  obtain ⟨k, hk⟩ := (scoreIs_iff w u v).1 hv
  cases k with
  | zero => simp [scoreP] at hk
  | succ k =>
    rw [scoreP, ht] at hk
    unfold courseP at hk
    dsimp only at hk
    split at hk
    · rename_i hb
      cases hk
      exact ⟨by simp [hb], by simp⟩
    · rename_i hb
      simp only [Option.bind_eq_bind, Option.bind_eq_some_iff] at hk
      obtain ⟨b, hcb, hk⟩ := hk
      have hsup := checkP_iff w k u b hcb
      split at hk
      · rename_i hbt
        cases hk
        exact ⟨by simp [hsup.1 hbt], by simp⟩
      · rename_i hbt
        have hns : ¬ Superseded w u := fun h => hbt (hsup.2 h)
        rw [hls] at hk
        simp only [Option.bind_eq_some_iff] at hk
        obtain ⟨vs, hvs, hk⟩ := hk
        obtain ⟨m1, m2⟩ := mapM_length_mem ls vs hvs
        have hls' : ∀ l ∈ ls, ∀ v, lessonP w (scoreP w k) k l = some v → ScoreIs w l v := by
          intro l hl v hv
          rw [scoreIs_iff]
          exact ⟨k + 1, by rw [scoreP, htl l hl]; exact hv⟩
        have hvm : vs = ls.map σ :=
          mapM_eq_map ls vs σ hvs (fun l hl v hv => (hσ l hl v (hls' l hl v hv)).symm)
        have hall : ∀ l ∈ ls, ScoreIs w l (σ l) := by
          intro l hl
          obtain ⟨v, _, e⟩ := m1 l hl
          have := hls' l hl v e
          rw [hσ l hl v this]
          exact this
        have hred : vs.reduceOption = ls.filterMap σ := by
          rw [hvm, List.reduceOption, List.filterMap_map]; rfl
        rw [hred] at hk
        split at hk
        · rename_i hem
          cases hk
          rw [List.isEmpty_iff, List.filterMap_eq_nil_iff] at hem
          exact ⟨⟨fun _ => Or.inr (Or.inr hem), fun _ => rfl⟩, by simp⟩
        · rename_i hem
          cases hk
          rw [List.isEmpty_iff, List.filterMap_eq_nil_iff] at hem
          refine ⟨?_, ?_⟩
          · simp only [reduceCtorEq, hb, hns, false_or, false_iff]
            exact hem
          · intro x hx
            cases hx
            exact ⟨hall, rfl⟩

/-- The mean of numbers in `[lo, hi]` lies in `[lo, hi]`. -/
theorem mean_between [IsStrictOrderedRing R] {lo hi : R} (xs : List R) (hne : xs ≠ [])
    (h : ∀ x ∈ xs, lo ≤ x ∧ x ≤ hi) : lo ≤ mean xs ∧ mean xs ≤ hi := by
  have hlen : (0 : R) < (xs.length : R) := by
    have : 0 < xs.length := List.length_pos_iff.2 hne
    exact_mod_cast this
  have hb : ∀ ys : List R, (∀ x ∈ ys, lo ≤ x ∧ x ≤ hi) →
      lo * (ys.length : R) ≤ ys.sum ∧ ys.sum ≤ hi * (ys.length : R) := by
    intro ys
    induction ys with
    | nil => simp
    | cons y ys ih =>
      intro hy
      obtain ⟨a, b⟩ := ih (fun x hx => hy x (List.mem_cons_of_mem _ hx))
      obtain ⟨c, d⟩ := hy y List.mem_cons_self
      simp only [List.sum_cons, List.length_cons, Nat.cast_add, Nat.cast_one]
      constructor <;> linarith
  obtain ⟨a, b⟩ := hb xs h
  unfold mean
  rw [le_div_iff₀ hlen, div_le_iff₀ hlen]
  exact ⟨a, b⟩

theorem lessonP_range [IsStrictOrderedRing R] {w : World ι R T W} {f : ι → Option (Option R)} {n : Nat}
    {lo hi : R} (h : ∀ e, lo ≤ (w.exRec e).score ∧ (w.exRec e).score ≤ hi) {l : ι} {x : R}
    (hx : lessonP w f n l = some (some x)) : lo ≤ x ∧ x ≤ hi := by
  unfold lessonP at hx
  split at hx
  · cases hx
  · simp only [Option.bind_eq_bind, Option.bind_eq_some_iff] at hx
    obtain ⟨b, _, hx⟩ := hx
    split at hx
    · cases hx
    · have hx : lessonMean w l = some x := Option.some.inj hx
      unfold lessonMean at hx
      split at hx
      · cases hx
      · dsimp only at hx
        split at hx
        · cases hx
        · rename_i hne
          cases hx
          rw [List.isEmpty_iff] at hne
          refine mean_between _ (by simpa using hne) ?_
          intro y hy
          obtain ⟨e, _, rfl⟩ := List.mem_map.1 hy
          exact h e

/-- C26: every answered unit score lies between the same bounds as the exercise scores (in the
application, 0 and 5). -/
theorem score_in_range [IsStrictOrderedRing R] (w : World ι R T W) {lo hi : R}
    (h : ∀ e, lo ≤ (w.exRec e).score ∧ (w.exRec e).score ≤ hi) (u : ι) (x : R)
    (hx : ScoreIs w u (some x)) : lo ≤ x ∧ x ≤ hi := by
  obtain ⟨k, hk⟩ := (scoreIs_iff w u _).1 hx
  cases k with
  | zero => simp [scoreP] at hk
  | succ k =>
    rw [scoreP] at hk
    split at hk
    · cases hk
    · cases hk; exact h u
    · exact lessonP_range h hk
    · unfold courseP at hk
      split at hk
      · cases hk
      · simp only [Option.bind_eq_bind, Option.bind_eq_some_iff] at hk
        obtain ⟨b, _, hk⟩ := hk
        split at hk
        · cases hk
        · split at hk
          · cases hk
          · rename_i ls _
            simp only [Option.bind_eq_some_iff] at hk
            obtain ⟨vs, hvs, hk⟩ := hk
            split at hk
            · cases hk
            · rename_i hne
              cases hk
              rw [List.isEmpty_iff] at hne
              refine mean_between _ hne ?_
              intro y hy
              rw [List.reduceOption_mem_iff] at hy
              obtain ⟨l, _, e⟩ := (mapM_length_mem ls vs hvs).2 _ hy
              exact lessonP_range h e

/-! ### C60: score queries terminate -/

/-- One step of the recursion between units: to a superseding unit, or from a course to a lesson. -/
def DependsOnScoreOf (w : World ι R T W) (u s : ι) : Prop :=
  ListedBy w u s ∨ Graph.CourseHasLesson w.graph u s

/-- The units that are the target of such a step. -/
def targets (g : Graph ι) : List ι := (g.supBy.map Prod.snd).flatten ++ (g.courseLessons.map Prod.snd).flatten

theorem step_target {w : World ι R T W} {u s : ι} (h : DependsOnScoreOf w u s) :
    s ∈ targets w.graph := by
  unfold targets
  rw [List.mem_append, List.mem_flatten, List.mem_flatten]
  rcases h with ⟨ids, e, hs⟩ | ⟨ids, e, hs⟩
  · exact Or.inl ⟨ids, List.mem_map.2 ⟨_, AMap.mem_of_find e, rfl⟩, hs⟩
  · exact Or.inr ⟨ids, List.mem_map.2 ⟨_, AMap.mem_of_find e, rfl⟩, hs⟩

open Classical in
/-- Without cycles every unit has a rank that decreases along the steps. -/
theorem rank_of_acyclic {w : World ι R T W} (h : ¬ Graph.HasCycle (DependsOnScoreOf w)) :
    ∃ rk : ι → Nat, ∀ u s, DependsOnScoreOf w u s → rk s < rk u := by
  refine ⟨fun u => ((targets w.graph).toFinset.filter
    (fun x => Relation.TransGen (DependsOnScoreOf w) u x)).card, ?_⟩
  intro u s hus
  apply Finset.card_lt_card
  rw [Finset.ssubset_iff_of_subset]
  · refine ⟨s, ?_, ?_⟩
    · rw [Finset.mem_filter, List.mem_toFinset]
      exact ⟨step_target hus, .single hus⟩
    · rw [Finset.mem_filter]
      rintro ⟨_, hs⟩
      exact h ⟨s, hs⟩
  · intro x hx
    rw [Finset.mem_filter] at hx ⊢
    exact ⟨hx.1, .head hus hx.2⟩

theorem mapM_defined {α β : Type} {f : α → Option β} (xs : List α)
    (h : ∀ x ∈ xs, ∃ v, f x = some v) : ∃ vs, xs.mapM f = some vs := by
  induction xs with
  | nil => exact ⟨[], rfl⟩
  | cons x xs ih =>
    obtain ⟨v, hv⟩ := h x List.mem_cons_self
    obtain ⟨vs, hvs⟩ := ih (fun y hy => h y (List.mem_cons_of_mem _ hy))
    exact ⟨v :: vs, by simp [List.mapM_cons, hv, hvs]⟩

theorem foldlM_defined {α β : Type} {f : β → α → Option β} (xs : List α)
    (h : ∀ b, ∀ x ∈ xs, ∃ v, f b x = some v) (b : β) : ∃ v, xs.foldlM f b = some v := by
  induction xs generalizing b with
  | nil => exact ⟨b, rfl⟩
  | cons x xs ih =>
    obtain ⟨v, hv⟩ := h b x List.mem_cons_self
    obtain ⟨r, hr⟩ := ih (fun b y hy => h b y (List.mem_cons_of_mem _ hy)) v
    exact ⟨r, by simp [List.foldlM_cons, hv, hr]⟩

theorem supersededP_defined (w : World ι R T W) {f : ι → Option (Option R)} (u : ι) (ids : List ι)
    (h : ∀ s ∈ ids, ∃ v, f s = some v) : ∃ b, supersededP w f u ids = some b := by
  unfold supersededP
  split
  · exact ⟨_, rfl⟩
  · split
    · exact ⟨_, rfl⟩
    · obtain ⟨vs, hvs⟩ := mapM_defined ids h
      exact ⟨_, by rw [hvs]; rfl⟩

section
variable {w : World ι R T W} {rk : ι → Nat} (hrk : ∀ u s, DependsOnScoreOf w u s → rk s < rk u)
  {f : ι → Option (Option R)} {n : Nat} (hf : ∀ u, rk u < n → ∃ v, f u = some v)
include hrk hf

theorem replaceP_defined (m : Nat) (hm : m ≤ n) (ids : List ι) (hids : ∀ x ∈ ids, rk x < m)
    (hpos : 0 < m) : ∃ r, replaceP w f m ids = some r := by
  induction m generalizing ids with
  | zero => omega
  | succ m ih =>
    rw [replaceP]
    apply foldlM_defined
    intro acc x hx
    have hxr := hids x hx
    split
    · rename_i s hs
      have hsr : ∀ y ∈ s, rk y < rk x := fun y hy => hrk x y (Or.inl ⟨s, hs, hy⟩)
      obtain ⟨b, hb⟩ := supersededP_defined w (f := f) x s
        (fun y hy => hf y (by have := hsr y hy; omega))
      rw [hb]
      cases b with
      | false => exact ⟨_, rfl⟩
      | true =>
        rcases s with _ | ⟨y, s⟩
        · simp [supersededP] at hb
        · have := hsr y List.mem_cons_self
          obtain ⟨r, hr⟩ := ih (by omega) (y :: s)
            (fun z hz => by have := hsr z hz; omega) (by omega)
          exact ⟨_, by simp [hr]; rfl⟩
    · exact ⟨_, rfl⟩

theorem checkP_defined (u : ι) (hu : rk u ≤ n) (h0 : 0 < n) : ∃ b, checkP w f n u = some b := by
  unfold checkP
  split
  · exact ⟨_, rfl⟩
  · rename_i ids hs
    have hids : ∀ x ∈ ids, rk x < n := fun x hx => by
      have := hrk u x (Or.inl ⟨ids, hs, hx⟩); omega
    obtain ⟨r, hr⟩ := replaceP_defined hrk hf n le_rfl ids hids h0
    have hsub : ∀ x ∈ r, rk x < n := by
      refine replaceP_subset (fun x => rk x < n) w ?_ n ids r hids hr
      intro v ids' s hv hv' hs'
      have := hrk v s (Or.inl ⟨ids', hv', hs'⟩)
      omega
    obtain ⟨b, hb⟩ := supersededP_defined w (f := f) u r (fun x hx => hf x (hsub x hx))
    exact ⟨b, by rw [hr]; exact hb⟩

theorem lessonP_defined (u : ι) (hu : rk u ≤ n) (h0 : 0 < n) : ∃ v, lessonP w f n u = some v := by
  unfold lessonP
  split
  · exact ⟨_, rfl⟩
  · obtain ⟨b, hb⟩ := checkP_defined hrk hf u hu h0
    rw [hb]
    cases b <;> exact ⟨_, rfl⟩

theorem courseP_defined (u : ι) (hu : rk u ≤ n) (h0 : 0 < n) : ∃ v, courseP w f n u = some v := by
  unfold courseP
  split
  · exact ⟨_, rfl⟩
  · obtain ⟨b, hb⟩ := checkP_defined hrk hf u hu h0
    rw [hb]
    cases b with
    | true => exact ⟨_, rfl⟩
    | false =>
      cases hls : w.graph.getCourseLessons u with
      | none => exact ⟨_, rfl⟩
      | some ls =>
        obtain ⟨vs, hvs⟩ := mapM_defined (f := lessonP w f n) ls (fun l hl =>
          lessonP_defined hrk hf l (by have := hrk u l (Or.inr ⟨ls, hls, hl⟩); omega) h0)
        refine ⟨if vs.reduceOption.isEmpty then none else some (mean vs.reduceOption), ?_⟩
        simp only [Option.bind_eq_bind, Option.bind_some, Bool.false_eq_true, if_false, hvs]
        split <;> rfl

end

theorem scoreP_defined {w : World ι R T W} {rk : ι → Nat}
    (hrk : ∀ u s, DependsOnScoreOf w u s → rk s < rk u) (n : Nat) (u : ι) (hu : rk u + 1 < n) :
    ∃ v, scoreP w n u = some v := by
  induction n generalizing u with
  | zero => omega
  | succ n ih =>
    have hrk' : ∀ u s, DependsOnScoreOf w u s → rk s + 1 < rk u + 1 :=
      fun u s h => Nat.succ_lt_succ (hrk u s h)
    rw [scoreP]
    split
    · exact ⟨_, rfl⟩
    · exact ⟨_, rfl⟩
    · exact lessonP_defined (rk := fun u => rk u + 1) hrk' ih u (by omega) (by omega)
    · exact courseP_defined (rk := fun u => rk u + 1) hrk' ih u (by omega) (by omega)

/-- C60 (partial: libraries where superseding, combined with containment, has no cycle): every score
query returns, whatever queries were made before. -/
theorem score_terminates_partial (w : World ι R T W) (h : ¬ Graph.HasCycle (DependsOnScoreOf w))
    (u : ι) : ∃ N, ∀ n, N ≤ n → ∀ c, Queried w c → ∃ v c', scoreC w n u c = some (v, c') := by
  obtain ⟨rk, hrk⟩ := rank_of_acyclic h
  refine ⟨rk u + 2, fun n hn c hc => ?_⟩
  obtain ⟨v, hv⟩ := scoreP_defined hrk n u (by omega)
  obtain ⟨c', h1, _⟩ := sim_score Everything w (closed_everything _) n u trivial v hv c
    (coh_of_queried hc)
  exact ⟨v, c', h1⟩

/-! ### Examples -/

/-- A simple world over a graph: exercise `e` was scored `t`. -/
def sampleWorld (g : Graph Nat) (black : Nat → Bool) (t : Nat → ℚ) : World Nat ℚ ℚ Unit where
  graph := g
  black := black
  stats := t
  rewards := fun _ => ()
  now := 0
  compute := fun _ _ t _ _ => ⟨t, 0, none, 1⟩
  supScore := 4
  dflt := 0

/-- Course 1 with lessons 10 (exercises 100, 101) and 11 (exercise 110); course 2 with lesson 20
(exercise 200); lesson 20 supersedes lesson 11. -/
def sampleGraph : Graph Nat := Graph.run [.addCourse 1, .addCourse 2, .addLesson 10 1, .addLesson 11 1,
  .addLesson 20 2, .addExercise 100 10, .addExercise 101 10, .addExercise 110 11, .addExercise 200 20,
  .addSuperseded 20 [11]]

/-- What `get_unit_score` answers on fresh caches. -/
def answer (w : World Nat ℚ ℚ Unit) (n : Nat) (u : Nat) : Option (Option ℚ) :=
  (scoreC w n u {}).map Prod.fst

theorem scoreIs_of_answer {w : World Nat ℚ ℚ Unit} {n u : Nat} {v : Option ℚ}
    (h : answer w n u = some v) : ScoreIs w u v := by
  unfold answer at h
  rw [Option.map_eq_some_iff] at h
  obtain ⟨⟨v', c'⟩, h, rfl⟩ := h
  exact ⟨{}, n, c', .empty, h⟩

/-- With exercise 101 blacklisted, lesson 10 scores 2 and course 1 scores 5/2; once lesson 20 is mastered
lesson 11 is superseded and course 1 scores 2. -/
example :
    let w := sampleWorld sampleGraph (fun u => u = 101) (fun e => if e = 100 then 2 else 3)
    let w' := sampleWorld sampleGraph (fun u => u = 101) (fun e => if e = 100 then 2 else 5)
    ScoreIs w 10 (some 2) ∧ ScoreIs w 11 (some 3) ∧ ScoreIs w 1 (some (5 / 2)) ∧
    ScoreIs w' 20 (some 5) ∧ ScoreIs w' 11 none ∧ ScoreIs w' 1 (some 2) :=
  ⟨scoreIs_of_answer (n := 5) (by decide +kernel), scoreIs_of_answer (n := 5) (by decide +kernel),
    scoreIs_of_answer (n := 5) (by decide +kernel), scoreIs_of_answer (n := 5) (by decide +kernel),
    scoreIs_of_answer (n := 5) (by decide +kernel), scoreIs_of_answer (n := 5) (by decide +kernel)⟩

/-- The hypothesis of `score_terminates_partial` holds in the sample: every step goes to a unit of
smaller rank. -/
example (b : Nat → Bool) (t : Nat → ℚ) :
    ¬ Graph.HasCycle (DependsOnScoreOf (sampleWorld sampleGraph b t)) := by
  have hstep : ∀ u s, DependsOnScoreOf (sampleWorld sampleGraph b t) u s →
      (fun x : Nat => if x = 1 then 2 else if x = 2 then 1 else if x = 11 then 1 else 0) s <
      (fun x : Nat => if x = 1 then 2 else if x = 2 then 1 else if x = 11 then 1 else 0) u := by
    have h1 : ∀ e ∈ sampleGraph.supBy, ∀ s ∈ e.2,
        (if s = 1 then 2 else if s = 2 then 1 else if s = 11 then 1 else 0) <
        (if e.1 = 1 then 2 else if e.1 = 2 then 1 else if e.1 = 11 then 1 else 0) := by decide +kernel
    have h2 : ∀ e ∈ sampleGraph.courseLessons, ∀ s ∈ e.2,
        (if s = 1 then 2 else if s = 2 then 1 else if s = 11 then 1 else 0) <
        (if e.1 = 1 then 2 else if e.1 = 2 then 1 else if e.1 = 11 then 1 else 0) := by decide +kernel
    rintro u s (⟨ids, e, hs⟩ | ⟨ids, e, hs⟩)
    · exact h1 _ (AMap.mem_of_find e) s hs
    · exact h2 _ (AMap.mem_of_find e) s hs
  rintro ⟨u, hu⟩
  have key : ∀ v, Relation.TransGen (DependsOnScoreOf (sampleWorld sampleGraph b t)) u v →
      (fun x : Nat => if x = 1 then 2 else if x = 2 then 1 else if x = 11 then 1 else 0) v <
      (fun x : Nat => if x = 1 then 2 else if x = 2 then 1 else if x = 11 then 1 else 0) u := by
    intro v hv
    induction hv with
    | single h => exact hstep _ _ h
    | tail _ h ih => exact lt_trans (hstep _ _ h) ih
  exact lt_irrefl _ (key u hu)

/-- A course that supersedes one of its own lessons. -/
def loopGraph : Graph Nat := Graph.run [.addCourse 1, .addLesson 10 1, .addExercise 100 10,
  .addSuperseded 1 [10]]

/-- C60 is false without the hypothesis: a course that supersedes one of its own lessons passes the
cycle check, but once the exercises of the lesson have been practised the score of the course is never
answered, whatever the recursion depth. -/
theorem score_can_diverge :
    loopGraph.checkCycles (Graph.idOrder Nat) 20 = some (.ok ()) ∧
    ∀ n c, Queried (sampleWorld loopGraph (fun _ => false) (fun _ => 5)) c →
      scoreC (sampleWorld loopGraph (fun _ => false) (fun _ => 5)) n 1 c = none := by
  refine ⟨by decide +kernel, ?_⟩
  set w := sampleWorld loopGraph (fun _ => false) (fun _ => 5) with hw
  have hP : ∀ n, scoreP w n 1 = none := by
    intro n
    induction n with
    | zero => rfl
    | succ n ih =>
      have ht : w.graph.getUnitType 1 = some .course := by decide +kernel
      have hs1 : w.graph.getSupersededBy 1 = none := by decide +kernel
      have hs10 : w.graph.getSupersededBy 10 = some [1] := by decide +kernel
      have hls : w.graph.getCourseLessons 1 = some [10] := by decide +kernel
      have hseen : seenP w 10 = true := by decide +kernel
      have hcheck1 : checkP w (scoreP w n) n 1 = some false := by unfold checkP; rw [hs1]
      have hb : ∀ u, w.black u = false := fun _ => rfl
      have hcheck10 : checkP w (scoreP w n) n 10 = none := by
        unfold checkP
        rw [hs10]
        cases n with
        | zero => rfl
        | succ n =>
          have hr : replaceP w (scoreP w (n + 1)) (n + 1) [1] = some [1] := by
            rw [replaceP]
            simp only [List.foldlM_cons, List.foldlM_nil, hs1]
            rfl
          dsimp only
          rw [hr]
          simp [supersededP, hseen, ih, List.mapM_cons]
      have hl : lessonP w (scoreP w n) n 10 = none := by
        unfold lessonP
        rw [hb, hcheck10]; rfl
      rw [scoreP, ht]
      dsimp only
      unfold courseP
      rw [hb, hcheck1, hls]
      simp [hl, List.mapM_cons]
  intro n c hc
  cases h : scoreC w n 1 c with
  | none => rfl
  | some r =>
    obtain ⟨v, c'⟩ := r
    obtain ⟨_, k, hk⟩ := snd_score w n 1 c v c' (coh_of_queried hc) h
    simp only [hP k] at hk
    cases hk

/-- A superseded lesson loses its score even if the unit superseding it has no score (here because it is
blacklisted): "all superseding units have a good score" is then true for lack of scores. -/
theorem superseded_without_mastery :
    ScoreIs (sampleWorld sampleGraph (fun u => u = 20) (fun _ => 1)) 20 none ∧
    ScoreIs (sampleWorld sampleGraph (fun u => u = 20) (fun _ => 1)) 11 none ∧
    ScoreIs (sampleWorld sampleGraph (fun _ => false) (fun _ => 1)) 11 (some 1) :=
  ⟨scoreIs_of_answer (n := 5) (by decide +kernel), scoreIs_of_answer (n := 5) (by decide +kernel),
    scoreIs_of_answer (n := 5) (by decide +kernel)⟩

end Trane.UnitScorer
