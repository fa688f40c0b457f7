import Verif.Sched.Overlay

/-!
# C84: asking changes no answer

The caches may hold anything: what earlier calls left there, up to date or not.
-/

namespace Trane.UnitScorer

variable {ι R T W : Type} [DecidableEq ι] [Field R] [LinearOrder R]

/-- With the caches `c`, `get_unit_score` of `u` answers `v`. -/
def Answers (w : World ι R T W) (c : Caches ι R) (u : ι) (v : Option R) : Prop :=
  ∃ n c', scoreC w n u c = some (v, c')

/-- With the caches `c`, the average number of trials of the lesson `l` is `v`. -/
def AnswersLessonTrials (w : World ι R T W) (c : Caches ι R) (l : ι) (v : Option R) : Prop :=
  ∃ c', lessonTrialsC w l c = some (v, c')

/-- With the caches `c`, the average number of trials of the course `u` is `v`. -/
def AnswersCourseTrials (w : World ι R T W) (c : Caches ι R) (u : ι) (v : Option R) : Prop :=
  ∃ n c', courseTrialsC w n u c = some (v, c')

/-- With the caches `c`, whether `u` is superseded by mastered units is answered with `b`. -/
def AnswersSuperseded (w : World ι R T W) (c : Caches ι R) (u : ι) (b : Bool) : Prop :=
  ∃ n c', checkC w (scoreC w n) n u c = some (b, c')

/-- The two caches give the same answers. -/
structure SameAnswers (w : World ι R T W) (c c' : Caches ι R) : Prop where
  score : ∀ u v, Answers w c u v ↔ Answers w c' u v
  lessonTrials : ∀ u v, AnswersLessonTrials w c u v ↔ AnswersLessonTrials w c' u v
  courseTrials : ∀ u v, AnswersCourseTrials w c u v ↔ AnswersCourseTrials w c' u v
  superseded : ∀ u v, AnswersSuperseded w c u v ↔ AnswersSuperseded w c' u v

theorem agrees_iff {w : World ι R T W} {c0 : Caches ι R} {α : Type} {m : Nat → M ι R α} {p : Nat → Option α}
    (h : ∀ n, Agrees w c0 (m n) (p n) p) {c : Caches ι R} (hc : Grown w c0 c) (a : α) :
    (∃ n c', m n c = some (a, c')) ↔ ∃ k, p k = some a := by
  constructor
  · rintro ⟨n, c', hm⟩
    exact ((h n).snd c a c' hc hm).2
  · rintro ⟨k, hk⟩
    obtain ⟨c', h1, _⟩ := (h k).sim a hk c hc
    exact ⟨k, c', h1⟩

theorem same_of_grown {w : World ι R T W} {c0 c : Caches ι R} (hc : Grown w c0 c) : SameAnswers w c0 c := by
  have h0 := grown_refl w c0
  refine ⟨fun u v => ?_, fun u v => ?_, fun u v => ?_, fun u v => ?_⟩
  · exact (agrees_iff (fun n => ag_score w c0 n u) h0 v).trans (agrees_iff (fun n => ag_score w c0 n u) hc v).symm
  · obtain ⟨c1, h1, -⟩ := (ag_lessonTrials w c0 u).sim _ rfl c0 h0
    obtain ⟨c2, h2, -⟩ := (ag_lessonTrials w c0 u).sim _ rfl c hc
    unfold AnswersLessonTrials
    rw [h1, h2]
    constructor
    · rintro ⟨c', h⟩; cases h; exact ⟨c2, rfl⟩
    · rintro ⟨c', h⟩; cases h; exact ⟨c1, rfl⟩
  · exact (agrees_iff (fun n => ag_courseTrials w c0 n u) h0 v).trans
      (agrees_iff (fun n => ag_courseTrials w c0 n u) hc v).symm
  · exact (agrees_iff (fun n => ag_check w c0 (ag_score w c0 n) n u) h0 v).trans
      (agrees_iff (fun n => ag_check w c0 (ag_score w c0 n) n u) hc v).symm

/-- The caches after queries, in any order and of any units. -/
inductive Asked (w : World ι R T W) (c0 : Caches ι R) : Caches ι R → Prop
  | start : Asked w c0 c0
  | score {c} (n : Nat) (u : ι) : Asked w c0 c → Asked w c0 (after c (scoreC w n u c))
  | lessonTrials {c} (u : ι) : Asked w c0 c → Asked w c0 (after c (lessonTrialsC w u c))
  | courseTrials {c} (n : Nat) (u : ι) : Asked w c0 c → Asked w c0 (after c (courseTrialsC w n u c))
  | superseded {c} (n : Nat) (u : ι) : Asked w c0 c → Asked w c0 (after c (checkC w (scoreC w n) n u c))
  | exercise {c} (e : ι) : Asked w c0 c → Asked w c0 (after c (exC w e c))

theorem grown_after {w : World ι R T W} {c0 c : Caches ι R} {α : Type} {m : M ι R α} {p : Option α}
    {q : Nat → Option α} (h : Agrees w c0 m p q) (hc : Grown w c0 c) : Grown w c0 (after c (m c)) := by
  cases hm : m c with
  | none => exact hc
  | some r => exact (h.snd c r.1 r.2 hc (by rw [hm])).1

theorem grown_asked {w : World ι R T W} {c0 c : Caches ι R} (h : Asked w c0 c) : Grown w c0 c := by
  induction h with
  | start => exact grown_refl w c0
  | score n u _ ih => exact grown_after (ag_score w c0 n u) ih
  | lessonTrials u _ ih => exact grown_after (ag_lessonTrials w c0 u) ih
  | courseTrials n u _ ih => exact grown_after (ag_courseTrials w c0 n u) ih
  | superseded n u _ ih => exact grown_after (ag_check w c0 (ag_score w c0 n) n u) ih
  | exercise e _ ih => exact grown_after (ag_exC w c0 e) ih

/-- **C84.** Queries, in any order and of any units of any library, change no answer, whatever the caches hold. -/
theorem asking_changes_no_answer (w : World ι R T W) (c0 c : Caches ι R) (h : Asked w c0 c) : SameAnswers w c0 c :=
  same_of_grown (grown_asked h)

/-- **C84.** A query has at most one answer, however deep the recursion is allowed to go. -/
theorem answer_unique (w : World ι R T W) (c : Caches ι R) (u : ι) {v v' : Option R} (h : Answers w c u v)
    (h' : Answers w c u v') : v = v' := by
  obtain ⟨k, hk⟩ := (agrees_iff (fun n => ag_score w c n u) (grown_refl w c) v).1 h
  obtain ⟨k', hk'⟩ := (agrees_iff (fun n => ag_score w c n u) (grown_refl w c) v').1 h'
  exact mono_unique (omono_score w c u) hk hk'

/-- **C84.** Whether a unit is superseded has at most one answer. -/
theorem superseded_unique (w : World ι R T W) (c : Caches ι R) (u : ι) {v v' : Bool} (h : AnswersSuperseded w c u v)
    (h' : AnswersSuperseded w c u v') : v = v' := by
  obtain ⟨k, hk⟩ := (agrees_iff (fun n => ag_check w c (ag_score w c n) n u) (grown_refl w c) v).1 h
  obtain ⟨k', hk'⟩ := (agrees_iff (fun n => ag_check w c (ag_score w c n) n u) (grown_refl w c) v').1 h'
  exact mono_unique (omono_check w c u) hk hk'

theorem courseTrials_unique (w : World ι R T W) (c : Caches ι R) (u : ι) {v v' : Option R}
    (h : AnswersCourseTrials w c u v) (h' : AnswersCourseTrials w c u v') : v = v' := by
  obtain ⟨k, hk⟩ := (agrees_iff (fun n => ag_courseTrials w c n u) (grown_refl w c) v).1 h
  obtain ⟨k', hk'⟩ := (agrees_iff (fun n => ag_courseTrials w c n u) (grown_refl w c) v').1 h'
  exact mono_unique (omono_courseTrials w c u) hk hk'

theorem lessonTrials_unique (w : World ι R T W) (c : Caches ι R) (u : ι) {v v' : Option R}
    (h : AnswersLessonTrials w c u v) (h' : AnswersLessonTrials w c u v') : v = v' := by
  obtain ⟨c1, h1⟩ := h
  obtain ⟨c2, h2⟩ := h'
  rw [h1] at h2
  cases h2
  rfl

/-- The caches hold an old score of lesson 10, which the data no longer give; asking for its course and for an exercise
changes neither that answer nor the others. -/
example :
    let w := sampleWorld sampleGraph (fun _ => false) (fun _ => 3)
    let c0 : Caches Nat ℚ := { les := [(10, some 1)] }
    let c := after c0 (scoreC w 5 1 c0)
    Asked w c0 c ∧ Answers w c0 10 (some 1) ∧ Answers w c 10 (some 1) ∧ Answers w {} 10 (some 3) ∧
      c.cou.find 1 ≠ none := by
  intro w c0 c
  refine ⟨.score 5 1 .start, ⟨5, c0, rfl⟩, ?_, ?_, by decide +kernel⟩
  · exact ((asking_changes_no_answer w c0 c (.score 5 1 .start)).score 10 (some 1)).1 ⟨5, c0, rfl⟩
  · have h : (scoreC w 5 10 {}).map Prod.fst = some (some 3) := by decide +kernel
    rw [Option.map_eq_some_iff] at h
    obtain ⟨⟨v, c'⟩, h1, h2⟩ := h
    exact ⟨5, c', by rw [h1, ← h2]⟩

end Trane.UnitScorer
