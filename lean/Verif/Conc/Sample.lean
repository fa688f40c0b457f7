import Verif.Conc.Props

/-! # Examples and counterexamples with threads -/

namespace Trane.Conc

/-- One of the traces of a program, chosen by answering its branches (`true` for the second branch
of `alt`, and for another round of `loop`). -/
def gen : Nat → Prog → List Bool → Option (List Act × List Bool)
  | 0, _, _ => none
  | _ + 1, .skip, cs => some ([], cs)
  | n + 1, .seq p q, cs =>
    match gen n p cs with
    | none => none
    | some (a, cs) => match gen n q cs with
      | none => none
      | some (b, cs) => some (a ++ b, cs)
  | n + 1, .alt p q, c :: cs => if c then gen n q cs else gen n p cs
  | n + 1, .loop p, c :: cs =>
    if c then
      match gen n p cs with
      | none => none
      | some (a, cs) => match gen n (.loop p) cs with
        | none => none
        | some (b, cs) => some (a ++ b, cs)
    else some ([], cs)
  | n + 1, .hold r m p, cs =>
    match gen n p cs with
    | none => none
    | some (a, cs) => some (.take r m :: a ++ [.drop r m], cs)
  | n + 1, .call f, cs => gen n (body f) cs
  | _ + 1, _, [] => none

theorem gen_sound : ∀ (n : Nat) (p : Prog) (cs : List Bool) (a : List Act) (cs' : List Bool),
    gen n p cs = some (a, cs') → Trace p a
  | 0, p, cs, a, cs', h => by simp [gen] at h
  | n + 1, .skip, cs, a, cs', h => by
    simp only [gen, Option.some.injEq, Prod.mk.injEq] at h
    rw [← h.1]
    exact .skip
  | n + 1, .seq p q, cs, a, cs', h => by
    simp only [gen] at h
    cases h1 : gen n p cs with
    | none => rw [h1] at h; simp at h
    | some x =>
      obtain ⟨a1, c1⟩ := x
      rw [h1] at h
      simp only at h
      cases h2 : gen n q c1 with
      | none => rw [h2] at h; simp at h
      | some y =>
        obtain ⟨a2, c2⟩ := y
        rw [h2] at h
        simp only [Option.some.injEq, Prod.mk.injEq] at h
        rw [← h.1]
        exact .seq (gen_sound n p _ _ _ h1) (gen_sound n q _ _ _ h2)
  | n + 1, .alt p q, [], a, cs', h => by simp [gen] at h
  | n + 1, .alt p q, c :: cs, a, cs', h => by
    simp only [gen] at h
    split at h
    · exact .right (gen_sound n q _ _ _ h)
    · exact .left (gen_sound n p _ _ _ h)
  | n + 1, .loop p, [], a, cs', h => by simp [gen] at h
  | n + 1, .loop p, c :: cs, a, cs', h => by
    simp only [gen] at h
    split at h
    · cases h1 : gen n p cs with
      | none => rw [h1] at h; simp at h
      | some x =>
        obtain ⟨a1, c1⟩ := x
        rw [h1] at h
        simp only at h
        cases h2 : gen n (.loop p) c1 with
        | none => rw [h2] at h; simp at h
        | some y =>
          obtain ⟨a2, c2⟩ := y
          rw [h2] at h
          simp only [Option.some.injEq, Prod.mk.injEq] at h
          rw [← h.1]
          exact .again (gen_sound n p _ _ _ h1) (gen_sound n (.loop p) _ _ _ h2)
    · simp only [Option.some.injEq, Prod.mk.injEq] at h
      rw [← h.1]
      exact .stop
  | n + 1, .hold r m p, cs, a, cs', h => by
    simp only [gen] at h
    cases h1 : gen n p cs with
    | none => rw [h1] at h; simp at h
    | some x =>
      obtain ⟨a1, c1⟩ := x
      rw [h1] at h
      simp only [Option.some.injEq, Prod.mk.injEq] at h
      rw [← h.1]
      exact .hold (gen_sound n p _ _ _ h1)
  | n + 1, .call f, cs, a, cs', h => by
    simp only [gen] at h
    exact .call (gen_sound n _ _ _ _ h)

def T := true
def F := false

/-- The answers for the exercises of one lesson with one exercise: nothing is blacklisted, and the
score of the exercise is in the cache. -/
def lessonChoices : List Bool :=
  [F, T, F, T, T, F, F] ++ -- `validInLesson`: the lesson, its course, one exercise
  [T, T, T, T, T, F, T, F, T, F, F] -- the candidate: score, urgency, velocity

/-- The answers for the end of a batch of one exercise with an empty relearn pile. -/
def finishChoices : List Bool := [T, F, T, F, T, T, F]

/-- A batch from a review list that has one lesson. -/
def reviewChoices : List Bool :=
  [F, T, T, T, T, F] ++ lessonChoices ++ [F] ++ finishChoices

/-- A batch from one lesson. -/
def lessonBatchChoices : List Bool := [F, T, T, T, F, T] ++ lessonChoices ++ [F] ++ finishChoices

def actsOf (c : Api) (cs : List Bool) : List Act :=
  ((gen 60 c.prog cs).map (fun x => x.1)).getD []

theorem actsOf_trace {c : Api} {cs : List Bool} (h : (gen 60 c.prog cs).isSome = true) :
    CallsTrace [c] (actsOf c cs) := by
  obtain ⟨⟨a, cs'⟩, hx⟩ := Option.isSome_iff_exists.1 h
  have ha : actsOf c cs = a ++ [] := by simp [actsOf, hx]
  rw [ha]
  exact .cons (gen_sound _ _ _ _ _ hx) .nil

theorem stepAt_out {b : Bool} {s : List Thread} {i : Nat} (h : s.length ≤ i) :
    stepAt b s i = none := by
  unfold stepAt
  rw [List.getElem?_eq_none h]

instance (s : List Thread) : Decidable (Finished s) :=
  inferInstanceAs (Decidable (∀ t ∈ s, t.rest = []))

/-! ## C78 -/

def reviewActs : List Act := actsOf .getBatchReviewList reviewChoices
def lessonActs : List Act := actsOf .getBatch lessonBatchChoices

/-- The first thread is about to read the frequencies a second time; the second one wants to write
them. -/
def stuckState : List Thread :=
  (exec true (start [reviewActs, lessonActs])
    (List.replicate 22 0 ++ List.replicate 36 1)).getD []

/-- **C78, false for batches from the review list.** A thread that asks for a batch from a review
list with a lesson, and a thread that asks for any other batch, can block each other for good:
`get_candidates_from_review_list` keeps the frequency map locked for reading
(/repo/src/scheduler.rs:926) and `get_candidates_from_lesson_helper` locks it again (359); if the
other thread asks for the write lock in between (/repo/src/scheduler/data.rs:310), the second read
waits for the writer and the writer for the first read. -/
theorem review_list_deadlock : ∃ (calls : List (List Api)) (acts : List (List Act))
    (s : List Thread), Threads calls acts ∧ (∀ cs ∈ calls, ∀ c ∈ cs, c.shared = true) ∧
    Reach true (start acts) s ∧ Deadlock s := by
  refine ⟨[[.getBatchReviewList], [.getBatch]], [reviewActs, lessonActs], stuckState,
    .cons (actsOf_trace (by decide +kernel)) (.cons (actsOf_trace (by decide +kernel)) .nil),
    by decide, ⟨58, List.replicate 22 0 ++ List.replicate 36 1, rfl, ?_⟩, ?_, ?_⟩
  · decide +kernel
  · intro i
    match i with
    | 0 => decide +kernel
    | 1 => decide +kernel
    | i + 2 =>
      apply stepAt_out
      have : stuckState.length = 2 := by decide +kernel
      omega
  · decide +kernel

/-- Two batches from a lesson finish in every schedule. -/
example (s : List Thread) (h : Reach false (start [lessonActs, lessonActs]) s) : ¬ Deadlock s :=
  no_deadlock_partial [[.getBatch], [.getBatch]] [lessonActs, lessonActs]
    (.cons (actsOf_trace (by decide +kernel)) (.cons (actsOf_trace (by decide +kernel)) .nil))
    (by decide) s h

example : lessonActs.length = 36 := by decide +kernel

/-- And one schedule that interrupts the first thread does finish them. -/
example : ∃ s, exec true (start [lessonActs, lessonActs])
    (List.replicate 12 0 ++ List.replicate 38 1 ++ List.replicate 26 0) = some s ∧ Finished s := by
  refine ⟨(exec true (start [lessonActs, lessonActs])
    (List.replicate 12 0 ++ List.replicate 38 1 ++ List.replicate 26 0)).getD [], ?_, ?_⟩ <;> decide +kernel

/-! ## C79 -/

/-- The score of an exercise that is not in the cache. -/
def scoreActs : List Act := actsOf .getUnitScore [T, T, T, T, T]

def clashState : List Thread :=
  (exec true (start [scoreActs, scoreActs])
    (List.replicate 25 0 ++ List.replicate 25 1)).getD []

/-- **C79, false for two threads.** Two threads that ask for scores can borrow the cache of scores
for writing at the same time: the comment that all interior mutability of `Trane` is managed by
locks (/repo/src/lib.rs:739-742) overlooks the `RefCell`s of
/repo/src/scheduler/unit_scorer.rs:41-53. -/
theorem two_scoring_threads_clash : ∃ (calls : List (List Api)) (acts : List (List Act))
    (s : List Thread), Threads calls acts ∧ (∀ cs ∈ calls, ∀ c ∈ cs, c.shared = true) ∧
    Reach true (start acts) s ∧ Clash s := by
  refine ⟨[[.getUnitScore], [.getUnitScore]], [scoreActs, scoreActs], clashState,
    .cons (actsOf_trace (by decide +kernel)) (.cons (actsOf_trace (by decide +kernel)) .nil),
    by decide, ⟨50, List.replicate 25 0 ++ List.replicate 25 1, rfl, by decide +kernel⟩,
    .exercise, 0, clashState[0]?.getD ⟨[], false, []⟩, by decide +kernel, by decide +kernel,
    Or.inl ⟨1, clashState[1]?.getD ⟨[], false, []⟩, .write, by decide, by decide +kernel,
      by decide +kernel⟩⟩

/-- One thread that scores and two that look things up never clash. -/
example (s : List Thread)
    (h : Reach false (start [scoreActs, actsOf .getIds [], actsOf .getScores []]) s) : ¬ Clash s :=
  no_clash_partial [[.getUnitScore], [.getIds], [.getScores]] _
    (.cons (actsOf_trace (by decide +kernel)) (.cons (actsOf_trace (by decide +kernel))
      (.cons (actsOf_trace (by decide +kernel)) .nil))) 0
    (by
      intro i cs hi hne c hc
      match i, hi, hne with
      | 0, _, hne => exact absurd rfl hne
      | 1, hi, _ => simp at hi; subst hi; simp at hc; subst hc; rfl
      | 2, hi, _ => simp at hi; subst hi; simp at hc; subst hc; rfl) s h

/-- A thread that grades, blacklists and asks for a review list batch, alone. -/
example (a b c : List Act) (ha : Trace (Api.prog .scoreExercise) a)
    (hb : Trace (Api.prog .addToBlacklist) b) (hc : Trace (Api.prog .getBatchReviewList) c)
    (s : List Thread) (h : Reach false (start [a ++ (b ++ (c ++ []))]) s) :
    ¬ Deadlock s ∧ ¬ Clash s :=
  alone_finishes [.scoreExercise, .addToBlacklist, .getBatchReviewList] _
    (.cons ha (.cons hb (.cons hc .nil))) s h

example : reviewActs.length = 44 ∧ scoreActs.length = 24 := by decide +kernel

end Trane.Conc
