import Verif.Bench.Model

/-!
# Specification of the benchmark
-/

set_option linter.unusedSectionVars false

namespace Trane.Bench

variable {σ ι : Type} [DecidableEq ι]

/-- How many grades have been given. -/
def graded (es : List (Event ι)) : Nat := es.countP (fun e => match e with | .scored .. => true | .batch .. => false)

/-- How many grades an exercise has got. -/
def trials (x : ι) (es : List (Event ι)) : Nat :=
  es.countP (fun e => match e with | .scored y _ _ => decide (y = x) | .batch .. => false)

/-- The time of the `k`th grade, from 0 on: the sessions are `sessionFrequency` days apart, and in a session an exercise
takes a second. -/
def timeOf (p : Profile) (anchor : Int) (k : Nat) : Int :=
  anchor + (k / p.exercisesPerSession : Nat) * p.sessionFrequency * 86400 + (k % p.exercisesPerSession : Nat)

/-- The place of a grade among the probabilities. -/
def place : MasteryScore → Fin 5
  | .one => 0
  | .two => 1
  | .three => 2
  | .four => 3
  | .five => 4

/-- The probabilities of the grades at the `n`th trial, from 0 on: the initial ones at first, then, in equal steps, on
the way to the stable ones. -/
def chance (p : Profile) (n : Nat) : Probs := fun i =>
  if n < p.trialsBeforeStable then
    ((p.trialsBeforeStable - n) * p.initial i + n * p.stable i) / p.trialsBeforeStable
  else p.stable i

/-- A grade that the student can give at the `n`th trial: one that has a chance, or a lapse. -/
def CanGive (p : Profile) (n : Nat) (g : MasteryScore) : Prop :=
  (g = .two ∧ p.trialsBeforeStable < n ∧ 0 < p.lapseRate) ∨ 0 < chance p n (place g)

/-- The simulation ended because there was nothing to practice. -/
def Starved (es : List (Event ι)) : Prop := ∃ pre t, es = pre ++ [.batch t []]

/-- What a simulation may look like: what has happened, the exercises of the last batch that have not been graded, the
object, and the object at the end of each session.  In a session batches are asked for, one after the other, and the
exercises of a batch are graded in order, until the session has its number of exercises.  Nothing happens after an empty
batch. -/
inductive Story (A : Api σ ι) (p : Profile) (anchor : Int) (obj₀ : σ) : List (Event ι) → List ι → σ → List σ → Prop
  | start : Story A p anchor obj₀ [] [] obj₀ []
  | batch {es : List (Event ι)} {obj obj' : σ} {ends : List σ} {ids : List ι} :
      Story A p anchor obj₀ es [] obj ends → ¬ Starved es → graded es < (ends.length + 1) * p.exercisesPerSession →
      A.batch (A.overrideTime obj (timeOf p anchor (graded es))) = some (obj', ids) →
      Story A p anchor obj₀ (es ++ [.batch (timeOf p anchor (graded es)) ids]) ids obj' ends
  | grade {es : List (Event ι)} {rest : List ι} {obj obj' : σ} {ends : List σ} {x : ι} {g : MasteryScore} :
      Story A p anchor obj₀ es (x :: rest) obj ends → graded es < (ends.length + 1) * p.exercisesPerSession →
      CanGive p (trials x es) g → A.score obj x g (timeOf p anchor (graded es)) = some obj' →
      Story A p anchor obj₀ (es ++ [.scored x g (timeOf p anchor (graded es))]) rest obj' ends
  | ended {es : List (Event ι)} {rest : List ι} {obj obj' : σ} {ends : List σ} :
      Story A p anchor obj₀ es rest obj ends → graded es = (ends.length + 1) * p.exercisesPerSession →
      obj' = A.overrideTime obj (anchor + ends.length * p.sessionFrequency * 86400 + p.exercisesPerSession) →
      Story A p anchor obj₀ es [] obj' (ends ++ [obj'])

/-- All courses are mastered. -/
def Mastered (A : Api σ ι) (B : Settings ι) (courses : List ι) (obj : σ) : Prop :=
  ∀ c, c = B.advancedCourse ∨ c ∈ courses → ∃ s, A.unitScore obj c = some s ∧ B.masteryThreshold ≤ s

/-- The sum of the weights before an index. -/
def below (w : Probs) : Fin 5 → ℚ
  | 0 => 0
  | 1 => w 0
  | 2 => w 0 + w 1
  | 3 => w 0 + w 1 + w 2
  | 4 => w 0 + w 1 + w 2 + w 3

/-- The claims about a run. -/
structure Run (A : Api σ ι) (p : Profile) (B : Settings ι) (courses : List ι) (anchor : Int) (obj₀ : σ)
    (r : Result σ ι) : Prop where
  story : ∃ rest obj, Story A p anchor obj₀ r.events rest obj r.ends
  practiced : r.exercisesPracticed = graded r.events
  sessions : r.sessionsRun ≤ B.maxSessions
  ended : r.ends.length = r.sessionsRun
  complete : ¬ Starved r.events → r.exercisesPracticed = r.sessionsRun * p.exercisesPerSession
  starved : Starved r.events → r.daysToMastery = none ∧ r.sessionsRun < B.maxSessions ∧
    ∃ k, k < p.exercisesPerSession ∧ r.exercisesPracticed = r.sessionsRun * p.exercisesPerSession + k
  stopped : r.daysToMastery = none → r.sessionsRun = B.maxSessions ∨ Starved r.events
  mastered : ∀ d, r.daysToMastery = some d ↔ ∃ before last, r.ends = before ++ [last] ∧ Mastered A B courses last ∧
    d = before.length * p.sessionFrequency
  first : ∀ before last, r.ends = before ++ [last] → ∀ obj ∈ before, ¬ Mastered A B courses obj

end Trane.Bench
