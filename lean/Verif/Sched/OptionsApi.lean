import Verif.Sched.BatchSample

/-!
# Changing the options of a running scheduler (C55)

Models `get_scheduler_options`, `set_scheduler_options` and `reset_scheduler_options` of
`/repo/src/scheduler.rs` together with the copies of the options made when a scheduler is created.
-/

namespace Trane.OptionsApi
open Trane.Search (Env)
open Trane.Filters (UnitFilter)
open Trane.Batch (Session Choices getBatch)

/-- `DepthFirstScheduler`, /repo/src/scheduler.rs:161-185, reduced to its options: `current` is
`self.data.options`; `made` are the copies held by the unit scorer (twice: its own field, and inside its
clone of the data), the candidate filter (inside its clone of the data) and the relearn pile. -/
structure Scheduler where
  current : SchedulerOptions
  made : SchedulerOptions

/-- /repo/src/scheduler.rs:189-204 `DepthFirstScheduler::new`. -/
def create (o : SchedulerOptions) : Scheduler := ⟨o, o⟩

/-- The calls on options, /repo/src/scheduler.rs:1179-1189. -/
inductive Call
  | set (o : SchedulerOptions)
  | reset

/-- /repo/src/scheduler.rs:1183-1189: only `self.data.options` is written; options are not verified. -/
def Scheduler.call (s : Scheduler) : Call → Scheduler
  | .set o => { s with current := o }
  | .reset => { s with current := .default }

/-- /repo/src/scheduler.rs:1179-1181 `get_scheduler_options`. -/
def Scheduler.get (s : Scheduler) : SchedulerOptions := s.current

/-- Several calls. -/
def Scheduler.calls (s : Scheduler) (cs : List Call) : Scheduler := cs.foldl Scheduler.call s

variable {ι : Type} [DecidableEq ι]

/-- Everything a batch depends on besides the options: the answers of the unit scorer (inside an `Env`) for
each value of the options it reads — `superseding_score` (/repo/src/scheduler/unit_scorer.rs:358),
`num_trials` (203, 209) and `num_rewards` (220, 224). -/
abbrev Site (ι : Type) := (supersedingScore : ℚ) → (numTrials numRewards : Nat) → Env ι

/-- `get_exercise_batch`: the unit scorer, the filter and the relearn pile use the options they were made
with, the search and the final shuffle the current ones. -/
def Scheduler.batch (s : Scheduler) (W : Site ι) (ch : Choices ι) (fuel : Nat) (entries : List ι)
    (ses : Session ι) (f : Option (UnitFilter ι)) : Option (Session ι × Option (List ι)) :=
  getBatch { W s.made.supersedingScore s.made.numTrials s.made.numRewards with opts := s.current }
    s.made ch fuel entries ses f

/-- **Specification.**  The scheduler builds its batches according to `o`: whatever the library, the scores,
the session, the filter and the random choices, its batches are those of a scheduler created with `o`. -/
def Follows (s : Scheduler) (o : SchedulerOptions) : Prop :=
  ∀ (ι : Type) [DecidableEq ι] (W : Site ι) (ch : Choices ι) (fuel : Nat) (entries : List ι)
    (ses : Session ι) (f : Option (UnitFilter ι)),
    s.batch W ch fuel entries ses f = (create o).batch W ch fuel entries ses f

/-- The options in force by the API documentation: those of the last call. -/
def inForce (o : SchedulerOptions) : List Call → SchedulerOptions
  | [] => o
  | .set o' :: cs => inForce o' cs
  | .reset :: cs => inForce .default cs

/-- The two agree on what the copies made at creation are used for. -/
structure SameCopied (o o' : SchedulerOptions) : Prop where
  batchSize : o.batchSize = o'.batchSize
  relearnFraction : o.relearnFraction = o'.relearnFraction
  newWindow : o.newWindow = o'.newWindow
  targetWindow : o.targetWindow = o'.targetWindow
  currentWindow : o.currentWindow = o'.currentWindow
  easyWindow : o.easyWindow = o'.easyWindow
  masteredWindow : o.masteredWindow = o'.masteredWindow
  supersedingScore : o.supersedingScore = o'.supersedingScore
  numTrials : o.numTrials = o'.numTrials
  numRewards : o.numRewards = o'.numRewards

/-- The two agree on what the search and the final shuffle read. -/
structure SameCurrent (o o' : SchedulerOptions) : Prop where
  batchSize : o.batchSize = o'.batchSize
  /-- the upper end of the target window -/
  target : o.targetWindow.hi = o'.targetWindow.hi
  passing : o.passing = o'.passing
  maxLessonsInProgress : o.maxLessonsInProgress = o'.maxLessonsInProgress

/-! ### Lemmas -/

theorem calls_current (s : Scheduler) (cs : List Call) :
    (s.calls cs).current = inForce s.current cs ∧ (s.calls cs).made = s.made := by
  induction cs generalizing s with
  | nil => exact ⟨rfl, rfl⟩
  | cons c cs ih =>
    cases c with
    | set o => exact ih _
    | reset => exact ih _

/-- An environment with other options. -/
def put (e : Env ι) (o : SchedulerOptions) : Env ι := { e with opts := o }

section
variable (e : Env ι) {o o' : SchedulerOptions} (h : SameCurrent o o')
open Trane.Search

theorem resolveF_put (mf : Option Filters.KVFilter) : ∀ n u v,
    (put e o).resolveF mf n u v = (put e o').resolveF mf n u v := by
  intro n
  induction n with
  | zero => intro u v; rfl
  | succ n ih =>
    intro u v
    have : ((put e o).resolveF mf n) = ((put e o').resolveF mf n) := by funext u v; exact ih u v
    unfold Env.resolveF
    rw [this]
    rfl

include h in
theorem allSatisfied_put (mf : Option Filters.KVFilter) :
    (put e o).allSatisfied mf = (put e o').allSatisfied mf := by
  have h1 : (put e o).satisfiedEffective = (put e o').satisfiedEffective := by
    funext u
    unfold Env.satisfiedEffective
    rw [show (put e o).opts.passing = (put e o').opts.passing from h.passing]
    rfl
  have h2 : (put e o).satisfiedDependency mf = (put e o').satisfiedDependency mf := by
    funext u
    unfold Env.satisfiedDependency Env.resolve
    rw [h1, resolveF_put e (o' := o') mf]
    rfl
  funext u
  unfold Env.allSatisfied
  rw [h2]
  rfl

include h in
theorem visit_put (rnd : Rnd) (q : Query ι) (item : Item ι) (s : Search.State ι) :
    visit (put e o) rnd q item s = visit (put e o') rnd q item s := by
  have h1 : (put e o).validDependents q.filter = (put e o').validDependents q.filter := by
    funext u; unfold Env.validDependents; rw [allSatisfied_put e h]; rfl
  have h2 : (put e o).validStarting q.filter = (put e o').validStarting q.filter := by
    funext u; unfold Env.validStarting; rw [allSatisfied_put e h]; rfl
  have h3 : lessonCandidates (put e o) = lessonCandidates (put e o') := by
    funext rnd k item
    unfold lessonCandidates
    rw [show (put e o).opts.passing = (put e o').opts.passing from h.passing]
    rfl
  have h4 : (extendCandidates (ι := ι) (put e o).opts) = extendCandidates (put e o').opts := by
    funext cs l x s
    unfold extendCandidates
    rw [show (put e o).opts.targetWindow.hi = (put e o').opts.targetWindow.hi from h.target,
      show (put e o).opts.maxLessonsInProgress = (put e o').opts.maxLessonsInProgress from
        h.maxLessonsInProgress]
  have h5 : processLesson (put e o) rnd q item = processLesson (put e o') rnd q item := by
    funext s
    unfold processLesson
    rw [h1, h3, h4, show (put e o).opts.passing = (put e o').opts.passing from h.passing,
      show (put e o).opts.batchSize = (put e o').opts.batchSize from h.batchSize]
    rfl
  have h6 : visitCourse (put e o) rnd q item = visitCourse (put e o') rnd q item := by
    funext s
    unfold visitCourse
    rw [h1, h2]
    rfl
  unfold visit visitLesson
  rw [h5, h6]
  rfl

include h in
theorem loop_put (rnd : Rnd) (q : Query ι) : ∀ n s,
    loop (put e o) rnd q n s = loop (put e o') rnd q n s := by
  intro n
  induction n with
  | zero => intro s; rfl
  | succ n ih =>
    intro s
    unfold loop
    split
    · rfl
    · rw [visit_put e h]
      split <;> first | rfl | exact ih _

theorem startLoop_put : ∀ n us, startLoop (put e o) n us = startLoop (put e o') n us := by
  intro n
  induction n with
  | zero => intro us; rfl
  | succ n ih =>
    intro us
    unfold startLoop
    simp only [ih]
    rfl

theorem depthLoop_put (depth : Nat) : ∀ n us acc,
    depthLoop (put e o) depth n us acc = depthLoop (put e o') depth n us acc := by
  intro n
  induction n with
  | zero => intro us acc; rfl
  | succ n ih =>
    intro us acc
    match us with
    | [] => rfl
    | (u, d) :: rest =>
      unfold depthLoop
      simp only [ih]
      rfl

include h in
theorem initialCandidates_put (rnds : Nat → Rnd) (fuel : Nat) (entries : List ι)
    (f : Option (UnitFilter ι)) :
    initialCandidates (put e o) rnds fuel entries f = initialCandidates (put e o') rnds fuel entries f := by
  have h3 : lessonCandidates (put e o) = lessonCandidates (put e o') := by
    funext rnd k item
    unfold lessonCandidates
    rw [show (put e o).opts.passing = (put e o').opts.passing from h.passing]
    rfl
  have hg : fromGraph (put e o) = fromGraph (put e o') := by
    funext rnd fuel st mf
    unfold fromGraph
    rw [loop_put e h]
  have hc : fromCourse (put e o) = fromCourse (put e o') := by
    funext rnd fuel cs
    unfold fromCourse
    simp only [loop_put e h]
    rfl
  have hl : fromLesson (put e o) = fromLesson (put e o') := by
    funext rnd k l
    unfold fromLesson
    rw [h3]
  have hw : wholeGraph (put e o) = wholeGraph (put e o') := by
    funext rnd fuel mf
    have h2 : (put e o).validStarting mf = (put e o').validStarting mf := by
      funext u; unfold Env.validStarting; rw [allSatisfied_put e h]; rfl
    unfold wholeGraph initialStack allStartingUnits
    rw [hg, h2]
    simp only [startLoop_put e (o' := o')]
    rfl
  have hd : depthUnits (put e o) fuel = depthUnits (put e o') fuel := by
    funext ids depth
    induction ids with
    | nil => rfl
    | cons u us ih =>
      unfold depthUnits
      rw [ih]
      unfold dependenciesAtDepth
      rw [depthLoop_put e (o' := o')]
      rfl
  have hr : reviewEntry (put e o) = reviewEntry (put e o') := by
    funext rnd fuel u
    unfold reviewEntry
    rw [hc, hl]
    rfl
  unfold initialCandidates fromReviewList
  rw [hw, hc, hl, hg, hd, hr]

include h in
theorem getBatch_put (options : SchedulerOptions) (ch : Choices ι) (fuel : Nat) (entries : List ι)
    (s : Session ι) (f : Option (UnitFilter ι)) :
    getBatch (put e o) options ch fuel entries s f = getBatch (put e o') options ch fuel entries s f := by
  have hs : ∀ cs, Shuffler.shuffleCandidates ch.le ch.shuffle ch.draw (put e o).opts cs =
      Shuffler.shuffleCandidates ch.le ch.shuffle ch.draw (put e o').opts cs := by
    intro cs
    unfold Shuffler.shuffleCandidates Shuffler.allGroups
    rw [show (put e o).opts.targetWindow.hi = (put e o').opts.targetWindow.hi from h.target]
  unfold getBatch Batch.finalCandidates
  rw [initialCandidates_put e h]
  simp only [hs]
  rfl

end

theorem getBatch_options (e : Env ι) {o o' : SchedulerOptions} (h : SameCopied o o') (ch : Choices ι)
    (fuel : Nat) (entries : List ι) (s : Session ι) (f : Option (UnitFilter ι)) :
    getBatch e o ch fuel entries s f = getBatch e o' ch fuel entries s f := by
  obtain ⟨b, r, n, t, c, z, m, p, sup, nt, nd, nr, ml⟩ := o
  obtain ⟨b', r', n', t', c', z', m', p', sup', nt', nd', nr', ml'⟩ := o'
  obtain ⟨h1, h2, h3, h4, h5, h6, h7, h8, h9, h10⟩ := h
  dsimp only at h1 h2 h3 h4 h5 h6 h7 h8 h9 h10
  subst h1 h2 h3 h4 h5 h6 h7 h8 h9 h10
  unfold getBatch Batch.finalCandidates CandidateFilter.filterCandidates CandidateFilter.adjusted
  cases CandidateFilter.shiftOf (Batch.successRate s) <;> rfl

/-! ### C55 -/

/-- C55, the getter: after any calls, the options returned are those of the last call, or else those the
scheduler was created with. -/
theorem options_returned (o : SchedulerOptions) (cs : List Call) :
    ((create o).calls cs).get = inForce o cs := (calls_current _ _).1

/-- C55 (partial).  After any calls, the scheduler builds its batches according to the options in force,
provided these agree with the options it was created with on the batch size, the relearn fraction, the
mastery windows, the superseding score and the numbers of trials and rewards read.  That is, changes of the
passing score options and of the number of lessons in progress take effect.  Missing: changes of the others,
which do not take effect (`options_not_followed`, `other_options_ignored`). -/
theorem options_followed_partial (o : SchedulerOptions) (cs : List Call)
    (h : SameCopied o (inForce o cs)) : Follows ((create o).calls cs) (inForce o cs) := by
  intro ι _ W ch fuel entries ses f
  obtain ⟨h1, h2⟩ := calls_current (create o) cs
  unfold Scheduler.batch
  rw [h1, h2]
  simp only [create, h.supersedingScore, h.numTrials, h.numRewards]
  exact getBatch_options _ h _ _ _ _ _

/-- C55 is false of the other options: two sets of options that agree on the batch size, the upper end of the
target window, the passing score options and the number of lessons in progress lead to the same batches when
set on the same scheduler, whatever their relearn fraction, other mastery windows, superseding score and
numbers of trials and rewards. -/
theorem other_options_ignored (s : Scheduler) (o o' : SchedulerOptions) (h : SameCurrent o o')
    (W : Site ι) (ch : Choices ι) (fuel : Nat) (entries : List ι) (ses : Session ι)
    (f : Option (UnitFilter ι)) :
    (s.call (.set o)).batch W ch fuel entries ses f = (s.call (.set o')).batch W ch fuel entries ses f :=
  getBatch_put _ h _ _ _ _ _ _

/-- What a scheduler hands out, before the final shuffle. -/
theorem sample_batch (L : Env Nat) (s : Scheduler) (ys : List Nat)
    (h : Batch.drafted (put L s.current) s.made 400 [] {} none = some ys)
    (hy : ys.all L.hasExercise = true) :
    ∃ ses xs, xs.length = ys.length ∧
      s.batch (fun _ _ _ => L) Batch.firstChoices 400 [] {} none = some (ses, some xs) := by
  obtain ⟨xs, hp, hg⟩ := Batch.getBatch_drafted h
  rw [show (put L s.current).hasExercise = L.hasExercise from rfl, if_pos hy] at hg
  exact ⟨_, xs, hp.length_eq, hg⟩

/-- Two schedulers whose batches have different lengths do not follow the same options. -/
theorem differ (L : Env Nat) {s : Scheduler} {o : SchedulerOptions} {ys ys' : List Nat}
    (h : Batch.drafted (put L s.current) s.made 400 [] {} none = some ys)
    (hy : ys.all L.hasExercise = true)
    (h' : Batch.drafted (put L o) o 400 [] {} none = some ys')
    (hy' : ys'.all L.hasExercise = true)
    (hl : ys.length ≠ ys'.length) : ¬ Follows s o := by
  intro hf
  obtain ⟨_, xs, h1, h2⟩ := sample_batch L s ys h hy
  obtain ⟨_, xs', h3, h4⟩ := sample_batch L (create o) ys' h' hy'
  have := hf Nat (fun _ _ _ => L) Batch.firstChoices 400 [] {} none |>.symm.trans h2
  rw [h4] at this
  cases this
  exact hl (h1.symm.trans h3)

/-- A library with eleven exercises, all with score 3. -/
def eleven : Env Nat := Search.libraryOf Batch.coveringOps (fun _ => 3) (fun _ => 5) (fun _ => false)

def small : SchedulerOptions := { SchedulerOptions.default with batchSize := 4 }

/-- C55 is false: a batch size set later does not change the size of the batches, and neither does resetting
the options of a scheduler created with another batch size. -/
theorem options_not_followed : small.verify = true ∧
    ¬ Follows ((create .default).call (.set small)) small ∧
    ¬ Follows ((create small).call .reset) .default := by
  refine ⟨by decide +kernel, ?_, ?_⟩
  · exact differ eleven (ys := [300, 119, 118, 117, 116, 115, 114, 113, 112, 111]) (ys' := [300, 119, 118, 117])
      (by decide +kernel) (by decide +kernel) (by decide +kernel) (by decide +kernel) (by decide)
  · exact differ eleven (ys := [300, 119, 118, 117]) (ys' := [300, 119, 118, 117, 116, 115, 114, 113, 112, 111])
      (by decide +kernel) (by decide +kernel) (by decide +kernel) (by decide +kernel) (by decide)

/-- The hypothesis of `options_followed_partial` holds of a change of the passing score. -/
example : SameCopied .default (inForce .default
    [.reset, .set { SchedulerOptions.default with passing := ⟨1 / 4, 2, 1⟩, maxLessonsInProgress := 3 }]) :=
  ⟨rfl, rfl, rfl, rfl, rfl, rfl, rfl, rfl, rfl, rfl⟩

/-- The hypothesis of `other_options_ignored` holds of options that differ. -/
example : SameCurrent .default { SchedulerOptions.default with relearnFraction := 1, supersedingScore := 0 } :=
  ⟨rfl, rfl, rfl, rfl⟩

end Trane.OptionsApi
