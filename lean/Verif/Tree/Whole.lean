import Verif.Tree.GenServed
import Verif.Top.WholeAsk

/-!
# C92: from the texts of the files to a batch
-/

namespace Trane.Tree
open Trane.Store (Str)
open Trane.Library
open Trane.TopLevel
open Trane.Graph (HasCycle)
open Trane.Json (Generator UserPreferences)

variable {F : Type}

/-! ### Specification -/

/-- `t` is an object that, with whatever data were stored before, opened the library `lib` on the machine with the
generators of the code, by the preferences in the text of their file, and then went through the calls `h`, none of
which closes the object or edits the graph. -/
structure RunningOn (M : Machine F) (X : Outside) (prefs : UserPreferences) (lib : Lib Rest Generator) (b : Base ℚ)
    (h : List (Call ℚ)) (t : TopLevel.Top ℚ) : Prop where
  fair : X.Fair
  prefers : Prefers M prefs
  loads : Loads (M.real X).disk (prefs.ignoredPaths.map components) lib
  opened : ∃ g0 clock earlier,
    (runs b (fresh g0 clock) earlier).prefs.batchSize = prefs.scheduler.bind (·.batchSize) ∧
    (step b (runs b (fresh g0 clock) earlier) (.restart lib.graph)).2 = true ∧
    t = runs b (step b (runs b (fresh g0 clock) earlier) (.restart lib.graph)).1 h
  stays : ∀ c ∈ h, ¬ Restarts c
  unedited : h.filterMap toGraph = []

/-- The lesson `l` with the exercise `e` is in the texts: in manifests of their own, or due by the texts in the
directory of a course with a generator. -/
def InTexts (M : Machine F) (X : Outside) (prefs : UserPreferences) (l : LessonM Rest) (e : ExerciseM Rest) : Prop :=
  ∃ p m r, Counts M prefs.ignoredPaths p ∧ CourseText M p m ∧ M.home = some r ∧
    ((∃ U es, Due M X prefs (r ++ p.dropLast) m U ∧ U (l, es) ∧ e ∈ es) ∨
      ∃ q q', Beside M p.dropLast lessonFile q ∧ LessonText M q l ∧ Beside M q.dropLast exerciseFile q' ∧
        ExerciseText M q' e)

/-! ### Lemmas -/

section
variable {M : Machine F} {X : Outside} {prefs : UserPreferences} {lib : Lib Rest Generator} {b : Base ℚ}
  {h : List (Call ℚ)} {t : TopLevel.Top ℚ} {q : Request}

theorem RunningOn.running (hr : RunningOn M X prefs lib b h t) :
    Running (M.real X).disk (prefs.ignoredPaths.map components) lib b h t where
  proper := real_proper M X
  loads := hr.loads
  opened := by
    obtain ⟨g0, clock, earlier, _, h1, h2⟩ := hr.opened
    exact ⟨g0, clock, earlier, h1, h2⟩
  stays := hr.stays
  unedited := hr.unedited

/-- An exercise on the disk is in the texts, with a lesson that is served. -/
theorem in_texts (hr : RunningOn M X prefs lib b h t) {e : ExerciseM Rest}
    (he : DiskExercise (M.real X).disk (prefs.ignoredPaths.map components) e) :
    ∃ l, InTexts M X prefs l e ∧ lib.getLessonManifest l.id = some l ∧ l.id = e.lessonId ∧ l.courseId = e.courseId := by
  have hg := real_proper M X
  have hman := library_manifests hg hr.loads
  have hpe := prefs_eq hr.prefers
  obtain ⟨cs, _, _, hoc, _, _, _, _⟩ := loads_inv hg hr.loads
  have hrd := ((openCourses_exact _ _ _).1 hoc).1
  obtain ⟨dir, c, gen, hd, hw⟩ := he
  have hd' := hd
  rw [diskCourse_iff] at hd'
  obtain ⟨p, m, hc, rfl, hm, hin⟩ := hd'
  obtain ⟨r, hhome, _⟩ := hc.1
  have hhome : M.home = some r := hhome
  have hc : Counts M prefs.ignoredPaths p := hc
  have hm : CourseText M p m := hm
  rcases hw with ⟨l, es, hl, hes⟩ | ⟨q, q', hq, hq', hx⟩
  · have hserved := ((hman l.id).2.1 l).mpr ⟨⟨_, _, _, hd, .inl ⟨es, hl⟩⟩, rfl⟩
    rcases hin with ⟨_, _, rfl⟩ | ⟨cfg, g, hcfg, hgen, rfl, _⟩
    · cases hl
    obtain ⟨h1, h2, h3⟩ := hg _ _ _ _ hgen _ hl
    obtain ⟨h4, h5, _⟩ := h3 e hes
    obtain ⟨U, h6, h7⟩ := (due_of_made (M := M) hr.fair (prefs := prefs) hhome ⟨_, counts_entry hc hhome⟩ hcfg
      (show M.gen X prefs cfg p.dropLast m = some g by rw [← hpe]; exact hgen)).1 _ hl
    exact ⟨l, ⟨p, m, r, hc, hm, hhome, .inl ⟨U, es, h6, h7, hes⟩⟩, hserved, h4.symm, h1.trans h5.symm⟩
  · have hcf := (isCourseFile_iff (M.real X) _ p).mpr hc
    have hcm := (course_text_iff (M.real X) _ _).mpr hm
    obtain ⟨l, h1, h2, h3⟩ := hrd.lesson p m q hcf hcm hq
    obtain ⟨e', h4, h5, h6, h7⟩ := hrd.exercise p m q l q' hcf hcm hq h1 hq'
    rw [hx] at h4
    cases h4
    have hserved := ((hman l.id).2.1 l).mpr ⟨⟨_, _, _, hd, .inr ⟨q, hq, h1⟩⟩, rfl⟩
    exact ⟨l, ⟨p, m, r, hc, hm, hhome, .inr ⟨q, q', (isBelow_iff (M.real X) _ _ _).mp hq,
      (lesson_text_iff (M.real X) _ _).mp h1, (isBelow_iff (M.real X) _ _ _).mp hq',
      (exercise_text_iff (M.real X) _ _).mp hx⟩⟩, hserved, h6.symm, h7.symm⟩

/-! ### Theorems -/

/-- **C92, what is handed out.**  Every exercise of a batch is in the texts; with any filter but the review list
neither it nor its lesson nor its course is blacklisted; and without a filter, unless it is on the relearn pile, the
dependencies that the texts give its lesson are met by the scores the object answers. -/
theorem batch_from_texts (hr : RunningOn M X prefs lib b h t) (hq : Serves lib b t q) (he : NoEmptyId lib t)
    (hch : Batch.IsChoices q.choices) {s : Batch.Session Str} {xs : List Str} (hb : t.batch q = some (s, some xs)) :
    ∀ x ∈ xs, ∃ l e, InTexts M X prefs l e ∧ e.id = x ∧ l.id = e.lessonId ∧ l.courseId = e.courseId ∧
      (q.filter ≠ some .reviewList → ∀ u ∈ ([x, l.id, l.courseId] : List Str), t.blacklist.blacklisted u = false) ∧
      (q.filter = none → x ∉ t.session.pile → ∀ d ∈ l.deps, MetNow b t d) := by
  intro x hx
  obtain ⟨e, _, ho⟩ := whole_batch_known hr.running hq he hch hb x hx
  obtain ⟨l, h1, h2, h3, h4⟩ := in_texts hr ho.exercise
  have ho' : OnDisk (M.real X).disk (prefs.ignoredPaths.map components) x e l :=
    ⟨ho.exercise, ho.id, (((library_manifests (real_proper M X) hr.loads _).2.1 l).1 h2).1, h3, h4⟩
  refine ⟨l, e, h1, ho.id, h3, h4, ?_, ?_⟩
  · intro hf
    rw [h3, h4]
    exact whole_batch_not_blacklisted hr.running hq he hch hb hf hx ho'
  · intro hf hp
    exact whole_batch_unlocked hr.running hq he hch hb hf hx hp ho'

/-- **C92, how many.**  With the default shares, a batch has at most the number of exercises that the text of the
preferences asks for, 50 if it does not, and a tenth more. -/
theorem batch_size_from_texts (hr : RunningOn M X prefs lib b h t) (hch : Batch.IsChoices q.choices)
    {s : Batch.Session Str} {xs : List Str} (hb : t.batch q = some (s, some xs)) {n : Nat}
    (hn : n = (prefs.scheduler.bind (·.batchSize)).getD 50) (h10 : 10 ≤ n) : xs.length ≤ n + n / 10 := by
  have hm : t.options.made.batchSize = n := by
    obtain ⟨g0, clock, earlier, hp, hok, ht⟩ := hr.opened
    obtain ⟨-, -, ho, -⟩ := restart_ok hok
    have : t.options.made = schedulerOptions (runs b (fresh g0 clock) earlier).prefs := by
      rw [ht, options_of_history b _ h hr.stays, calls_made, ho]
      rfl
    rw [this, hn]
    unfold schedulerOptions
    rw [hp]
    cases prefs.scheduler.bind (·.batchSize) <;> rfl
  have := whole_batch_size hr.running hch hb (by rw [hm]; exact h10)
  rw [hm] at this
  exact this

/-- **C92, there is one.**  If what was graded since the opening are exercises that are served and, for the review list,
the listed units are served, the request succeeds. -/
theorem batch_succeeds_from_texts (hr : RunningOn M X prefs lib b h t) (hq : Serves lib b t q) (he : NoEmptyId lib t)
    (hch : Batch.IsChoices q.choices) (hgr : ∀ x ∈ gradedIds h, ∃ m, lib.getExerciseManifest x = some m)
    (hrev : q.filter = some .reviewList → ∀ u ∈ Store.ReviewList.entries t.review, Graph.Known lib.graph u) :
    ∃ N s xs, ∀ fuel ≥ N, t.batch { q with fuel := fuel } = some (s, some xs) := by
  refine whole_batch_succeeds hr.running hq he hch (fun x hx => ?_) hrev
  obtain ⟨m, hm⟩ := hgr x hx
  obtain ⟨h1, h2⟩ := ((library_manifests (real_proper M X) hr.loads x).2.2 m).1 hm
  exact ⟨m, h1, h2⟩

end

end Trane.Tree
