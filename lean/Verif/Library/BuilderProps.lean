import Verif.Library.Builder
import Verif.Library.Spec
import Verif.Gen.Files
import Mathlib.Data.List.Perm.Basic

/-!
# C74: courses written by the course builders
-/

namespace Trane.CourseBuilder
open Trane.Store Trane.Library
open Trane.Gen (mapM_forall₂ mapM_isSome forall₂_right)

variable {α γ : Type}

/-! ### Specification -/

/-- The directory in which a course is built. -/
def CourseB.root (parent : Path) (c : CourseB α γ) : Path := parent ++ [c.dir]

/-- An asset has a name, which is not that of a manifest. -/
def Ordinary (a : Asset) : Prop :=
  a.name ≠ [] ∧ a.name.getLast? ≠ some courseFile ∧ a.name.getLast? ≠ some lessonFile ∧
    a.name.getLast? ≠ some exerciseFile

/-- What the round trip asks of a course builder: lessons in different directories, exercises of a lesson
in different directories, and no asset named like a manifest. -/
structure Tidy (c : CourseB α γ) : Prop where
  lessons : (c.lessons.map (·.dir)).Nodup
  exercises : ∀ l ∈ c.lessons, (l.exercises.map (·.dir)).Nodup
  assets : ∀ a ∈ c.assets, Ordinary a
  lessonAssets : ∀ l ∈ c.lessons, ∀ a ∈ l.assets, Ordinary a
  exerciseAssets : ∀ l ∈ c.lessons, ∀ e ∈ l.exercises, ∀ a ∈ e.assets, Ordinary a

/-- The manifests name each other correctly. -/
structure Consistent (c : CourseB α γ) : Prop where
  course : c.manifest.id ≠ []
  lesson : ∀ l ∈ c.lessons, ∀ m, l.manifest = some m → m.id ≠ [] ∧ m.courseId = c.manifest.id
  exercise : ∀ l ∈ c.lessons, ∀ m, l.manifest = some m → ∀ e ∈ l.exercises, ∀ x, e.manifest = some x →
    x.id ≠ [] ∧ x.lessonId = m.id ∧ x.courseId = m.courseId

/-- Every file mentioned in a manifest is there. -/
structure Complete (M : Mentions α γ) (fs : FS α γ) (root : Path) (c : CourseB α γ) : Prop where
  course : ∀ r ∈ M.course c.manifest, pathExists fs (root ++ r) = true
  lesson : ∀ l ∈ c.lessons, ∀ m, l.manifest = some m → ∀ r ∈ M.lesson m,
    pathExists fs (root ++ [l.dir] ++ r) = true
  exercise : ∀ l ∈ c.lessons, ∀ e ∈ l.exercises, ∀ m, e.manifest = some m → ∀ r ∈ M.exercise m,
    pathExists fs (root ++ [l.dir] ++ [e.dir] ++ r) = true

/-- Normalizing keeps ids. -/
structure KeepsIds (M : Mentions α γ) : Prop where
  course : ∀ d m, (M.courseAt d m).id = m.id
  lesson : ∀ d m, (M.lessonAt d m).id = m.id ∧ (M.lessonAt d m).courseId = m.courseId
  exercise : ∀ d m, (M.exerciseAt d m).id = m.id ∧ (M.exerciseAt d m).lessonId = m.lessonId ∧
    (M.exerciseAt d m).courseId = m.courseId

/-- The library sees the given files, and the manifests in them. -/
structure Shows (M : Mentions α γ) (fs : FS α γ) (d : Disk α γ) : Prop where
  walk : ∀ dir, (d.walk dir).Perm (fs.keys.filter (fun p => dir.isPrefixOf p))
  course : ∀ p m, fs.find p = some (.course m) → d.course p = readCourse M fs p
  lesson : ∀ p m, fs.find p = some (.lesson m) → d.lesson p = readLesson M fs p
  exercise : ∀ p m, fs.find p = some (.exercise m) → d.exercise p = readExercise M fs p

/-- `x` is the exercise that `e` describes, in the lesson directory `dir`. -/
def ExerciseAs (M : Mentions α γ) (dir : Path) (e : ExerciseB α) (x : ExerciseM α) : Prop :=
  ∃ m, e.manifest = some m ∧ x = M.exerciseAt (dir ++ [e.dir]) m

/-- `y` is the lesson that `l` describes with its exercises, in the course directory `root`. -/
def LessonAs (M : Mentions α γ) (root : Path) (l : LessonB α) (y : LessonM α × List (ExerciseM α)) : Prop :=
  ∃ m, l.manifest = some m ∧ y.1 = M.lessonAt (root ++ [l.dir]) m ∧
    ∃ es : List (ExerciseB α), es.Perm l.exercises ∧
      List.Forall₂ (ExerciseAs M (root ++ [l.dir])) es y.2

/-! ### Running steps -/

/-- The path and entry a step writes. -/
def Step.wrote : Step α γ → Option (Path × Entry α γ)
  | .manifest p e => some (p, e)
  | .asset p t => some (p, .text t)
  | .fail => none

theorem run1_ok {fs fs' : FS α γ} {s : Step α γ} (h : run1 fs s = (fs', true)) :
    ∃ p e, s.wrote = some (p, e) ∧ fs' = fs.put p e := by
  cases s with
  | manifest p e =>
    unfold run1 at h
    dsimp only at h
    split at h
    · injection h with _ h; cases h
    · injection h with h _; exact ⟨p, e, rfl, h.symm⟩
  | asset p t =>
    unfold run1 at h
    dsimp only at h
    split at h
    · injection h with _ h; cases h
    · injection h with h _; exact ⟨p, _, rfl, h.symm⟩
  | fail => injection h with _ h; cases h

theorem run_cons_ok {fs fs' : FS α γ} {s : Step α γ} {ss : List (Step α γ)}
    (h : run fs (s :: ss) = (fs', true)) :
    ∃ p e, s.wrote = some (p, e) ∧ run1 fs s = (fs.put p e, true) ∧ run (fs.put p e) ss = (fs', true) := by
  unfold run at h
  split at h
  · rename_i fs1 h1
    obtain ⟨p, e, hw, rfl⟩ := run1_ok h1
    exact ⟨p, e, hw, h1, h⟩
  · injection h with _ h; cases h

theorem run_find_some {fs fs' : FS α γ} {ss : List (Step α γ)} (h : run fs ss = (fs', true)) {p : Path}
    {e : Entry α γ} (hf : fs'.find p = some e) :
    (∃ s ∈ ss, s.wrote = some (p, e)) ∨ ((∀ s ∈ ss, ∀ e', s.wrote ≠ some (p, e')) ∧ fs.find p = some e) := by
  induction ss generalizing fs with
  | nil =>
    have : fs = fs' := congrArg Prod.fst h
    subst this
    exact Or.inr ⟨by simp, hf⟩
  | cons s ss ih =>
    obtain ⟨q, x, hw, _, h2⟩ := run_cons_ok h
    rcases ih h2 with ⟨s', hs', hw'⟩ | ⟨hno, hd⟩
    · exact Or.inl ⟨s', List.mem_cons_of_mem _ hs', hw'⟩
    · rw [AMap.find_put] at hd
      split at hd
      · rename_i he
        injection hd with hd
        subst he hd
        exact Or.inl ⟨s, List.mem_cons_self, hw⟩
      · rename_i he
        refine Or.inr ⟨fun s' hs' e' hw' => ?_, hd⟩
        rcases List.mem_cons.1 hs' with rfl | hs'
        · rw [hw] at hw'
          injection hw' with hw'
          injection hw' with hw' _
          exact he hw'
        · exact hno s' hs' e' hw'

theorem run_find {fs fs' : FS α γ} {ss : List (Step α γ)} (h : run fs ss = (fs', true)) {p : Path}
    (hp : (∃ s ∈ ss, ∃ e, s.wrote = some (p, e)) ∨ ∃ e, fs.find p = some e) : ∃ e, fs'.find p = some e := by
  induction ss generalizing fs with
  | nil =>
    have : fs = fs' := congrArg Prod.fst h
    subst this
    rcases hp with ⟨s, hs, _⟩ | h
    · cases hs
    · exact h
  | cons s ss ih =>
    obtain ⟨q, x, hw, _, h2⟩ := run_cons_ok h
    refine ih h2 ?_
    rcases hp with ⟨s', hs', e, hw'⟩ | ⟨e, he⟩
    · rcases List.mem_cons.1 hs' with rfl | hs'
      · rw [hw] at hw'
        injection hw' with hw'
        injection hw' with h1 h2
        subst h1
        exact Or.inr ⟨_, AMap.find_put_self _ _ _⟩
      · exact Or.inl ⟨s', hs', e, hw'⟩
    · right
      rw [AMap.find_put]
      split
      · exact ⟨_, rfl⟩
      · exact ⟨e, he⟩

theorem run_nodup {fs fs' : FS α γ} {ss : List (Step α γ)} (h : run fs ss = (fs', true))
    (hn : fs.keys.Nodup) : fs'.keys.Nodup := by
  induction ss generalizing fs with
  | nil =>
    have : fs = fs' := congrArg Prod.fst h
    subst this
    exact hn
  | cons s ss ih =>
    obtain ⟨q, x, _, _, h2⟩ := run_cons_ok h
    exact ih h2 (AMap.nodup_keys_put _ _ _ hn)

theorem run_no_fail {fs fs' : FS α γ} {ss : List (Step α γ)} (h : run fs ss = (fs', true)) :
    Step.fail ∉ ss := by
  induction ss generalizing fs with
  | nil => simp
  | cons s ss ih =>
    obtain ⟨q, x, hw, _, h2⟩ := run_cons_ok h
    intro hm
    rcases List.mem_cons.1 hm with rfl | hm
    · cases hw
    · exact ih h2 hm

/-! ### The files of a course -/

/-- What a course builder writes: a manifest or an asset. -/
inductive Written (root : Path) (c : CourseB α γ) : Path → Entry α γ → Prop
  | course : Written root c (root ++ [courseFile]) (.course c.manifest)
  | asset (a : Asset) (h : a ∈ c.assets) : Written root c (root ++ a.name) (.text a.contents)
  | lesson (l : LessonB α) (h : l ∈ c.lessons) (m : LessonM α) (hm : l.manifest = some m) :
      Written root c (root ++ [l.dir, lessonFile]) (.lesson m)
  | lessonAsset (l : LessonB α) (h : l ∈ c.lessons) (a : Asset) (ha : a ∈ l.assets) :
      Written root c (root ++ [l.dir] ++ a.name) (.text a.contents)
  | exercise (l : LessonB α) (h : l ∈ c.lessons) (e : ExerciseB α) (he : e ∈ l.exercises)
      (m : ExerciseM α) (hm : e.manifest = some m) :
      Written root c (root ++ [l.dir, e.dir, exerciseFile]) (.exercise m)
  | exerciseAsset (l : LessonB α) (h : l ∈ c.lessons) (e : ExerciseB α) (he : e ∈ l.exercises) (a : Asset)
      (ha : a ∈ e.assets) : Written root c (root ++ [l.dir, e.dir] ++ a.name) (.text a.contents)

theorem written_of_step {parent : Path} {c : CourseB α γ} {s : Step α γ} (hs : s ∈ courseSteps parent c)
    {p : Path} {x : Entry α γ} (hw : s.wrote = some (p, x)) : Written (c.root parent) c p x := by
  unfold courseSteps at hs
  rcases List.mem_cons.1 hs with rfl | hs
  · injection hw with hw
    injection hw with h1 h2
    subst h1 h2
    exact .course
  · rcases List.mem_append.1 hs with hs | hs
    · obtain ⟨a, ha, rfl⟩ := List.mem_map.1 hs
      injection hw with hw
      injection hw with h1 h2
      subst h1 h2
      exact .asset a ha
    · obtain ⟨l, hl, hs⟩ := List.mem_flatMap.1 hs
      unfold lessonSteps at hs
      split at hs
      · rw [List.mem_singleton.1 hs] at hw; cases hw
      · rename_i m hm
        rcases List.mem_cons.1 hs with rfl | hs
        · injection hw with hw
          injection hw with h1 h2
          subst h1 h2
          have := Written.lesson (root := c.root parent) (c := c) l hl m hm
          simpa [CourseB.root] using this
        · rcases List.mem_append.1 hs with hs | hs
          · obtain ⟨a, ha, rfl⟩ := List.mem_map.1 hs
            injection hw with hw
            injection hw with h1 h2
            subst h1 h2
            exact .lessonAsset l hl a ha
          · obtain ⟨e, he, hs⟩ := List.mem_flatMap.1 hs
            unfold exerciseSteps at hs
            split at hs
            · rw [List.mem_singleton.1 hs] at hw; cases hw
            · rename_i m' hm'
              rcases List.mem_cons.1 hs with rfl | hs
              · injection hw with hw
                injection hw with h1 h2
                subst h1 h2
                have := Written.exercise (root := c.root parent) (c := c) l hl e he m' hm'
                simpa [CourseB.root] using this
              · obtain ⟨a, ha, rfl⟩ := List.mem_map.1 hs
                injection hw with hw
                injection hw with h1 h2
                subst h1 h2
                have := Written.exerciseAsset (root := c.root parent) (c := c) l hl e he a ha
                simpa [CourseB.root] using this

theorem manifest_lesson {parent : Path} {c : CourseB α γ} {fs fs' : FS α γ}
    (h : build fs parent c = (fs', true)) {l : LessonB α} (hl : l ∈ c.lessons) :
    ∃ m, l.manifest = some m ∧ ∀ e ∈ l.exercises, ∃ x, e.manifest = some x := by
  have hnf := run_no_fail h
  have hsub : ∀ s ∈ (lessonSteps (parent ++ [c.dir] ++ [l.dir]) l : List (Step α γ)),
      s ∈ courseSteps parent c := by
    intro s hs
    unfold courseSteps
    exact List.mem_cons_of_mem _ (List.mem_append_right _ (List.mem_flatMap.2 ⟨l, hl, hs⟩))
  cases hm : l.manifest with
  | none =>
    refine (hnf (hsub _ ?_)).elim
    unfold lessonSteps
    rw [hm]
    simp
  | some m =>
    refine ⟨m, rfl, fun e he => ?_⟩
    cases hx : e.manifest with
    | some x => exact ⟨x, rfl⟩
    | none =>
      refine (hnf (hsub _ ?_)).elim
      unfold lessonSteps
      rw [hm]
      refine List.mem_cons_of_mem _ (List.mem_append_right _ (List.mem_flatMap.2 ⟨e, he, ?_⟩))
      unfold exerciseSteps
      rw [hx]
      simp

theorem step_of_written {parent : Path} {c : CourseB α γ} {fs fs' : FS α γ}
    (h : build fs parent c = (fs', true)) {p : Path} {x : Entry α γ}
    (hw : Written (c.root parent) c p x) : ∃ s ∈ courseSteps parent c, s.wrote = some (p, x) := by
  have hsub : ∀ l ∈ c.lessons, ∀ s ∈ (lessonSteps (parent ++ [c.dir] ++ [l.dir]) l : List (Step α γ)),
      s ∈ courseSteps parent c := by
    intro l hl s hs
    unfold courseSteps
    exact List.mem_cons_of_mem _ (List.mem_append_right _ (List.mem_flatMap.2 ⟨l, hl, hs⟩))
  have hsube : ∀ l ∈ c.lessons, ∀ e ∈ l.exercises,
      ∀ s ∈ (exerciseSteps (parent ++ [c.dir] ++ [l.dir] ++ [e.dir]) e : List (Step α γ)),
      s ∈ courseSteps parent c := by
    intro l hl e he s hs
    refine hsub l hl s ?_
    obtain ⟨m, hm, _⟩ := manifest_lesson h hl
    unfold lessonSteps
    rw [hm]
    exact List.mem_cons_of_mem _ (List.mem_append_right _ (List.mem_flatMap.2 ⟨e, he, hs⟩))
  cases hw with
  | course => exact ⟨_, List.mem_cons_self, rfl⟩
  | asset a ha =>
    exact ⟨_, List.mem_cons_of_mem _ (List.mem_append_left _ (List.mem_map.2 ⟨a, ha, rfl⟩)), rfl⟩
  | lesson l hl m hm =>
    refine ⟨.manifest (parent ++ [c.dir] ++ [l.dir] ++ [lessonFile]) (.lesson m), hsub l hl _ ?_, ?_⟩
    · unfold lessonSteps
      rw [hm]
      exact List.mem_cons_self
    · simp [Step.wrote, CourseB.root]
  | lessonAsset l hl a ha =>
    obtain ⟨m, hm, _⟩ := manifest_lesson h hl
    refine ⟨.asset (parent ++ [c.dir] ++ [l.dir] ++ a.name) a.contents, hsub l hl _ ?_, ?_⟩
    · unfold lessonSteps
      rw [hm]
      exact List.mem_cons_of_mem _ (List.mem_append_left _ (List.mem_map.2 ⟨a, ha, rfl⟩))
    · simp [Step.wrote, CourseB.root]
  | exercise l hl e he m hm =>
    refine ⟨.manifest (parent ++ [c.dir] ++ [l.dir] ++ [e.dir] ++ [exerciseFile]) (.exercise m),
      hsube l hl e he _ ?_, ?_⟩
    · unfold exerciseSteps
      rw [hm]
      exact List.mem_cons_self
    · simp [Step.wrote, CourseB.root]
  | exerciseAsset l hl e he a ha =>
    obtain ⟨_, _, hx⟩ := manifest_lesson h hl
    obtain ⟨x, hx⟩ := hx e he
    refine ⟨.asset (parent ++ [c.dir] ++ [l.dir] ++ [e.dir] ++ a.name) a.contents,
      hsube l hl e he _ ?_, ?_⟩
    · unfold exerciseSteps
      rw [hx]
      exact List.mem_cons_of_mem _ (List.mem_map.2 ⟨a, ha, rfl⟩)
    · simp [Step.wrote, CourseB.root]

/-- **C74, what is written**: after a successful build in a new directory, the files below it are those of
the builder, and all of them are there. -/
theorem files_iff {parent : Path} {c : CourseB α γ} {fs fs' : FS α γ}
    (hfresh : ∀ p x, fs.find p = some x → ¬ c.root parent <+: p) (h : build fs parent c = (fs', true))
    {p : Path} (hp : c.root parent <+: p) :
    (∃ x, fs'.find p = some x) ↔ ∃ x, Written (c.root parent) c p x := by
  constructor
  · rintro ⟨x, hx⟩
    rcases run_find_some h hx with ⟨s, hs, hw⟩ | ⟨_, h0⟩
    · exact ⟨x, written_of_step hs hw⟩
    · exact (hfresh p x h0 hp).elim
  · rintro ⟨x, hx⟩
    obtain ⟨s, hs, hw⟩ := step_of_written h hx
    exact run_find h (Or.inl ⟨s, hs, x, hw⟩)

theorem find_written {parent : Path} {c : CourseB α γ} {fs fs' : FS α γ}
    (hfresh : ∀ p x, fs.find p = some x → ¬ c.root parent <+: p) (h : build fs parent c = (fs', true))
    {p : Path} (hp : c.root parent <+: p) {x : Entry α γ} (hf : fs'.find p = some x) :
    Written (c.root parent) c p x := by
  rcases run_find_some h hf with ⟨s, hs, hw⟩ | ⟨_, h0⟩
  · exact written_of_step hs hw
  · exact (hfresh p x h0 hp).elim

/-- **C74, other files**: files outside the directory of the course stay as they are, whether or not
building succeeds. -/
theorem others_unchanged {parent : Path} {c : CourseB α γ} {fs : FS α γ} {p : Path}
    (hp : ¬ c.root parent <+: p) : (build fs parent c).1.find p = fs.find p := by
  have hall : ∀ s ∈ courseSteps parent c, ∀ q x, s.wrote = some (q, x) → q ≠ p := by
    rintro s hs q x hw rfl
    apply hp
    cases written_of_step hs hw with
    | course => exact List.prefix_append _ _
    | asset => exact List.prefix_append _ _
    | lesson => exact List.prefix_append _ _
    | lessonAsset => rw [List.append_assoc]; exact List.prefix_append _ _
    | exercise => exact List.prefix_append _ _
    | exerciseAsset => rw [List.append_assoc]; exact List.prefix_append _ _
  unfold build
  generalize courseSteps parent c = ss at hall
  induction ss generalizing fs with
  | nil => rfl
  | cons s ss ih =>
    have h1 : (run1 fs s).1.find p = fs.find p := by
      cases s with
      | manifest q e =>
        unfold run1
        dsimp only
        split
        · rfl
        · exact AMap.find_put_ne _ _ (hall _ List.mem_cons_self q e rfl)
      | asset q t =>
        unfold run1
        dsimp only
        split
        · rfl
        · exact AMap.find_put_ne _ _ (hall _ List.mem_cons_self q _ rfl)
      | fail => rfl
    unfold run
    split
    · rename_i fs1 e
      rw [ih (fun s hs => hall s (List.mem_cons_of_mem _ hs))]
      rw [e] at h1
      exact h1
    · rename_i fs1 e
      rw [e] at h1
      exact h1

end Trane.CourseBuilder
