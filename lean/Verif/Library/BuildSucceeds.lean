import Verif.Library.BuiltLibrary

/-!
# C97: when building succeeds
-/

namespace Trane.CourseBuilder
open Trane.Store Trane.Library

variable {α γ : Type}

/-! ### Specification -/

/-- Neither path is the other or below it. -/
def Apart (p q : Path) : Prop := ¬ p <+: q ∧ ¬ q <+: p

/-- The files of an exercise, from its directory. -/
def ExerciseB.files (e : ExerciseB α) : List Path := [exerciseFile] :: e.assets.map (·.name)

/-- The files of a lesson, from its directory. -/
def LessonB.files (l : LessonB α) : List Path :=
  ([lessonFile] :: l.assets.map (·.name)) ++ l.exercises.flatMap (fun e => e.files.map (e.dir :: ·))

/-- The files of a course, from its directory. -/
def CourseB.files (c : CourseB α γ) : List Path :=
  ([courseFile] :: c.assets.map (·.name)) ++ c.lessons.flatMap (fun l => l.files.map (l.dir :: ·))

/-- What building a course in a new directory needs: the manifests can be made, and no file is in the way of another. -/
structure Buildable (c : CourseB α γ) : Prop where
  manifests : ∀ l ∈ c.lessons, l.manifest ≠ none ∧ ∀ e ∈ l.exercises, e.manifest ≠ none
  apart : c.files.Pairwise Apart

/-! ### Proofs -/

theorem Apart.symm {p q : Path} (h : Apart p q) : Apart q p := ⟨h.2, h.1⟩

/-- The paths that steps write to. -/
def pathsOf (ss : List (Step α γ)) : List Path := ss.filterMap (fun s => s.wrote.map Prod.fst)

theorem run1_succeeds {fs : FS α γ} {s : Step α γ} {p : Path} {x : Entry α γ} (hw : s.wrote = some (p, x))
    (h : ∀ k ∈ fs.keys, Apart k p) : run1 fs s = (fs.put p x, true) := by
  have h1 : blocked fs p = false := by
    unfold blocked
    rw [List.any_eq_false]
    intro e he hh
    rw [Bool.and_eq_true, List.isPrefixOf_iff_prefix] at hh
    exact (h e.1 (List.mem_map.2 ⟨e, he, rfl⟩)).1 hh.1
  have h2 : isDir fs p = false := by
    unfold isDir
    rw [List.any_eq_false]
    intro e he hh
    rw [Bool.and_eq_true, List.isPrefixOf_iff_prefix] at hh
    exact (h e.1 (List.mem_map.2 ⟨e, he, rfl⟩)).2 hh.1
  have h3 : pathExists fs p = false := by
    unfold pathExists
    rw [List.any_eq_false]
    intro e he hh
    rw [List.isPrefixOf_iff_prefix] at hh
    exact (h e.1 (List.mem_map.2 ⟨e, he, rfl⟩)).2 hh
  cases s with
  | manifest q e => injection hw with hw; injection hw with e1 e2; subst e1 e2; unfold run1; simp [h1, h2]
  | asset q t => injection hw with hw; injection hw with e1 e2; subst e1 e2; unfold run1; simp [h1, h3]
  | fail => cases hw

theorem run_succeeds {ss : List (Step α γ)} {fs : FS α γ} (hf : Step.fail ∉ ss) (hp : (pathsOf ss).Pairwise Apart)
    (hk : ∀ k ∈ fs.keys, ∀ p ∈ pathsOf ss, Apart k p) : ∃ fs', run fs ss = (fs', true) := by
  induction ss generalizing fs with
  | nil => exact ⟨fs, rfl⟩
  | cons s ss ih =>
    obtain ⟨p, x, hw⟩ : ∃ p x, s.wrote = some (p, x) := by
      cases s with
      | manifest p e => exact ⟨_, _, rfl⟩
      | asset p t => exact ⟨_, _, rfl⟩
      | fail => exact (hf List.mem_cons_self).elim
    have e : pathsOf (s :: ss) = p :: pathsOf ss := by unfold pathsOf; rw [List.filterMap_cons, hw]; rfl
    rw [e, List.pairwise_cons] at hp
    rw [e] at hk
    have h1 := run1_succeeds hw (fun k hkk => hk k hkk p List.mem_cons_self)
    obtain ⟨fs', h2⟩ := ih (fs := fs.put p x) (fun h => hf (List.mem_cons_of_mem _ h)) hp.2 (by
      intro k hkk q hq
      rcases (AMap.mem_keys_put _ _ _ _).1 hkk with rfl | hkk
      · exact hp.1 q hq
      · exact hk k hkk q (List.mem_cons_of_mem _ hq))
    exact ⟨fs', by unfold run; rw [h1]; exact h2⟩

theorem paths_append (a b : List (Step α γ)) : pathsOf (a ++ b) = pathsOf a ++ pathsOf b := List.filterMap_append ..

theorem paths_assets (d : Path) (as : List Asset) :
    pathsOf (as.map (fun a => (Step.asset (d ++ a.name) a.contents : Step α γ))) =
      (as.map (·.name)).map (d ++ ·) := by
  unfold pathsOf
  rw [List.filterMap_map]
  induction as with
  | nil => rfl
  | cons a as ih => rw [List.filterMap_cons, ih]; rfl

theorem paths_flatMap {A : Type} (xs : List A) (f : A → List (Step α γ)) :
    pathsOf (xs.flatMap f) = xs.flatMap (fun x => pathsOf (f x)) := by
  induction xs with
  | nil => rfl
  | cons x xs ih => rw [List.flatMap_cons, List.flatMap_cons, paths_append, ih]

theorem flatMap_congr' {A B : Type} {xs : List A} {f g : A → List B} (h : ∀ x ∈ xs, f x = g x) :
    xs.flatMap f = xs.flatMap g := by
  induction xs with
  | nil => rfl
  | cons x xs ih =>
    rw [List.flatMap_cons, List.flatMap_cons, h x List.mem_cons_self, ih (fun x hx => h x (List.mem_cons_of_mem _ hx))]

theorem paths_exercise (d : Path) (e : ExerciseB α) (h : e.manifest ≠ none) :
    pathsOf (exerciseSteps d e : List (Step α γ)) = e.files.map (d ++ ·) ∧ Step.fail ∉ (exerciseSteps d e : List (Step α γ)) := by
  unfold exerciseSteps
  cases hm : e.manifest with
  | none => exact (h hm).elim
  | some m =>
    refine ⟨?_, by simp⟩
    dsimp only
    rw [show ∀ (a : Step α γ) (b : List (Step α γ)), pathsOf (a :: b) = pathsOf [a] ++ pathsOf b from
      fun a b => paths_append [a] b, paths_assets]
    rfl

theorem paths_lesson (d : Path) (l : LessonB α) (h : l.manifest ≠ none ∧ ∀ e ∈ l.exercises, e.manifest ≠ none) :
    pathsOf (lessonSteps d l : List (Step α γ)) = l.files.map (d ++ ·) ∧ Step.fail ∉ (lessonSteps d l : List (Step α γ)) := by
  unfold lessonSteps
  cases hm : l.manifest with
  | none => exact (h.1 hm).elim
  | some m =>
    refine ⟨?_, ?_⟩
    · dsimp only
      rw [show ∀ (a : Step α γ) (b : List (Step α γ)), pathsOf (a :: b) = pathsOf [a] ++ pathsOf b from
        fun a b => paths_append [a] b, paths_append, paths_assets, paths_flatMap]
      unfold LessonB.files
      rw [List.map_append, List.map_cons, List.cons_append]
      refine congrArg₂ List.cons rfl (congrArg₂ (· ++ ·) rfl ?_)
      rw [List.map_flatMap]
      refine flatMap_congr' (fun e he => ?_)
      rw [(paths_exercise _ e (h.2 e he)).1, List.map_map]
      refine List.map_congr_left (fun q _ => ?_)
      simp
    · simp only [List.mem_cons, reduceCtorEq, List.mem_append, List.mem_map, and_false, exists_false,
        List.mem_flatMap, false_or, not_exists, not_and]
      intro e he
      exact (paths_exercise _ e (h.2 e he)).2

theorem paths_course (parent : Path) (c : CourseB α γ) (h : ∀ l ∈ c.lessons, l.manifest ≠ none ∧ ∀ e ∈ l.exercises,
    e.manifest ≠ none) : pathsOf (courseSteps parent c) = c.files.map (c.root parent ++ ·) ∧
      Step.fail ∉ courseSteps parent c := by
  unfold courseSteps
  refine ⟨?_, ?_⟩
  · rw [show ∀ (a : Step α γ) (b : List (Step α γ)), pathsOf (a :: b) = pathsOf [a] ++ pathsOf b from
      fun a b => paths_append [a] b, paths_append, paths_assets, paths_flatMap]
    unfold CourseB.files
    rw [List.map_append, List.map_cons, List.cons_append]
    refine congrArg₂ List.cons rfl (congrArg₂ (· ++ ·) rfl ?_)
    rw [List.map_flatMap]
    refine flatMap_congr' (fun l hl => ?_)
    rw [(paths_lesson _ l (h l hl)).1, List.map_map]
    refine List.map_congr_left (fun q _ => ?_)
    simp [CourseB.root]
  · simp only [List.mem_cons, reduceCtorEq, List.mem_append, List.mem_map, and_false, exists_false,
      List.mem_flatMap, false_or, not_exists, not_and]
    intro l hl
    exact (paths_lesson _ l (h l hl)).2

theorem apart_append {r p q : Path} (h : Apart p q) : Apart (r ++ p) (r ++ q) := by
  unfold Apart at *
  rw [List.prefix_append_right_inj, List.prefix_append_right_inj]
  exact h

/-- **C97, building a course**: it succeeds in a directory in which there is nothing, if the manifests can be made and
no file of the course is in the way of another. -/
theorem build_succeeds {fs : FS α γ} {parent : Path} {c : CourseB α γ} (hb : Buildable c)
    (hk : ∀ k ∈ fs.keys, Apart k (c.root parent)) : ∃ fs', build fs parent c = (fs', true) := by
  obtain ⟨h1, h2⟩ := paths_course parent c hb.manifests
  refine run_succeeds h2 ?_ ?_
  · rw [h1, List.pairwise_map]
    exact hb.apart.imp apart_append
  · intro k hkk p hp
    rw [h1] at hp
    obtain ⟨q, _, rfl⟩ := List.mem_map.1 hp
    obtain ⟨a, b⟩ := hk k hkk
    constructor
    · intro h
      rcases List.prefix_or_prefix_of_prefix h (List.prefix_append (c.root parent) q) with h | h
      · exact a h
      · exact b h
    · intro h
      exact b ((List.prefix_append _ _).trans h)

theorem build_keys {fs fs' : FS α γ} {parent : Path} {c : CourseB α γ} (h : build fs parent c = (fs', true)) {k : Path}
    (hk : k ∈ fs'.keys) : k ∈ fs.keys ∨ c.root parent <+: k := by
  rw [AMap.mem_keys_iff] at hk ⊢
  obtain ⟨x, hx⟩ := hk
  by_cases hp : c.root parent <+: k
  · exact Or.inr hp
  · left
    have := others_unchanged (fs := fs) hp
    rw [h] at this
    exact ⟨x, by rw [← this]; exact hx⟩

/-- **C97, building courses**: all of them are built if they are in different directories, in which there is nothing. -/
theorem buildAll_succeeds {fs : FS α γ} {parent : Path} {cs : List (CourseB α γ)} (hd : (cs.map (·.dir)).Nodup)
    (hb : ∀ c ∈ cs, Buildable c) (hk : ∀ c ∈ cs, ∀ k ∈ fs.keys, Apart k (c.root parent)) :
    ∃ fs', buildAll parent fs cs = (fs', true) := by
  induction cs generalizing fs with
  | nil => exact ⟨fs, rfl⟩
  | cons c cs ih =>
    rw [List.map_cons, List.nodup_cons] at hd
    obtain ⟨fs1, h1⟩ := build_succeeds (hb c List.mem_cons_self) (hk c List.mem_cons_self)
    obtain ⟨fs', h2⟩ := ih (fs := fs1) hd.2 (fun c hc => hb c (List.mem_cons_of_mem _ hc)) (by
      intro c' hc' k hkk
      rcases build_keys h1 hkk with h | h
      · exact hk c' (List.mem_cons_of_mem _ hc') k h
      · have hne : c.dir ≠ c'.dir := fun e => hd.1 (List.mem_map.2 ⟨c', hc', e.symm⟩)
        constructor
        · intro hh
          exact hne (root_inj (h.trans hh) List.prefix_rfl)
        · intro hh
          exact hne (root_inj h hh))
    exact ⟨fs', by unfold buildAll; rw [h1]; exact h2⟩

/-! ### Checking that the files are apart -/

theorem apart_of_head {a b : Str} {p q : Path} (h : a ≠ b) : Apart (a :: p) (b :: q) := by
  constructor <;> intro hh
  · exact h (List.cons_prefix_cons.1 hh).1
  · exact h (List.cons_prefix_cons.1 hh).1.symm

theorem pairwise_node {A : Type} {tops : List Str} {xs : List A} {f : A → Str} {g : A → List Path} (ht : tops.Nodup)
    (hx : (xs.map f).Nodup) (htx : ∀ x ∈ xs, f x ∉ tops) (hg : ∀ x ∈ xs, (g x).Pairwise Apart) :
    (tops.map (fun t => [t]) ++ xs.flatMap (fun x => (g x).map (f x :: ·))).Pairwise Apart := by
  rw [List.pairwise_append]
  refine ⟨?_, ?_, ?_⟩
  · rw [List.pairwise_map]
    exact ht.imp (fun h => apart_of_head h)
  · clear htx
    induction xs with
    | nil => exact .nil
    | cons x xs ih =>
      rw [List.map_cons, List.nodup_cons] at hx
      rw [List.flatMap_cons, List.pairwise_append]
      refine ⟨?_, ih hx.2 (fun x h => hg x (List.mem_cons_of_mem _ h)), ?_⟩
      · rw [List.pairwise_map]
        exact (hg x List.mem_cons_self).imp (fun h => apart_append (r := [f x]) h)
      · intro p hp q hq
        obtain ⟨p', _, rfl⟩ := List.mem_map.1 hp
        obtain ⟨y, hy, hq⟩ := List.mem_flatMap.1 hq
        obtain ⟨q', _, rfl⟩ := List.mem_map.1 hq
        exact apart_of_head (fun e => hx.1 (List.mem_map.2 ⟨y, hy, e.symm⟩))
  · intro p hp q hq
    obtain ⟨t, ht, rfl⟩ := List.mem_map.1 hp
    obtain ⟨y, hy, hq⟩ := List.mem_flatMap.1 hq
    obtain ⟨q', _, rfl⟩ := List.mem_map.1 hq
    exact apart_of_head (fun e => htx y hy (e ▸ ht))

end Trane.CourseBuilder
