import Verif.Library.BuilderOpen

/-!
# C74: assets, rebuilding, and what the builders do not check
-/

namespace Trane.CourseBuilder
open Trane.Store Trane.Library

variable {α γ : Type}

/-- The assets of a course with their paths. -/
inductive AssetOf (root : Path) (c : CourseB α γ) : Path → Str → Prop
  | course (a : Asset) (h : a ∈ c.assets) : AssetOf root c (root ++ a.name) a.contents
  | lesson (l : LessonB α) (h : l ∈ c.lessons) (a : Asset) (ha : a ∈ l.assets) :
      AssetOf root c (root ++ [l.dir] ++ a.name) a.contents
  | exercise (l : LessonB α) (h : l ∈ c.lessons) (e : ExerciseB α) (he : e ∈ l.exercises) (a : Asset)
      (ha : a ∈ e.assets) : AssetOf root c (root ++ [l.dir] ++ [e.dir] ++ a.name) a.contents

theorem pathExists_iff {fs : FS α γ} {p : Path} :
    pathExists fs p = true ↔ ∃ q ∈ fs.keys, p <+: q := by
  unfold pathExists AMap.keys
  rw [List.any_eq_true]
  constructor
  · rintro ⟨e, he, h⟩
    exact ⟨e.1, List.mem_map.2 ⟨e, he, rfl⟩, List.isPrefixOf_iff_prefix.1 h⟩
  · rintro ⟨q, hq, h⟩
    obtain ⟨e, he, rfl⟩ := List.mem_map.1 hq
    exact ⟨e, he, List.isPrefixOf_iff_prefix.2 h⟩

theorem pathExists_put {fs : FS α γ} {p q : Path} {x : Entry α γ} (h : pathExists fs p = true) :
    pathExists (fs.put q x) p = true := by
  rw [pathExists_iff] at h ⊢
  obtain ⟨r, hr, hp⟩ := h
  exact ⟨r, (AMap.mem_keys_put _ _ _ _).2 (Or.inr hr), hp⟩

theorem run_asset {fs fs' : FS α γ} {ss : List (Step α γ)} (h : run fs ss = (fs', true)) {p : Path}
    {t : Str} (hs : Step.asset p t ∈ ss) : pathExists fs p = false := by
  induction ss generalizing fs with
  | nil => cases hs
  | cons s ss ih =>
    obtain ⟨q, x, hw, h1, h2⟩ := run_cons_ok h
    rcases List.mem_cons.1 hs with rfl | hs
    · unfold run1 at h1
      dsimp only at h1
      split at h1
      · injection h1 with _ h1; cases h1
      · rename_i hc
        simp only [Bool.or_eq_true, not_or, Bool.not_eq_true] at hc
        exact hc.1
    · have := ih h2 hs
      by_contra hc
      rw [Bool.not_eq_false] at hc
      rw [pathExists_put hc] at this
      cases this

theorem run_keep {fs fs' : FS α γ} {ss : List (Step α γ)} (h : run fs ss = (fs', true)) {p : Path}
    {x : Entry α γ} (hf : fs.find p = some x) (hm : ∀ e, Step.manifest p e ∉ ss) :
    fs'.find p = some x := by
  induction ss generalizing fs with
  | nil =>
    have : fs = fs' := congrArg Prod.fst h
    subst this
    exact hf
  | cons s ss ih =>
    obtain ⟨q, y, hw, h1, h2⟩ := run_cons_ok h
    refine ih h2 ?_ (fun e he => hm e (List.mem_cons_of_mem _ he))
    have hne : q ≠ p := by
      rintro rfl
      cases s with
      | manifest q' e =>
        injection hw with hw
        injection hw with h3 _
        subst h3
        exact hm e List.mem_cons_self
      | asset q' t =>
        injection hw with hw
        injection hw with h3 _
        subst h3
        have hp := run_asset h (t := t) List.mem_cons_self
        have : pathExists fs q' = true :=
          pathExists_iff.2 ⟨q', (AMap.mem_keys_iff _ _).2 ⟨_, hf⟩, List.prefix_rfl⟩
        rw [this] at hp
        cases hp
      | fail => cases hw
    rw [AMap.find_put_ne _ _ hne]
    exact hf

theorem run_asset_find {fs fs' : FS α γ} {ss : List (Step α γ)} (h : run fs ss = (fs', true)) {p : Path}
    {t : Str} (hs : Step.asset p t ∈ ss) (hm : ∀ e, Step.manifest p e ∉ ss) :
    fs'.find p = some (.text t) := by
  induction ss generalizing fs with
  | nil => cases hs
  | cons s ss ih =>
    obtain ⟨q, x, hw, h1, h2⟩ := run_cons_ok h
    rcases List.mem_cons.1 hs with rfl | hs
    · injection hw with hw
      injection hw with h3 h4
      subst h3 h4
      exact run_keep h2 (AMap.find_put_self _ _ _) (fun e he => hm e (List.mem_cons_of_mem _ he))
    · exact ih h2 hs (fun e he => hm e (List.mem_cons_of_mem _ he))

theorem asset_step {parent : Path} {c : CourseB α γ} {fs fs' : FS α γ}
    (h : build fs parent c = (fs', true)) {p : Path} {t : Str} (ha : AssetOf (c.root parent) c p t) :
    Step.asset p t ∈ courseSteps parent c := by
  have hsub : ∀ l ∈ c.lessons, ∀ s ∈ (lessonSteps (parent ++ [c.dir] ++ [l.dir]) l : List (Step α γ)),
      s ∈ courseSteps parent c := by
    intro l hl s hs
    unfold courseSteps
    exact List.mem_cons_of_mem _ (List.mem_append_right _ (List.mem_flatMap.2 ⟨l, hl, hs⟩))
  cases ha with
  | course a ha =>
    exact List.mem_cons_of_mem _ (List.mem_append_left _ (List.mem_map.2 ⟨a, ha, rfl⟩))
  | lesson l hl a ha =>
    obtain ⟨m, hm, _⟩ := manifest_lesson h hl
    refine hsub l hl _ ?_
    unfold lessonSteps
    rw [hm]
    exact List.mem_cons_of_mem _ (List.mem_append_left _ (List.mem_map.2 ⟨a, ha, rfl⟩))
  | exercise l hl e he a ha =>
    obtain ⟨m, hm, hx⟩ := manifest_lesson h hl
    obtain ⟨x, hx⟩ := hx e he
    refine hsub l hl _ ?_
    unfold lessonSteps
    rw [hm]
    refine List.mem_cons_of_mem _ (List.mem_append_right _ (List.mem_flatMap.2 ⟨e, he, ?_⟩))
    unfold exerciseSteps
    rw [hx]
    exact List.mem_cons_of_mem _ (List.mem_map.2 ⟨a, ha, rfl⟩)

/-- **C74, assets replace nothing**: after a successful build, nothing was at the path of any asset
before. -/
theorem asset_replaces_nothing {parent : Path} {c : CourseB α γ} {fs fs' : FS α γ}
    (h : build fs parent c = (fs', true)) {p : Path} {t : Str} (ha : AssetOf (c.root parent) c p t)
    {q : Path} {x : Entry α γ} (hq : fs.find q = some x) : ¬ p <+: q := by
  intro hpq
  have h1 := run_asset h (asset_step h ha)
  rw [pathExists_iff.2 ⟨q, (AMap.mem_keys_iff _ _).2 ⟨_, hq⟩, hpq⟩] at h1
  cases h1

/-- **C74, assets**: after a successful build every asset file has its contents. -/
theorem asset_written {parent : Path} {c : CourseB α γ} {fs fs' : FS α γ}
    (h : build fs parent c = (fs', true)) (ht : Tidy c) {p : Path} {t : Str}
    (ha : AssetOf (c.root parent) c p t) : fs'.find p = some (.text t) := by
  refine run_asset_find h (asset_step h ha) (fun e he => ?_)
  have hw := written_of_step he rfl
  have hlast : p.getLast? ≠ some courseFile ∧ p.getLast? ≠ some lessonFile ∧
      p.getLast? ≠ some exerciseFile := by
    cases ha with
    | course a ha =>
      have := ht.assets a ha
      exact ⟨last_ne this.1 this.2.1, last_ne this.1 this.2.2.1, last_ne this.1 this.2.2.2⟩
    | lesson l hl a ha =>
      have := ht.lessonAssets l hl a ha
      exact ⟨last_ne this.1 this.2.1, last_ne this.1 this.2.2.1, last_ne this.1 this.2.2.2⟩
    | exercise l hl x hx a ha =>
      have := ht.exerciseAssets l hl x hx a ha
      exact ⟨last_ne this.1 this.2.1, last_ne this.1 this.2.2.1, last_ne this.1 this.2.2.2⟩
  have hnt : ∀ t, e ≠ .text t := by
    rintro t rfl
    unfold courseSteps at he
    rcases List.mem_cons.1 he with he | he
    · injection he with _ he; cases he
    rcases List.mem_append.1 he with he | he
    · obtain ⟨_, _, he⟩ := List.mem_map.1 he; cases he
    obtain ⟨l, _, he⟩ := List.mem_flatMap.1 he
    unfold lessonSteps at he
    split at he
    · cases List.mem_singleton.1 he
    rcases List.mem_cons.1 he with he | he
    · injection he with _ he; cases he
    rcases List.mem_append.1 he with he | he
    · obtain ⟨_, _, he⟩ := List.mem_map.1 he; cases he
    obtain ⟨x, _, he⟩ := List.mem_flatMap.1 he
    unfold exerciseSteps at he
    split at he
    · cases List.mem_singleton.1 he
    rcases List.mem_cons.1 he with he | he
    · injection he with _ he; cases he
    · obtain ⟨_, _, he⟩ := List.mem_map.1 he; cases he
  generalize p = p' at hw hlast
  cases hw with
  | course => exact hlast.1 (by simp)
  | lesson => exact hlast.2.1 (by simp)
  | exercise => exact hlast.2.2 (by simp)
  | asset a => exact hnt _ rfl
  | lessonAsset a => exact hnt _ rfl
  | exerciseAsset a => exact hnt _ rfl

/-- **C74, rebuilding**: a course with an asset cannot be built again over itself. -/
theorem rebuild_fails {parent : Path} {c : CourseB α γ} {fs fs' : FS α γ}
    (h : build fs parent c = (fs', true)) {p : Path} {t : Str} (ha : AssetOf (c.root parent) c p t) :
    (build fs' parent c).2 = false := by
  cases hb : (build fs' parent c).2 with
  | false => rfl
  | true =>
    have h2 : build fs' parent c = ((build fs' parent c).1, true) := Prod.ext rfl hb
    obtain ⟨x, hx⟩ := run_find h (Or.inl ⟨_, asset_step h ha, _, rfl⟩)
    exact (asset_replaces_nothing h2 ha hx List.prefix_rfl).elim

/-- A file mentioned in a manifest exists if it is one of the assets next to it. -/
theorem asset_exists {parent : Path} {c : CourseB α γ} {fs fs' : FS α γ}
    (h : build fs parent c = (fs', true)) {p : Path} {t : Str} (ha : AssetOf (c.root parent) c p t) :
    pathExists fs' p = true := by
  obtain ⟨x, hx⟩ := run_find h (Or.inl ⟨_, asset_step h ha, _, rfl⟩)
  exact pathExists_iff.2 ⟨p, (AMap.mem_keys_iff _ _).2 ⟨_, hx⟩, List.prefix_rfl⟩

end Trane.CourseBuilder
