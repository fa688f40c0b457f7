import Verif.Library.BuilderOpen
import Verif.Library.BuilderAssets
import Verif.Library.Props

/-!
# C97: a library of built courses
-/

namespace Trane.CourseBuilder
open Trane.Store Trane.Library Trane.Graph

variable {α γ : Type}

/-- Builds courses one after the other until one fails, /repo/src/test_utils.rs:512-520. -/
def buildAll (parent : Path) : FS α γ → List (CourseB α γ) → FS α γ × Bool
  | fs, [] => (fs, true)
  | fs, c :: cs => match build fs parent c with
    | (fs', true) => buildAll parent fs' cs
    | (fs', false) => (fs', false)

/-! ### Specification -/

/-- The course that a builder describes. -/
def described (c : CourseB α γ) : Opened α γ where
  manifest := c.manifest
  lessons := c.lessons.filterMap (fun l => l.manifest.map (fun m => (m, l.exercises.filterMap (·.manifest))))

/-- Normalizing keeps what manifests say about other units, and generators. -/
structure KeepsLinks (M : Mentions α γ) : Prop where
  course : ∀ d m, (M.courseAt d m).deps = m.deps ∧ (M.courseAt d m).enc = m.enc ∧ (M.courseAt d m).sup = m.sup ∧
    (M.courseAt d m).gen = m.gen
  lesson : ∀ d m, (M.lessonAt d m).deps = m.deps ∧ (M.lessonAt d m).enc = m.enc ∧ (M.lessonAt d m).sup = m.sup

/-- What the theorems ask of the courses of a library: different directories, no generators, and what they ask of each
course. -/
structure Sound (M : Mentions α γ) (parent : Path) (fs : FS α γ) (cs : List (CourseB α γ)) : Prop where
  dirs : (cs.map (·.dir)).Nodup
  tidy : ∀ c ∈ cs, Tidy c
  consistent : ∀ c ∈ cs, Consistent c
  complete : ∀ c ∈ cs, Complete M fs (c.root parent) c
  plain : ∀ c ∈ cs, c.manifest.gen = none

/-- What the theorems ask of the directory in which the courses are built: there may be files in it, but no course
manifests, and none in the directories of the courses. -/
structure Fresh (parent : Path) (fs : FS α γ) (cs : List (CourseB α γ)) : Prop where
  nodup : fs.keys.Nodup
  courses : ∀ p x, fs.find p = some x → p.getLast? ≠ some courseFile
  below : ∀ c ∈ cs, ∀ p x, fs.find p = some x → ¬ c.root parent <+: p

/-! ### The files -/

theorem root_inj {parent p : Path} {c c' : CourseB α γ} (h : c.root parent <+: p) (h' : c'.root parent <+: p) :
    c.dir = c'.dir := by
  obtain ⟨q, hq⟩ := h
  obtain ⟨q', hq'⟩ := h'
  rw [← hq'] at hq
  simp only [CourseB.root, List.append_assoc, List.append_cancel_left_eq, List.cons_append, List.nil_append,
    List.cons.injEq] at hq
  exact hq.1

theorem buildAll_cons {parent : Path} {fs fs' : FS α γ} {c : CourseB α γ} {cs : List (CourseB α γ)}
    (h : buildAll parent fs (c :: cs) = (fs', true)) :
    ∃ fs1, build fs parent c = (fs1, true) ∧ buildAll parent fs1 cs = (fs', true) := by
  unfold buildAll at h
  split at h
  · rename_i fs1 h1; exact ⟨fs1, h1, h⟩
  · injection h with _ h; cases h

theorem buildAll_others {parent : Path} {fs fs' : FS α γ} {cs : List (CourseB α γ)}
    (h : buildAll parent fs cs = (fs', true)) {p : Path} (hp : ∀ c ∈ cs, ¬ c.root parent <+: p) :
    fs'.find p = fs.find p := by
  induction cs generalizing fs with
  | nil =>
    have : fs = fs' := congrArg Prod.fst h
    rw [this]
  | cons c cs ih =>
    obtain ⟨fs1, h1, h2⟩ := buildAll_cons h
    rw [ih h2 (fun c hc => hp c (List.mem_cons_of_mem _ hc))]
    have := others_unchanged (fs := fs) (hp c List.mem_cons_self)
    rw [h1] at this
    exact this

theorem buildAll_nodup {parent : Path} {fs fs' : FS α γ} {cs : List (CourseB α γ)}
    (h : buildAll parent fs cs = (fs', true)) (hn : fs.keys.Nodup) : fs'.keys.Nodup := by
  induction cs generalizing fs with
  | nil =>
    have : fs = fs' := congrArg Prod.fst h
    rw [← this]; exact hn
  | cons c cs ih =>
    obtain ⟨fs1, h1, h2⟩ := buildAll_cons h
    exact ih h2 (run_nodup h1 hn)

theorem buildAll_stands {parent : Path} {fs fs' : FS α γ} {cs : List (CourseB α γ)}
    (h : buildAll parent fs cs = (fs', true)) (hd : (cs.map (·.dir)).Nodup)
    (hfresh : ∀ c ∈ cs, ∀ p x, fs.find p = some x → ¬ c.root parent <+: p) :
    ∀ c ∈ cs, Stands fs' (c.root parent) c := by
  induction cs generalizing fs with
  | nil => intro c hc; cases hc
  | cons c cs ih =>
    obtain ⟨fs1, h1, h2⟩ := buildAll_cons h
    rw [List.map_cons, List.nodup_cons] at hd
    have hne : ∀ c' ∈ cs, ∀ p, c.root parent <+: p → ¬ c'.root parent <+: p := by
      intro c' hc' p hp hp'
      exact hd.1 (List.mem_map.2 ⟨c', hc', (root_inj hp hp').symm⟩)
    intro c' hc'
    rcases List.mem_cons.1 hc' with rfl | hc'
    · have hs := stands_of_build (hfresh c' List.mem_cons_self) h1
      have heq : ∀ p, c'.root parent <+: p → fs'.find p = fs1.find p :=
        fun p hp => buildAll_others h2 (fun c hc => hne c hc p hp)
      exact ⟨fun p x hp hx => hs.written p x hp (by rw [← heq p hp]; exact hx),
        fun p x hw => by rw [heq p (written_below hw)]; exact hs.found p x hw, hs.manifests⟩
    · refine ih h2 hd.2 ?_ c' hc'
      intro c2 hc2 p x hx hp
      by_cases hpc : c.root parent <+: p
      · exact hne c2 hc2 p hpc hp
      · have := others_unchanged (fs := fs) hpc
        rw [h1] at this
        rw [show fs1.find p = fs.find p from this] at hx
        exact hfresh c2 (List.mem_cons_of_mem _ hc2) p x hx hp

theorem buildAll_below {parent : Path} {fs fs' : FS α γ} {cs : List (CourseB α γ)}
    (h : buildAll parent fs cs = (fs', true)) {p : Path} {x : Entry α γ} (hx : fs'.find p = some x) :
    fs.find p = some x ∨ ∃ c ∈ cs, c.root parent <+: p := by
  by_cases hc : ∃ c ∈ cs, c.root parent <+: p
  · exact Or.inr hc
  · left
    rw [← buildAll_others h (fun c hc' hp => hc ⟨c, hc', hp⟩)]
    exact hx

theorem written_course_only {root : Path} {c : CourseB α γ} (ht : Tidy c) {x : Entry α γ} {p : Path}
    (hlast : p.getLast? = some courseFile) (h : Written root c p x) : p = root ++ [courseFile] := by
  cases h with
  | course => rfl
  | asset a ha => exact (last_ne (ht.assets a ha).1 (ht.assets a ha).2.1 hlast).elim
  | lesson l hl m hm =>
    have e : some lessonFile = some courseFile := by simpa using hlast
    exact absurd e (by decide)
  | lessonAsset l hl a ha =>
    exact (last_ne (ht.lessonAssets l hl a ha).1 (ht.lessonAssets l hl a ha).2.1 hlast).elim
  | exercise l hl e he m hm =>
    have e : some exerciseFile = some courseFile := by simpa using hlast
    exact absurd e (by decide)
  | exerciseAsset l hl e he a ha =>
    exact (last_ne (ht.exerciseAssets l hl e he a ha).1 (ht.exerciseAssets l hl e he a ha).2.1 hlast).elim

/-! ### Opening -/

/-- `o` is the course that `c` describes. -/
def CourseAs (M : Mentions α γ) (parent : Path) (c : CourseB α γ) (o : Opened α γ) : Prop :=
  o.manifest = M.courseAt (c.root parent) c.manifest ∧
    ∃ ls : List (LessonB α), ls.Perm c.lessons ∧ List.Forall₂ (LessonAs M (c.root parent)) ls o.lessons

section
variable {M : Mentions α γ} {parent : Path} {cs : List (CourseB α γ)} {fs fs' : FS α γ} {d : Disk α γ}

theorem courses_open (hM : KeepsIds M) (hL : KeepsLinks M) (hf : Fresh parent fs cs)
    (h : buildAll parent fs cs = (fs', true)) (hs : Sound M parent fs' cs) (hd : Shows M fs' d) :
    ∃ os, openCourses d [] = some os ∧ ∃ cs' : List (CourseB α γ), cs'.Perm cs ∧
      List.Forall₂ (CourseAs M parent) cs' os := by
  have hn' := buildAll_nodup h hf.nodup
  have hst := buildAll_stands h hs.dirs hf.below
  have hperm : (courseFiles d []).Perm (cs.map (fun c => c.root parent ++ [courseFile])) := by
    have hnd : (courseFiles d []).Nodup := ((hd.walk []).symm.nodup (hn'.filter _)).filter _
    have hnd' : (cs.map (fun c => c.root parent ++ [courseFile])).Nodup := by
      have e : cs.map (fun c => c.root parent ++ [courseFile]) =
          (cs.map (·.dir)).map (fun s => parent ++ [s] ++ [courseFile]) := by
        rw [List.map_map]; rfl
      rw [e]
      refine hs.dirs.map ?_
      intro a b hab
      simpa using hab
    rw [List.perm_ext_iff_of_nodup hnd hnd']
    intro p
    unfold courseFiles ignoredPaths
    simp only [List.map_nil, List.any_nil, Bool.not_false, Bool.and_true]
    rw [List.mem_filter, (hd.walk []).mem_iff, List.mem_filter, AMap.mem_keys_iff, List.mem_map]
    simp only [Bool.and_eq_true, decide_eq_true_eq]
    constructor
    · rintro ⟨⟨⟨x, hx⟩, _⟩, _, hlast⟩
      rcases buildAll_below h hx with h0 | ⟨c, hc, hp⟩
      · exact (hf.courses p x h0 hlast).elim
      · exact ⟨c, hc, (written_course_only (hs.tidy c hc) hlast ((hst c hc).written p x hp hx)).symm⟩
    · rintro ⟨c, hc, rfl⟩
      refine ⟨⟨(hst c hc).found _ _ Written.course, by simp⟩, ?_, by simp⟩
      simp [CourseB.root]
  obtain ⟨cs', hcs', hcsp⟩ := List.perm_comp_forall₂ hperm
    (forall₂_of_map (fun c : CourseB α γ => c.root parent ++ [courseFile]) cs)
  have hmem : ∀ c ∈ cs', c ∈ cs := fun c hc => hcsp.mem_iff.1 hc
  have hopen : ∀ c ∈ cs, d.course (c.root parent ++ [courseFile]) = some (M.courseAt (c.root parent) c.manifest) ∧
      ∃ o, processCourse d (c.root parent) (M.courseAt (c.root parent) c.manifest) = some o ∧ CourseAs M parent c o := by
    intro c hc
    obtain ⟨_, h2, found, h3, ls, h4, h5⟩ := opens_of_stands hM hn' (hst c hc) (hs.tidy c hc) (hs.consistent c hc)
      (hs.complete c hc) hd (cm := M.courseAt (c.root parent) c.manifest) (gen := [])
      (Or.inl ⟨by rw [(hL.course _ _).2.2.2, hs.plain c hc], rfl, rfl⟩)
    exact ⟨h2, _, h3, rfl, ls, h4, h5⟩
  have h1 : List.Forall₂ (fun p c => ∃ z, (d.course p).map (fun m => (p.dropLast, m)) = some z ∧
      z = (c.root parent, M.courseAt (c.root parent) c.manifest)) (courseFiles d []) cs' := by
    clear hperm hcsp
    generalize courseFiles d [] = ps at hcs'
    induction hcs' with
    | nil => exact .nil
    | @cons p c ps cs2 hpc _ ih =>
      refine .cons ?_ (ih (fun c hc => hmem c (List.mem_cons_of_mem _ hc)))
      subst hpc
      rw [(hopen c (hmem c List.mem_cons_self)).1]
      exact ⟨_, rfl, by simp⟩
  obtain ⟨zs, hz1, hz2⟩ := mapM_of_forall₂ h1
  have h2 : List.Forall₂ (fun z c => ∃ o, processCourse d z.1 z.2 = some o ∧ CourseAs M parent c o) zs cs' := by
    clear h1 hz1 hcs' hcsp hperm
    induction hz2 with
    | nil => exact .nil
    | @cons c z cs2 zs hcz _ ih =>
      refine .cons ?_ (ih (fun c hc => hmem c (List.mem_cons_of_mem _ hc)))
      subst hcz
      exact (hopen c (hmem c List.mem_cons_self)).2
  obtain ⟨os, ho1, ho2⟩ := mapM_of_forall₂ h2
  refine ⟨os, ?_, cs', hcsp, ho2⟩
  unfold openCourses
  rw [hz1, Option.bind_eq_bind, Option.bind_some]
  exact ho1

/-! ### The conditions -/

theorem acceptable_congr {as bs : List (Opened α γ)} (h1 : (unitIds as).Perm (unitIds bs))
    (h2 : ∀ u ds es ss, Declares as u ds es ss ↔ Declares bs u ds es ss) : Acceptable as ↔ Acceptable bs := by
  have e1 : DeclaresDep as = DeclaresDep bs := by
    funext u v; unfold DeclaresDep; simp only [h2]
  have e2 : DeclaresSup as = DeclaresSup bs := by
    funext u v; unfold DeclaresSup; simp only [h2]
  have e3 : DeclaresEnc as = DeclaresEnc bs := by
    funext u v; unfold DeclaresEnc; simp only [h2]
  constructor
  · rintro ⟨a, b, c, x, y, z⟩
    exact ⟨h1.nodup a, by rw [← e1]; exact b, by simpa only [h2] using c, by rw [← e1]; exact x,
      by rw [← e2]; exact y, by rw [← e3]; exact z⟩
  · rintro ⟨a, b, c, x, y, z⟩
    exact ⟨h1.symm.nodup a, by rw [e1]; exact b, by simpa only [h2] using c, by rw [e1]; exact x,
      by rw [e2]; exact y, by rw [e3]; exact z⟩

/-- The ids of a course and of its lessons and exercises. -/
def idsOf (c : Opened α γ) : List Str := c.manifest.id :: c.lessons.flatMap (fun l => l.1.id :: l.2.map (·.id))

theorem forall₂_flatMap_perm {A B C : Type} {R : A → B → Prop} {f : A → List C} {g : B → List C} {as : List A}
    {bs : List B} (h : List.Forall₂ R as bs) (hR : ∀ a b, R a b → (f a).Perm (g b)) :
    (as.flatMap f).Perm (bs.flatMap g) := by
  induction h with
  | nil => exact .refl _
  | cons hab _ ih => rw [List.flatMap_cons, List.flatMap_cons]; exact (hR _ _ hab).append ih

theorem forall₂_mem_left {A B : Type} {R : A → B → Prop} {as : List A} {bs : List B} (h : List.Forall₂ R as bs)
    {a : A} (ha : a ∈ as) : ∃ b ∈ bs, R a b := by
  induction h with
  | nil => cases ha
  | cons hab _ ih =>
    rcases List.mem_cons.1 ha with rfl | ha
    · exact ⟨_, List.mem_cons_self, hab⟩
    · obtain ⟨b, hb, hr⟩ := ih ha
      exact ⟨b, List.mem_cons_of_mem _ hb, hr⟩

theorem forall₂_mem_right {A B : Type} {R : A → B → Prop} {as : List A} {bs : List B} (h : List.Forall₂ R as bs)
    {b : B} (hb : b ∈ bs) : ∃ a ∈ as, R a b := by
  induction h with
  | nil => cases hb
  | cons hab _ ih =>
    rcases List.mem_cons.1 hb with rfl | hb
    · exact ⟨_, List.mem_cons_self, hab⟩
    · obtain ⟨a, ha, hr⟩ := ih hb
      exact ⟨a, List.mem_cons_of_mem _ ha, hr⟩

theorem ids_perm (hM : KeepsIds M) {c : CourseB α γ} {o : Opened α γ} (h : CourseAs M parent c o) :
    (idsOf o).Perm (idsOf (described c)) := by
  obtain ⟨h1, ls, hp, hl⟩ := h
  have key : (o.lessons.flatMap (fun l => l.1.id :: l.2.map (·.id))).Perm
      (c.lessons.flatMap (fun l => match l.manifest with
        | none => []
        | some m => m.id :: (l.exercises.filterMap (·.manifest)).map (·.id))) := by
    refine (forall₂_flatMap_perm hl ?_).symm.trans (List.Perm.flatMap_right _ hp)
    rintro l y ⟨m, hm, hy, es, hes, he⟩
    rw [hm, hy, (hM.lesson _ _).1]
    refine List.Perm.cons _ ?_
    refine (((hes.filterMap (·.manifest)).map (·.id)).symm).trans ?_
    have : (es.filterMap (·.manifest)).map (·.id) = y.2.map (·.id) := by
      clear hes
      generalize y.2 = ys at he
      induction he with
      | nil => rfl
      | cons hab _ ih =>
        obtain ⟨x, hx, rfl⟩ := hab
        rw [List.filterMap_cons, hx, List.map_cons, List.map_cons, ih, (hM.exercise _ _).1]
    rw [this]
  have e : (described c).lessons.flatMap (fun l => l.1.id :: l.2.map (·.id)) =
      c.lessons.flatMap (fun l => match l.manifest with
        | none => []
        | some m => m.id :: (l.exercises.filterMap (·.manifest)).map (·.id)) := by
    unfold described
    dsimp only
    generalize c.lessons = xs
    induction xs with
    | nil => rfl
    | cons l xs ih =>
      rw [List.filterMap_cons, List.flatMap_cons, ← ih]
      cases l.manifest <;> rfl
  unfold idsOf
  rw [e, h1, hM.course]
  exact List.Perm.cons _ key

theorem mem_described {c : CourseB α γ} {y : LessonM α × List (ExerciseM α)} :
    y ∈ (described c).lessons ↔ ∃ l ∈ c.lessons, l.manifest = some y.1 ∧ y.2 = l.exercises.filterMap (·.manifest) := by
  unfold described
  simp only [List.mem_filterMap, Option.map_eq_some_iff]
  constructor
  · rintro ⟨l, hl, m, hm, rfl⟩; exact ⟨l, hl, hm, rfl⟩
  · rintro ⟨l, hl, hm, he⟩; exact ⟨l, hl, y.1, hm, by rw [← he]⟩

theorem declares_described (hM : KeepsIds M) (hL : KeepsLinks M) {cs' : List (CourseB α γ)} {os : List (Opened α γ)}
    (h : List.Forall₂ (CourseAs M parent) cs' os) (hp : cs'.Perm cs) (u : Str) (ds : List Str) (es : List (Str × ℚ))
    (ss : List Str) : Declares os u ds es ss ↔ Declares (cs.map described) u ds es ss := by
  constructor
  · rintro (⟨m, ⟨o, ho, rfl⟩, h1, h2, h3, h4⟩ | ⟨m, ⟨o, ho, y, hy, rfl⟩, h1, h2, h3, h4⟩)
    · obtain ⟨c, hc, hco⟩ := forall₂_mem_right h ho
      rw [hco.1] at h1 h2 h3 h4
      obtain ⟨k1, k2, k3, _⟩ := hL.course (c.root parent) c.manifest
      exact Or.inl ⟨c.manifest, ⟨described c, List.mem_map.2 ⟨c, hp.mem_iff.1 hc, rfl⟩, rfl⟩, by rw [← h1, hM.course],
        by rw [← h2, k1], by rw [← h3, k2], by rw [← h4, k3]⟩
    · obtain ⟨c, hc, _, ls, hls, hl⟩ := forall₂_mem_right h ho
      obtain ⟨l, hl', m, hm, hy1, _⟩ := forall₂_mem_right hl hy
      rw [hy1] at h1 h2 h3 h4
      obtain ⟨k1, k2, k3⟩ := hL.lesson (c.root parent ++ [l.dir]) m
      refine Or.inr ⟨m, ⟨described c, List.mem_map.2 ⟨c, hp.mem_iff.1 hc, rfl⟩, (m, l.exercises.filterMap (·.manifest)),
        mem_described.2 ⟨l, hls.mem_iff.1 hl', hm, rfl⟩, rfl⟩, by rw [← h1, (hM.lesson _ _).1], by rw [← h2, k1],
        by rw [← h3, k2], by rw [← h4, k3]⟩
  · rintro (⟨m, ⟨o, ho, rfl⟩, h1, h2, h3, h4⟩ | ⟨m, ⟨o, ho, y, hy, rfl⟩, h1, h2, h3, h4⟩)
    · obtain ⟨c, hc, rfl⟩ := List.mem_map.1 ho
      obtain ⟨o, ho, hco⟩ := forall₂_mem_left h (hp.mem_iff.2 hc)
      obtain ⟨k1, k2, k3, _⟩ := hL.course (c.root parent) c.manifest
      refine Or.inl ⟨o.manifest, ⟨o, ho, rfl⟩, ?_, ?_, ?_, ?_⟩ <;> rw [hco.1]
      · rw [hM.course]; exact h1
      · rw [k1]; exact h2
      · rw [k2]; exact h3
      · rw [k3]; exact h4
    · obtain ⟨c, hc, rfl⟩ := List.mem_map.1 ho
      obtain ⟨l, hl, hm, _⟩ := mem_described.1 hy
      obtain ⟨o, ho, _, ls, hls, hlo⟩ := forall₂_mem_left h (hp.mem_iff.2 hc)
      obtain ⟨z, hz, m, hm', hz1, _⟩ := forall₂_mem_left hlo (hls.mem_iff.2 hl)
      rw [hm] at hm'
      injection hm' with hm'
      subst hm'
      obtain ⟨k1, k2, k3⟩ := hL.lesson (c.root parent ++ [l.dir]) y.1
      refine Or.inr ⟨z.1, ⟨o, ho, z, hz, rfl⟩, ?_, ?_, ?_, ?_⟩ <;> rw [hz1]
      · rw [(hM.lesson _ _).1]; exact h1
      · rw [k1]; exact h2
      · rw [k2]; exact h3
      · rw [k3]; exact h4

theorem acceptable_described (hM : KeepsIds M) (hL : KeepsLinks M) {cs' : List (CourseB α γ)} {os : List (Opened α γ)}
    (h : List.Forall₂ (CourseAs M parent) cs' os) (hp : cs'.Perm cs) :
    Acceptable os ↔ Acceptable (cs.map described) := by
  refine acceptable_congr ?_ (declares_described hM hL h hp)
  show (os.flatMap idsOf).Perm ((cs.map described).flatMap idsOf)
  rw [List.flatMap_map]
  exact (forall₂_flatMap_perm h (fun c o hco => (ids_perm hM hco).symm)).symm.trans (List.Perm.flatMap_right _ hp)

/-- **C97, opening**: a library of built courses opens exactly when the manifests that the builders describe form a
library: no id is used twice, no unit depends on itself, the weights are between 0 and 1, and there are no cycles. -/
theorem built_library_opens (hM : KeepsIds M) (hL : KeepsLinks M) (hf : Fresh parent fs cs)
    (h : buildAll parent fs cs = (fs', true)) (hs : Sound M parent fs' cs) (hd : Shows M fs' d)
    (hg : GeneratesProper d) (o : KeyOrder Str) (ho : o.Valid) :
    ∃ N, ∀ fuel, N ≤ fuel → ∃ r, openLibrary o fuel d [] = some r ∧
      (r.isSome = true ↔ Acceptable (cs.map described)) := by
  obtain ⟨os, h1, cs', hp, h2⟩ := courses_open hM hL hf h hs hd
  obtain ⟨N, hN⟩ := open_succeeds_iff d [] hg o ho
  refine ⟨N, fun fuel hfu => ?_⟩
  obtain ⟨r, hr, hiff⟩ := hN fuel hfu
  refine ⟨r, hr, hiff.trans ?_⟩
  obtain ⟨e1, e2⟩ := (openCourses_exact d [] os).1 h1
  constructor
  · rintro ⟨k1, os', k2, k3⟩
    have := (openCourses_exact d [] os').2 ⟨k1, k2⟩
    rw [h1] at this
    injection this with this
    subst this
    exact (acceptable_described hM hL h2 hp).1 k3
  · intro k
    exact ⟨e1, os, e2, (acceptable_described hM hL h2 hp).2 k⟩

/-- **C97, manifests**: the opened library has the manifests that the builders describe, and no others. -/
theorem built_library_serves (hM : KeepsIds M) (hL : KeepsLinks M) (hf : Fresh parent fs cs)
    (h : buildAll parent fs cs = (fs', true)) (hs : Sound M parent fs' cs) (hd : Shows M fs' d)
    (hg : GeneratesProper d) {lib : Lib α γ} (hl : Loads d [] lib) (u : Str) :
    (∀ m, lib.getCourseManifest u = some m ↔ ∃ c ∈ cs, c.manifest.id = u ∧ m = M.courseAt (c.root parent) c.manifest) ∧
    (∀ m, lib.getLessonManifest u = some m ↔ ∃ c ∈ cs, ∃ l ∈ c.lessons, ∃ x, l.manifest = some x ∧ x.id = u ∧
      m = M.lessonAt (c.root parent ++ [l.dir]) x) ∧
    (∀ m, lib.getExerciseManifest u = some m ↔ ∃ c ∈ cs, ∃ l ∈ c.lessons, ∃ e ∈ l.exercises, ∃ x,
      e.manifest = some x ∧ x.id = u ∧ m = M.exerciseAt (c.root parent ++ [l.dir] ++ [e.dir]) x) := by
  obtain ⟨os, h1, cs', hp, h2⟩ := courses_open hM hL hf h hs hd
  obtain ⟨e1, e2⟩ := (openCourses_exact d [] os).1 h1
  obtain ⟨c1, c2, c3⟩ := opened_contents d [] os e2
  obtain ⟨k1, k2, k3⟩ := library_manifests hg hl u
  refine ⟨fun m => ?_, fun m => ?_, fun m => ?_⟩
  · rw [k1, ← c1]
    constructor
    · rintro ⟨⟨o, ho, rfl⟩, hu⟩
      obtain ⟨c, hc, hco⟩ := forall₂_mem_right h2 ho
      exact ⟨c, hp.mem_iff.1 hc, by rw [← hu, hco.1, hM.course], hco.1⟩
    · rintro ⟨c, hc, hu, rfl⟩
      obtain ⟨o, ho, hco⟩ := forall₂_mem_left h2 (hp.mem_iff.2 hc)
      exact ⟨⟨o, ho, hco.1⟩, by rw [hM.course, hu]⟩
  · rw [k2, ← c2]
    constructor
    · rintro ⟨⟨o, ho, y, hy, rfl⟩, hu⟩
      obtain ⟨c, hc, _, ls, hls, hlo⟩ := forall₂_mem_right h2 ho
      obtain ⟨l, hl, x, hx, hy1, _⟩ := forall₂_mem_right hlo hy
      exact ⟨c, hp.mem_iff.1 hc, l, hls.mem_iff.1 hl, x, hx, by rw [← hu, hy1, (hM.lesson _ _).1], hy1⟩
    · rintro ⟨c, hc, l, hl, x, hx, hu, rfl⟩
      obtain ⟨o, ho, _, ls, hls, hlo⟩ := forall₂_mem_left h2 (hp.mem_iff.2 hc)
      obtain ⟨y, hy, x', hx', hy1, _⟩ := forall₂_mem_left hlo (hls.mem_iff.2 hl)
      rw [hx] at hx'
      injection hx' with hx'
      subst hx'
      exact ⟨⟨o, ho, y, hy, hy1⟩, by rw [(hM.lesson _ _).1, hu]⟩
  · rw [k3, ← c3]
    constructor
    · rintro ⟨⟨o, ho, y, hy, hm⟩, hu⟩
      obtain ⟨c, hc, _, ls, hls, hlo⟩ := forall₂_mem_right h2 ho
      obtain ⟨l, hl, x, hx, _, es, hes, heo⟩ := forall₂_mem_right hlo hy
      obtain ⟨e, he, x, hx, rfl⟩ := forall₂_mem_right heo hm
      exact ⟨c, hp.mem_iff.1 hc, l, hls.mem_iff.1 hl, e, hes.mem_iff.1 he, x, hx,
        by rw [← hu, (hM.exercise _ _).1], rfl⟩
    · rintro ⟨c, hc, l, hl, e, he, x, hx, hu, rfl⟩
      obtain ⟨o, ho, _, ls, hls, hlo⟩ := forall₂_mem_left h2 (hp.mem_iff.2 hc)
      obtain ⟨y, hy, _, _, _, es, hes, heo⟩ := forall₂_mem_left hlo (hls.mem_iff.2 hl)
      obtain ⟨z, hz, x', hx', rfl⟩ := forall₂_mem_left heo (hes.mem_iff.2 he)
      rw [hx] at hx'
      injection hx' with hx'
      subst hx'
      exact ⟨⟨o, ho, y, hy, hz⟩, by rw [(hM.exercise _ _).1, hu]⟩

end

end Trane.CourseBuilder
