import Verif.Library.BuilderProps
import Verif.Library.DiskLemmas

/-!
# C74: a built course is opened as it was described
-/

namespace Trane.CourseBuilder
open Trane.Store Trane.Library

variable {α γ : Type}

/-! ### Which files are manifests -/

theorem last_ne {root : Path} {a : Asset} {n : Str} (hne : a.name ≠ [])
    (h : a.name.getLast? ≠ some n) : (root ++ a.name).getLast? ≠ some n := by
  rw [List.getLast?_append]
  cases hl : a.name.getLast? with
  | none => exact (hne (List.getLast?_eq_none_iff.1 hl)).elim
  | some x => rw [hl] at h; simpa using h

theorem written_course {root : Path} {c : CourseB α γ} (ht : Tidy c) {x : Entry α γ} {p : Path}
    (hp : p = root ++ [courseFile]) (h : Written root c p x) : x = .course c.manifest := by
  have hlast : p.getLast? = some courseFile := by rw [hp]; simp
  have hlen : p.length = root.length + 1 := by rw [hp]; simp
  cases h with
  | course => rfl
  | asset a ha => exact (last_ne (ht.assets a ha).1 (ht.assets a ha).2.1 hlast).elim
  | lesson l hl m hm => simp at hlen
  | lessonAsset l hl a ha =>
    exact (last_ne (ht.lessonAssets l hl a ha).1 (ht.lessonAssets l hl a ha).2.1 hlast).elim
  | exercise l hl e he m hm => simp at hlen
  | exerciseAsset l hl e he a ha =>
    exact (last_ne (ht.exerciseAssets l hl e he a ha).1 (ht.exerciseAssets l hl e he a ha).2.1 hlast).elim

theorem written_lesson {root : Path} {c : CourseB α γ} (ht : Tidy c) {x : Entry α γ} {p : Path}
    (hlen : p.length = root.length + 2) (hlast : p.getLast? = some lessonFile) (h : Written root c p x) :
    ∃ l ∈ c.lessons, p = root ++ [l.dir, lessonFile] ∧ ∃ m, l.manifest = some m ∧ x = .lesson m := by
  cases h with
  | course => simp at hlen
  | asset a ha => exact (last_ne (ht.assets a ha).1 (ht.assets a ha).2.2.1 hlast).elim
  | lesson l hl m hm => exact ⟨l, hl, rfl, m, hm, rfl⟩
  | lessonAsset l hl a ha =>
    exact (last_ne (ht.lessonAssets l hl a ha).1 (ht.lessonAssets l hl a ha).2.2.1 hlast).elim
  | exercise l hl e he m hm => simp at hlen
  | exerciseAsset l hl e he a ha =>
    exact (last_ne (ht.exerciseAssets l hl e he a ha).1 (ht.exerciseAssets l hl e he a ha).2.2.1 hlast).elim

theorem eq_of_dir {B : Type} {f : B → Str} {xs : List B} (hn : (xs.map f).Nodup) {x y : B} (hx : x ∈ xs)
    (hy : y ∈ xs) (h : f x = f y) : x = y := by
  induction xs with
  | nil => cases hx
  | cons z zs ih =>
    rw [List.map_cons, List.nodup_cons] at hn
    rcases List.mem_cons.1 hx with rfl | hx' <;> rcases List.mem_cons.1 hy with rfl | hy'
    · rfl
    · exact (hn.1 (List.mem_map.2 ⟨y, hy', h.symm⟩)).elim
    · exact (hn.1 (List.mem_map.2 ⟨x, hx', h⟩)).elim
    · exact ih hn.2 hx' hy'

theorem written_exercise {root : Path} {c : CourseB α γ} (ht : Tidy c) {x : Entry α γ} {p : Path}
    {l : LessonB α} (hl : l ∈ c.lessons) (hpre : root ++ [l.dir] <+: p)
    (hlen : p.length = (root ++ [l.dir]).length + 2) (hlast : p.getLast? = some exerciseFile)
    (h : Written root c p x) :
    ∃ e ∈ l.exercises, p = root ++ [l.dir] ++ [e.dir, exerciseFile] ∧
      ∃ m, e.manifest = some m ∧ x = .exercise m := by
  cases h with
  | course => simp at hlen
  | asset a ha => exact (last_ne (ht.assets a ha).1 (ht.assets a ha).2.2.2 hlast).elim
  | lesson l' hl' m hm => simp at hlen
  | lessonAsset l' hl' a ha =>
    exact (last_ne (ht.lessonAssets l' hl' a ha).1 (ht.lessonAssets l' hl' a ha).2.2.2 hlast).elim
  | exercise l' hl' e he m hm =>
    have hd : l.dir = l'.dir := by
      rw [List.prefix_append_right_inj] at hpre
      simpa using hpre
    have := eq_of_dir ht.lessons hl hl' hd
    subst this
    exact ⟨e, he, by simp, m, hm, rfl⟩
  | exerciseAsset l' hl' e he a ha =>
    exact (last_ne (ht.exerciseAssets l' hl' e he a ha).1 (ht.exerciseAssets l' hl' e he a ha).2.2.2
      hlast).elim

/-! ### Finding the manifests -/

theorem mapM_of_forall₂ {A B C : Type} {f : A → Option C} {S : B → C → Prop} {xs : List A} {ys : List B}
    (h : List.Forall₂ (fun x y => ∃ z, f x = some z ∧ S y z) xs ys) :
    ∃ zs, xs.mapM f = some zs ∧ List.Forall₂ S ys zs := by
  induction h with
  | nil => exact ⟨[], by simp, .nil⟩
  | cons hxy _ ih =>
    obtain ⟨z, hz, hs⟩ := hxy
    obtain ⟨zs, hzs, hss⟩ := ih
    exact ⟨z :: zs, by rw [List.mapM_cons, hz, hzs]; rfl, .cons hs hss⟩

theorem filesAt_mem {M : Mentions α γ} {fs : FS α γ} {d : Disk α γ} (hd : Shows M fs d) {dir : Path}
    {n : Str} {p : Path} : p ∈ filesAt d dir n ↔
      (∃ x, fs.find p = some x) ∧ dir <+: p ∧ p.length = dir.length + 2 ∧ p.getLast? = some n := by
  unfold filesAt
  rw [List.mem_filter, (hd.walk dir).mem_iff, List.mem_filter, AMap.mem_keys_iff]
  simp only [List.isPrefixOf_iff_prefix, Bool.and_eq_true, decide_eq_true_eq]
  tauto

theorem filesAt_perm {M : Mentions α γ} {fs : FS α γ} {d : Disk α γ} (hd : Shows M fs d)
    (hn : fs.keys.Nodup) {B : Type} {f : B → Str} {xs : List B} (hx : (xs.map f).Nodup) {dir : Path}
    {n : Str} (h : ∀ p, dir <+: p → p.length = dir.length + 2 → p.getLast? = some n →
      ((∃ x, fs.find p = some x) ↔ ∃ x ∈ xs, p = dir ++ [f x, n])) :
    (filesAt d dir n).Perm (xs.map (fun x => dir ++ [f x, n])) := by
  have hnd : (filesAt d dir n).Nodup :=
    ((hd.walk dir).symm.nodup (hn.filter _)).filter _
  have hnd' : (xs.map (fun x => dir ++ [f x, n])).Nodup := by
    have : xs.map (fun x => dir ++ [f x, n]) = (xs.map f).map (fun s => dir ++ [s, n]) := by
      rw [List.map_map]; rfl
    rw [this]
    refine hx.map ?_
    intro a b hab
    simpa using hab
  rw [List.perm_ext_iff_of_nodup hnd hnd']
  intro p
  rw [filesAt_mem hd, List.mem_map]
  constructor
  · rintro ⟨hf, hp, hlen, hlast⟩
    obtain ⟨x, hx, rfl⟩ := (h p hp hlen hlast).1 hf
    exact ⟨x, hx, rfl⟩
  · rintro ⟨x, hx, rfl⟩
    have h1 : dir <+: dir ++ [f x, n] := List.prefix_append _ _
    have h2 : (dir ++ [f x, n]).length = dir.length + 2 := by simp
    have h3 : (dir ++ [f x, n]).getLast? = some n := by simp
    exact ⟨(h _ h1 h2 h3).2 ⟨x, hx, rfl⟩, h1, h2, h3⟩

theorem forall₂_of_map {B : Type} (g : B → Path) (xs : List B) :
    List.Forall₂ (fun p x => p = g x) (xs.map g) xs := by
  induction xs with
  | nil => exact .nil
  | cons x xs ih => exact .cons rfl ih

/-- The files below a directory are those that a course builder describes. -/
structure Stands (fs : FS α γ) (root : Path) (c : CourseB α γ) : Prop where
  written : ∀ p x, root <+: p → fs.find p = some x → Written root c p x
  found : ∀ p x, Written root c p x → ∃ x, fs.find p = some x
  manifests : ∀ l ∈ c.lessons, ∃ m, l.manifest = some m ∧ ∀ e ∈ l.exercises, ∃ x, e.manifest = some x

theorem written_below {root : Path} {c : CourseB α γ} {p : Path} {x : Entry α γ} (h : Written root c p x) : root <+: p := by
  cases h with
  | course => exact List.prefix_append _ _
  | asset => exact List.prefix_append _ _
  | lesson => exact List.prefix_append _ _
  | lessonAsset => rw [List.append_assoc]; exact List.prefix_append _ _
  | exercise => exact List.prefix_append _ _
  | exerciseAsset => rw [List.append_assoc]; exact List.prefix_append _ _

theorem Stands.iff {fs : FS α γ} {root : Path} {c : CourseB α γ} (h : Stands fs root c) {p : Path} (hp : root <+: p) :
    (∃ x, fs.find p = some x) ↔ ∃ x, Written root c p x :=
  ⟨fun ⟨x, hx⟩ => ⟨x, h.written p x hp hx⟩, fun ⟨x, hx⟩ => h.found p x hx⟩

theorem stands_of_build {parent : Path} {c : CourseB α γ} {fs fs' : FS α γ}
    (hfresh : ∀ p x, fs.find p = some x → ¬ c.root parent <+: p) (h : build fs parent c = (fs', true)) :
    Stands fs' (c.root parent) c where
  written _ _ hp hx := find_written hfresh h hp hx
  found _ _ hw := (files_iff hfresh h (written_below hw)).2 ⟨_, hw⟩
  manifests _ hl := manifest_lesson h hl

/-- A course whose files are there is opened as it was described. -/
theorem opens_of_stands {M : Mentions α γ} (hM : KeepsIds M) {root : Path} {c : CourseB α γ}
    {fs' : FS α γ} (hn' : fs'.keys.Nodup) (hst : Stands fs' root c) (ht : Tidy c) (hc : Consistent c)
    (hm : Complete M fs' root c) {d : Disk α γ} (hd : Shows M fs' d)
    {cm : CourseM α γ} {gen : List (LessonM α × List (ExerciseM α))}
    (hg : CourseIn d (root) cm gen (M.courseAt (root) c.manifest)) :
    (root ++ [courseFile]) ∈ d.walk [] ∧
    d.course (root ++ [courseFile]) = some (M.courseAt (root) c.manifest) ∧
    ∃ found, processCourse d (root) (M.courseAt (root) c.manifest) =
        some ⟨cm, gen ++ found⟩ ∧
      ∃ ls : List (LessonB α), ls.Perm c.lessons ∧
        List.Forall₂ (LessonAs M (root)) ls found := by
  -- the course manifest
  have hcf : fs'.find (root ++ [courseFile]) = some (.course c.manifest) := by
    obtain ⟨x, hx⟩ := (hst.iff (List.prefix_append _ _)).2 ⟨_, Written.course⟩
    rw [hx, written_course ht rfl (hst.written _ _ (List.prefix_append _ _) hx)]
  refine ⟨?_, ?_, ?_⟩
  · rw [(hd.walk []).mem_iff, List.mem_filter, AMap.mem_keys_iff, hcf]
    exact ⟨⟨_, rfl⟩, rfl⟩
  · rw [hd.course _ _ hcf]
    unfold readCourse
    rw [hcf]
    have : (root ++ [courseFile]).dropLast = root := by simp
    dsimp only
    rw [this, if_pos (List.all_eq_true.2 hm.course)]
  · -- the lesson files
    have hlp : (filesAt d (root) lessonFile).Perm
        (c.lessons.map (fun l => root ++ [l.dir, lessonFile])) := by
      refine filesAt_perm (f := fun l : LessonB α => l.dir) hd hn' ht.lessons ?_
      intro p hp hlen hlast
      rw [hst.iff hp]
      constructor
      · rintro ⟨x, hx⟩
        obtain ⟨l, hl, he, _⟩ := written_lesson ht hlen hlast hx
        exact ⟨l, hl, he⟩
      · rintro ⟨l, hl, rfl⟩
        obtain ⟨m, hm, _⟩ := hst.manifests l hl
        exact ⟨_, .lesson l hl m hm⟩
    obtain ⟨ls, hls, hlsp⟩ := List.perm_comp_forall₂ hlp
      (forall₂_of_map (fun l : LessonB α => root ++ [l.dir, lessonFile]) c.lessons)
    have hcid : cm.id = c.manifest.id := by
      rcases hg with ⟨_, rfl, _⟩ | ⟨_, _, _, _, _, rfl⟩ <;> exact hM.course _ _
    have hopen : List.Forall₂ (fun p l => ∃ y, openLesson d cm p = some y ∧
        LessonAs M (root) l y) (filesAt d (root) lessonFile) ls := by
      have hmem : ∀ l ∈ ls, l ∈ c.lessons := fun l hl => hlsp.mem_iff.1 hl
      clear hlsp hlp
      generalize filesAt d (root) lessonFile = ps at hls
      induction hls with
      | nil => exact .nil
      | @cons p l ps ls hpl _ ih =>
        refine .cons ?_ (ih (fun l hl => hmem l (List.mem_cons_of_mem _ hl)))
        have hl := hmem l List.mem_cons_self
        subst hpl
        obtain ⟨m, hlm, hxs⟩ := hst.manifests l hl
        have hdrop : (root ++ [l.dir, lessonFile]).dropLast = root ++ [l.dir] := by
          rw [List.dropLast_append_of_ne_nil (by simp)]; rfl
        have hfind : fs'.find (root ++ [l.dir, lessonFile]) = some (.lesson m) := by
          obtain ⟨x, hx⟩ := (hst.iff (List.prefix_append _ _)).2 ⟨_, .lesson l hl m hlm⟩
          obtain ⟨l', hl', he, m', hm', hxe⟩ := written_lesson ht (by simp) (by simp)
            (hst.written _ _ (List.prefix_append _ _) hx)
          have hdd : l.dir = l'.dir := by
            have := List.append_cancel_left he
            injection this
          have := eq_of_dir ht.lessons hl hl' hdd
          subst this
          rw [hlm] at hm'
          injection hm' with hm'
          rw [hx, hxe, hm']
        have hread : d.lesson (root ++ [l.dir, lessonFile]) =
            some (M.lessonAt (root ++ [l.dir]) m) := by
          rw [hd.lesson _ _ hfind]
          unfold readLesson
          rw [hfind]
          dsimp only
          rw [hdrop, if_pos (List.all_eq_true.2 (hm.lesson l hl m hlm))]
        have hv : verifyLesson cm (M.lessonAt (root ++ [l.dir]) m) = true := by
          obtain ⟨h1, h2⟩ := hc.lesson l hl m hlm
          unfold verifyLesson
          rw [(hM.lesson _ m).1, (hM.lesson _ m).2, h2, hcid]
          simpa using h1
        -- the exercise files
        have hep : (filesAt d (root ++ [l.dir]) exerciseFile).Perm
            (l.exercises.map (fun e => root ++ [l.dir] ++ [e.dir, exerciseFile])) := by
          refine filesAt_perm (f := fun e : ExerciseB α => e.dir) hd hn' (ht.exercises l hl) ?_
          intro p hp hlen hlast
          have hp' : root <+: p := (List.prefix_append _ _).trans hp
          rw [hst.iff hp']
          constructor
          · rintro ⟨x, hx⟩
            obtain ⟨e, he, hpe, _⟩ := written_exercise ht hl hp hlen hlast hx
            exact ⟨e, he, hpe⟩
          · rintro ⟨e, he, rfl⟩
            obtain ⟨x, hx⟩ := hxs e he
            refine ⟨.exercise x, ?_⟩
            have := Written.exercise (root := root) (c := c) l hl e he x hx
            simpa using this
        obtain ⟨es, hes, hesp⟩ := List.perm_comp_forall₂ hep
          (forall₂_of_map (fun e : ExerciseB α => root ++ [l.dir] ++ [e.dir, exerciseFile])
            l.exercises)
        have hopenE : List.Forall₂ (fun p e => ∃ y,
            openExercise d (M.lessonAt (root ++ [l.dir]) m) p = some y ∧
            ExerciseAs M (root ++ [l.dir]) e y)
            (filesAt d (root ++ [l.dir]) exerciseFile) es := by
          have hmemE : ∀ e ∈ es, e ∈ l.exercises := fun e he => hesp.mem_iff.1 he
          clear hesp hep
          generalize filesAt d (root ++ [l.dir]) exerciseFile = qs at hes
          induction hes with
          | nil => exact .nil
          | @cons q e qs es hqe _ ihE =>
            refine .cons ?_ (ihE (fun e he => hmemE e (List.mem_cons_of_mem _ he)))
            have he := hmemE e List.mem_cons_self
            subst hqe
            obtain ⟨x, hx⟩ := hxs e he
            have hpre : root <+: root ++ [l.dir] ++ [e.dir, exerciseFile] := by
              rw [List.append_assoc]; exact List.prefix_append _ _
            have hdropE : (root ++ [l.dir] ++ [e.dir, exerciseFile]).dropLast =
                root ++ [l.dir] ++ [e.dir] := by
              rw [List.dropLast_append_of_ne_nil (by simp)]; rfl
            have hfindE : fs'.find (root ++ [l.dir] ++ [e.dir, exerciseFile]) =
                some (.exercise x) := by
              have hw := Written.exercise (root := root) (c := c) l hl e he x hx
              have heq : root ++ [l.dir, e.dir, exerciseFile] =
                root ++ [l.dir] ++ [e.dir, exerciseFile] := by simp
              rw [heq] at hw
              obtain ⟨x', hx'⟩ := (hst.iff hpre).2 ⟨_, hw⟩
              obtain ⟨e', he', hpe, m', hm', hxe⟩ := written_exercise ht hl (List.prefix_append _ _)
                (by simp) (by simp) (hst.written _ _ hpre hx')
              have hdd : e.dir = e'.dir := by
                have := List.append_cancel_left hpe
                injection this
              have := eq_of_dir (ht.exercises l hl) he he' hdd
              subst this
              rw [hx] at hm'
              injection hm' with hm'
              rw [hx', hxe, hm']
            have hreadE : d.exercise (root ++ [l.dir] ++ [e.dir, exerciseFile]) =
                some (M.exerciseAt (root ++ [l.dir] ++ [e.dir]) x) := by
              rw [hd.exercise _ _ hfindE]
              unfold readExercise
              rw [hfindE]
              dsimp only
              rw [hdropE, if_pos (List.all_eq_true.2 (hm.exercise l hl e he x hx))]
            have hvE : verifyExercise (M.lessonAt (root ++ [l.dir]) m)
                (M.exerciseAt (root ++ [l.dir] ++ [e.dir]) x) = true := by
              obtain ⟨h1, h2, h3⟩ := hc.exercise l hl m hlm e he x hx
              unfold verifyExercise
              rw [(hM.exercise _ x).1, (hM.exercise _ x).2.1, (hM.exercise _ x).2.2, (hM.lesson _ m).1,
                (hM.lesson _ m).2, h2, h3]
              simpa using h1
            refine ⟨M.exerciseAt (root ++ [l.dir] ++ [e.dir]) x, ?_, x, hx, rfl⟩
            unfold openExercise
            rw [hreadE, Option.bind_eq_bind, Option.bind_some, if_pos hvE]
        obtain ⟨xs, hxs1, hxs2⟩ := mapM_of_forall₂ hopenE
        refine ⟨(M.lessonAt (root ++ [l.dir]) m, xs), ?_, m, hlm, rfl, es, hesp, hxs2⟩
        unfold openLesson
        rw [hread, Option.bind_eq_bind, Option.bind_some, hdrop]
        unfold processLesson
        rw [if_pos hv, hxs1]
        rfl
    obtain ⟨found, hf1, hf2⟩ := mapM_of_forall₂ hopen
    refine ⟨found, ?_, ls, hlsp, hf2⟩
    have hvc : verifyCourse (M.courseAt (root) c.manifest) = true := by
      unfold verifyCourse
      rw [hM.course]
      simpa using hc.course
    unfold processCourse
    rw [if_pos hvc, (runGenerator_iff _ _ _ _ _).2 hg, Option.bind_eq_bind, Option.bind_some]
    dsimp only
    rw [hf1]
    rfl

/-- **C74, round trip**: a course built in a new directory is found by the library and opened with the
course manifest, the lessons and the exercises described, in some order; if the course also has a
generator, the lessons it generates come first. -/
theorem opens_as_built {M : Mentions α γ} (hM : KeepsIds M) {parent : Path} {c : CourseB α γ}
    {fs fs' : FS α γ} (hn : fs.keys.Nodup)
    (hfresh : ∀ p x, fs.find p = some x → ¬ c.root parent <+: p)
    (h : build fs parent c = (fs', true)) (ht : Tidy c) (hc : Consistent c)
    (hm : Complete M fs' (c.root parent) c) {d : Disk α γ} (hd : Shows M fs' d)
    {cm : CourseM α γ} {gen : List (LessonM α × List (ExerciseM α))}
    (hg : CourseIn d (c.root parent) cm gen (M.courseAt (c.root parent) c.manifest)) :
    (c.root parent ++ [courseFile]) ∈ d.walk [] ∧
    d.course (c.root parent ++ [courseFile]) = some (M.courseAt (c.root parent) c.manifest) ∧
    ∃ found, processCourse d (c.root parent) (M.courseAt (c.root parent) c.manifest) =
        some ⟨cm, gen ++ found⟩ ∧
      ∃ ls : List (LessonB α), ls.Perm c.lessons ∧
        List.Forall₂ (LessonAs M (c.root parent)) ls found :=
  opens_of_stands hM (run_nodup h hn) (stands_of_build hfresh h) ht hc hm hd hg

end Trane.CourseBuilder
