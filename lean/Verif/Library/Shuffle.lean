import Verif.Library.Alike
import Verif.Library.ListingProps

/-!
# C103: the order in which files are listed does not matter

Two disks with the same files, which are listed in different orders, and generators that may return their lessons in
different orders.
-/

namespace Trane.Library
open Trane.Store Trane.Filters Trane.Graph

variable {α γ : Type} {β δ : Type}

/-! ### Specification -/

/-- The second list is the first one in another order, with each element replaced by a related one. -/
def Shuffled (R : β → δ → Prop) (l : List β) (l' : List δ) : Prop := ∃ m, l.Perm m ∧ List.Forall₂ R m l'

/-- The same lesson with the same exercises in any order. -/
def SameLesson (x y : LessonM α × List (ExerciseM α)) : Prop := y.1 = x.1 ∧ x.2.Perm y.2

/-- The same metadata, the values of each key in any order. -/
def SameMetadata (m m' : Option Metadata) : Prop := Both (fun m m' => ∀ k, Both List.Perm (m.find k) (m'.find k)) m m'

/-- The same course manifest but for the order of the values of metadata keys. -/
def SameCourse (c c' : CourseM α γ) : Prop :=
  SameMetadata c.metadata c'.metadata ∧ c' = { c with metadata := c'.metadata }

/-- The same generated course but for the order of lessons, of exercises and of the values of metadata keys. -/
structure SameGenerated (g g' : Generated α) : Prop where
  lessons : Shuffled SameLesson g.lessons g'.lessons
  metadata : SameMetadata g.metadata g'.metadata
  instructions : g'.instructions = g.instructions

/-- The same disk but for the order in which files are listed and generated lessons are returned. -/
structure SameFiles (d d' : Disk α γ) : Prop where
  cwd : d'.cwd = d.cwd
  root : d'.root = d.root
  walk : ∀ dir, (d.walk dir).Perm (d'.walk dir)
  course : d'.course = d.course
  lesson : d'.lesson = d.lesson
  exercise : d'.exercise = d.exercise
  generate : ∀ cfg dir c, Both SameGenerated (d.generate cfg dir c) (d'.generate cfg dir c)

/-! ### Lemmas -/

theorem both_flip {R : β → δ → Prop} {a : Option β} {b : Option δ} (h : Both R a b) : Both (fun x y => R y x) b a := by
  cases a <;> cases b <;> exact h

theorem both_imp {R S : β → δ → Prop} (h : ∀ x y, R x y → S x y) {a : Option β} {b : Option δ} (hb : Both R a b) :
    Both S a b := by
  cases a <;> cases b <;> first | exact hb | exact h _ _ hb

theorem shuffled_flip {R : β → δ → Prop} {l : List β} {l' : List δ} (h : Shuffled R l l') :
    Shuffled (fun x y => R y x) l' l := by
  obtain ⟨m, h1, h2⟩ := h
  obtain ⟨w, h3, h4⟩ := List.perm_comp_forall₂ h1 h2
  exact ⟨w, h4.symm, h3.flip⟩

theorem shuffled_of_perm {l l' : List β} {R : β → β → Prop} (hr : ∀ x, R x x) (h : l.Perm l') : Shuffled R l l' :=
  ⟨l', h, List.forall₂_same.mpr (fun x _ => hr x)⟩

theorem shuffled_right {R : β → δ → Prop} {l : List β} {l' : List δ} (h : Shuffled R l l') : ∀ b ∈ l', ∃ a ∈ l, R a b := by
  obtain ⟨m, h1, h2⟩ := h
  intro b hb
  induction h2 generalizing l with
  | nil => cases hb
  | @cons x y xs ys hx hxs ih =>
    rcases List.mem_cons.mp hb with rfl | hb
    · exact ⟨x, h1.mem_iff.mpr (by simp), hx⟩
    · obtain ⟨a, ha, hr⟩ := ih (List.Perm.refl _) hb
      exact ⟨a, h1.mem_iff.mpr (List.mem_cons_of_mem _ ha), hr⟩

theorem shuffled_left {R : β → δ → Prop} {l : List β} {l' : List δ} (h : Shuffled R l l') : ∀ a ∈ l, ∃ b ∈ l', R a b :=
  shuffled_right (shuffled_flip h)

theorem shuffled_flatMap {ε : Type} {R : β → δ → Prop} {l : List β} {l' : List δ} (h : Shuffled R l l') {f : β → List ε}
    {g : δ → List ε} (hf : ∀ a b, R a b → (f a).Perm (g b)) : (l.flatMap f).Perm (l'.flatMap g) := by
  obtain ⟨m, h1, h2⟩ := h
  refine (h1.flatMap_right f).trans ?_
  clear h1
  induction h2 with
  | nil => exact .refl _
  | cons hx _ ih =>
    rw [List.flatMap_cons, List.flatMap_cons]
    exact (hf _ _ hx).append ih

theorem shuffled_append {R : β → δ → Prop} {a b : List β} {a' b' : List δ} (h : Shuffled R a a') (h' : Shuffled R b b') :
    Shuffled R (a ++ b) (a' ++ b') := by
  obtain ⟨m, h1, h2⟩ := h
  obtain ⟨m', h1', h2'⟩ := h'
  exact ⟨m ++ m', h1.append h1', List.rel_append h2 h2'⟩

theorem shuffled_perm_left {R : β → δ → Prop} {a b : List β} {c : List δ} (h : a.Perm b) (h' : Shuffled R b c) :
    Shuffled R a c := by
  obtain ⟨m, h1, h2⟩ := h'
  exact ⟨m, h.trans h1, h2⟩

theorem shuffled_perm_right {R : β → δ → Prop} {a : List β} {b c : List δ} (h : Shuffled R a b) (h' : b.Perm c) :
    Shuffled R a c := by
  have := shuffled_perm_left h'.symm (shuffled_flip h)
  exact shuffled_flip this

/-- Going through a list in another order. -/
theorem forall₂_shuffled {ε : Type} {P : ε → β → Prop} {P' : ε → δ → Prop} {R : β → δ → Prop} {l l' : List ε} {cs : List β}
    (hl : l.Perm l') (h : List.Forall₂ P l cs) (hp : ∀ p ∈ l, ∀ c, P p c → ∃ c', P' p c' ∧ R c c') :
    ∃ cs', List.Forall₂ P' l' cs' ∧ Shuffled R cs cs' := by
  obtain ⟨w, h1, h2⟩ := List.perm_comp_forall₂ hl.symm h
  have hp' : ∀ p ∈ l', ∀ c, P p c → ∃ c', P' p c' ∧ R c c' := fun p hm => hp p (hl.mem_iff.mpr hm)
  clear h hp
  suffices H : ∃ cs', List.Forall₂ P' l' cs' ∧ List.Forall₂ R w cs' by
    obtain ⟨cs', a, b⟩ := H
    exact ⟨cs', a, w, h2.symm, b⟩
  clear h2 hl
  induction h1 with
  | nil => exact ⟨[], .nil, .nil⟩
  | cons a _ ih =>
    obtain ⟨c', h3, h4⟩ := hp' _ (by simp) _ a
    obtain ⟨cs', h5, h6⟩ := ih (fun p hm => hp' p (List.mem_cons_of_mem _ hm))
    exact ⟨c' :: cs', .cons h3 h5, .cons h4 h6⟩

theorem sameMetadata_refl (m : Option Metadata) : SameMetadata m m := by
  cases m with
  | none => trivial
  | some m =>
    intro k
    cases m.find k with
    | none => trivial
    | some l => exact List.Perm.refl l

theorem sameMetadata_symm {m m' : Option Metadata} (h : SameMetadata m m') : SameMetadata m' m :=
  both_imp (fun _ _ h k => both_imp (fun _ _ h => h.symm) (both_flip (h k))) (both_flip h)

theorem sameCourse_refl (c : CourseM α γ) : SameCourse c c := ⟨sameMetadata_refl _, rfl⟩

theorem sameCourse_symm {c c' : CourseM α γ} (h : SameCourse c c') : SameCourse c' c := by
  obtain ⟨h1, h2⟩ := h
  refine ⟨sameMetadata_symm h1, ?_⟩
  rw [h2]

theorem SameGenerated.symm {g g' : Generated α} (h : SameGenerated g g') : SameGenerated g' g where
  lessons := by
    obtain ⟨m, h1, h2⟩ := shuffled_flip h.lessons
    exact ⟨m, h1, h2.imp (fun x y h => ⟨h.1.symm, h.2.symm⟩)⟩
  metadata := sameMetadata_symm h.metadata
  instructions := h.instructions.symm

theorem SameFiles.symm {d d' : Disk α γ} (h : SameFiles d d') : SameFiles d' d where
  cwd := h.cwd.symm
  root := h.root.symm
  walk dir := (h.walk dir).symm
  course := h.course.symm
  lesson := h.lesson.symm
  exercise := h.exercise.symm
  generate cfg dir c := both_imp (fun _ _ h => h.symm) (both_flip (h.generate cfg dir c))

variable {d d' : Disk α γ} {ig : List FPath}

theorem isCourseFile_same (h : SameFiles d d') (p : Path) : IsCourseFile d' ig p ↔ IsCourseFile d ig p := by
  unfold IsCourseFile entryPath
  rw [h.root, h.cwd, (h.walk []).mem_iff]

theorem isBelow_same (h : SameFiles d d') (dir : Path) (n : Str) (p : Path) : IsBelow d' dir n p ↔ IsBelow d dir n p := by
  unfold IsBelow
  rw [(h.walk dir).mem_iff]

theorem courseFiles_same (h : SameFiles d d') : (courseFiles d ig).Perm (courseFiles d' ig) := by
  unfold courseFiles ignoredPaths entryPath
  rw [h.root, h.cwd]
  exact (h.walk []).filter _

theorem filesAt_same (h : SameFiles d d') (dir : Path) (n : Str) : (filesAt d dir n).Perm (filesAt d' dir n) := by
  unfold filesAt
  exact (h.walk dir).filter _

theorem readable_same (h : SameFiles d d') (hr : Readable d ig) : Readable d' ig where
  course p hp := by rw [h.course]; exact hr.course p ((isCourseFile_same h p).mp hp)
  generates p m cfg hp hm hg := by
    obtain ⟨g, hgen⟩ := hr.generates p m cfg ((isCourseFile_same h p).mp hp) (by rw [← h.course]; exact hm) hg
    have := h.generate cfg p.dropLast m
    rw [hgen] at this
    cases hg' : d'.generate cfg p.dropLast m with
    | none => rw [hg'] at this; exact this.elim
    | some g' => exact ⟨g', rfl⟩
  lesson p m q hp hm hq := by
    rw [h.lesson]
    exact hr.lesson p m q ((isCourseFile_same h p).mp hp) (by rw [← h.course]; exact hm) ((isBelow_same h _ _ _).mp hq)
  exercise p m q l r hp hm hq hl hr' := by
    rw [h.exercise]
    exact hr.exercise p m q l r ((isCourseFile_same h p).mp hp) (by rw [← h.course]; exact hm)
      ((isBelow_same h _ _ _).mp hq) (by rw [← h.lesson]; exact hl) ((isBelow_same h _ _ _).mp hr')

theorem courseIn_same (h : SameFiles d d') {dir : Path} {c m : CourseM α γ} {gen : List (LessonM α × List (ExerciseM α))}
    (hc : CourseIn d dir c gen m) : ∃ c' gen', CourseIn d' dir c' gen' m ∧ SameCourse c c' ∧ Shuffled SameLesson gen gen' := by
  rcases hc with ⟨h1, rfl, rfl⟩ | ⟨cfg, g, h1, h2, rfl, rfl⟩
  · exact ⟨c, [], .inl ⟨h1, rfl, rfl⟩, sameCourse_refl _, [], .refl _, .nil⟩
  · have := h.generate cfg dir m
    rw [h2] at this
    cases hg' : d'.generate cfg dir m with
    | none => rw [hg'] at this; exact this.elim
    | some g' =>
      rw [hg'] at this
      have this : SameGenerated g g' := this
      refine ⟨_, g'.lessons, .inr ⟨cfg, g', h1, hg', rfl, rfl⟩, ⟨?_, ?_⟩, this.lessons⟩
      · have hm := this.metadata
        cases ha : g.metadata <;> cases hb : g'.metadata <;> rw [ha, hb] at hm
        · simpa using sameMetadata_refl m.metadata
        · exact hm.elim
        · exact hm.elim
        · exact hm
      · rw [this.instructions]

/-- The same opened course. -/
def SameOpened (c c' : Opened α γ) : Prop := SameCourse c.manifest c'.manifest ∧ Shuffled SameLesson c.lessons c'.lessons

theorem isOpened_same (h : SameFiles d d') {cs : List (Opened α γ)} (hc : IsOpened d ig cs) :
    ∃ cs', IsOpened d' ig cs' ∧ Shuffled SameOpened cs cs' := by
  refine forall₂_shuffled (courseFiles_same h) hc ?_
  rintro p _ c ⟨m, gen, found, h1, h2, h3, h4⟩
  obtain ⟨c', gen', h5, h6, h7⟩ := courseIn_same h h2
  obtain ⟨found', h8, h9⟩ := forall₂_shuffled (R := SameLesson) (P' := fun q l => d'.lesson q = some l.1 ∧
      List.Forall₂ (fun r e => d'.exercise r = some e) (filesAt d' q.dropLast exerciseFile) l.2)
    (filesAt_same h p.dropLast lessonFile) h4 (by
      rintro q _ l ⟨a, b⟩
      obtain ⟨es, e1, m2, e2, e3⟩ := forall₂_shuffled (R := Eq) (P' := fun r e => d'.exercise r = some e)
        (filesAt_same h q.dropLast exerciseFile) b (by
          rintro r _ e he
          exact ⟨e, by rw [h.exercise]; exact he, rfl⟩)
      rw [List.forall₂_eq_eq_eq] at e3
      subst e3
      exact ⟨(l.1, m2), ⟨by rw [h.lesson]; exact a, e1⟩, rfl, e2⟩)
  refine ⟨⟨c', gen' ++ found'⟩, ⟨m, gen', found', by rw [h.course]; exact h1, h5, rfl, h8⟩, h6, ?_⟩
  rw [h3]
  exact shuffled_append h7 h9

theorem unitIds_same {cs cs' : List (Opened α γ)} (h : Shuffled SameOpened cs cs') : (unitIds cs).Perm (unitIds cs') := by
  unfold unitIds
  refine shuffled_flatMap h ?_
  rintro a b ⟨⟨-, h1⟩, h2⟩
  have hid : b.manifest.id = a.manifest.id := by rw [h1]
  rw [hid]
  refine List.Perm.cons _ (shuffled_flatMap h2 ?_)
  rintro x y ⟨e, hp⟩
  rw [e]
  exact (hp.map _).cons _

theorem declares_same {cs cs' : List (Opened α γ)} (h : Shuffled SameOpened cs cs') {u : Str} {ds : List Str}
    {es : List (Str × ℚ)} {ss : List Str} (hd : Declares cs' u ds es ss) : Declares cs u ds es ss := by
  rcases hd with ⟨m, ⟨c', hc', rfl⟩, h1, h2, h3, h4⟩ | ⟨m, ⟨c', hc', l', hl', rfl⟩, h1⟩
  · obtain ⟨c, hc, ⟨-, e⟩, -⟩ := shuffled_right h c' hc'
    rw [e] at h1 h2 h3 h4
    exact .inl ⟨c.manifest, ⟨c, hc, rfl⟩, h1, h2, h3, h4⟩
  · obtain ⟨c, hc, -, hls⟩ := shuffled_right h c' hc'
    obtain ⟨l, hl, e, -⟩ := shuffled_right hls l' hl'
    exact .inr ⟨l'.1, ⟨c, hc, l, hl, e.symm⟩, h1⟩

theorem hasCycle_mono {R S : Str → Str → Prop} (h : ∀ a b, R a b → S a b) (hc : HasCycle R) : HasCycle S := by
  obtain ⟨a, ha⟩ := hc
  exact ⟨a, Relation.TransGen.mono h _ _ ha⟩

theorem acceptable_same {cs cs' : List (Opened α γ)} (h : Shuffled SameOpened cs cs') (ha : Acceptable cs) :
    Acceptable cs' where
  distinct := (unitIds_same h).nodup_iff.mp ha.distinct
  noSelf u := by
    rintro ⟨ds, es, ss, hd, hm⟩
    exact ha.noSelf u ⟨ds, es, ss, declares_same h hd, hm⟩
  weights u ds es ss hd := ha.weights u ds es ss (declares_same h hd)
  depAcyclic hc := ha.depAcyclic (hasCycle_mono (by
    rintro a b ⟨ds, es, ss, hd, hm⟩; exact ⟨ds, es, ss, declares_same h hd, hm⟩) hc)
  supAcyclic hc := ha.supAcyclic (hasCycle_mono (by
    rintro a b ⟨ds, es, ss, hd, hm⟩; exact ⟨ds, es, ss, declares_same h hd, hm⟩) hc)
  encAcyclic hc := ha.encAcyclic (hasCycle_mono (by
    rintro a b ⟨ds, es, ss, hd, hm⟩; exact ⟨ds, es, ss, declares_same h hd, hm⟩) hc)

theorem diskCourse_same (h : SameFiles d d') {dir : Path} {c : CourseM α γ} {gen : List (LessonM α × List (ExerciseM α))}
    (hc : DiskCourse d ig dir c gen) :
    ∃ c' gen', DiskCourse d' ig dir c' gen' ∧ SameCourse c c' ∧ Shuffled SameLesson gen gen' := by
  obtain ⟨p, m, h1, h2, h3, h4⟩ := hc
  obtain ⟨c', gen', h5, h6, h7⟩ := courseIn_same h h4
  exact ⟨c', gen', ⟨p, m, (isCourseFile_same h p).mpr h1, h2, by rw [h.course]; exact h3, h5⟩, h6, h7⟩

theorem diskLesson_same (h : SameFiles d d') {l : LessonM α} (hl : DiskLesson d ig l) : DiskLesson d' ig l := by
  obtain ⟨dir, c, gen, h1, h2⟩ := hl
  obtain ⟨c', gen', h3, -, h4⟩ := diskCourse_same h h1
  refine ⟨dir, c', gen', h3, ?_⟩
  rcases h2 with ⟨es, hm⟩ | ⟨p, hp, hl⟩
  · obtain ⟨⟨l', es'⟩, hm', e, -⟩ := shuffled_left h4 _ hm
    exact .inl ⟨es', by rw [← show l' = l from e]; exact hm'⟩
  · exact .inr ⟨p, (isBelow_same h _ _ _).mpr hp, by rw [h.lesson]; exact hl⟩

theorem diskExercise_same (h : SameFiles d d') {e : ExerciseM α} (he : DiskExercise d ig e) : DiskExercise d' ig e := by
  obtain ⟨dir, c, gen, h1, h2⟩ := he
  obtain ⟨c', gen', h3, -, h4⟩ := diskCourse_same h h1
  refine ⟨dir, c', gen', h3, ?_⟩
  rcases h2 with ⟨l, es, hm, hes⟩ | ⟨p, q, hp, hq, hl⟩
  · obtain ⟨⟨l', es'⟩, hm', -, hp⟩ := shuffled_left h4 _ hm
    exact .inl ⟨l', es', hm', hp.mem_iff.mp hes⟩
  · exact .inr ⟨p, q, (isBelow_same h _ _ _).mpr hp, (isBelow_same h _ _ _).mpr hq, by rw [h.exercise]; exact hl⟩

theorem generatesProper_same (h : SameFiles d d') (hg : GeneratesProper d) : GeneratesProper d' := by
  intro cfg dir c g hgen l hl
  have := h.generate cfg dir c
  rw [hgen] at this
  cases hg' : d.generate cfg dir c with
  | none => rw [hg'] at this; exact this.elim
  | some g0 =>
    rw [hg'] at this
    have this : SameGenerated g0 g := this
    obtain ⟨l0, hl0, e, hp⟩ := shuffled_right this.lessons l hl
    obtain ⟨h1, h2, h3⟩ := hg cfg dir c g0 hg' l0 hl0
    rw [e]
    exact ⟨h1, h2, fun x hx => h3 x (hp.mem_iff.mpr hx)⟩

end Trane.Library
