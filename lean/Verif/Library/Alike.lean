import Verif.Library.Props

/-!
# Libraries that differ only in what the library does not look at

The library keeps the names, descriptions and assets of manifests without looking at them.  If two disks hold the same
files in the same order, and reading them gives manifests that are the same except for those parts, then opening one
gives the same as opening the other, except for those parts.  Used for libraries that are moved (Verif/Tree/Moved.lean).
-/

namespace Trane.Library
open Trane.Store Trane.Filters

variable {α γ : Type}

/-- Both are there and related, or both are missing. -/
def Both {β δ : Type} (R : β → δ → Prop) : Option β → Option δ → Prop
  | some x, some y => R x y
  | none, none => True
  | _, _ => False

/-- The manifests of a course are the same, up to `R` on the parts that the library does not look at. -/
def CourseM.Like (R : α → α → Prop) (c c' : CourseM α γ) : Prop :=
  c'.id = c.id ∧ c'.deps = c.deps ∧ c'.enc = c.enc ∧ c'.sup = c.sup ∧ c'.metadata = c.metadata ∧ c'.gen = c.gen ∧
    Both R c.instructions c'.instructions ∧ R c.rest c'.rest

/-- The manifests of a lesson are the same, up to `R`. -/
def LessonM.Like (R : α → α → Prop) (l l' : LessonM α) : Prop :=
  l'.id = l.id ∧ l'.deps = l.deps ∧ l'.enc = l.enc ∧ l'.sup = l.sup ∧ l'.courseId = l.courseId ∧
    l'.metadata = l.metadata ∧ R l.rest l'.rest

/-- The manifests of an exercise are the same, up to `R`. -/
def ExerciseM.Like (R : α → α → Prop) (e e' : ExerciseM α) : Prop :=
  e'.id = e.id ∧ e'.lessonId = e.lessonId ∧ e'.courseId = e.courseId ∧ R e.rest e'.rest

/-- Lessons with their exercises. -/
def LikeLessons (R : α → α → Prop) (x y : LessonM α × List (ExerciseM α)) : Prop :=
  LessonM.Like R x.1 y.1 ∧ List.Forall₂ (ExerciseM.Like R) x.2 y.2

/-- What a generator made. -/
def Generated.Like (R : α → α → Prop) (g g' : Generated α) : Prop :=
  List.Forall₂ (LikeLessons R) g.lessons g'.lessons ∧ g'.metadata = g.metadata ∧ Both R g.instructions g'.instructions

/-- Opened courses. -/
def Opened.Like (R : α → α → Prop) (c c' : Opened α γ) : Prop :=
  CourseM.Like R c.manifest c'.manifest ∧ List.Forall₂ (LikeLessons R) c.lessons c'.lessons

/-- Two libraries have the same units with the same relations, the same answers about their structure, and manifests
that are the same up to `R`. -/
structure Lib.Like (R : α → α → Prop) (s s' : Lib α γ) : Prop where
  graph : s'.graph = s.graph
  courses : List.Forall₂ (fun x y => y.1 = x.1 ∧ CourseM.Like R x.2 y.2) s.courses s'.courses
  lessons : List.Forall₂ (fun x y => y.1 = x.1 ∧ LessonM.Like R x.2 y.2) s.lessons s'.lessons
  exercises : List.Forall₂ (fun x y => y.1 = x.1 ∧ ExerciseM.Like R x.2 y.2) s.exercises s'.exercises

/-! ### General facts -/

section
variable {β δ β' δ' : Type}

theorem Both.mono {R S : β → δ → Prop} (h : ∀ x y, R x y → S x y) {o : Option β} {o' : Option δ} (hb : Both R o o') :
    Both S o o' := by
  cases o <;> cases o' <;> simp_all [Both]

theorem both_bind {R : β → δ → Prop} {S : β' → δ' → Prop} {o : Option β} {o' : Option δ} {f : β → Option β'}
    {f' : δ → Option δ'} (h : Both R o o') (hf : ∀ x y, R x y → o = some x → o' = some y → Both S (f x) (f' y)) :
    Both S (o.bind f) (o'.bind f') := by
  cases o <;> cases o'
  · trivial
  · exact h.elim
  · exact h.elim
  · exact hf _ _ h rfl rfl

theorem both_map {R : β → δ → Prop} {S : β' → δ' → Prop} {o : Option β} {o' : Option δ} {f : β → β'}
    {f' : δ → δ'} (h : Both R o o') (hf : ∀ x y, R x y → S (f x) (f' y)) : Both S (o.map f) (o'.map f') := by
  cases o <;> cases o'
  · trivial
  · exact h.elim
  · exact h.elim
  · exact hf _ _ h

theorem both_foldlM {R : β → δ → Prop} {S : β' → δ' → Prop} {f : β' → β → Option β'} {f' : δ' → δ → Option δ'}
    (hf : ∀ s s' x y, S s s' → R x y → Both S (f s x) (f' s' y)) :
    ∀ {l : List β} {l' : List δ}, List.Forall₂ R l l' → ∀ {s : β'} {s' : δ'}, S s s' →
      Both S (l.foldlM f s) (l'.foldlM f' s') := by
  intro l l' h
  induction h with
  | nil => intro s s' hs; exact hs
  | cons hx _ ih =>
    intro s s' hs
    rw [List.foldlM_cons, List.foldlM_cons]
    exact both_bind (hf _ _ _ _ hs hx) (fun x y hxy _ _ => ih hxy)

theorem both_mapM {R : β → δ → Prop} {S : β' → δ' → Prop} {f : β → Option β'} {f' : δ → Option δ'}
    {l : List β} {l' : List δ} (h : List.Forall₂ (fun x y => Both S (f x) (f' y)) l l') :
    Both (List.Forall₂ S) (l.mapM f) (l'.mapM f') := by
  induction h with
  | nil => exact .nil
  | cons hx _ ih =>
    rw [List.mapM_cons, List.mapM_cons]
    exact both_bind hx (fun x y hxy _ _ => both_bind ih (fun xs ys hs _ _ => .cons hxy hs))

theorem forall₂_same {S : β → β → Prop} {l : List β} (h : ∀ x ∈ l, S x x) : List.Forall₂ S l l := by
  induction l with
  | nil => exact .nil
  | cons x l ih => exact .cons (h x (by simp)) (ih (fun y hy => h y (List.mem_cons_of_mem _ hy)))

theorem both_put {κ : Type} [DecidableEq κ] {S : β → β → Prop} {m m' : AMap κ β} {k : κ} {v v' : β}
    (h : List.Forall₂ (fun x y => y.1 = x.1 ∧ S x.2 y.2) m m') (hv : S v v') :
    List.Forall₂ (fun x y => y.1 = x.1 ∧ S x.2 y.2) (m.put k v) (m'.put k v') := by
  induction h with
  | nil => exact .cons ⟨rfl, hv⟩ .nil
  | @cons x y l l' hx h ih =>
    obtain ⟨a, b⟩ := x
    obtain ⟨a', b'⟩ := y
    obtain ⟨e, hb⟩ := hx
    dsimp only at e
    subst e
    unfold AMap.put
    split
    · exact .cons ⟨rfl, hv⟩ h
    · exact .cons ⟨rfl, hb⟩ ih

theorem both_find {κ : Type} [DecidableEq κ] {S : β → β → Prop} {m m' : AMap κ β}
    (h : List.Forall₂ (fun x y => y.1 = x.1 ∧ S x.2 y.2) m m') (k : κ) : Both S (m.find k) (m'.find k) := by
  induction h with
  | nil => trivial
  | @cons x y l l' hx h ih =>
    obtain ⟨a, b⟩ := x
    obtain ⟨a', b'⟩ := y
    obtain ⟨e, hb⟩ := hx
    dsimp only at e
    subst e
    unfold AMap.find
    split
    · exact hb
    · exact ih

theorem keys_like {κ : Type} {S : β → β → Prop} {m m' : AMap κ β}
    (h : List.Forall₂ (fun x y => y.1 = x.1 ∧ S x.2 y.2) m m') : m'.keys = m.keys := by
  induction h with
  | nil => rfl
  | cons hx _ ih => show _ :: _ = _ :: _; rw [hx.1]; exact congrArg _ ih

end

/-! ### Filling the library -/

section
variable {R : α → α → Prop}

/-- The state of the loops. -/
def LikeState (R : α → α → Prop) (s s' : Lib α γ × Bool) : Prop := Lib.Like R s.1 s'.1 ∧ s'.2 = s.2

theorem addExercise_like {s s' : Lib α γ × Bool} {m m' : ExerciseM α} (hs : LikeState R s s') (hm : ExerciseM.Like R m m') :
    Both (LikeState R) (addExerciseM s m) (addExerciseM s' m') := by
  obtain ⟨⟨hg, hc, hl, he⟩, hf⟩ := hs
  have h1 := hm.1
  have h2 := hm.2.1
  unfold addExerciseM
  rw [h1, h2, hg]
  cases tryOp s.1.graph (.addExercise m.id m.lessonId) with
  | none => trivial
  | some g => exact ⟨⟨rfl, hc, hl, both_put he hm⟩, hf⟩

theorem addLesson_like {s s' : Lib α γ × Bool} {m m' : LessonM α} (hs : LikeState R s s') (hm : LessonM.Like R m m') :
    Both (LikeState R) (addLessonM s m) (addLessonM s' m') := by
  obtain ⟨⟨hg, hc, hl, he⟩, hf⟩ := hs
  have hm' := hm
  obtain ⟨h1, h2, h3, h4, h5, h6, h7⟩ := hm
  unfold addLessonM
  rw [h1, h2, h3, h4, h5, hg, hf]
  cases tryOp s.1.graph (.addLesson m.id m.courseId) with
  | none => trivial
  | some g =>
    show Both _ ((tryOp g _).bind _) ((tryOp g _).bind _)
    cases tryOp g (.addDependencies m.id .lesson m.deps) with
    | none => trivial
    | some g =>
      show Both _ ((tryOp g _).bind _) ((tryOp g _).bind _)
      cases tryOp g (.addEncompassed m.id m.deps m.enc) with
      | none => trivial
      | some g => exact ⟨⟨rfl, hc, both_put hl hm', he⟩, rfl⟩

theorem addCourse_like {s s' : Lib α γ × Bool} {m m' : CourseM α γ} (hs : LikeState R s s') (hm : CourseM.Like R m m') :
    Both (LikeState R) (addCourseM s m) (addCourseM s' m') := by
  obtain ⟨⟨hg, hc, hl, he⟩, hf⟩ := hs
  have hm' := hm
  obtain ⟨h1, h2, h3, h4, h5, h6, h7, h8⟩ := hm
  unfold addCourseM
  rw [h1, h2, h3, h4, hg, hf]
  cases tryOp s.1.graph (.addCourse m.id) with
  | none => trivial
  | some g =>
    show Both _ ((tryOp g _).bind _) ((tryOp g _).bind _)
    cases tryOp g (.addDependencies m.id .course m.deps) with
    | none => trivial
    | some g =>
      show Both _ ((tryOp g _).bind _) ((tryOp g _).bind _)
      cases tryOp g (.addEncompassed m.id m.deps m.enc) with
      | none => trivial
      | some g => exact ⟨⟨rfl, both_put hc hm', hl, he⟩, rfl⟩

theorem addLessonAll_like {s s' : Lib α γ × Bool} {l l' : LessonM α × List (ExerciseM α)} (hs : LikeState R s s')
    (hl : LikeLessons R l l') : Both (LikeState R) (addLessonAll s l) (addLessonAll s' l') := by
  refine both_bind (addLesson_like hs hl.1) (fun t t' h _ _ => ?_)
  exact both_foldlM (R := ExerciseM.Like R) (S := LikeState R) (f := addExerciseM) (f' := addExerciseM)
    (fun s s' x y h1 h2 => addExercise_like h1 h2) hl.2 h

theorem addCourseAll_like {s s' : Lib α γ × Bool} {c c' : Opened α γ} (hs : LikeState R s s')
    (hc : Opened.Like R c c') : Both (LikeState R) (addCourseAll s c) (addCourseAll s' c') := by
  refine both_bind (addCourse_like hs hc.1) (fun t t' h _ _ => ?_)
  exact both_foldlM (R := LikeLessons R) (S := LikeState R) (f := addLessonAll) (f' := addLessonAll)
    (fun s s' x y h1 h2 => addLessonAll_like h1 h2) hc.2 h

theorem processResults_like (o : Graph.KeyOrder Str) (fuel : Nat) {cs cs' : List (Opened α γ)}
    (h : List.Forall₂ (Opened.Like R) cs cs') :
    Both (Both (Lib.Like R)) (processResults o fuel cs) (processResults o fuel cs') := by
  have h0 : LikeState (γ := γ) R ({}, true) ({}, true) := ⟨⟨rfl, .nil, .nil, .nil⟩, rfl⟩
  have key := both_foldlM (R := Opened.Like R) (S := LikeState R) (f := addCourseAll) (f' := addCourseAll)
    (fun s s' x y h1 h2 => addCourseAll_like h1 h2) h h0
  unfold processResults
  cases h1 : cs.foldlM addCourseAll ({}, true) with
  | none =>
    cases h2 : cs'.foldlM addCourseAll ({}, true) with
    | none => trivial
    | some x => rw [h1, h2] at key; exact key.elim
  | some x =>
    cases h2 : cs'.foldlM addCourseAll ({}, true) with
    | none => rw [h1, h2] at key; exact key.elim
    | some y =>
      rw [h1, h2] at key
      obtain ⟨s, flag⟩ := x
      obtain ⟨s', flag'⟩ := y
      obtain ⟨⟨hg, hc, hl, he⟩, hf⟩ := key
      dsimp only at hg hc hl he hf ⊢
      subst hf
      rw [hg]
      generalize (if flag' = true then s.graph.updateStartingLessons.setEncompassingEqualsDependency
        else s.graph.updateStartingLessons) = g
      cases Graph.checkCycles g o fuel with
      | none => trivial
      | some r =>
        cases r with
        | error e => trivial
        | ok u => exact ⟨rfl, hc, hl, he⟩

/-! ### Reading the disk -/

/-- What has to hold of two disks: the same files in the same order, and related manifests. -/
structure DisksLike (R : α → α → Prop) (d d' : Disk α γ) (ig ig' : List FPath) : Prop where
  walk : ∀ dir, d'.walk dir = d.walk dir
  courseFiles : courseFiles d' ig' = courseFiles d ig
  course : ∀ p, p.getLast? = some courseFile → Both (CourseM.Like R) (d.course p) (d'.course p)
  lesson : ∀ p, p.getLast? = some lessonFile → Both (LessonM.Like R) (d.lesson p) (d'.lesson p)
  exercise : ∀ p, p.getLast? = some exerciseFile → Both (ExerciseM.Like R) (d.exercise p) (d'.exercise p)
  generate : ∀ p c c' cfg, p.getLast? = some Library.courseFile → d.course p = some c → d'.course p = some c' →
    CourseM.Like R c c' → c.gen = some cfg →
    Both (Generated.Like R) (d.generate cfg p.dropLast c) (d'.generate cfg p.dropLast c')

variable {d d' : Disk α γ} {ig ig' : List FPath}

theorem filesAt_like (h : DisksLike R d d' ig ig') (dir : Path) (name : Str) : filesAt d' dir name = filesAt d dir name := by
  unfold filesAt; rw [h.walk]

theorem filesAt_last {dir : Path} {name : Str} {p : Path} (hp : p ∈ filesAt d dir name) : p.getLast? = some name := by
  unfold filesAt at hp
  have := (List.mem_filter.mp hp).2
  rw [Bool.and_eq_true] at this
  exact of_decide_eq_true this.2

theorem openExercise_like (h : DisksLike R d d' ig ig') {l l' : LessonM α} (hl : LessonM.Like R l l') {p : Path}
    (hp : p.getLast? = some exerciseFile) :
    Both (ExerciseM.Like R) (openExercise d l p) (openExercise d' l' p) := by
  refine both_bind (h.exercise p hp) (fun x y hxy _ _ => ?_)
  have e : verifyExercise l' y = verifyExercise l x := by
    unfold verifyExercise
    rw [hxy.1, hxy.2.1, hxy.2.2.1, hl.1, hl.2.2.2.2.1]
  rw [e]
  by_cases hv : verifyExercise l x = true
  · rw [if_pos hv, if_pos hv]; exact hxy
  · rw [if_neg hv, if_neg hv]; trivial

theorem openLesson_like (h : DisksLike R d d' ig ig') {c c' : CourseM α γ} (hc : c'.id = c.id) {p : Path}
    (hp : p.getLast? = some lessonFile) :
    Both (LikeLessons R) (openLesson d c p) (openLesson d' c' p) := by
  refine both_bind (h.lesson p hp) (fun x y hxy _ _ => ?_)
  have e : verifyLesson c' y = verifyLesson c x := by
    unfold verifyLesson
    rw [hxy.1, hxy.2.2.2.2.1, hc]
  unfold processLesson
  rw [e, filesAt_like h]
  by_cases hv : verifyLesson c x = true
  · rw [if_pos hv, if_pos hv]
    exact both_bind (both_mapM (R := fun _ _ => True)
      (forall₂_same (fun q hq => openExercise_like h hxy (filesAt_last hq)))) (fun es es' hes _ _ => ⟨hxy, hes⟩)
  · rw [if_neg hv, if_neg hv]; trivial

theorem processCourse_like (h : DisksLike R d d' ig ig') {p : Path} (hp : p.getLast? = some courseFile)
    {c c' : CourseM α γ} (h1 : d.course p = some c) (h2 : d'.course p = some c') (hc : CourseM.Like R c c') :
    Both (Opened.Like R) (processCourse d p.dropLast c) (processCourse d' p.dropLast c') := by
  have e : verifyCourse c' = verifyCourse c := by unfold verifyCourse; rw [hc.1]
  unfold processCourse
  rw [e]
  by_cases hv : verifyCourse c = true
  · rw [if_pos hv, if_pos hv]
    have hrun : Both (fun x y => CourseM.Like R x.1 y.1 ∧ List.Forall₂ (LikeLessons R) x.2 y.2)
        (runGenerator d p.dropLast c) (runGenerator d' p.dropLast c') := by
      unfold runGenerator
      have hge : c'.gen = c.gen := hc.2.2.2.2.2.1
      rw [hge]
      cases hg : c.gen with
      | none => exact ⟨hc, .nil⟩
      | some cfg =>
        refine both_bind (h.generate p c c' cfg hp h1 h2 hc hg) (fun g g' hgg _ _ => ⟨?_, hgg.1⟩)
        obtain ⟨a1, a2, a3, a4, a5, a6, a7, a8⟩ := hc
        refine ⟨a1, a2, a3, a4, ?_, a6, ?_, a8⟩
        · show g'.metadata.or c'.metadata = g.metadata.or c.metadata
          rw [hgg.2.1, a5]
        · show Both R (g.instructions.or c.instructions) (g'.instructions.or c'.instructions)
          have := hgg.2.2
          cases hi : g.instructions <;> cases hi' : g'.instructions <;> rw [hi, hi'] at this
          · exact a7
          · exact this.elim
          · exact this.elim
          · exact this
    refine both_bind hrun (fun x y hxy _ _ => ?_)
    obtain ⟨x1, x2⟩ := x
    obtain ⟨y1, y2⟩ := y
    refine both_bind (R := List.Forall₂ (LikeLessons R)) ?_ (fun fs fs' hf _ _ => ⟨hxy.1, ?_⟩)
    · rw [filesAt_like h]
      exact both_mapM (R := fun _ _ => True)
        (forall₂_same (fun q hq => openLesson_like h hxy.1.1 (filesAt_last hq)))
    · exact List.rel_append hxy.2 hf
  · rw [if_neg hv, if_neg hv]; trivial

theorem courseFiles_last {p : Path} (hp : p ∈ courseFiles d ig) : p.getLast? = some courseFile := by
  unfold courseFiles at hp
  have := (List.mem_filter.mp hp).2
  rw [Bool.and_eq_true, Bool.and_eq_true] at this
  exact of_decide_eq_true this.1.2

theorem openCourses_like (h : DisksLike R d d' ig ig') :
    Both (List.Forall₂ (Opened.Like R)) (openCourses d ig) (openCourses d' ig') := by
  unfold openCourses
  rw [h.courseFiles]
  have h1 : Both (List.Forall₂ (fun (x y : Path × CourseM α γ) => ∃ p : Path, p.getLast? = some courseFile ∧
      x.1 = p.dropLast ∧ y.1 = p.dropLast ∧ d.course p = some x.2 ∧ d'.course p = some y.2 ∧ CourseM.Like R x.2 y.2))
      ((courseFiles d ig).mapM (fun p => (d.course p).map (fun m => (p.dropLast, m))))
      ((courseFiles d ig).mapM (fun p => (d'.course p).map (fun m => (p.dropLast, m)))) := by
    refine both_mapM (R := fun _ _ => True) (forall₂_same (fun p hp => ?_))
    have hl := courseFiles_last hp
    have := h.course p hl
    cases hc : d.course p with
    | none =>
      cases hc' : d'.course p with
      | none => trivial
      | some c' => rw [hc, hc'] at this; exact this.elim
    | some c =>
      cases hc' : d'.course p with
      | none => rw [hc, hc'] at this; exact this.elim
      | some c' =>
        rw [hc, hc'] at this
        exact ⟨p, hl, rfl, rfl, hc, hc', this⟩
  refine both_bind h1 (fun ms ms' hms _ _ => both_mapM (R := fun _ _ => True) (hms.imp ?_))
  rintro ⟨x1, x2⟩ ⟨y1, y2⟩ ⟨p, hp, rfl, rfl, hc, hc', hl⟩
  exact processCourse_like h hp hc hc' hl

/-- Opening two such disks gives the same. -/
theorem openLibrary_like (h : DisksLike R d d' ig ig') (o : Graph.KeyOrder Str) (fuel : Nat) :
    Both (Both (Lib.Like R)) (openLibrary o fuel d ig) (openLibrary o fuel d' ig') := by
  have key := openCourses_like h
  unfold openLibrary
  cases h1 : openCourses d ig with
  | none =>
    cases h2 : openCourses d' ig' with
    | none => trivial
    | some x => rw [h1, h2] at key; exact key.elim
  | some x =>
    cases h2 : openCourses d' ig' with
    | none => rw [h1, h2] at key; exact key.elim
    | some y => rw [h1, h2] at key; exact processResults_like o fuel key

theorem loads_like (h : DisksLike R d d' ig ig') {lib : Lib α γ} (hl : Loads d ig lib) :
    ∃ lib', Loads d' ig' lib' ∧ Lib.Like R lib lib' := by
  obtain ⟨o, fuel, ho, hl⟩ := hl
  have := openLibrary_like h o fuel
  rw [hl] at this
  cases h2 : openLibrary o fuel d' ig' with
  | none => rw [h2] at this; exact this.elim
  | some r =>
    cases r with
    | none => rw [h2] at this; exact this.elim
    | some lib' => rw [h2] at this; exact ⟨lib', ⟨o, fuel, ho, h2⟩, this⟩

end

end Trane.Library
