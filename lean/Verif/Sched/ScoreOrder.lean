import Verif.Sched.OverlayProps
import Verif.Library.Alike

/-!
# C104: scores do not depend on the order of the sets in the graph
-/

namespace Trane.UnitScorer
open Trane.Library (Both)

variable {ι R T W : Type} [DecidableEq ι] [Field R] [LinearOrder R]

/-! ### Specification -/

/-- The two graphs have the same units and parents, and the sets of lessons, of exercises and of superseding units are
the same, in any order. -/
structure SameSets (g g' : Graph ι) : Prop where
  type : ∀ u, g'.getUnitType u = g.getUnitType u
  exerciseLesson : ∀ u, g'.getExerciseLesson u = g.getExerciseLesson u
  lessonCourse : ∀ u, g'.getLessonCourse u = g.getLessonCourse u
  lessonExercises : ∀ u, Both List.Perm (g.getLessonExercises u) (g'.getLessonExercises u)
  courseLessons : ∀ u, Both List.Perm (g.getCourseLessons u) (g'.getCourseLessons u)
  supersededBy : ∀ u, Both List.Perm (g.getSupersededBy u) (g'.getSupersededBy u)

/-- The same data and clock with another graph. -/
def World.on (w : World ι R T W) (g : Graph ι) : World ι R T W := { w with graph := g }

/-! ### Lemmas -/

theorem both_cases {β δ : Type} {S : β → δ → Prop} {o : Option β} {o' : Option δ} (h : Both S o o') :
    (o = none ∧ o' = none) ∨ ∃ x y, o = some x ∧ o' = some y ∧ S x y := by
  cases o <;> cases o'
  · exact .inl ⟨rfl, rfl⟩
  · exact h.elim
  · exact h.elim
  · exact .inr ⟨_, _, rfl, rfl, h⟩

theorem both_eq {β : Type} {o o' : Option β} (h : Both Eq o o') : o' = o := by
  cases o <;> cases o'
  · rfl
  · exact h.elim
  · exact h.elim
  · exact congrArg some (show _ = _ from h).symm

theorem both_mapM_perm {β δ : Type} (f : β → Option δ) {l l' : List β} (h : l.Perm l') : Both List.Perm (l.mapM f) (l'.mapM f) := by
  induction h with
  | nil => exact List.Perm.nil
  | cons x _ ih =>
    rw [List.mapM_cons, List.mapM_cons]
    cases f x with
    | none => trivial
    | some a =>
      rename_i l1 l2 _
      cases h1 : l1.mapM f <;> cases h2 : l2.mapM f <;> rw [h1, h2] at ih
      all_goals first | trivial | exact ih.elim | exact List.Perm.cons a ih
  | swap x y l =>
    simp only [List.mapM_cons]
    cases f x <;> cases f y <;> cases l.mapM f <;> first | trivial | exact List.Perm.swap ..
  | trans _ _ ih ih' =>
    rename_i l1 l2 l3 _ _
    cases h1 : l1.mapM f <;> cases h2 : l2.mapM f <;> cases h3 : l3.mapM f <;> rw [h1, h2] at ih <;> rw [h2, h3] at ih'
    all_goals first | trivial | exact ih.elim | exact ih'.elim | exact List.Perm.trans ih ih'

theorem both_keepM_perm {β : Type} (p : β → Option Bool) {l l' : List β} (h : l.Perm l') : Both List.Perm (keepM p l) (keepM p l') := by
  induction h with
  | nil => exact List.Perm.nil
  | cons x _ ih =>
    rename_i l1 l2 _
    unfold keepM
    cases p x with
    | none => trivial
    | some b =>
      cases h1 : keepM p l1 <;> cases h2 : keepM p l2 <;> rw [h1, h2] at ih
      all_goals first | trivial | exact ih.elim | (cases b <;> first | exact ih | exact List.Perm.cons x ih)
  | swap x y l =>
    simp only [keepM]
    cases p x <;> cases p y <;> cases keepM p l <;> (try trivial)
    rename_i b b' r
    cases b <;> cases b' <;> first | exact List.Perm.refl _ | exact List.Perm.swap ..
  | trans _ _ ih ih' =>
    rename_i l1 l2 l3 _ _
    cases h1 : keepM p l1 <;> cases h2 : keepM p l2 <;> cases h3 : keepM p l3 <;> rw [h1, h2] at ih <;> rw [h2, h3] at ih'
    all_goals first | trivial | exact ih.elim | exact ih'.elim | exact List.Perm.trans ih ih'

theorem mean_perm {xs ys : List R} (h : xs.Perm ys) : mean ys = mean xs := by
  unfold mean
  rw [h.sum_eq, h.length_eq]

theorem reduceOption_perm {β : Type} {xs ys : List (Option β)} (h : xs.Perm ys) : xs.reduceOption.Perm ys.reduceOption :=
  h.filterMap _

theorem all_perm {β : Type} (p : β → Bool) {xs ys : List β} (h : xs.Perm ys) : ys.all p = xs.all p := by
  rw [Bool.eq_iff_iff, List.all_eq_true, List.all_eq_true]
  simp only [h.mem_iff]

theorem isEmpty_perm {β : Type} {xs ys : List β} (h : xs.Perm ys) : ys.isEmpty = xs.isEmpty := by
  rw [Bool.eq_iff_iff, List.isEmpty_iff, List.isEmpty_iff]
  exact ⟨fun e => (e ▸ h).eq_nil, fun e => (e ▸ h.symm).eq_nil⟩

/-- Folding steps that add what does not depend on what there is. -/
theorem foldlM_union {β : Type} {f : List β → β → Option (List β)} {h : β → Option (List β)}
    (hf : ∀ a x, Both (fun r s => ∀ y, y ∈ r ↔ y ∈ a ∨ y ∈ s) (f a x) (h x)) (l : List β) : ∀ a,
    (l.foldlM f a = none ↔ ∃ x ∈ l, h x = none) ∧
      ∀ r, l.foldlM f a = some r → ∀ y, y ∈ r ↔ y ∈ a ∨ ∃ x ∈ l, ∃ s, h x = some s ∧ y ∈ s := by
  induction l with
  | nil => intro a; simp
  | cons x l ih =>
    intro a
    rw [List.foldlM_cons]
    have hx := hf a x
    cases h1 : f a x with
    | none =>
      cases h2 : h x with
      | none => simp [h2]
      | some s => rw [h1, h2] at hx; exact hx.elim
    | some r0 =>
      cases h2 : h x with
      | none => rw [h1, h2] at hx; exact hx.elim
      | some s =>
        rw [h1, h2] at hx
        have hx : ∀ y, y ∈ r0 ↔ y ∈ a ∨ y ∈ s := hx
        obtain ⟨i1, i2⟩ := ih r0
        refine ⟨?_, ?_⟩
        · change l.foldlM f r0 = none ↔ _
          rw [i1]; simp [h2]
        · intro r hr y
          rw [i2 r hr y, hx y]
          simp [h2, or_assoc]

theorem mapM_all {β : Type} (f : ι → Option (Option β)) (p : β → Bool) (l : List ι) :
    ((l.mapM f).map (fun vs => vs.reduceOption.all p) = none ↔ ∃ x ∈ l, f x = none) ∧
    ∀ b, (l.mapM f).map (fun vs => vs.reduceOption.all p) = some b →
      (b = true ↔ ∀ x ∈ l, ∀ v, f x = some (some v) → p v = true) := by
  induction l with
  | nil => simp
  | cons x l ih =>
    rw [List.mapM_cons]
    cases hx : f x with
    | none => simp [hx]
    | some o =>
      obtain ⟨i1, i2⟩ := ih
      cases hl : l.mapM f with
      | none =>
        rw [hl] at i1
        simp only [Option.map_none, true_iff] at i1
        simp [i1]
      | some vs =>
        rw [hl] at i1 i2
        have i2 := i2 _ rfl
        refine ⟨?_, ?_⟩
        · simpa [hx] using i1
        · intro b hb
          simp only [Option.pure_def, Option.bind_eq_bind, Option.bind_some, Option.map_some, Option.some.injEq] at hb
          subst hb
          cases o with
          | none =>
            rw [List.reduceOption_cons_of_none, i2]
            simp [hx]
          | some v =>
            rw [List.reduceOption_cons_of_some, List.all_cons, Bool.and_eq_true, i2]
            simp [hx]

section
variable {w : World ι R T W} {g : Graph ι}

theorem on_validInLesson (h : SameSets w.graph g) (l : ι) : (w.validInLesson l).Perm ((w.on g).validInLesson l) := by
  unfold World.validInLesson World.on
  dsimp only
  rw [h.lessonCourse]
  split
  · exact List.Perm.refl _
  · split
    · exact List.Perm.refl _
    · have := h.lessonExercises l
      obtain ⟨h1, h2⟩ | ⟨s, s', h1, h2, this⟩ := both_cases this
      · first | (simp only [h1, h2]; done) | (simp only [h1, h2]; exact List.Perm.refl _)
      · simp only [h1, h2]
        exact List.Perm.filter _ this

theorem on_allValid (h : SameSets w.graph g) (u : ι) : (w.allValid u).Perm ((w.on g).allValid u) := by
  unfold World.allValid
  have ht : (w.on g).graph.getUnitType u = w.graph.getUnitType u := h.type u
  rw [ht]
  cases w.graph.getUnitType u with
  | none => exact List.Perm.refl _
  | some t =>
  cases t with
  | exercise => exact List.Perm.refl _
  | lesson => exact on_validInLesson h u
  | course =>
    change List.Perm (if w.black u then [] else _) (if w.black u then [] else _)
    split
    · exact List.Perm.refl _
    · have := h.courseLessons u
      change List.Perm _ (((g.getCourseLessons u).getD []).flatMap _)
      obtain ⟨h1, h2⟩ | ⟨s, s', h1, h2, this⟩ := both_cases this
      · first | (simp only [h1, h2]; done) | (simp only [h1, h2]; exact List.Perm.refl _)
      · simp only [h1, h2]
        exact List.Perm.flatMap this (fun l _ => on_validInLesson h l)

theorem on_exRec (h : SameSets w.graph g) (e : ι) : (w.on g).exRec e = w.exRec e := by
  unfold World.exRec World.on
  dsimp only
  rw [h.exerciseLesson, h.lessonCourse]

theorem on_seenP (h : SameSets w.graph g) (u : ι) : seenP (w.on g) u = seenP w u := by
  unfold seenP
  simp only [on_exRec h]
  exact all_perm _ (on_allValid h u)

theorem on_supersededP (h : SameSets w.graph g) (f : ι → Option (Option R)) (u : ι) {ids ids' : List ι}
    (hi : ∀ x, x ∈ ids ↔ x ∈ ids') : supersededP (w.on g) f u ids' = supersededP w f u ids := by
  unfold supersededP
  have he : ids'.isEmpty = ids.isEmpty := by
    rw [Bool.eq_iff_iff, List.isEmpty_iff, List.isEmpty_iff, List.eq_nil_iff_forall_not_mem, List.eq_nil_iff_forall_not_mem]
    simp only [hi]
  rw [he, on_seenP h]
  split
  · rfl
  · split
    · rfl
    · have hb : ∀ o : Option (List (Option R)), (do let vs ← o; return vs.reduceOption.all (fun s => decide (s ≥ w.supScore))) =
          o.map (fun vs => vs.reduceOption.all (fun s => decide (s ≥ w.supScore))) := fun o => by cases o <;> rfl
      refine ((hb _).trans ?_).trans (hb _).symm
      change (ids'.mapM f).map (fun vs => vs.reduceOption.all (fun s => decide (s ≥ w.supScore))) =
        (ids.mapM f).map (fun vs => vs.reduceOption.all (fun s => decide (s ≥ w.supScore)))
      obtain ⟨a1, a2⟩ := mapM_all f (fun s => decide (s ≥ w.supScore)) ids
      obtain ⟨b1, b2⟩ := mapM_all f (fun s => decide (s ≥ w.supScore)) ids'
      simp only [hi] at a1 a2
      generalize (ids'.mapM f).map (fun vs => vs.reduceOption.all (fun s => decide (s ≥ w.supScore))) = o' at *
      generalize (ids.mapM f).map (fun vs => vs.reduceOption.all (fun s => decide (s ≥ w.supScore))) = o at *
      cases o with
      | none => exact b1.2 (a1.1 rfl)
      | some b =>
        cases o' with
        | none => have := a1.2 (b1.1 rfl); cases this
        | some b' => exact congrArg some (Bool.eq_iff_iff.mpr ((b2 b' rfl).trans (a2 b rfl).symm))

/-- What an id is replaced by. -/
def replacement (w : World ι R T W) (f : ι → Option (Option R)) (n : Nat) (id : ι) : Option (List ι) :=
  match w.graph.getSupersededBy id with
  | some s => (supersededP w f id s).bind (fun b => if b then replaceP w f n s else some [id])
  | none => some [id]

theorem replaceP_union (w : World ι R T W) (f : ι → Option (Option R)) (n : Nat) (ids : List ι) :
    (replaceP w f (n + 1) ids = none ↔ ∃ x ∈ ids, replacement w f n x = none) ∧
      ∀ r, replaceP w f (n + 1) ids = some r → ∀ y, y ∈ r ↔ ∃ x ∈ ids, ∃ s, replacement w f n x = some s ∧ y ∈ s := by
  have := foldlM_union (h := replacement w f n) (f := fun acc id =>
      match w.graph.getSupersededBy id with
      | some s => do
        let b ← supersededP w f id s
        if b then
          let r ← replaceP w f n s
          return extendSet acc r
        else return acc.insert id
      | none => some (acc.insert id)) ?_ ids []
  · obtain ⟨h1, h2⟩ := this
    refine ⟨h1, fun r hr y => ?_⟩
    rw [h2 r hr y]
    simp
  · intro a x
    unfold replacement
    cases w.graph.getSupersededBy x with
    | none =>
      change ∀ y, _
      intro y; rw [List.mem_insert_iff, List.mem_singleton]; tauto
    | some s =>
      dsimp only
      cases supersededP w f x s with
      | none => trivial
      | some b =>
        cases b with
        | false =>
          change ∀ y, _
          intro y; rw [List.mem_insert_iff, List.mem_singleton]; tauto
        | true =>
          change Both _ ((replaceP w f n s).bind _) (replaceP w f n s)
          cases replaceP w f n s with
          | none => trivial
          | some r =>
            change ∀ y, _
            intro y; rw [mem_extendSet]

theorem on_replaceP (h : SameSets w.graph g) (f : ι → Option (Option R)) : ∀ n {ids ids' : List ι}, (∀ x, x ∈ ids ↔ x ∈ ids') →
    Both (fun a b => ∀ x, x ∈ a ↔ x ∈ b) (replaceP w f n ids) (replaceP (w.on g) f n ids') := by
  intro n
  induction n with
  | zero => intros; trivial
  | succ n ih =>
    intro ids ids' hi
    have hr : ∀ x, Both (fun a b => ∀ x, x ∈ a ↔ x ∈ b) (replacement w f n x) (replacement (w.on g) f n x) := by
      intro x
      unfold replacement
      change Both _ _ (match g.getSupersededBy x with | some s => _ | none => _)
      have := h.supersededBy x
      obtain ⟨h1, h2⟩ | ⟨s, s', h1, h2, this⟩ := both_cases this
      · first | (simp only [h1, h2]; done) | (simp only [h1, h2]; exact fun _ => Iff.rfl)
      · simp only [h1, h2]
        have hs : ∀ y, y ∈ s ↔ y ∈ s' := fun y => List.Perm.mem_iff this
        rw [on_supersededP h f x hs]
        cases supersededP w f x s with
        | none => trivial
        | some b =>
          cases b with
          | false => exact fun _ => Iff.rfl
          | true => exact ih hs
    obtain ⟨a1, a2⟩ := replaceP_union w f n ids
    obtain ⟨b1, b2⟩ := replaceP_union (w.on g) f n ids'
    have hn : ∀ x, replacement (w.on g) f n x = none ↔ replacement w f n x = none := by
      intro x
      have := hr x
      cases h1 : replacement w f n x <;> cases h2 : replacement (w.on g) f n x <;> rw [h1, h2] at this
      all_goals first | exact Iff.rfl | exact this.elim | simp
    have hm : ∀ x y, (∃ s, replacement (w.on g) f n x = some s ∧ y ∈ s) ↔ ∃ s, replacement w f n x = some s ∧ y ∈ s := by
      intro x y
      have := hr x
      cases h1 : replacement w f n x <;> cases h2 : replacement (w.on g) f n x <;> rw [h1, h2] at this
      all_goals first | exact Iff.rfl | exact this.elim | skip
      have this : ∀ y, _ := this
      simp [this y]
    simp only [hn, hm, ← hi] at b1 b2
    cases h1 : replaceP w f (n + 1) ids <;> cases h2 : replaceP (w.on g) f (n + 1) ids'
    · trivial
    · rw [b1.2 (a1.1 h1)] at h2; cases h2
    · rw [a1.2 (b1.1 h2)] at h1; cases h1
    · exact fun y => (a2 _ h1 y).trans (b2 _ h2 y).symm

theorem on_checkP (h : SameSets w.graph g) (f : ι → Option (Option R)) (n : Nat) (u : ι) :
    checkP (w.on g) f n u = checkP w f n u := by
  unfold checkP
  change (match g.getSupersededBy u with | none => _ | some ids => _) = _
  have := h.supersededBy u
  obtain ⟨h1, h2⟩ | ⟨s, s', h1, h2, this⟩ := both_cases this
  · first | (simp only [h1, h2]; done) | (simp only [h1, h2]; rfl)
  · simp only [h1, h2]
    have hr := on_replaceP h f n (ids := s) (ids' := s') (fun y => List.Perm.mem_iff this)
    change (replaceP (w.on g) f n s').bind _ = (replaceP w f n s).bind _
    obtain ⟨h1, h2⟩ | ⟨s, s', h1, h2, hr⟩ := both_cases hr
    · first | (simp only [h1, h2]; done) | (simp only [h1, h2]; rfl)
    · simp only [h1, h2]
      exact on_supersededP h f u hr

theorem on_lessonMean (h : SameSets w.graph g) (l : ι) : lessonMean (w.on g) l = lessonMean w l := by
  unfold lessonMean
  change (match g.getLessonExercises l with | none => _ | some es => _) = _
  have := h.lessonExercises l
  obtain ⟨h1, h2⟩ | ⟨s, s', h1, h2, this⟩ := both_cases this
  · first | (simp only [h1, h2]; done) | (simp only [h1, h2]; rfl)
  · simp only [h1, h2]
    have hp : (s.filter (fun e => !w.black e)).Perm (s'.filter (fun e => !w.black e)) := List.Perm.filter _ this
    change (if (s'.filter (fun e => !w.black e)).isEmpty then none else
      some (mean ((s'.filter (fun e => !w.black e)).map (fun e => ((w.on g).exRec e).score)))) = _
    simp only [on_exRec h]
    rw [isEmpty_perm hp, mean_perm (hp.map _)]

theorem on_lessonTrialsP (h : SameSets w.graph g) (l : ι) : lessonTrialsP (w.on g) l = lessonTrialsP w l := by
  unfold lessonTrialsP
  change (match g.getLessonExercises l with | none => _ | some es => _) = _
  have := h.lessonExercises l
  obtain ⟨h1, h2⟩ | ⟨s, s', h1, h2, this⟩ := both_cases this
  · first | (simp only [h1, h2]; done) | (simp only [h1, h2]; rfl)
  · simp only [h1, h2]
    have hp : (s.filter (fun e => !w.black e)).Perm (s'.filter (fun e => !w.black e)) := List.Perm.filter _ this
    change (if (s'.filter (fun e => !w.black e)).isEmpty then none else
      some (mean ((s'.filter (fun e => !w.black e)).map (fun e => (((w.on g).exRec e).trials : R))))) = _
    simp only [on_exRec h]
    rw [isEmpty_perm hp, mean_perm (hp.map _)]

theorem on_lessonP (h : SameSets w.graph g) (f : ι → Option (Option R)) (n : Nat) (l : ι) :
    lessonP (w.on g) f n l = lessonP w f n l := by
  unfold lessonP
  rw [on_checkP h, on_lessonMean h]
  rfl

theorem over_on (w : World ι R T W) (g : Graph ι) (c : Caches ι R) : over (w.on g) c = (over w c).on g := rfl

theorem on_lessonO (h : SameSets w.graph g) (c : Caches ι R) (f : ι → Option (Option R)) (n : Nat) (l : ι) :
    lessonO (w.on g) c f n l = lessonO w c f n l := by
  unfold lessonO
  rw [over_on, on_lessonP (w := over w c) h]

theorem on_courseO (h : SameSets w.graph g) (c : Caches ι R) (f : ι → Option (Option R)) (n : Nat) (u : ι) :
    courseO (w.on g) c f n u = courseO w c f n u := by
  unfold courseO
  rw [over_on, on_checkP (w := over w c) h]
  have hl : lessonO (w.on g) c f n = lessonO w c f n := funext (on_lessonO h c f n)
  rw [hl]
  change (match c.cou.find u with | some v => _ | none => if w.black u then _ else (checkP (over w c) f n u).bind fun b =>
    if b then _ else match g.getCourseLessons u with | none => _ | some ls => _) = _
  have := h.courseLessons u
  obtain ⟨h1, h2⟩ | ⟨s, s', h1, h2, this⟩ := both_cases this
  · first | (simp only [h1, h2]; done) | (simp only [h1, h2]; rfl)
  · simp only [h1, h2]
    have hm := both_mapM_perm (lessonO w c f n) (show s.Perm s' from this)
    have e : (s'.mapM (lessonO w c f n)).bind (fun vs => if vs.reduceOption.isEmpty then some none else some (some (mean vs.reduceOption))) =
        (s.mapM (lessonO w c f n)).bind (fun vs => if vs.reduceOption.isEmpty then some none else some (some (mean vs.reduceOption))) := by
      obtain ⟨h1, h2⟩ | ⟨s, s', h1, h2, hm⟩ := both_cases hm
      · first | (simp only [h1, h2]; done) | (simp only [h1, h2]; rfl)
      · simp only [h1, h2]
        have hp := reduceOption_perm (show List.Perm _ _ from hm)
        simp only [Option.bind_some]
        rw [isEmpty_perm hp, mean_perm hp]
    cases c.cou.find u with
    | some v => rfl
    | none =>
      dsimp only
      split
      · rfl
      · refine congrArg _ (funext fun b => ?_)
        split
        · rfl
        · exact e

theorem on_scoreO (h : SameSets w.graph g) (c : Caches ι R) : ∀ n u, scoreO (w.on g) c n u = scoreO w c n u := by
  intro n
  induction n with
  | zero => intro u; rfl
  | succ n ih =>
    intro u
    have hs : scoreO (w.on g) c n = scoreO w c n := funext ih
    unfold scoreO
    change (match g.getUnitType u with | none => _ | some .exercise => _ | some .lesson => _ | some .course => _) = _
    rw [h.type, hs, on_lessonO h, on_courseO h, over_on, on_exRec (w := over w c) h]
    rfl

theorem on_courseTrialsO (h : SameSets w.graph g) (c : Caches ι R) (n : Nat) (u : ι) :
    courseTrialsO (w.on g) c n u = courseTrialsO w c n u := by
  have hs : scoreO (w.on g) c n = scoreO w c n := funext (on_scoreO h c n)
  have hl : lessonTrialsO (w.on g) c = lessonTrialsO w c := by
    funext l
    unfold lessonTrialsO
    rw [over_on, on_lessonTrialsP (w := over w c) h]
  unfold courseTrialsO
  rw [hs, hl, over_on]
  simp only [on_checkP (w := over w c) h]
  have := h.courseLessons u
  have hp : ((w.graph.getCourseLessons u).getD []).Perm ((g.getCourseLessons u).getD []) := by
    obtain ⟨h1, h2⟩ | ⟨s, s', h1, h2, this⟩ := both_cases this
    · first | (simp only [h1, h2]; done) | (simp only [h1, h2]; exact List.Perm.refl _)
    · simp only [h1, h2]
      exact this
  have hk := both_keepM_perm (fun l => (checkP (over w c) (scoreO w c n) n l).bind fun b => some (!w.black l && !b)) hp
  cases c.couT.find u with
  | some v => rfl
  | none =>
    dsimp only
    change (keepM (fun l => (checkP (over w c) (scoreO w c n) n l).bind fun b => some (!w.black l && !b))
      ((g.getCourseLessons u).getD [])).bind _ = (keepM (fun l => (checkP (over w c) (scoreO w c n) n l).bind
        fun b => some (!w.black l && !b)) ((w.graph.getCourseLessons u).getD [])).bind _
    revert hk
    generalize keepM (fun l => (checkP (over w c) (scoreO w c n) n l).bind fun b => some (!w.black l && !b))
      ((g.getCourseLessons u).getD []) = o'
    generalize keepM (fun l => (checkP (over w c) (scoreO w c n) n l).bind fun b => some (!w.black l && !b))
      ((w.graph.getCourseLessons u).getD []) = o
    intro hk
    cases o <;> cases o'
    · rfl
    · exact hk.elim
    · exact hk.elim
    · have hp := reduceOption_perm ((show List.Perm _ _ from hk).map (lessonTrialsO w c))
      change (if _ then _ else _) = (if _ then _ else _)
      rw [isEmpty_perm hp, mean_perm hp]

end

end Trane.UnitScorer
