import Verif.Sched.Separate
import Verif.Sched.TouchesOrder

/-!
# C113: queries and invalidations on the other side
-/

namespace Trane.UnitScorer

variable {ι R T W : Type} [DecidableEq ι] [Field R] [LinearOrder R] {D : ι → Prop} {w : World ι R T W}

theorem put_off {ν : Type} (m : AMap ι ν) {k : ι} (hk : ¬ D k) (v : ν) : ∀ u, D u → (m.put k v).find u = m.find u := by
  intro u hu
  exact AMap.find_put_ne m v (fun e => hk (e ▸ hu))

theorem fra_exC {x : ι} (hx : ¬ D x) : Frames D (fun _ => True) (exC w x) := by
  intro c a d e
  unfold exC at e
  cases hc : c.ex.find x with
  | some r => rw [hc] at e; cases e; exact ⟨.refl _ _, trivial⟩
  | none =>
    rw [hc] at e
    cases e
    exact ⟨⟨put_off _ hx _, fun _ _ => rfl, fun _ _ => rfl, fun _ _ => rfl, fun _ _ => rfl⟩, trivial⟩

theorem fra_seen (ha : Apart w.graph D) {u : ι} (hu : ¬ D u) : Frames D (fun _ => True) (seenC w u) := by
  unfold seenC
  exact fra_bind (fra_mapM _ fun x hx => fra_exC (allValid_in (apart_not ha) hu x hx)) fun _ _ => fra_pure trivial

section
variable {f : ι → M ι R (Option R)}

theorem fra_superseded (ha : Apart w.graph D) (hf : ∀ u, ¬ D u → Frames D (fun _ => True) (f u))
    {u : ι} (hu : ¬ D u) {ids : List ι} (hi : ∀ v ∈ ids, ¬ D v) : Frames D (fun _ => True) (supersededC w f u ids) := by
  unfold supersededC
  split
  · exact fra_pure trivial
  · refine fra_bind (fra_seen ha hu) fun b _ => ?_
    split
    · exact fra_pure trivial
    · exact fra_bind (fra_mapM _ fun x hx => hf x (hi x hx)) fun _ _ => fra_pure trivial

theorem fra_replace (ha : Apart w.graph D) (hf : ∀ u, ¬ D u → Frames D (fun _ => True) (f u)) :
    ∀ (n : Nat) {ids : List ι}, (∀ v ∈ ids, ¬ D v) → Frames D (fun r => ∀ v ∈ r, ¬ D v) (replaceC w f n ids)
  | 0, _, _ => fun _ _ _ e => by cases e
  | n + 1, ids, hi => by
    simp only [replaceC]
    refine fra_foldlM _ _ (by simp) fun acc hacc x hx => ?_
    have hxd := hi x hx
    have hins : ∀ v ∈ acc.insert x, ¬ D v := by
      intro v hv
      rcases List.mem_insert_iff.1 hv with rfl | hv
      · exact hxd
      · exact hacc v hv
    cases hs : w.graph.getSupersededBy x with
    | none => exact fra_pure hins
    | some s =>
      have hsd : ∀ v ∈ s, ¬ D v := fun v hv => ((apart_not ha).superseding x s hs v hv).2 hxd
      refine fra_bind (fra_superseded ha hf hxd hsd) fun b _ => ?_
      split
      · refine fra_bind (fra_replace ha hf n hsd) fun r hr => fra_pure ?_
        intro v hv
        rcases (mem_extendSet _ _ _).1 hv with hv | hv
        · exact hacc v hv
        · exact hr v hv
      · exact fra_pure hins

theorem fra_check (ha : Apart w.graph D) (hf : ∀ u, ¬ D u → Frames D (fun _ => True) (f u))
    (n : Nat) {u : ι} (hu : ¬ D u) : Frames D (fun _ => True) (checkC w f n u) := by
  unfold checkC
  cases hs : w.graph.getSupersededBy u with
  | none => exact fra_pure trivial
  | some s =>
    exact fra_bind (fra_replace ha hf n fun v hv => ((apart_not ha).superseding u s hs v hv).2 hu) fun r hr =>
      fra_superseded ha hf hu hr

theorem fra_storeLes {l : ι} (hl : ¬ D l) (v : Option R) : Frames D (fun _ => True) (storeLes l v : M ι R _) := by
  intro c a d e
  cases e
  exact ⟨⟨fun _ _ => rfl, put_off _ hl _, fun _ _ => rfl, fun _ _ => rfl, fun _ _ => rfl⟩, trivial⟩

theorem fra_storeCou {l : ι} (hl : ¬ D l) (v : Option R) : Frames D (fun _ => True) (storeCou l v : M ι R _) := by
  intro c a d e
  cases e
  exact ⟨⟨fun _ _ => rfl, fun _ _ => rfl, put_off _ hl _, fun _ _ => rfl, fun _ _ => rfl⟩, trivial⟩

theorem fra_storeLesT {l : ι} (hl : ¬ D l) (v : Option R) : Frames D (fun _ => True) (storeLesT l v : M ι R _) := by
  intro c a d e
  cases e
  exact ⟨⟨fun _ _ => rfl, fun _ _ => rfl, fun _ _ => rfl, put_off _ hl _, fun _ _ => rfl⟩, trivial⟩

theorem fra_storeCouT {l : ι} (hl : ¬ D l) (v : Option R) : Frames D (fun _ => True) (storeCouT l v : M ι R _) := by
  intro c a d e
  cases e
  exact ⟨⟨fun _ _ => rfl, fun _ _ => rfl, fun _ _ => rfl, fun _ _ => rfl, put_off _ hl _⟩, trivial⟩

theorem fra_lessonMean (ha : Apart w.graph D) {l : ι} (hl : ¬ D l) : Frames D (fun _ => True) (lessonMeanC w l) := by
  unfold lessonMeanC
  cases hs : w.graph.getLessonExercises l with
  | none => exact fra_pure trivial
  | some es =>
    have he : ∀ e ∈ es, ¬ D e := fun e hm => ((apart_not ha).exercises l es hs e hm).2 hl
    dsimp only
    split
    · exact fra_pure trivial
    · exact fra_bind (fra_mapM _ fun x hx => fra_exC (he x (List.mem_of_mem_filter hx))) fun _ _ => fra_pure trivial

theorem fra_lesson (ha : Apart w.graph D) (hf : ∀ u, ¬ D u → Frames D (fun _ => True) (f u)) (n : Nat) {l : ι} (hl : ¬ D l) :
    Frames D (fun _ => True) (lessonC w f n l) := by
  intro c a d e
  unfold lessonC at e
  cases hc : c.les.find l with
  | some v => rw [hc] at e; cases e; exact ⟨.refl _ _, trivial⟩
  | none =>
    rw [hc] at e
    have : Frames D (fun _ => True) (lessonBody w f n l) := by
      unfold lessonBody
      split
      · exact fra_storeLes hl _
      · refine fra_bind (fra_check ha hf n hl) fun b _ => ?_
        split
        · exact fra_storeLes hl _
        · exact fra_bind (fra_lessonMean ha hl) fun _ _ => fra_storeLes hl _
    exact this c a d e

theorem fra_course (ha : Apart w.graph D) (hf : ∀ u, ¬ D u → Frames D (fun _ => True) (f u)) (n : Nat) {u : ι} (hu : ¬ D u) :
    Frames D (fun _ => True) (courseC w f n u) := by
  intro c a d e
  unfold courseC at e
  cases hc : c.cou.find u with
  | some v => rw [hc] at e; cases e; exact ⟨.refl _ _, trivial⟩
  | none =>
    rw [hc] at e
    have : Frames D (fun _ => True) (courseBody w f n u) := by
      unfold courseBody
      split
      · exact fra_storeCou hu _
      · refine fra_bind (fra_check ha hf n hu) fun b _ => ?_
        split
        · exact fra_storeCou hu _
        · cases hs : w.graph.getCourseLessons u with
          | none => exact fra_storeCou hu _
          | some ls =>
            refine fra_bind (fra_mapM _ fun l hm => fra_lesson ha hf n (((apart_not ha).lessons u ls hs l hm).2 hu)) fun _ _ => ?_
            dsimp only
            split
            · exact fra_pure trivial
            · exact fra_storeCou hu _
    exact this c a d e

end

theorem fra_score (ha : Apart w.graph D) : ∀ (n : Nat) {u : ι}, ¬ D u → Frames D (fun _ => True) (scoreC w n u)
  | 0, _, _ => fun _ _ _ e => by cases e
  | n + 1, u, hu => by
    simp only [scoreC]
    cases w.graph.getUnitType u with
    | none => exact fra_pure trivial
    | some k =>
      cases k with
      | exercise => exact fra_bind (fra_exC hu) fun _ _ => fra_pure trivial
      | lesson => exact fra_lesson ha (fun v hv => fra_score ha n hv) n hu
      | course => exact fra_course ha (fun v hv => fra_score ha n hv) n hu

theorem fra_lessonTrials (ha : Apart w.graph D) {l : ι} (hl : ¬ D l) : Frames D (fun _ => True) (lessonTrialsC w l) := by
  intro c a d e
  unfold lessonTrialsC at e
  cases hc : c.lesT.find l with
  | some v => rw [hc] at e; cases e; exact ⟨.refl _ _, trivial⟩
  | none =>
    rw [hc] at e
    have : Frames D (fun _ => True) (lessonTrialsBody w l) := by
      unfold lessonTrialsBody
      cases hs : w.graph.getLessonExercises l with
      | none => exact fra_pure trivial
      | some es =>
        have he : ∀ e ∈ es, ¬ D e := fun e hm => ((apart_not ha).exercises l es hs e hm).2 hl
        exact fra_bind (fra_mapM _ fun x hx => fra_exC (he x (List.mem_of_mem_filter hx))) fun _ _ => fra_storeLesT hl _
    exact this c a d e

theorem fra_courseTrials (ha : Apart w.graph D) (n : Nat) {u : ι} (hu : ¬ D u) :
    Frames D (fun _ => True) (courseTrialsC w n u) := by
  intro c a d e
  unfold courseTrialsC at e
  cases hc : c.couT.find u with
  | some v => rw [hc] at e; cases e; exact ⟨.refl _ _, trivial⟩
  | none =>
    rw [hc] at e
    have : Frames D (fun _ => True) (courseTrialsBody w n u) := by
      unfold courseTrialsBody
      have hl := course_lessons_on (apart_not ha) hu
      refine fra_bind (fra_keepM _ fun l hm => ?_) fun ls hls => ?_
      · exact fra_bind (fra_check ha (fun v hv => fra_score ha n hv) n (hl l hm)) fun _ _ => fra_pure trivial
      · exact fra_bind (fra_mapM _ fun l hm => fra_lessonTrials ha (hl l (hls l hm))) fun _ _ => fra_storeCouT hu _
    exact this c a d e

/-! ### Invalidation -/

theorem del_on {ν : Type} {m m' : AMap ι ν} (h : ∀ u, D u → m'.find u = m.find u) (k : ι) :
    ∀ u, D u → (m'.del k).find u = (m.del k).find u := by
  intro u hu
  rw [AMap.find_del, AMap.find_del, h u hu]

theorem delAll_on {ν : Type} : ∀ (ks : List ι) {m m' : AMap ι ν}, (∀ u, D u → m'.find u = m.find u) →
    ∀ u, D u → (delAll m' ks).find u = (delAll m ks).find u
  | [], _, _, h => h
  | k :: ks, _, _, h => delAll_on ks (del_on h k)

theorem invalidate_on (g : Graph ι) {c c' : Caches ι R} (h : CachesOn D c c') (u : ι) :
    CachesOn D (invalidate g c u) (invalidate g c' u) := by
  unfold invalidate
  have a := fun k => del_on h.ex k
  have b := fun k => del_on h.les k
  have e := fun k => del_on h.cou k
  have f := fun k => del_on h.lesT k
  have i := fun k => del_on h.couT k
  dsimp only
  cases g.getUnitType u with
  | none => exact ⟨a u, b u, e u, f u, i u⟩
  | some k =>
    cases k with
    | exercise =>
      dsimp only
      cases g.getExerciseLesson u with
      | none => exact ⟨a u, b u, e u, f u, i u⟩
      | some l =>
        dsimp only
        cases g.getLessonCourse l with
        | none => exact ⟨a u, del_on (b u) l, e u, del_on (f u) l, i u⟩
        | some co => exact ⟨a u, del_on (b u) l, del_on (e u) co, del_on (f u) l, del_on (i u) co⟩
    | lesson =>
      dsimp only
      cases g.getLessonCourse u with
      | none => exact ⟨delAll_on _ (a u), b u, e u, f u, i u⟩
      | some co => exact ⟨delAll_on _ (a u), b u, del_on (e u) co, f u, del_on (i u) co⟩
    | course => exact ⟨delAll_on _ (a u), delAll_on _ (b u), e u, delAll_on _ (f u), i u⟩

theorem del_off {ν : Type} (m : AMap ι ν) {k : ι} (hk : ¬ D k) : ∀ u, D u → (m.del k).find u = m.find u := by
  intro u hu
  rw [AMap.find_del, if_neg (fun e : k = u => hk (e ▸ hu))]

theorem delAll_off {ν : Type} : ∀ (ks : List ι) (m : AMap ι ν), (∀ k ∈ ks, ¬ D k) → ∀ u, D u → (delAll m ks).find u = m.find u
  | [], _, _ => fun _ _ => rfl
  | k :: ks, m, h => fun u hu =>
    (delAll_off ks (m.del k) (fun j hj => h j (by simp [hj])) u hu).trans (del_off m (h k (by simp)) u hu)

theorem invalidate_off {g : Graph ι} (ha : Apart g D) (c : Caches ι R) {u : ι} (hu : ¬ D u) : CachesOn D c (invalidate g c u) := by
  have hn := apart_not ha
  have hles : ∀ l, ¬ D l → ∀ e ∈ (g.getLessonExercises l).getD [], ¬ D e := by
    intro l hl e he
    cases hg : g.getLessonExercises l with
    | none => rw [hg] at he; simp at he
    | some es => rw [hg] at he; exact (hn.exercises l es hg e he).2 hl
  have hcou : ∀ l, ¬ D l → ∀ e ∈ (g.getCourseLessons l).getD [], ¬ D e := by
    intro l hl e he
    cases hg : g.getCourseLessons l with
    | none => rw [hg] at he; simp at he
    | some es => rw [hg] at he; exact (hn.lessons l es hg e he).2 hl
  have two : ∀ {ν : Type} (m : AMap ι ν) {k : ι}, ¬ D k → ∀ x, D x → ((m.del u).del k).find x = m.find x :=
    fun m k hk x hx => (del_off _ hk x hx).trans (del_off m hu x hx)
  have all : ∀ {ν : Type} (m : AMap ι ν) (ks : List ι), (∀ k ∈ ks, ¬ D k) → ∀ x, D x → (delAll (m.del u) ks).find x = m.find x :=
    fun m ks hk x hx => (delAll_off ks _ hk x hx).trans (del_off m hu x hx)
  have z : CachesOn D c { ex := c.ex.del u, les := c.les.del u, cou := c.cou.del u, lesT := c.lesT.del u, couT := c.couT.del u } :=
    ⟨del_off _ hu, del_off _ hu, del_off _ hu, del_off _ hu, del_off _ hu⟩
  unfold invalidate
  dsimp only
  cases g.getUnitType u with
  | none => exact z
  | some k =>
    cases k with
    | exercise =>
      dsimp only
      cases hl : g.getExerciseLesson u with
      | none => exact z
      | some l =>
        have hl := (hn.lesson u l hl).1 hu
        dsimp only
        cases hc : g.getLessonCourse l with
        | none => exact ⟨z.ex, two _ hl, z.cou, two _ hl, z.couT⟩
        | some co =>
          have hc := (hn.course l co hc).1 hl
          exact ⟨z.ex, two _ hl, two _ hc, two _ hl, two _ hc⟩
    | lesson =>
      dsimp only
      cases hc : g.getLessonCourse u with
      | none => exact ⟨all _ _ (hles u hu), z.les, z.cou, z.lesT, z.couT⟩
      | some co =>
        have hc := (hn.course u co hc).1 hu
        exact ⟨all _ _ (hles u hu), z.les, two _ hc, z.lesT, two _ hc⟩
    | course =>
      refine ⟨all _ _ ?_, all _ _ (hcou u hu), z.cou, all _ _ (hcou u hu), z.couT⟩
      intro e he
      obtain ⟨l, hl, he⟩ := List.mem_flatMap.1 he
      exact hles l (hcou u hu l hl) e he

theorem filter_find {ν : Type} (p : ι → Bool) (m : AMap ι ν) (u : ι) :
    AMap.find (m.filter (fun e => !p e.1)) u = if p u then none else m.find u := by
  induction m with
  | nil => simp [AMap.find]
  | cons e m ih =>
    obtain ⟨k, v⟩ := e
    by_cases hp : p k = true
    · rw [List.filter_cons_of_neg (by simp [hp]), ih]
      by_cases hk : k = u
      · subst hk; simp [hp]
      · simp [AMap.find, hk]
    · rw [List.filter_cons_of_pos (by simp [hp])]
      by_cases hk : k = u
      · subst hk; simp [AMap.find, hp]
      · simp only [AMap.find, hk, if_false]; exact ih

theorem filter_find_on {ν : Type} (p : ι → Bool) {m m' : AMap ι ν} (h : ∀ u, D u → m'.find u = m.find u) :
    ∀ u, D u → AMap.find (m'.filter (fun e => !p e.1)) u = AMap.find (m.filter (fun e => !p e.1)) u := by
  intro u hu
  rw [filter_find, filter_find, h u hu]

theorem invalidatePrefix_on (p : ι → Bool) {c c' : Caches ι R} (h : CachesOn D c c') :
    CachesOn D (invalidatePrefix p c) (invalidatePrefix p c') :=
  ⟨filter_find_on p h.ex, filter_find_on p h.les, filter_find_on p h.cou, filter_find_on p h.lesT, filter_find_on p h.couT⟩

theorem invalidatePrefix_off (p : ι → Bool) (c : Caches ι R) (hp : ∀ u, D u → p u = false) : CachesOn D c (invalidatePrefix p c) := by
  have key : ∀ {ν : Type} (m : AMap ι ν) u, D u → AMap.find (m.filter (fun e => !p e.1)) u = m.find u := by
    intro ν m u hu
    rw [filter_find, hp u hu]
    rfl
  exact ⟨key c.ex, key c.les, key c.cou, key c.lesT, key c.couT⟩

end Trane.UnitScorer
