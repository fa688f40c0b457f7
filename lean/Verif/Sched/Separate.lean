import Verif.Sched.UnitScorer
import Verif.Sched.PropagatorSpec

/-!
# C113: scores of separate parts of a library, specification and lemmas about the unit scorer
-/

namespace Trane.UnitScorer

variable {ι R T W : Type} [DecidableEq ι] [Field R] [LinearOrder R]

/-! ### Specification -/

/-- `D` is a part of the library that nothing connects with the rest: lessons are on the side of their course, exercises on
that of their lesson, superseding units on that of what they supersede, and no unit encompasses one of the other side. -/
structure Apart (g : Graph ι) (D : ι → Prop) : Prop where
  lesson : ∀ x l, g.getExerciseLesson x = some l → (D x ↔ D l)
  course : ∀ l c, g.getLessonCourse l = some c → (D l ↔ D c)
  exercises : ∀ l es, g.getLessonExercises l = some es → ∀ x ∈ es, (D x ↔ D l)
  lessons : ∀ c ls, g.getCourseLessons c = some ls → ∀ l ∈ ls, (D l ↔ D c)
  superseding : ∀ u ids, g.getSupersededBy u = some ids → ∀ v ∈ ids, (D v ↔ D u)
  encompassing : ∀ good u v w, Propagator.Edge g good u v w → (D v ↔ D u)

/-! ### Lemmas -/

/-- The caches have the same entries for the units of `D`. -/
structure CachesOn (D : ι → Prop) (c c' : Caches ι R) : Prop where
  ex : ∀ u, D u → c'.ex.find u = c.ex.find u
  les : ∀ u, D u → c'.les.find u = c.les.find u
  cou : ∀ u, D u → c'.cou.find u = c.cou.find u
  lesT : ∀ u, D u → c'.lesT.find u = c.lesT.find u
  couT : ∀ u, D u → c'.couT.find u = c.couT.find u

theorem CachesOn.refl (D : ι → Prop) (c : Caches ι R) : CachesOn D c c :=
  ⟨fun _ _ => rfl, fun _ _ => rfl, fun _ _ => rfl, fun _ _ => rfl, fun _ _ => rfl⟩

theorem CachesOn.trans {D : ι → Prop} {a b c : Caches ι R} (h : CachesOn D a b) (h' : CachesOn D b c) : CachesOn D a c :=
  ⟨fun u hu => (h'.ex u hu).trans (h.ex u hu), fun u hu => (h'.les u hu).trans (h.les u hu),
    fun u hu => (h'.cou u hu).trans (h.cou u hu), fun u hu => (h'.lesT u hu).trans (h.lesT u hu),
    fun u hu => (h'.couT u hu).trans (h.couT u hu)⟩

/-- The data for the units of `D` are the same. -/
structure WorldsOn (D : ι → Prop) (w w' : World ι R T W) : Prop where
  graph : w'.graph = w.graph
  now : w'.now = w.now
  compute : w'.compute = w.compute
  supScore : w'.supScore = w.supScore
  dflt : w'.dflt = w.dflt
  empty : D w.dflt
  black : ∀ u, D u → w'.black u = w.black u
  stats : ∀ u, D u → w'.stats u = w.stats u
  rewards : ∀ u, D u → w'.rewards u = w.rewards u

/-- The computations give the same and leave the same entries for the units of `D`. -/
def Follows (D : ι → Prop) {α : Type} (P : α → Prop) (m m' : M ι R α) : Prop :=
  ∀ c c', CachesOn D c c' → (m c = none ∧ m' c' = none) ∨
    ∃ a d d', m c = some (a, d) ∧ m' c' = some (a, d') ∧ CachesOn D d d' ∧ P a

/-- The computation does not touch the entries for the units of `D`. -/
def Frames (D : ι → Prop) {α : Type} (P : α → Prop) (m : M ι R α) : Prop :=
  ∀ c a d, m c = some (a, d) → CachesOn D c d ∧ P a

section
variable {D : ι → Prop}

theorem fol_pure {α : Type} {P : α → Prop} {a : α} (h : P a) : Follows D P (pure a : M ι R α) (pure a) :=
  fun c c' hc => .inr ⟨a, c, c', rfl, rfl, hc, h⟩

theorem fra_pure {α : Type} {P : α → Prop} {a : α} (h : P a) : Frames D P (pure a : M ι R α) := by
  intro c b d e
  cases e
  exact ⟨.refl _ _, h⟩

theorem fol_bind {α β : Type} {P : α → Prop} {Q : β → Prop} {m m' : M ι R α} {f f' : α → M ι R β} (h : Follows D P m m')
    (hf : ∀ a, P a → Follows D Q (f a) (f' a)) : Follows D Q (m >>= f) (m' >>= f') := by
  intro c c' hc
  show ((m c).bind (fun x => f x.1 x.2) = none ∧ (m' c').bind (fun x => f' x.1 x.2) = none) ∨ ∃ a d d',
    (m c).bind (fun x => f x.1 x.2) = some (a, d) ∧ (m' c').bind (fun x => f' x.1 x.2) = some (a, d') ∧ _
  rcases h c c' hc with ⟨e, e'⟩ | ⟨a, d, d', e, e', hd, hp⟩
  · left; rw [e, e']; exact ⟨rfl, rfl⟩
  · rw [e, e']
    exact hf a hp d d' hd

theorem fra_bind {α β : Type} {P : α → Prop} {Q : β → Prop} {m : M ι R α} {f : α → M ι R β} (h : Frames D P m)
    (hf : ∀ a, P a → Frames D Q (f a)) : Frames D Q (m >>= f) := by
  intro c b d e
  change (m c).bind (fun x => f x.1 x.2) = _ at e
  rw [Option.bind_eq_some_iff] at e
  obtain ⟨⟨a, c1⟩, h1, h2⟩ := e
  obtain ⟨k1, hp⟩ := h c a c1 h1
  obtain ⟨k2, hq⟩ := hf a hp c1 b d h2
  exact ⟨k1.trans k2, hq⟩

theorem fol_mono {α : Type} {P Q : α → Prop} {m m' : M ι R α} (h : Follows D P m m') (hq : ∀ a, P a → Q a) : Follows D Q m m' := by
  intro c c' hc
  rcases h c c' hc with e | ⟨a, d, d', e, e', hd, hp⟩
  · exact .inl e
  · exact .inr ⟨a, d, d', e, e', hd, hq a hp⟩

theorem fol_mapM {α β : Type} {f f' : α → M ι R β} : ∀ (xs : List α), (∀ x ∈ xs, Follows D (fun _ => True) (f x) (f' x)) →
    Follows D (fun _ => True) (xs.mapM f) (xs.mapM f')
  | [], _ => by simp only [List.mapM_nil]; exact fol_pure trivial
  | x :: xs, h => by
    simp only [List.mapM_cons]
    exact fol_bind (h x (by simp)) fun a _ => fol_bind (fol_mapM xs fun y hy => h y (by simp [hy])) fun b _ => fol_pure trivial

theorem fra_mapM {α β : Type} {f : α → M ι R β} : ∀ (xs : List α), (∀ x ∈ xs, Frames D (fun _ => True) (f x)) →
    Frames D (fun _ => True) (xs.mapM f)
  | [], _ => by simp only [List.mapM_nil]; exact fra_pure trivial
  | x :: xs, h => by
    simp only [List.mapM_cons]
    exact fra_bind (h x (by simp)) fun a _ => fra_bind (fra_mapM xs fun y hy => h y (by simp [hy])) fun b _ => fra_pure trivial

theorem fol_foldlM {α β : Type} {P : β → Prop} {f f' : β → α → M ι R β} : ∀ (xs : List α) (b : β), P b →
    (∀ b, P b → ∀ x ∈ xs, Follows D P (f b x) (f' b x)) → Follows D P (xs.foldlM f b) (xs.foldlM f' b)
  | [], b, hb, _ => by simp only [List.foldlM_nil]; exact fol_pure hb
  | x :: xs, b, hb, h => by
    simp only [List.foldlM_cons]
    exact fol_bind (h b hb x (by simp)) fun a ha => fol_foldlM xs a ha fun b hb y hy => h b hb y (by simp [hy])

theorem fra_foldlM {α β : Type} {P : β → Prop} {f : β → α → M ι R β} : ∀ (xs : List α) (b : β), P b →
    (∀ b, P b → ∀ x ∈ xs, Frames D P (f b x)) → Frames D P (xs.foldlM f b)
  | [], b, hb, _ => by simp only [List.foldlM_nil]; exact fra_pure hb
  | x :: xs, b, hb, h => by
    simp only [List.foldlM_cons]
    exact fra_bind (h b hb x (by simp)) fun a ha => fra_foldlM xs a ha fun b hb y hy => h b hb y (by simp [hy])

theorem fol_keepM {α : Type} {f f' : α → M ι R Bool} : ∀ (xs : List α), (∀ x ∈ xs, Follows D (fun _ => True) (f x) (f' x)) →
    Follows D (fun ys => ∀ y ∈ ys, y ∈ xs) (keepM f xs) (keepM f' xs)
  | [], _ => fol_pure (by simp)
  | x :: xs, h => by
    simp only [keepM]
    refine fol_bind (h x (by simp)) fun a _ => fol_bind (fol_keepM xs fun y hy => h y (by simp [hy])) fun b hb => fol_pure ?_
    intro y hy
    split at hy
    · rcases List.mem_cons.1 hy with rfl | hy
      · simp
      · simp [hb y hy]
    · simp [hb y hy]

theorem fra_keepM {α : Type} {f : α → M ι R Bool} : ∀ (xs : List α), (∀ x ∈ xs, Frames D (fun _ => True) (f x)) →
    Frames D (fun ys => ∀ y ∈ ys, y ∈ xs) (keepM f xs)
  | [], _ => fra_pure (by simp)
  | x :: xs, h => by
    simp only [keepM]
    refine fra_bind (h x (by simp)) fun a _ => fra_bind (fra_keepM xs fun y hy => h y (by simp [hy])) fun b hb => fra_pure ?_
    intro y hy
    split at hy
    · rcases List.mem_cons.1 hy with rfl | hy
      · simp
      · simp [hb y hy]
    · simp [hb y hy]

/-! ### Data -/

variable {w w' : World ι R T W}

theorem on_black {u : ι} (h : WorldsOn D w w') (hu : D u) : w'.black u = w.black u := h.black u hu

theorem getD_on {o : Option ι} {x : ι} (h : WorldsOn D w w') (ho : ∀ y, o = some y → (D x ↔ D y)) (hx : D x) : D (o.getD w.dflt) := by
  cases o with
  | none => exact h.empty
  | some y => exact (ho y rfl).1 hx

theorem exRec_on (ha : Apart w.graph D) (h : WorldsOn D w w') {x : ι} (hx : D x) : w'.exRec x = w.exRec x := by
  unfold World.exRec
  rw [h.graph, h.now, h.compute, h.dflt, h.stats x hx]
  have hl := getD_on h (fun y hy => ha.lesson x y hy) hx
  have hc := getD_on h (fun y hy => ha.course _ y hy) hl
  dsimp only
  rw [h.rewards _ hl, h.rewards _ hc]

theorem filter_on (h : WorldsOn D w w') {es : List ι} (he : ∀ e ∈ es, D e) :
    es.filter (fun e => !w'.black e) = es.filter (fun e => !w.black e) :=
  List.filter_congr fun e hm => by rw [h.black e (he e hm)]

theorem lesson_exercises_on (ha : Apart w.graph D) {l : ι} (hl : D l) : ∀ e ∈ (w.graph.getLessonExercises l).getD [], D e := by
  intro e he
  cases hg : w.graph.getLessonExercises l with
  | none => rw [hg] at he; simp at he
  | some es => rw [hg] at he; exact (ha.exercises l es hg e he).2 hl

theorem course_lessons_on (ha : Apart w.graph D) {u : ι} (hu : D u) : ∀ l ∈ (w.graph.getCourseLessons u).getD [], D l := by
  intro l he
  cases hg : w.graph.getCourseLessons u with
  | none => rw [hg] at he; simp at he
  | some es => rw [hg] at he; exact (ha.lessons u es hg l he).2 hu

theorem validInLesson_on (ha : Apart w.graph D) (h : WorldsOn D w w') {l : ι} (hl : D l) :
    w'.validInLesson l = w.validInLesson l ∧ ∀ e ∈ w.validInLesson l, D e := by
  unfold World.validInLesson
  have hc := getD_on h (fun y hy => ha.course l y hy) hl
  rw [h.black l hl, h.graph, h.dflt, h.black _ hc, filter_on h (lesson_exercises_on ha hl)]
  refine ⟨rfl, ?_⟩
  intro e he
  split at he
  · simp at he
  · split at he
    · simp at he
    · exact lesson_exercises_on ha hl e (List.mem_of_mem_filter he)

theorem allValid_on (ha : Apart w.graph D) (h : WorldsOn D w w') {u : ι} (hu : D u) :
    w'.allValid u = w.allValid u ∧ ∀ e ∈ w.allValid u, D e := by
  unfold World.allValid
  rw [h.graph, h.black u hu]
  cases w.graph.getUnitType u with
  | none => exact ⟨rfl, by simp⟩
  | some k =>
    cases k with
    | exercise =>
      refine ⟨rfl, ?_⟩
      dsimp only
      split
      · simp
      · intro e he; rw [List.mem_singleton.1 he]; exact hu
    | lesson => exact validInLesson_on ha h hu
    | course =>
      dsimp only
      have hl := course_lessons_on ha hu
      constructor
      · split
        · rfl
        · exact List.flatMap_congr fun l hm => (validInLesson_on ha h (hl l hm)).1
      · split
        · simp
        · intro e he
          obtain ⟨l, hm, he⟩ := List.mem_flatMap.1 he
          exact (validInLesson_on ha h (hl l hm)).2 e he

theorem apart_not {g : Graph ι} (h : Apart g D) : Apart g (fun u => ¬ D u) :=
  ⟨fun x l e => not_congr (h.lesson x l e), fun x l e => not_congr (h.course x l e), fun l es e x hx => not_congr (h.exercises l es e x hx),
    fun l es e x hx => not_congr (h.lessons l es e x hx), fun l es e x hx => not_congr (h.superseding l es e x hx),
    fun a b c d e => not_congr (h.encompassing a b c d e)⟩

theorem allValid_in (ha : Apart w.graph D) {u : ι} (hu : D u) : ∀ e ∈ w.allValid u, D e := by
  have hv : ∀ l, D l → ∀ e ∈ w.validInLesson l, D e := by
    intro l hl e he
    unfold World.validInLesson at he
    split at he
    · simp at he
    · split at he
      · simp at he
      · exact lesson_exercises_on ha hl e (List.mem_of_mem_filter he)
  unfold World.allValid
  cases w.graph.getUnitType u with
  | none => simp
  | some k =>
    cases k with
    | exercise =>
      dsimp only
      split
      · simp
      · intro e he; rw [List.mem_singleton.1 he]; exact hu
    | lesson => exact hv u hu
    | course =>
      dsimp only
      split
      · simp
      · intro e he
        obtain ⟨l, hm, he⟩ := List.mem_flatMap.1 he
        exact hv l (course_lessons_on ha hu l hm) e he

/-! ### The unit scorer on one side -/

theorem put_on {ν : Type} {m m' : AMap ι ν} (h : ∀ u, D u → m'.find u = m.find u) (k : ι) (v : ν) :
    ∀ u, D u → (m'.put k v).find u = (m.put k v).find u := by
  intro u hu
  rw [AMap.find_put, AMap.find_put, h u hu]

theorem fol_exC (ha : Apart w.graph D) (h : WorldsOn D w w') {x : ι} (hx : D x) :
    Follows D (fun _ => True) (exC w x) (exC w' x) := by
  intro c c' hc
  right
  unfold exC
  rw [hc.ex x hx, exRec_on ha h hx]
  cases c.ex.find x with
  | some r => exact ⟨r, c, c', rfl, rfl, hc, trivial⟩
  | none => exact ⟨_, _, _, rfl, rfl, ⟨put_on hc.ex x _, hc.les, hc.cou, hc.lesT, hc.couT⟩, trivial⟩

theorem fol_seen (ha : Apart w.graph D) (h : WorldsOn D w w') {u : ι} (hu : D u) :
    Follows D (fun _ => True) (seenC w u) (seenC w' u) := by
  unfold seenC
  obtain ⟨e, hm⟩ := allValid_on ha h hu
  rw [e]
  exact fol_bind (fol_mapM _ fun x hx => fol_exC ha h (hm x hx)) fun _ _ => fol_pure trivial

section
variable {f f' : ι → M ι R (Option R)}

theorem fol_superseded (ha : Apart w.graph D) (h : WorldsOn D w w') (hf : ∀ u, D u → Follows D (fun _ => True) (f u) (f' u))
    {u : ι} (hu : D u) {ids : List ι} (hi : ∀ v ∈ ids, D v) :
    Follows D (fun _ => True) (supersededC w f u ids) (supersededC w' f' u ids) := by
  unfold supersededC
  split
  · exact fol_pure trivial
  · refine fol_bind (fol_seen ha h hu) fun b _ => ?_
    split
    · exact fol_pure trivial
    · rw [h.supScore]
      exact fol_bind (fol_mapM _ fun x hx => hf x (hi x hx)) fun _ _ => fol_pure trivial

theorem fol_replace (ha : Apart w.graph D) (h : WorldsOn D w w') (hf : ∀ u, D u → Follows D (fun _ => True) (f u) (f' u)) :
    ∀ (n : Nat) {ids : List ι}, (∀ v ∈ ids, D v) →
    Follows D (fun r => ∀ v ∈ r, D v) (replaceC w f n ids) (replaceC w' f' n ids)
  | 0, _, _ => fun _ _ _ => .inl ⟨rfl, rfl⟩
  | n + 1, ids, hi => by
    simp only [replaceC]
    refine fol_foldlM _ _ (by simp) fun acc hacc x hx => ?_
    rw [h.graph]
    have hxd := hi x hx
    have hins : ∀ v ∈ acc.insert x, D v := by
      intro v hv
      rcases List.mem_insert_iff.1 hv with rfl | hv
      · exact hxd
      · exact hacc v hv
    cases hs : w.graph.getSupersededBy x with
    | none => exact fol_pure hins
    | some s =>
      have hsd : ∀ v ∈ s, D v := fun v hv => (ha.superseding x s hs v hv).2 hxd
      refine fol_bind (fol_superseded ha h hf hxd hsd) fun b _ => ?_
      split
      · refine fol_bind (fol_replace ha h hf n hsd) fun r hr => fol_pure ?_
        intro v hv
        rcases (mem_extendSet _ _ _).1 hv with hv | hv
        · exact hacc v hv
        · exact hr v hv
      · exact fol_pure hins

theorem fol_check (ha : Apart w.graph D) (h : WorldsOn D w w') (hf : ∀ u, D u → Follows D (fun _ => True) (f u) (f' u))
    (n : Nat) {u : ι} (hu : D u) : Follows D (fun _ => True) (checkC w f n u) (checkC w' f' n u) := by
  unfold checkC
  rw [h.graph]
  cases hs : w.graph.getSupersededBy u with
  | none => exact fol_pure trivial
  | some s =>
    exact fol_bind (fol_replace ha h hf n fun v hv => (ha.superseding u s hs v hv).2 hu) fun r hr =>
      fol_superseded ha h hf hu hr

theorem fol_storeLes (l : ι) (v : Option R) : Follows D (fun _ => True) (storeLes l v : M ι R _) (storeLes l v) :=
  fun _ _ hc => .inr ⟨_, _, _, rfl, rfl, ⟨hc.ex, put_on hc.les l v, hc.cou, hc.lesT, hc.couT⟩, trivial⟩

theorem fol_storeCou (l : ι) (v : Option R) : Follows D (fun _ => True) (storeCou l v : M ι R _) (storeCou l v) :=
  fun _ _ hc => .inr ⟨_, _, _, rfl, rfl, ⟨hc.ex, hc.les, put_on hc.cou l v, hc.lesT, hc.couT⟩, trivial⟩

theorem fol_storeLesT (l : ι) (v : Option R) : Follows D (fun _ => True) (storeLesT l v : M ι R _) (storeLesT l v) :=
  fun _ _ hc => .inr ⟨_, _, _, rfl, rfl, ⟨hc.ex, hc.les, hc.cou, put_on hc.lesT l v, hc.couT⟩, trivial⟩

theorem fol_storeCouT (l : ι) (v : Option R) : Follows D (fun _ => True) (storeCouT l v : M ι R _) (storeCouT l v) :=
  fun _ _ hc => .inr ⟨_, _, _, rfl, rfl, ⟨hc.ex, hc.les, hc.cou, hc.lesT, put_on hc.couT l v⟩, trivial⟩

theorem fol_lessonMean (ha : Apart w.graph D) (h : WorldsOn D w w') {l : ι} (hl : D l) :
    Follows D (fun _ => True) (lessonMeanC w l) (lessonMeanC w' l) := by
  unfold lessonMeanC
  rw [h.graph]
  cases hs : w.graph.getLessonExercises l with
  | none => exact fol_pure trivial
  | some es =>
    have he : ∀ e ∈ es, D e := fun e hm => (ha.exercises l es hs e hm).2 hl
    dsimp only
    rw [filter_on h he]
    split
    · exact fol_pure trivial
    · exact fol_bind (fol_mapM _ fun x hx => fol_exC ha h (he x (List.mem_of_mem_filter hx))) fun _ _ => fol_pure trivial

theorem fol_lesson (ha : Apart w.graph D) (h : WorldsOn D w w') (hf : ∀ u, D u → Follows D (fun _ => True) (f u) (f' u))
    (n : Nat) {l : ι} (hl : D l) : Follows D (fun _ => True) (lessonC w f n l) (lessonC w' f' n l) := by
  intro c c' hc
  unfold lessonC
  rw [hc.les l hl]
  cases c.les.find l with
  | some v => exact .inr ⟨v, c, c', rfl, rfl, hc, trivial⟩
  | none =>
    have : Follows D (fun _ => True) (lessonBody w f n l) (lessonBody w' f' n l) := by
      unfold lessonBody
      rw [h.black l hl]
      split
      · exact fol_storeLes _ _
      · refine fol_bind (fol_check ha h hf n hl) fun b _ => ?_
        split
        · exact fol_storeLes _ _
        · exact fol_bind (fol_lessonMean ha h hl) fun _ _ => fol_storeLes _ _
    exact this c c' hc

theorem fol_course (ha : Apart w.graph D) (h : WorldsOn D w w') (hf : ∀ u, D u → Follows D (fun _ => True) (f u) (f' u))
    (n : Nat) {u : ι} (hu : D u) : Follows D (fun _ => True) (courseC w f n u) (courseC w' f' n u) := by
  intro c c' hc
  unfold courseC
  rw [hc.cou u hu]
  cases c.cou.find u with
  | some v => exact .inr ⟨v, c, c', rfl, rfl, hc, trivial⟩
  | none =>
    have : Follows D (fun _ => True) (courseBody w f n u) (courseBody w' f' n u) := by
      unfold courseBody
      rw [h.black u hu]
      split
      · exact fol_storeCou _ _
      · refine fol_bind (fol_check ha h hf n hu) fun b _ => ?_
        split
        · exact fol_storeCou _ _
        · rw [h.graph]
          cases hs : w.graph.getCourseLessons u with
          | none => exact fol_storeCou _ _
          | some ls =>
            refine fol_bind (fol_mapM _ fun l hm => fol_lesson ha h hf n ((ha.lessons u ls hs l hm).2 hu)) fun _ _ => ?_
            dsimp only
            split
            · exact fol_pure trivial
            · exact fol_storeCou _ _
    exact this c c' hc

end

theorem fol_score (ha : Apart w.graph D) (h : WorldsOn D w w') : ∀ (n : Nat) {u : ι}, D u →
    Follows D (fun _ => True) (scoreC w n u) (scoreC w' n u)
  | 0, _, _ => fun _ _ _ => .inl ⟨rfl, rfl⟩
  | n + 1, u, hu => by
    simp only [scoreC]
    rw [h.graph]
    cases w.graph.getUnitType u with
    | none => exact fol_pure trivial
    | some k =>
      cases k with
      | exercise => exact fol_bind (fol_exC ha h hu) fun _ _ => fol_pure trivial
      | lesson => exact fol_lesson ha h (fun v hv => fol_score ha h n hv) n hu
      | course => exact fol_course ha h (fun v hv => fol_score ha h n hv) n hu

theorem fol_lessonTrials (ha : Apart w.graph D) (h : WorldsOn D w w') {l : ι} (hl : D l) :
    Follows D (fun _ => True) (lessonTrialsC w l) (lessonTrialsC w' l) := by
  intro c c' hc
  unfold lessonTrialsC
  rw [hc.lesT l hl]
  cases c.lesT.find l with
  | some v => exact .inr ⟨v, c, c', rfl, rfl, hc, trivial⟩
  | none =>
    have : Follows D (fun _ => True) (lessonTrialsBody w l) (lessonTrialsBody w' l) := by
      unfold lessonTrialsBody
      rw [h.graph]
      cases hs : w.graph.getLessonExercises l with
      | none => exact fol_pure trivial
      | some es =>
        have he : ∀ e ∈ es, D e := fun e hm => (ha.exercises l es hs e hm).2 hl
        dsimp only
        rw [filter_on h he]
        exact fol_bind (fol_mapM _ fun x hx => fol_exC ha h (he x (List.mem_of_mem_filter hx))) fun _ _ => fol_storeLesT _ _
    exact this c c' hc

theorem fol_courseTrials (ha : Apart w.graph D) (h : WorldsOn D w w') (n : Nat) {u : ι} (hu : D u) :
    Follows D (fun _ => True) (courseTrialsC w n u) (courseTrialsC w' n u) := by
  intro c c' hc
  unfold courseTrialsC
  rw [hc.couT u hu]
  cases c.couT.find u with
  | some v => exact .inr ⟨v, c, c', rfl, rfl, hc, trivial⟩
  | none =>
    have : Follows D (fun _ => True) (courseTrialsBody w n u) (courseTrialsBody w' n u) := by
      unfold courseTrialsBody
      rw [h.graph]
      have hl := course_lessons_on ha hu
      refine fol_bind (fol_keepM _ fun l hm => ?_) fun ls hls => ?_
      · rw [h.black l (hl l hm)]
        exact fol_bind (fol_check ha h (fun v hv => fol_score ha h n hv) n (hl l hm)) fun _ _ => fol_pure trivial
      · exact fol_bind (fol_mapM _ fun l hm => fol_lessonTrials ha h (hl l (hls l hm))) fun _ _ => fol_storeCouT _ _
    exact this c c' hc

end
end Trane.UnitScorer
