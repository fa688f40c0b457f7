import Verif.Sched.UnitCacheProps

/-! Helper lemmas: what holds of every computed record and is kept by averages holds of everything in the caches,
however old it is. -/

namespace Trane.UnitScorer

variable {ι R T W : Type} [DecidableEq ι] [Field R] [LinearOrder R]

/-- Every cached record satisfies `S`, every cached score `V`. -/
structure Bounded (S : ExRec R → Prop) (V : R → Prop) (c : Caches ι R) : Prop where
  ex : ∀ e r, c.ex.find e = some r → S r
  les : ∀ l v, c.les.find l = some (some v) → V v
  cou : ∀ u v, c.cou.find u = some (some v) → V v

/-- `m` keeps the caches bounded and its answers satisfy `Q`. -/
def Keeps (S : ExRec R → Prop) (V : R → Prop) {α : Type} (Q : α → Prop) (m : M ι R α) : Prop :=
  ∀ c a c', Bounded S V c → m c = some (a, c') → Q a ∧ Bounded S V c'

/-- An answered score satisfies `V`. -/
def OkScore (V : R → Prop) (o : Option R) : Prop := ∀ v, o = some v → V v

section
variable {S : ExRec R → Prop} {V : R → Prop}

theorem keeps_pure {α : Type} {Q : α → Prop} {a : α} (h : Q a) : Keeps S V Q (pure a : M ι R α) := by
  intro c b c' hc hm
  cases hm
  exact ⟨h, hc⟩

theorem keeps_bind {α β : Type} {P : α → Prop} {Q : β → Prop} {m : M ι R α} {f : α → M ι R β}
    (hm : Keeps S V P m) (hf : ∀ a, P a → Keeps S V Q (f a)) : Keeps S V Q (m >>= f) := by
  intro c b c' hc h
  change (m c).bind (fun x => f x.1 x.2) = _ at h
  rw [Option.bind_eq_some_iff] at h
  obtain ⟨⟨a, c1⟩, h1, h2⟩ := h
  obtain ⟨hp, hb⟩ := hm c a c1 hc h1
  exact hf a hp c1 b c' hb h2

theorem keeps_mapM {α β : Type} {Q : β → Prop} {f : α → M ι R β} (xs : List α) (h : ∀ x, Keeps S V Q (f x)) :
    Keeps S V (fun ys => (∀ y ∈ ys, Q y) ∧ ys.length = xs.length) (xs.mapM f) := by
  induction xs with
  | nil =>
    rw [List.mapM_nil]
    exact keeps_pure ⟨by simp, rfl⟩
  | cons x xs ih =>
    simp only [List.mapM_cons]
    refine keeps_bind (h x) (fun a ha => keeps_bind ih (fun b hb => keeps_pure ⟨?_, by simp [hb.2]⟩))
    intro y hy
    rcases List.mem_cons.1 hy with rfl | hy
    · exact ha
    · exact hb.1 y hy

theorem keeps_foldlM {α β : Type} {f : β → α → M ι R β} (xs : List α)
    (h : ∀ b x, Keeps S V (fun _ => True) (f b x)) (b : β) : Keeps S V (fun _ => True) (xs.foldlM f b) := by
  induction xs generalizing b with
  | nil => simpa using keeps_pure (S := S) (V := V) (ι := ι) (Q := fun _ : β => True) (a := b) trivial
  | cons x xs ih =>
    simp only [List.foldlM_cons]
    exact keeps_bind (h b x) (fun a _ => ih a)

theorem keeps_keepM {α : Type} {f : α → M ι R Bool} (xs : List α) (h : ∀ x, Keeps S V (fun _ => True) (f x)) :
    Keeps S V (fun _ => True) (keepM f xs) := by
  induction xs with
  | nil => exact keeps_pure trivial
  | cons x xs ih =>
    simp only [keepM]
    exact keeps_bind (h x) (fun a _ => keeps_bind ih (fun b _ => keeps_pure trivial))

theorem keeps_weaken {α : Type} {P Q : α → Prop} {m : M ι R α} (hm : Keeps S V P m) (h : ∀ a, P a → Q a) :
    Keeps S V Q m := fun c a c' hc e => ⟨h a (hm c a c' hc e).1, (hm c a c' hc e).2⟩

variable (w : World ι R T W)

theorem keeps_ex (hw : ∀ e, S (w.exRec e)) (e : ι) : Keeps S V S (exC w e) := by
  intro c a c' hc h
  unfold exC at h
  split at h
  · rename_i r hr
    cases h
    exact ⟨hc.ex _ _ hr, hc⟩
  · cases h
    refine ⟨hw e, ⟨fun x r hx => ?_, hc.les, hc.cou⟩⟩
    change (c.ex.put e (w.exRec e)).find x = some r at hx
    rw [AMap.find_put] at hx
    split at hx
    · cases hx; exact hw e
    · exact hc.ex _ _ hx

theorem keeps_storeLes (l : ι) {v : Option R} (h : OkScore V v) :
    Keeps S V (OkScore V) (storeLes l v : M ι R (Option R)) := by
  intro c a c' hc hm
  unfold storeLes at hm
  cases hm
  refine ⟨h, ⟨hc.ex, fun x r hx => ?_, hc.cou⟩⟩
  change (c.les.put l v).find x = some (some r) at hx
  rw [AMap.find_put] at hx
  split at hx
  · exact h r (Option.some.inj hx)
  · exact hc.les _ _ hx

theorem keeps_storeCou (l : ι) {v : Option R} (h : OkScore V v) :
    Keeps S V (OkScore V) (storeCou l v : M ι R (Option R)) := by
  intro c a c' hc hm
  unfold storeCou at hm
  cases hm
  refine ⟨h, ⟨hc.ex, hc.les, fun x r hx => ?_⟩⟩
  change (c.cou.put l v).find x = some (some r) at hx
  rw [AMap.find_put] at hx
  split at hx
  · exact h r (Option.some.inj hx)
  · exact hc.cou _ _ hx

theorem okScore_none : OkScore V none := fun v h => by cases h

variable (hw : ∀ e, S (w.exRec e)) (hS : ∀ r, S r → V r.score)
  (hm : ∀ xs : List R, xs ≠ [] → (∀ x ∈ xs, V x) → V (mean xs))

section
variable {f : ι → M ι R (Option R)} (h : ∀ u, Keeps S V (OkScore V) (f u))
include hw h

theorem keeps_superseded (u : ι) (ids : List ι) : Keeps S V (fun _ => True) (supersededC w f u ids) := by
  unfold supersededC
  split
  · exact keeps_pure trivial
  · refine keeps_bind (P := fun _ => True) ?_ (fun b _ => ?_)
    · exact keeps_bind (keeps_mapM _ (keeps_ex w hw)) (fun _ _ => keeps_pure trivial)
    · split
      · exact keeps_pure trivial
      · exact keeps_bind (keeps_mapM ids h) (fun _ _ => keeps_pure trivial)

theorem keeps_replace (n : Nat) (ids : List ι) : Keeps S V (fun _ => True) (replaceC w f n ids) := by
  induction n generalizing ids with
  | zero => intro c a c' _ h; simp [replaceC] at h
  | succ n ih =>
    rw [replaceC]
    refine keeps_foldlM ids (fun acc x => ?_) []
    split
    · refine keeps_bind (keeps_superseded w hw h x _) (fun b _ => ?_)
      split
      · exact keeps_bind (ih _) (fun _ _ => keeps_pure trivial)
      · exact keeps_pure trivial
    · exact keeps_pure trivial

theorem keeps_check (n : Nat) (u : ι) : Keeps S V (fun _ => True) (checkC w f n u) := by
  unfold checkC
  split
  · exact keeps_pure trivial
  · exact keeps_bind (keeps_replace w hw h n _) (fun r _ => keeps_superseded w hw h u r)

include hS hm

theorem keeps_lesson (n : Nat) (l : ι) : Keeps S V (OkScore V) (lessonC w f n l) := by
  intro c a c' hc he
  unfold lessonC at he
  split at he
  · rename_i v hv
    cases he
    exact ⟨fun x hx => hc.les l x (hx ▸ hv), hc⟩
  · have : Keeps S V (OkScore V) (lessonBody w f n l) := by
      unfold lessonBody
      split
      · exact keeps_storeLes l okScore_none
      · refine keeps_bind (keeps_check w hw h n l) (fun b _ => ?_)
        split
        · exact keeps_storeLes l okScore_none
        · refine keeps_bind (P := OkScore V) ?_ (fun v hv => keeps_storeLes l hv)
          unfold lessonMeanC
          split
          · exact keeps_pure okScore_none
          · dsimp only
            split
            · exact keeps_pure okScore_none
            · rename_i hne
              refine keeps_bind (keeps_mapM _ (keeps_ex w hw)) (fun rs hrs => keeps_pure ?_)
              intro v hv
              cases hv
              refine hm _ ?_ ?_
              · intro h0
                have : rs.length = 0 := by simpa using congrArg List.length h0
                rw [hrs.2] at this
                exact hne (by rw [List.isEmpty_iff]; exact List.length_eq_zero_iff.1 this)
              · intro x hx
                obtain ⟨r, hr, rfl⟩ := List.mem_map.1 hx
                exact hS r (hrs.1 r hr)
    exact this c a c' hc he

theorem keeps_course (n : Nat) (u : ι) : Keeps S V (OkScore V) (courseC w f n u) := by
  intro c a c' hc he
  unfold courseC at he
  split at he
  · rename_i v hv
    cases he
    exact ⟨fun x hx => hc.cou u x (hx ▸ hv), hc⟩
  · have : Keeps S V (OkScore V) (courseBody w f n u) := by
      unfold courseBody
      split
      · exact keeps_storeCou u okScore_none
      · refine keeps_bind (keeps_check w hw h n u) (fun b _ => ?_)
        split
        · exact keeps_storeCou u okScore_none
        · split
          · exact keeps_storeCou u okScore_none
          · refine keeps_bind (keeps_mapM _ (keeps_lesson w hw hS hm h n)) (fun vs hvs => ?_)
            dsimp only
            split
            · exact keeps_pure okScore_none
            · rename_i hne
              refine keeps_storeCou u (fun v hv => ?_)
              cases hv
              refine hm _ (fun h0 => hne (by rw [h0]; rfl)) (fun x hx => ?_)
              rw [List.reduceOption_mem_iff] at hx
              exact hvs.1 _ hx x rfl
    exact this c a c' hc he

end

include hw hS hm in
/-- Score queries keep everything in the caches in bounds and answer scores in bounds. -/
theorem keeps_score (n : Nat) (u : ι) : Keeps S V (OkScore V) (scoreC w n u) := by
  induction n generalizing u with
  | zero => intro c a c' _ h; simp [scoreC] at h
  | succ n ih =>
    rw [scoreC]
    split
    · exact keeps_pure okScore_none
    · refine keeps_bind (keeps_ex w hw u) (fun r hr => keeps_pure ?_)
      intro v hv
      cases hv
      exact hS r hr
    · exact keeps_lesson w hw hS hm ih n u
    · exact keeps_course w hw hS hm ih n u

include hw in
theorem keeps_lessonTrials (l : ι) : Keeps S V (fun _ => True) (lessonTrialsC w l) := by
  intro c a c' hc he
  unfold lessonTrialsC at he
  split at he
  · cases he; exact ⟨trivial, hc⟩
  · have : Keeps S V (fun _ => True) (lessonTrialsBody w l) := by
      unfold lessonTrialsBody
      split
      · exact keeps_pure trivial
      · refine keeps_bind (keeps_mapM _ (keeps_ex w hw)) (fun rs _ => ?_)
        intro c a c' hc he
        cases he
        exact ⟨trivial, ⟨hc.ex, hc.les, hc.cou⟩⟩
    exact this c a c' hc he

include hw hS hm in
theorem keeps_courseTrials (n : Nat) (u : ι) : Keeps S V (fun _ => True) (courseTrialsC w n u) := by
  intro c a c' hc he
  unfold courseTrialsC at he
  split at he
  · cases he; exact ⟨trivial, hc⟩
  · have : Keeps S V (fun _ => True) (courseTrialsBody w n u) := by
      unfold courseTrialsBody
      refine keeps_bind (keeps_keepM _ (fun l => ?_)) (fun ls _ => ?_)
      · exact keeps_bind (keeps_check w hw (keeps_score w hw hS hm n) n l) (fun _ _ => keeps_pure trivial)
      · refine keeps_bind (keeps_mapM _ (keeps_lessonTrials w hw)) (fun vs _ => ?_)
        intro c a c' hc he
        cases he
        exact ⟨trivial, ⟨hc.ex, hc.les, hc.cou⟩⟩
    exact this c a c' hc he

theorem bounded_invalidate (g : Graph ι) (u : ι) {c : Caches ι R} (h : Bounded S V c) :
    Bounded S V (invalidate g c u) := by
  have s := survives_invalidate g c u
  exact ⟨fun e r he => h.ex e r (s.ex e r he).1, fun l v hl => h.les l v ((s.les l _).1 hl),
    fun k v hk => h.cou k v ((s.cou k _).1 hk)⟩

theorem find_filter_some {ν : Type} (m : AMap ι ν) (p : ι → Bool) (k : ι) (v : ν)
    (h : AMap.find (m.filter (fun e => p e.1)) k = some v) : m.find k = some v := by
  induction m with
  | nil => exact h
  | cons a m ih =>
    rw [List.filter_cons] at h
    by_cases hk : a.1 = k
    · split at h
      · simpa [AMap.find, hk] using h
      · rename_i hp
        exfalso
        clear ih
        induction m with
        | nil => simp [AMap.find] at h
        | cons a' m ih' =>
          rw [List.filter_cons] at h
          split at h
          · rename_i hp'
            by_cases hk' : a'.1 = k
            · rw [hk'] at hp'; rw [hk] at hp; exact hp hp'
            · exact ih' (by simpa [AMap.find, hk'] using h)
          · exact ih' h
    · split at h
      · have := ih (by simpa [AMap.find, hk] using h)
        simpa [AMap.find, hk] using this
      · have := ih h
        simpa [AMap.find, hk] using this

theorem bounded_invalidatePrefix (p : ι → Bool) {c : Caches ι R} (h : Bounded S V c) :
    Bounded S V (invalidatePrefix p c) :=
  ⟨fun e r he => h.ex e r (find_filter_some _ (fun x => !p x) _ _ he),
   fun l v hl => h.les l v (find_filter_some _ (fun x => !p x) _ _ hl),
   fun k v hk => h.cou k v (find_filter_some _ (fun x => !p x) _ _ hk)⟩

theorem bounded_empty : Bounded S V ({} : Caches ι R) :=
  ⟨fun e r h => by simp at h, fun e r h => by simp at h, fun e r h => by simp at h⟩

end

end Trane.UnitScorer
