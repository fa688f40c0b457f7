import Verif.Sched.UnitScorer

/-! Helper lemmas: the cached code computes the from-scratch scores. -/

namespace Trane.UnitScorer

variable {ι R T W : Type} [DecidableEq ι] [Field R] [LinearOrder R]

/-! ### Fuel monotonicity of the specification -/

theorem mapM_mono {α β : Type} {f g : α → Option β} (xs : List α)
    (h : ∀ x ∈ xs, ∀ v, f x = some v → g x = some v) (vs : List β)
    (hv : xs.mapM f = some vs) : xs.mapM g = some vs := by
  induction xs generalizing vs with
  | nil => simpa using hv
  | cons x xs ih =>
    simp only [List.mapM_cons, Option.bind_eq_bind, Option.bind_eq_some_iff,
      Option.pure_def] at hv ⊢
    obtain ⟨a, ha, b, hb, e⟩ := hv
    exact ⟨a, h x List.mem_cons_self a ha, b,
      ih (fun y hy => h y (List.mem_cons_of_mem _ hy)) b hb, e⟩

theorem foldlM_mono {α β : Type} {f g : β → α → Option β} (xs : List α)
    (h : ∀ b, ∀ x ∈ xs, ∀ v, f b x = some v → g b x = some v) (b v : β)
    (hv : xs.foldlM f b = some v) : xs.foldlM g b = some v := by
  induction xs generalizing b with
  | nil => simpa using hv
  | cons x xs ih =>
    simp only [List.foldlM_cons, Option.bind_eq_bind, Option.bind_eq_some_iff] at hv ⊢
    obtain ⟨a, ha, hb⟩ := hv
    exact ⟨a, h b x List.mem_cons_self a ha,
      ih (fun b y hy => h b y (List.mem_cons_of_mem _ hy)) a hb⟩

theorem keepM_mono {α : Type} {f g : α → Option Bool} (xs : List α)
    (h : ∀ x ∈ xs, ∀ v, f x = some v → g x = some v) (vs : List α)
    (hv : keepM f xs = some vs) : keepM g xs = some vs := by
  induction xs generalizing vs with
  | nil => simpa [keepM] using hv
  | cons x xs ih =>
    simp only [keepM, Option.bind_eq_bind, Option.bind_eq_some_iff, Option.pure_def] at hv ⊢
    obtain ⟨a, ha, b, hb, e⟩ := hv
    exact ⟨a, h x List.mem_cons_self a ha, b,
      ih (fun y hy => h y (List.mem_cons_of_mem _ hy)) b hb, e⟩

/-- `g` agrees with `f` wherever `f` is defined. -/
def Ext (f g : ι → Option (Option R)) : Prop := ∀ u v, f u = some v → g u = some v

theorem supersededP_mono (w : World ι R T W) {f g : ι → Option (Option R)} (h : Ext f g) (u : ι)
    (ids : List ι) (b : Bool) (hb : supersededP w f u ids = some b) :
    supersededP w g u ids = some b := by
  unfold supersededP at *
  split
  · rename_i h1; rw [if_pos h1] at hb; exact hb
  · rename_i h1
    rw [if_neg h1] at hb
    split
    · rename_i h2; rw [if_pos h2] at hb; exact hb
    · rename_i h2
      rw [if_neg h2] at hb
      simp only [Option.bind_eq_bind, Option.bind_eq_some_iff] at hb ⊢
      obtain ⟨vs, hvs, e⟩ := hb
      exact ⟨vs, mapM_mono ids (fun x _ => h x) vs hvs, e⟩

theorem replaceP_mono (w : World ι R T W) {f g : ι → Option (Option R)} (h : Ext f g)
    {n m : Nat} (hnm : n ≤ m) (ids r : List ι) (hr : replaceP w f n ids = some r) :
    replaceP w g m ids = some r := by
  induction n generalizing m ids r with
  | zero => simp [replaceP] at hr
  | succ n ih =>
    obtain ⟨m, rfl⟩ : ∃ k, m = k + 1 := ⟨m - 1, by omega⟩
    rw [replaceP] at hr ⊢
    refine foldlM_mono ids ?_ _ _ hr
    intro b x _ v hv
    split at hv
    · rename_i s hs
      simp only [Option.bind_eq_bind, Option.bind_eq_some_iff] at hv ⊢
      obtain ⟨c, hc, hv⟩ := hv
      refine ⟨c, supersededP_mono w h x s c hc, ?_⟩
      split
      · rename_i hcc
        rw [if_pos hcc, Option.bind_eq_some_iff] at hv
        rw [Option.bind_eq_some_iff]
        obtain ⟨r', hr', e⟩ := hv
        exact ⟨r', ih (by omega) s r' hr', e⟩
      · rename_i hcc
        rw [if_neg hcc] at hv
        exact hv
    · exact hv

theorem checkP_mono (w : World ι R T W) {f g : ι → Option (Option R)} (h : Ext f g)
    {n m : Nat} (hnm : n ≤ m) (u : ι) (b : Bool) (hb : checkP w f n u = some b) :
    checkP w g m u = some b := by
  unfold checkP at *
  split
  · rename_i hs; rw [hs] at hb; exact hb
  · rename_i ids hs
    rw [hs] at hb
    simp only [Option.bind_eq_bind, Option.bind_eq_some_iff] at hb ⊢
    obtain ⟨r, hr, hb⟩ := hb
    exact ⟨r, replaceP_mono w h hnm ids r hr, supersededP_mono w h u r b hb⟩

theorem lessonP_mono (w : World ι R T W) {f g : ι → Option (Option R)} (h : Ext f g)
    {n m : Nat} (hnm : n ≤ m) (u : ι) (v : Option R) (hv : lessonP w f n u = some v) :
    lessonP w g m u = some v := by
  unfold lessonP at *
  split
  · rename_i hb; rw [if_pos hb] at hv; exact hv
  · rename_i hb
    rw [if_neg hb] at hv
    simp only [Option.bind_eq_bind, Option.bind_eq_some_iff] at hv ⊢
    obtain ⟨b, hb, e⟩ := hv
    exact ⟨b, checkP_mono w h hnm u b hb, e⟩

theorem courseP_mono (w : World ι R T W) {f g : ι → Option (Option R)} (h : Ext f g)
    {n m : Nat} (hnm : n ≤ m) (u : ι) (v : Option R) (hv : courseP w f n u = some v) :
    courseP w g m u = some v := by
  unfold courseP at *
  split
  · rename_i hb; rw [if_pos hb] at hv; exact hv
  · rename_i hb
    rw [if_neg hb] at hv
    simp only [Option.bind_eq_bind, Option.bind_eq_some_iff] at hv ⊢
    obtain ⟨b, hb, e⟩ := hv
    refine ⟨b, checkP_mono w h hnm u b hb, ?_⟩
    split
    · rename_i hbt; rw [if_pos hbt] at e; exact e
    · rename_i hbt
      rw [if_neg hbt] at e
      split
      · rename_i hl; rw [hl] at e; exact e
      · rename_i ls hl
        rw [hl] at e
        simp only [Option.bind_eq_some_iff] at e ⊢
        obtain ⟨vs, hvs, e⟩ := e
        exact ⟨vs, mapM_mono ls (fun x _ => lessonP_mono w h hnm x) vs hvs, e⟩

theorem scoreP_mono (w : World ι R T W) {n m : Nat} (hnm : n ≤ m) :
    Ext (scoreP w n) (scoreP w m) := by
  induction n generalizing m with
  | zero => intro u v h; simp [scoreP] at h
  | succ n ih =>
    intro u v h
    obtain ⟨m, rfl⟩ : ∃ k, m = k + 1 := ⟨m - 1, by omega⟩
    have hle : n ≤ m := by omega
    unfold scoreP at *
    split
    · rename_i ht; rw [ht] at h; exact h
    · rename_i ht; rw [ht] at h; exact h
    · rename_i ht; rw [ht] at h; exact lessonP_mono w (ih hle) hle u v h
    · rename_i ht; rw [ht] at h; exact courseP_mono w (ih hle) hle u v h

theorem courseTrialsP_mono (w : World ι R T W) {n m : Nat} (hnm : n ≤ m) (u : ι) (v : Option R)
    (h : courseTrialsP w n u = some v) : courseTrialsP w m u = some v := by
  unfold courseTrialsP at *
  simp only [Option.bind_eq_bind, Option.bind_eq_some_iff] at h ⊢
  obtain ⟨ls, hls, e⟩ := h
  refine ⟨ls, keepM_mono _ ?_ ls hls, e⟩
  intro x _ b hb
  simp only [Option.bind_eq_some_iff] at hb ⊢
  obtain ⟨b', hb', e⟩ := hb
  exact ⟨b', checkP_mono w (scoreP_mono w hnm) hnm x b' hb', e⟩

/-! ### Coherent caches -/

/-- The score of a lesson, from scratch. -/
def LessonIs (w : World ι R T W) (l : ι) (v : Option R) : Prop :=
  ∃ n, lessonP w (scoreP w n) n l = some v
/-- The score of a course, from scratch. -/
def CourseIs (w : World ι R T W) (u : ι) (v : Option R) : Prop :=
  ∃ n, courseP w (scoreP w n) n u = some v
/-- The average trials of a course, from scratch. -/
def CourseTrialsIs (w : World ι R T W) (u : ι) (v : Option R) : Prop :=
  ∃ n, courseTrialsP w n u = some v

theorem lessonIs_unique {w : World ι R T W} {l : ι} {v : Option R} (h : LessonIs w l v) {n : Nat}
    {v' : Option R} (h' : lessonP w (scoreP w n) n l = some v') : v = v' := by
  obtain ⟨k, hk⟩ := h
  have a := lessonP_mono w (scoreP_mono w (le_max_left k n)) (le_max_left k n) l v hk
  have b := lessonP_mono w (scoreP_mono w (le_max_right k n)) (le_max_right k n) l v' h'
  rw [a] at b; exact Option.some.inj b

theorem courseIs_unique {w : World ι R T W} {l : ι} {v : Option R} (h : CourseIs w l v) {n : Nat}
    {v' : Option R} (h' : courseP w (scoreP w n) n l = some v') : v = v' := by
  obtain ⟨k, hk⟩ := h
  have a := courseP_mono w (scoreP_mono w (le_max_left k n)) (le_max_left k n) l v hk
  have b := courseP_mono w (scoreP_mono w (le_max_right k n)) (le_max_right k n) l v' h'
  rw [a] at b; exact Option.some.inj b

theorem courseTrialsIs_unique {w : World ι R T W} {l : ι} {v : Option R} (h : CourseTrialsIs w l v)
    {n : Nat} {v' : Option R} (h' : courseTrialsP w n l = some v') : v = v' := by
  obtain ⟨k, hk⟩ := h
  have a := courseTrialsP_mono w (le_max_left k n) l v hk
  have b := courseTrialsP_mono w (le_max_right k n) l v' h'
  rw [a] at b; exact Option.some.inj b

/-- A set of units closed under taking superseding units and the lessons of a course. -/
structure Closed (g : Graph ι) (ok : ι → Prop) : Prop where
  sup : ∀ u ids s, ok u → g.getSupersededBy u = some ids → s ∈ ids → ok s
  les : ∀ u ls l, ok u → g.getCourseLessons u = some ls → l ∈ ls → ok l

/-- Every cached value of a unit in `ok` is the value computed from scratch. -/
structure Coh (ok : ι → Prop) (w : World ι R T W) (c : Caches ι R) : Prop where
  ex : ∀ e r, c.ex.find e = some r → r = w.exRec e
  les : ∀ l v, ok l → c.les.find l = some v → LessonIs w l v
  cou : ∀ u v, ok u → c.cou.find u = some v → CourseIs w u v
  lesT : ∀ l v, c.lesT.find l = some v → v = lessonTrialsP w l
  couT : ∀ u v, ok u → c.couT.find u = some v → CourseTrialsIs w u v

theorem coh_empty (ok : ι → Prop) (w : World ι R T W) : Coh ok w ({} : Caches ι R) := by
  constructor <;> intros <;> simp_all

/-- The cached computation `m` returns what the specification `p` returns and keeps the caches
coherent. -/
def Sim (ok : ι → Prop) (w : World ι R T W) {α : Type} (m : M ι R α) (p : Option α) : Prop :=
  ∀ a, p = some a → ∀ c, Coh ok w c → ∃ c', m c = some (a, c') ∧ Coh ok w c'

theorem sim_pure (ok : ι → Prop) (w : World ι R T W) {α : Type} (a : α) : Sim ok w (pure a : M ι R α) (some a) := by
  intro b h c hc
  cases h
  exact ⟨c, rfl, hc⟩

theorem sim_bind (ok : ι → Prop) (w : World ι R T W) {α β : Type} {m : M ι R α} {p : Option α}
    {f : α → M ι R β} {g : α → Option β} (hm : Sim ok w m p)
    (hf : ∀ a, p = some a → Sim ok w (f a) (g a)) : Sim ok w (m >>= f) (p.bind g) := by
  intro b h c hc
  rw [Option.bind_eq_some_iff] at h
  obtain ⟨a, ha, hb⟩ := h
  obtain ⟨c1, h1, hc1⟩ := hm a ha c hc
  obtain ⟨c2, h2, hc2⟩ := hf a ha b hb c1 hc1
  refine ⟨c2, ?_, hc2⟩
  change (m c).bind (fun x => f x.1 x.2) = _
  rw [h1]; exact h2

theorem sim_mapM (ok : ι → Prop) (w : World ι R T W) {α β : Type} {f : α → M ι R β} {g : α → Option β}
    (xs : List α) (h : ∀ x ∈ xs, Sim ok w (f x) (g x)) : Sim ok w (xs.mapM f) (xs.mapM g) := by
  induction xs with
  | nil => simpa using sim_pure ok w []
  | cons x xs ih =>
    simp only [List.mapM_cons]
    refine sim_bind ok w (h x List.mem_cons_self) (fun a _ => ?_)
    refine sim_bind ok w (ih (fun y hy => h y (List.mem_cons_of_mem _ hy))) (fun b _ => ?_)
    exact sim_pure ok w _

theorem sim_foldlM (ok : ι → Prop) (w : World ι R T W) {α β : Type} {f : β → α → M ι R β} {g : β → α → Option β}
    (xs : List α) (h : ∀ b, ∀ x ∈ xs, Sim ok w (f b x) (g b x)) (b : β) :
    Sim ok w (xs.foldlM f b) (xs.foldlM g b) := by
  induction xs generalizing b with
  | nil => simpa using sim_pure ok w b
  | cons x xs ih =>
    simp only [List.foldlM_cons]
    refine sim_bind ok w (h b x List.mem_cons_self) (fun a _ => ?_)
    exact ih (fun b y hy => h b y (List.mem_cons_of_mem _ hy)) a

theorem sim_keepM (ok : ι → Prop) (w : World ι R T W) {α : Type} {f : α → M ι R Bool} {g : α → Option Bool}
    (xs : List α) (h : ∀ x ∈ xs, Sim ok w (f x) (g x)) : Sim ok w (keepM f xs) (keepM g xs) := by
  induction xs with
  | nil => exact sim_pure ok w []
  | cons x xs ih =>
    simp only [keepM]
    refine sim_bind ok w (h x List.mem_cons_self) (fun a _ => ?_)
    refine sim_bind ok w (ih (fun y hy => h y (List.mem_cons_of_mem _ hy))) (fun b _ => ?_)
    exact sim_pure ok w _

theorem mapM_some {α β : Type} (h : α → β) (xs : List α) :
    xs.mapM (fun x => some (h x)) = some (xs.map h) := by
  induction xs with
  | nil => rfl
  | cons x xs ih => simp [List.mapM_cons, ih]

theorem sim_exC (ok : ι → Prop) (w : World ι R T W) (e : ι) : Sim ok w (exC w e) (some (w.exRec e)) := by
  intro r hr c hc
  cases hr
  unfold exC
  split
  · rename_i r hr
    rw [hc.ex e r hr]
    exact ⟨c, rfl, hc⟩
  · refine ⟨_, rfl, ?_⟩
    refine ⟨?_, hc.les, hc.cou, hc.lesT, hc.couT⟩
    intro e' r' h'
    simp only [AMap.find_put] at h'
    split at h'
    · rename_i he; cases h'; rw [he]
    · exact hc.ex e' r' h'

theorem sim_exs (ok : ι → Prop) (w : World ι R T W) (es : List ι) :
    Sim ok w (es.mapM (exC w)) (some (es.map w.exRec)) := by
  rw [← mapM_some]
  exact sim_mapM ok w es (fun e _ => sim_exC ok w e)

theorem sim_seen (ok : ι → Prop) (w : World ι R T W) (u : ι) : Sim ok w (seenC w u) (some (seenP w u)) := by
  unfold seenC
  have : some (seenP w u) = (some ((w.allValid u).map w.exRec)).bind
      (fun rs => some (rs.all (fun r => decide (r.score > 0)))) := by
    simp [seenP, List.all_map, Function.comp_def]
  rw [this]
  exact sim_bind ok w (sim_exs ok w _) (fun _ _ => sim_pure ok w _)

theorem sim_superseded (ok : ι → Prop) (w : World ι R T W) {f : ι → M ι R (Option R)} {g : ι → Option (Option R)}
    (h : ∀ u, ok u → Sim ok w (f u) (g u)) (u : ι) (ids : List ι) (hids : ∀ x ∈ ids, ok x) :
    Sim ok w (supersededC w f u ids) (supersededP w g u ids) := by
  unfold supersededC supersededP
  split
  · exact sim_pure ok w _
  · have e : (if (!seenP w u) = true then some false else do
        let vs ← ids.mapM g
        return vs.reduceOption.all (fun s => decide (s ≥ w.supScore))) =
      (some (seenP w u)).bind (fun b => if (!b) = true then some false else do
        let vs ← ids.mapM g
        return vs.reduceOption.all (fun s => decide (s ≥ w.supScore))) := rfl
    rw [e]
    refine sim_bind ok w (sim_seen ok w u) (fun b _ => ?_)
    split
    · exact sim_pure ok w _
    · exact sim_bind ok w (sim_mapM ok w ids (fun x hx => h x (hids x hx))) (fun vs _ => sim_pure ok w _)

theorem sim_replace (ok : ι → Prop) (w : World ι R T W) {f : ι → M ι R (Option R)} {g : ι → Option (Option R)}
    (hcl : Closed w.graph ok) (h : ∀ u, ok u → Sim ok w (f u) (g u)) (n : Nat) (ids : List ι)
    (hids : ∀ x ∈ ids, ok x) :
    Sim ok w (replaceC w f n ids) (replaceP w g n ids) := by
  induction n generalizing ids with
  | zero => intro a ha; simp [replaceP] at ha
  | succ n ih =>
    rw [replaceC, replaceP]
    apply sim_foldlM
    intro acc x hx
    split
    · rename_i s hs
      have hsok : ∀ y ∈ s, ok y := fun y hy => hcl.sup x s y (hids x hx) hs hy
      refine sim_bind ok w (sim_superseded ok w h x _ hsok) (fun b _ => ?_)
      split
      · exact sim_bind ok w (ih _ hsok) (fun r _ => sim_pure ok w _)
      · exact sim_pure ok w _
    · exact sim_pure ok w _

theorem replaceP_subset (ok : ι → Prop) (w : World ι R T W) {g : ι → Option (Option R)}
    (hcl : ∀ u ids s, ok u → w.graph.getSupersededBy u = some ids → s ∈ ids → ok s) (n : Nat)
    (ids r : List ι) (hids : ∀ x ∈ ids, ok x) (hr : replaceP w g n ids = some r) :
    ∀ x ∈ r, ok x := by
  induction n generalizing ids r with
  | zero => simp [replaceP] at hr
  | succ n ih =>
    rw [replaceP] at hr
    have key : ∀ (l acc r : List ι), (∀ x ∈ l, ok x) → (∀ x ∈ acc, ok x) →
        l.foldlM (fun acc id =>
          match w.graph.getSupersededBy id with
          | some s => do
            let b ← supersededP w g id s
            if b then
              let r ← replaceP w g n s
              return extendSet acc r
            else return acc.insert id
          | none => some (acc.insert id)) acc = some r → ∀ x ∈ r, ok x := by
      intro l
      induction l with
      | nil =>
        intro acc r _ ha h
        simp only [List.foldlM_nil, Option.pure_def, Option.some.injEq] at h
        rw [← h]; exact ha
      | cons y l ihl =>
        intro acc r hl ha h
        simp only [List.foldlM_cons, Option.bind_eq_bind, Option.bind_eq_some_iff] at h
        obtain ⟨acc', h1, h2⟩ := h
        have hy := hl y List.mem_cons_self
        have hins : ∀ x ∈ acc.insert y, ok x := by
          intro x hx
          rcases List.mem_insert_iff.1 hx with e | e
          · rw [e]; exact hy
          · exact ha x e
        refine ihl acc' r (fun x hx => hl x (List.mem_cons_of_mem _ hx)) ?_ h2
        split at h1
        · rename_i s hs
          simp only [Option.bind_eq_some_iff] at h1
          obtain ⟨b, _, h1⟩ := h1
          split at h1
          · simp only [Option.bind_eq_some_iff] at h1
            obtain ⟨r', hr', h1⟩ := h1
            cases h1
            intro x hx
            rcases (mem_extendSet _ _ _).1 hx with e | e
            · exact ha x e
            · exact ih s r' (fun z hz => hcl y s z hy hs hz) hr' x e
          · cases h1; exact hins
        · cases h1; exact hins
    exact key ids [] r hids (by simp) hr

theorem sim_check (ok : ι → Prop) (w : World ι R T W) {f : ι → M ι R (Option R)} {g : ι → Option (Option R)}
    (hcl : Closed w.graph ok) (h : ∀ u, ok u → Sim ok w (f u) (g u)) (n : Nat) (u : ι)
    (hu : ok u) :
    Sim ok w (checkC w f n u) (checkP w g n u) := by
  unfold checkC checkP
  split
  · exact sim_pure ok w _
  · rename_i ids hs
    have hids := fun x hx => hcl.sup u ids x hu hs hx
    exact sim_bind ok w (sim_replace ok w hcl h n _ hids)
      (fun r hr => sim_superseded ok w h u r (replaceP_subset ok w hcl.sup n ids r hids hr))

theorem sim_storeLes (ok : ι → Prop) (w : World ι R T W) (l : ι) (v : Option R) (h : ok l → LessonIs w l v) :
    Sim ok w (storeLes l v : M ι R (Option R)) (some v) := by
  intro a ha c hc
  cases ha
  refine ⟨_, rfl, hc.ex, ?_, hc.cou, hc.lesT, hc.couT⟩
  intro l' v' hk h'
  simp only [AMap.find_put] at h'
  split at h'
  · rename_i he; cases h'; rw [← he] at hk ⊢; exact h hk
  · exact hc.les l' v' hk h'

theorem sim_storeCou (ok : ι → Prop) (w : World ι R T W) (l : ι) (v : Option R) (h : ok l → CourseIs w l v) :
    Sim ok w (storeCou l v : M ι R (Option R)) (some v) := by
  intro a ha c hc
  cases ha
  refine ⟨_, rfl, hc.ex, hc.les, ?_, hc.lesT, hc.couT⟩
  intro l' v' hk h'
  simp only [AMap.find_put] at h'
  split at h'
  · rename_i he; cases h'; rw [← he] at hk ⊢; exact h hk
  · exact hc.cou l' v' hk h'

theorem sim_storeLesT (ok : ι → Prop) (w : World ι R T W) (l : ι) (v : Option R) (h : v = lessonTrialsP w l) :
    Sim ok w (storeLesT l v : M ι R (Option R)) (some v) := by
  intro a ha c hc
  cases ha
  refine ⟨_, rfl, hc.ex, hc.les, hc.cou, ?_, hc.couT⟩
  intro l' v' h'
  simp only [AMap.find_put] at h'
  split at h'
  · rename_i he; cases h'; rw [← he]; exact h
  · exact hc.lesT l' v' h'

theorem sim_storeCouT (ok : ι → Prop) (w : World ι R T W) (l : ι) (v : Option R) (h : ok l → CourseTrialsIs w l v) :
    Sim ok w (storeCouT l v : M ι R (Option R)) (some v) := by
  intro a ha c hc
  cases ha
  refine ⟨_, rfl, hc.ex, hc.les, hc.cou, hc.lesT, ?_⟩
  intro l' v' hk h'
  simp only [AMap.find_put] at h'
  split at h'
  · rename_i he; cases h'; rw [← he] at hk ⊢; exact h hk
  · exact hc.couT l' v' hk h'

theorem sim_lessonMean (ok : ι → Prop) (w : World ι R T W) (l : ι) :
    Sim ok w (lessonMeanC w l) (some (lessonMean w l)) := by
  unfold lessonMeanC lessonMean
  split
  · exact sim_pure ok w _
  · rename_i es _
    dsimp only
    split
    · exact sim_pure ok w _
    · have e : some (some (mean ((es.filter (fun e => !w.black e)).map
          (fun e => (w.exRec e).score)))) =
        (some ((es.filter (fun e => !w.black e)).map w.exRec)).bind
          (fun rs => some (some (mean (rs.map (fun r => r.score))))) := by
        simp [List.map_map, Function.comp_def]
      rw [e]
      exact sim_bind ok w (sim_exs ok w _) (fun _ _ => sim_pure ok w _)

theorem sim_lesson (ok : ι → Prop) (w : World ι R T W) (n : Nat) {f : ι → M ι R (Option R)}
    (hcl : Closed w.graph ok) (h : ∀ u, ok u → Sim ok w (f u) (scoreP w n u)) (l : ι)
    (hl : ok l) :
    Sim ok w (lessonC w f n l) (lessonP w (scoreP w n) n l) := by
  intro v hv c hc
  unfold lessonC
  split
  · rename_i v' hv'
    rw [lessonIs_unique (hc.les l v' hl hv') hv]
    exact ⟨c, rfl, hc⟩
  · have his : LessonIs w l v := ⟨n, hv⟩
    revert c
    change ∀ c, Coh ok w c → _
    unfold lessonP at hv
    unfold lessonBody
    split at hv
    · rename_i hb
      rw [if_pos hb]
      intro c hc _
      cases hv
      exact sim_storeLes ok w l none (fun _ => his) none rfl c hc
    · rename_i hb
      rw [if_neg hb]
      intro c hc _
      simp only [Option.bind_eq_bind, Option.bind_eq_some_iff] at hv
      obtain ⟨b, hb, e⟩ := hv
      obtain ⟨c1, h1, hc1⟩ := sim_check ok w hcl h n l hl b hb c hc
      have key : Sim ok w (if b = true then storeLes l none else do
          let v ← lessonMeanC w l
          storeLes l v) (some v) := by
        split
        · rename_i hbt
          rw [if_pos hbt] at e
          cases e
          exact sim_storeLes ok w l none (fun _ => his)
        · rename_i hbt
          rw [if_neg hbt] at e
          cases e
          exact sim_bind ok w (g := fun v => some v) (sim_lessonMean ok w l)
            (fun a ha => by cases ha; exact sim_storeLes ok w l _ (fun _ => his))
      obtain ⟨c2, h2, hc2⟩ := key v rfl c1 hc1
      refine ⟨c2, ?_, hc2⟩
      change (checkC w f n l c).bind _ = _
      rw [h1]
      exact h2

theorem sim_course (ok : ι → Prop) (w : World ι R T W) (n : Nat) {f : ι → M ι R (Option R)}
    (hcl : Closed w.graph ok) (h : ∀ u, ok u → Sim ok w (f u) (scoreP w n u)) (l : ι)
    (hl : ok l) :
    Sim ok w (courseC w f n l) (courseP w (scoreP w n) n l) := by
  intro v hv c hc
  unfold courseC
  split
  · rename_i v' hv'
    rw [courseIs_unique (hc.cou l v' hl hv') hv]
    exact ⟨c, rfl, hc⟩
  · have his : CourseIs w l v := ⟨n, hv⟩
    unfold courseP at hv
    unfold courseBody
    split at hv
    · rename_i hb
      rw [if_pos hb]
      cases hv
      exact sim_storeCou ok w l none (fun _ => his) none rfl c hc
    · rename_i hb
      rw [if_neg hb]
      simp only [Option.bind_eq_bind, Option.bind_eq_some_iff] at hv
      obtain ⟨b, hb, e⟩ := hv
      obtain ⟨c1, h1, hc1⟩ := sim_check ok w hcl h n l hl b hb c hc
      have key : ∃ c', (if b = true then storeCou l none else
          match w.graph.getCourseLessons l with
          | none => storeCou l none
          | some ls => do
            let vs ← ls.mapM (lessonC w f n)
            let valid := vs.reduceOption
            if valid.isEmpty then return none else storeCou l (some (mean valid))) c1
            = some (v, c') ∧ Coh ok w c' := by
        split
        · rename_i hbt
          rw [if_pos hbt] at e
          cases e
          exact sim_storeCou ok w l none (fun _ => his) none rfl c1 hc1
        · rename_i hbt
          rw [if_neg hbt] at e
          cases hls : w.graph.getCourseLessons l with
          | none =>
            rw [hls] at e
            cases e
            exact sim_storeCou ok w l none (fun _ => his) none rfl c1 hc1
          | some ls =>
            rw [hls] at e
            simp only [Option.bind_eq_some_iff] at e
            obtain ⟨vs, hvs, e⟩ := e
            obtain ⟨c2, h2, hc2⟩ := sim_mapM ok w ls (fun x hx =>
              sim_lesson ok w n hcl h x (hcl.les l ls x hl hls hx)) vs hvs c1 hc1
            have k2 : ∃ c', ((if vs.reduceOption.isEmpty = true then pure none
                else storeCou l (some (mean vs.reduceOption))) : M ι R (Option R)) c2
                = some (v, c') ∧ Coh ok w c' := by
              split
              · rename_i hv
                rw [if_pos hv] at e
                cases e
                exact ⟨c2, rfl, hc2⟩
              · rename_i hv
                rw [if_neg hv] at e
                cases e
                exact sim_storeCou ok w l _ (fun _ => his) _ rfl c2 hc2
            obtain ⟨c3, h3, hc3⟩ := k2
            refine ⟨c3, ?_, hc3⟩
            change (ls.mapM (lessonC w f n) c1).bind _ = _
            rw [h2]
            exact h3
      obtain ⟨c2, h2, hc2⟩ := key
      refine ⟨c2, ?_, hc2⟩
      change (checkC w f n l c).bind _ = _
      rw [h1]
      exact h2

theorem sim_score (ok : ι → Prop) (w : World ι R T W) (hcl : Closed w.graph ok) (n : Nat) (u : ι)
    (hu : ok u) : Sim ok w (scoreC w n u) (scoreP w n u) := by
  induction n generalizing u with
  | zero => intro a ha; simp [scoreP] at ha
  | succ n ih =>
    rw [scoreC, scoreP]
    split
    · exact sim_pure ok w _
    · have e : some (some (w.exRec u).score) =
        (some (w.exRec u)).bind (fun r => some (some r.score)) := rfl
      rw [e]
      exact sim_bind ok w (sim_exC ok w u) (fun _ _ => sim_pure ok w _)
    · exact sim_lesson ok w n hcl ih u hu
    · exact sim_course ok w n hcl ih u hu

theorem sim_lessonTrials (ok : ι → Prop) (w : World ι R T W) (l : ι) :
    Sim ok w (lessonTrialsC w l) (some (lessonTrialsP w l)) := by
  intro v hv c hc
  cases hv
  unfold lessonTrialsC
  split
  · rename_i v' hv'
    rw [hc.lesT l v' hv']
    exact ⟨c, rfl, hc⟩
  · have key : Sim ok w (lessonTrialsBody w l) (some (lessonTrialsP w l)) := by
      unfold lessonTrialsBody
      split
      · rename_i hl
        have : lessonTrialsP w l = none := by unfold lessonTrialsP; rw [hl]
        rw [this]
        exact sim_pure ok w _
      · rename_i es hl
        have e : some (lessonTrialsP w l) =
            (some ((es.filter (fun e => !w.black e)).map w.exRec)).bind
            (fun rs => some (if rs.isEmpty then none
              else some (mean (rs.map (fun r => (r.trials : R)))))) := by
          unfold lessonTrialsP
          rw [hl]
          simp [List.map_map, Function.comp_def]
        rw [e]
        refine sim_bind ok w (sim_exs ok w _) (fun rs hrs => ?_)
        refine sim_storeLesT ok w l _ ?_
        rw [hrs] at e
        exact (Option.some.inj e).symm
    exact key _ rfl c hc

theorem sim_courseTrials (ok : ι → Prop) (w : World ι R T W) (hcl : Closed w.graph ok) (n : Nat)
    (u : ι) (hu : ok u) :
    Sim ok w (courseTrialsC w n u) (courseTrialsP w n u) := by
  intro v hv c hc
  unfold courseTrialsC
  split
  · rename_i v' hv'
    rw [courseTrialsIs_unique (hc.couT u v' hu hv') hv]
    exact ⟨c, rfl, hc⟩
  · have his : CourseTrialsIs w u v := ⟨n, hv⟩
    have key : Sim ok w (courseTrialsBody w n u) (some v) := by
      have e : some v = (keepM (fun l => (checkP w (scoreP w n) n l).bind (fun b =>
            some (!w.black l && !b))) ((w.graph.getCourseLessons u).getD [])).bind (fun ls =>
            (some (ls.map (lessonTrialsP w))).bind (fun vs =>
              some (if vs.reduceOption.isEmpty then none else some (mean vs.reduceOption)))) := by
        rw [← hv]
        unfold courseTrialsP
        simp only [Option.bind_eq_bind, Option.bind_some, Option.pure_def]
        congr 1
        funext ls
        split <;> rfl
      rw [e]
      unfold courseTrialsBody
      refine sim_bind ok w ?_ (fun ls hls => ?_)
      · apply sim_keepM
        intro x hx
        have hxo : ok x := by
          cases hls : w.graph.getCourseLessons u with
          | none => rw [hls] at hx; simp at hx
          | some ls => rw [hls] at hx; exact hcl.les u ls x hu hls hx
        exact sim_bind ok w (sim_check ok w hcl (sim_score ok w hcl n) n x hxo) (fun b _ => sim_pure ok w _)
      · refine sim_bind ok w ?_ (fun vs hvs => ?_)
        · rw [← mapM_some]
          exact sim_mapM ok w ls (fun x _ => sim_lessonTrials ok w x)
        · apply sim_storeCouT
          rw [hls, Option.bind_some, hvs, Option.bind_some] at e
          rw [← Option.some.inj e]
          exact fun _ => his
    exact key v rfl c hc

end Trane.UnitScorer
