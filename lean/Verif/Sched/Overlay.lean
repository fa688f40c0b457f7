import Verif.Sched.UnitCacheProps

/-!
# Queries answered from caches that may be out of date

`Verif.Sched.UnitScorerLemmas` shows that caches whose entries are up to date answer what is computed from
scratch.  Here the entries of the caches are arbitrary.  `scoreO` and the other functions with this suffix
are the scores as the code computes them when some values are fixed by the caches `c0` at the start; they
read but do not write.  The code, started with the caches `c0` and after any queries, answers these scores.
-/

namespace Trane.UnitScorer

variable {ι R T W : Type} [DecidableEq ι] [Field R] [LinearOrder R]

/-- The world in which the records of exercises are those of the caches, if there. -/
def over (w : World ι R T W) (c0 : Caches ι R) : World ι R T W :=
  { w with compute := fun e now t l c => (c0.ex.find e).getD (w.compute e now t l c) }

theorem over_exRec (w : World ι R T W) (c0 : Caches ι R) (e : ι) :
    (over w c0).exRec e = (c0.ex.find e).getD (w.exRec e) := rfl

/-- The score of a lesson: the one in the caches or the computed one. -/
def lessonO (w : World ι R T W) (c0 : Caches ι R) (f : ι → Option (Option R)) (n : Nat) (l : ι) :
    Option (Option R) :=
  match c0.les.find l with
  | some v => some v
  | none => lessonP (over w c0) f n l

/-- The score of a course: the one in the caches or the computed one. -/
def courseO (w : World ι R T W) (c0 : Caches ι R) (f : ι → Option (Option R)) (n : Nat) (u : ι) :
    Option (Option R) :=
  match c0.cou.find u with
  | some v => some v
  | none =>
    if w.black u then some none
    else do
      let b ← checkP (over w c0) f n u
      if b then return none
      else
        match w.graph.getCourseLessons u with
        | none => return none
        | some ls =>
          let vs ← ls.mapM (lessonO w c0 f n)
          if vs.reduceOption.isEmpty then return none else return some (mean vs.reduceOption)

/-- The score of a unit. -/
def scoreO (w : World ι R T W) (c0 : Caches ι R) : Nat → ι → Option (Option R)
  | 0, _ => none
  | n + 1, u =>
    match w.graph.getUnitType u with
    | none => some none
    | some .exercise => some (some ((over w c0).exRec u).score)
    | some .lesson => lessonO w c0 (scoreO w c0 n) n u
    | some .course => courseO w c0 (scoreO w c0 n) n u

/-- The average trials of a lesson. -/
def lessonTrialsO (w : World ι R T W) (c0 : Caches ι R) (l : ι) : Option R :=
  match c0.lesT.find l with
  | some v => v
  | none => lessonTrialsP (over w c0) l

/-- The average trials of a course. -/
def courseTrialsO (w : World ι R T W) (c0 : Caches ι R) (n : Nat) (u : ι) : Option (Option R) :=
  match c0.couT.find u with
  | some v => some v
  | none => do
    let ls ← keepM (fun l => do
      let b ← checkP (over w c0) (scoreO w c0 n) n l
      return !w.black l && !b) ((w.graph.getCourseLessons u).getD [])
    let vs := (ls.map (lessonTrialsO w c0)).reduceOption
    if vs.isEmpty then return none else return some (mean vs)

/-! ### More fuel changes nothing -/

section
variable (w : World ι R T W) (c0 : Caches ι R)

theorem lessonO_mono {f g : ι → Option (Option R)} (h : Ext f g) {n m : Nat} (hnm : n ≤ m) (u : ι) (v : Option R)
    (hv : lessonO w c0 f n u = some v) : lessonO w c0 g m u = some v := by
  unfold lessonO at *
  split
  · rename_i hb; rw [hb] at hv; exact hv
  · rename_i hb; rw [hb] at hv; exact lessonP_mono _ h hnm u v hv

theorem courseO_mono {f g : ι → Option (Option R)} (h : Ext f g) {n m : Nat} (hnm : n ≤ m) (u : ι) (v : Option R)
    (hv : courseO w c0 f n u = some v) : courseO w c0 g m u = some v := by
  unfold courseO at *
  split
  · rename_i hb; rw [hb] at hv; exact hv
  · rename_i hb
    rw [hb] at hv
    dsimp only at hv
    split
    · rename_i hb; rw [if_pos hb] at hv; exact hv
    · rename_i hb
      rw [if_neg hb] at hv
      simp only [Option.bind_eq_bind, Option.bind_eq_some_iff] at hv ⊢
      obtain ⟨b, hb, e⟩ := hv
      refine ⟨b, checkP_mono _ h hnm u b hb, ?_⟩
      split
      · rename_i hbt; rw [if_pos hbt] at e; exact e
      · rename_i hbt
        rw [if_neg hbt] at e
        split
        · rename_i hl; rw [hl] at e; exact e
        · rename_i ls hl
          rw [hl] at e
          simp only [Option.bind_eq_some_iff] at e ⊢
          obtain ⟨vs, hvs, e⟩ := e
          exact ⟨vs, mapM_mono ls (fun x _ => lessonO_mono w c0 h hnm x) vs hvs, e⟩

theorem scoreO_mono {n m : Nat} (hnm : n ≤ m) : Ext (scoreO w c0 n) (scoreO w c0 m) := by
  induction n generalizing m with
  | zero => intro u v h; simp [scoreO] at h
  | succ n ih =>
    intro u v h
    obtain ⟨m, rfl⟩ : ∃ k, m = k + 1 := ⟨m - 1, by omega⟩
    have hle : n ≤ m := by omega
    unfold scoreO at *
    split
    · rename_i ht; rw [ht] at h; exact h
    · rename_i ht; rw [ht] at h; exact h
    · rename_i ht; rw [ht] at h; exact lessonO_mono w c0 (ih hle) hle u v h
    · rename_i ht; rw [ht] at h; exact courseO_mono w c0 (ih hle) hle u v h

theorem courseTrialsO_mono {n m : Nat} (hnm : n ≤ m) (u : ι) (v : Option R)
    (h : courseTrialsO w c0 n u = some v) : courseTrialsO w c0 m u = some v := by
  unfold courseTrialsO at *
  split
  · rename_i hb; rw [hb] at h; exact h
  · rename_i hb
    rw [hb] at h
    simp only [Option.bind_eq_bind, Option.bind_eq_some_iff] at h ⊢
    obtain ⟨ls, hls, e⟩ := h
    refine ⟨ls, keepM_mono _ ?_ ls hls, e⟩
    intro x _ b hb
    simp only [Option.bind_eq_some_iff] at hb ⊢
    obtain ⟨b', hb', e⟩ := hb
    exact ⟨b', checkP_mono _ (scoreO_mono w c0 hnm) hnm x b' hb', e⟩

theorem omono_score (u : ι) : Mono (fun k => scoreO w c0 k u) := fun _ _ a h ha => scoreO_mono w c0 h u a ha

theorem omono_lesson (u : ι) : Mono (fun k => lessonO w c0 (scoreO w c0 k) k u) :=
  fun _ _ b h hb => lessonO_mono w c0 (scoreO_mono w c0 h) h u b hb

theorem omono_course (u : ι) : Mono (fun k => courseO w c0 (scoreO w c0 k) k u) :=
  fun _ _ b h hb => courseO_mono w c0 (scoreO_mono w c0 h) h u b hb

theorem omono_courseTrials (u : ι) : Mono (fun k => courseTrialsO w c0 k u) :=
  fun _ _ b h hb => courseTrialsO_mono w c0 h u b hb

theorem omono_superseded (u : ι) (ids : List ι) : Mono (fun k => supersededP (over w c0) (scoreO w c0 k) u ids) :=
  fun _ _ b h hb => supersededP_mono _ (scoreO_mono w c0 h) u ids b hb

theorem omono_replace (ids : List ι) : Mono (fun k => replaceP (over w c0) (scoreO w c0 k) k ids) :=
  fun _ _ b h hb => replaceP_mono _ (scoreO_mono w c0 h) h ids b hb

theorem omono_check (u : ι) : Mono (fun k => checkP (over w c0) (scoreO w c0 k) k u) :=
  fun _ _ b h hb => checkP_mono _ (scoreO_mono w c0 h) h u b hb

end

theorem mono_unique {α : Type} {p : Nat → Option α} (hp : Mono p) {n m : Nat} {a b : α} (ha : p n = some a)
    (hb : p m = some b) : a = b := by
  have h1 := hp n (max n m) a (le_max_left _ _) ha
  have h2 := hp m (max n m) b (le_max_right _ _) hb
  rw [h1] at h2; exact Option.some.inj h2

/-! ### The caches after queries -/

/-- `c` contains the entries of `c0`, and its other entries are the answers of the functions above. -/
structure Grown (w : World ι R T W) (c0 c : Caches ι R) : Prop where
  ex : ∀ e r, c.ex.find e = some r → r = (over w c0).exRec e
  les : ∀ l v, c.les.find l = some v → ∃ k, lessonO w c0 (scoreO w c0 k) k l = some v
  cou : ∀ u v, c.cou.find u = some v → ∃ k, courseO w c0 (scoreO w c0 k) k u = some v
  lesT : ∀ l v, c.lesT.find l = some v → v = lessonTrialsO w c0 l
  couT : ∀ u v, c.couT.find u = some v → ∃ k, courseTrialsO w c0 k u = some v
  ex0 : ∀ e, c.ex.find e = none → c0.ex.find e = none
  les0 : ∀ l, c.les.find l = none → c0.les.find l = none
  cou0 : ∀ u, c.cou.find u = none → c0.cou.find u = none
  lesT0 : ∀ l, c.lesT.find l = none → c0.lesT.find l = none
  couT0 : ∀ u, c.couT.find u = none → c0.couT.find u = none

theorem grown_refl (w : World ι R T W) (c : Caches ι R) : Grown w c c := by
  refine ⟨?_, ?_, ?_, ?_, ?_, fun _ h => h, fun _ h => h, fun _ h => h, fun _ h => h, fun _ h => h⟩
  · intro e r h; rw [over_exRec, h]; rfl
  · intro l v h; exact ⟨0, by unfold lessonO; rw [h]⟩
  · intro l v h; exact ⟨0, by unfold courseO; rw [h]⟩
  · intro l v h; unfold lessonTrialsO; rw [h]
  · intro l v h; exact ⟨0, by unfold courseTrialsO; rw [h]⟩

/-- The code `m` returns what `p` returns (with the fuel of the code), and whatever it returns `p` returns with some
fuel; the caches grow. -/
structure Agrees (w : World ι R T W) (c0 : Caches ι R) {α : Type} (m : M ι R α) (p : Option α)
    (q : Nat → Option α) : Prop where
  sim : ∀ a, p = some a → ∀ c, Grown w c0 c → ∃ c', m c = some (a, c') ∧ Grown w c0 c'
  snd : ∀ c a c', Grown w c0 c → m c = some (a, c') → Grown w c0 c' ∧ ∃ k, q k = some a

section
variable (w : World ι R T W) (c0 : Caches ι R)

theorem ag_pure {α : Type} (a : α) : Agrees w c0 (pure a : M ι R α) (some a) (fun _ => some a) := by
  constructor
  · intro b h c hc; cases h; exact ⟨c, rfl, hc⟩
  · intro c b c' hc h; cases h; exact ⟨hc, 0, rfl⟩

theorem ag_bind {α β : Type} {m : M ι R α} {p : Option α} {q : Nat → Option α} {f : α → M ι R β}
    {g : α → Option β} {g' : α → Nat → Option β} (hm : Agrees w c0 m p q) (hq : Mono q)
    (hf : ∀ a, Agrees w c0 (f a) (g a) (g' a)) (hg : ∀ a, Mono (g' a)) :
    Agrees w c0 (m >>= f) (p.bind g) (fun k => (q k).bind (fun a => g' a k)) := by
  constructor
  · intro b h c hc
    rw [Option.bind_eq_some_iff] at h
    obtain ⟨a, ha, hb⟩ := h
    obtain ⟨c1, h1, hc1⟩ := hm.sim a ha c hc
    obtain ⟨c2, h2, hc2⟩ := (hf a).sim b hb c1 hc1
    refine ⟨c2, ?_, hc2⟩
    change (m c).bind (fun x => f x.1 x.2) = _
    rw [h1]; exact h2
  · intro c b c' hc h
    change (m c).bind (fun x => f x.1 x.2) = _ at h
    rw [Option.bind_eq_some_iff] at h
    obtain ⟨⟨a, c1⟩, h1, h2⟩ := h
    obtain ⟨hc1, k1, hk1⟩ := hm.snd c a c1 hc h1
    obtain ⟨hc2, k2, hk2⟩ := (hf a).snd c1 b c' hc1 h2
    refine ⟨hc2, max k1 k2, ?_⟩
    rw [hq k1 _ a (le_max_left _ _) hk1]
    exact hg a k2 _ b (le_max_right _ _) hk2

theorem ag_congr {α : Type} {m : M ι R α} {p p' : Option α} {q q' : Nat → Option α} (h : Agrees w c0 m p q)
    (hp : p' = p) (hq : ∀ k a, q k = some a → ∃ k', q' k' = some a) : Agrees w c0 m p' q' := by
  subst hp
  exact ⟨h.sim, fun c a c' hc hm => ⟨(h.snd c a c' hc hm).1, by
    obtain ⟨_, k, hk⟩ := h.snd c a c' hc hm
    exact hq k a hk⟩⟩

theorem ag_mapM {α β : Type} {f : α → M ι R β} {g : α → Option β} {g' : α → Nat → Option β} (xs : List α)
    (h : ∀ x, Agrees w c0 (f x) (g x) (g' x)) (hg : ∀ x, Mono (g' x)) :
    Agrees w c0 (xs.mapM f) (xs.mapM g) (fun k => xs.mapM (fun x => g' x k)) := by
  induction xs with
  | nil => simpa using ag_pure w c0 []
  | cons x xs ih =>
    simp only [List.mapM_cons]
    refine ag_bind w c0 (h x) (hg x) (fun a => ?_) (fun a => ?_)
      (g' := fun a k => (xs.mapM (fun x => g' x k)).bind (fun b => some (a :: b)))
    · exact ag_bind w c0 ih (mono_mapM xs fun x _ => hg x) (fun b => ag_pure w c0 _) (fun b => mono_const _)
    · exact mono_bind (mono_mapM xs fun x _ => hg x) (fun b => mono_const _)

theorem ag_foldlM {α β : Type} {f : β → α → M ι R β} {g : β → α → Option β} {g' : β → α → Nat → Option β}
    (xs : List α) (h : ∀ b x, Agrees w c0 (f b x) (g b x) (g' b x)) (hg : ∀ b x, Mono (g' b x)) (b : β) :
    Agrees w c0 (xs.foldlM f b) (xs.foldlM g b) (fun k => xs.foldlM (fun b x => g' b x k) b) := by
  induction xs generalizing b with
  | nil => simpa using ag_pure w c0 b
  | cons x xs ih =>
    simp only [List.foldlM_cons]
    refine ag_bind w c0 (h b x) (hg b x) (fun a => ih a) (fun a => ?_)
    exact fun n m v hle hv => foldlM_mono xs (fun b x _ v hv => hg b x n m v hle hv) a v hv

theorem ag_keepM {α : Type} {f : α → M ι R Bool} {g : α → Option Bool} {g' : α → Nat → Option Bool} (xs : List α)
    (h : ∀ x, Agrees w c0 (f x) (g x) (g' x)) (hg : ∀ x, Mono (g' x)) :
    Agrees w c0 (keepM f xs) (keepM g xs) (fun k => keepM (fun x => g' x k) xs) := by
  have hk : ∀ l : List α, Mono (fun k => keepM (fun x => g' x k) l) :=
    fun l n m vs hle hv => keepM_mono l (fun x _ v hv => hg x n m v hle hv) vs hv
  induction xs with
  | nil => exact ag_pure w c0 []
  | cons x xs ih =>
    simp only [keepM]
    refine ag_bind w c0 (h x) (hg x) (fun a => ?_) (fun a => ?_)
      (g' := fun a k => (keepM (fun x => g' x k) xs).bind (fun ys => some (if a then x :: ys else ys)))
    · exact ag_bind w c0 ih (hk xs) (fun b => ag_pure w c0 _) (fun b => mono_const _)
    · exact mono_bind (hk xs) (fun b => mono_const _)

/-! ### The functions of the unit scorer -/

theorem ag_exC (e : ι) :
    Agrees w c0 (exC w e) (some ((over w c0).exRec e)) (fun _ => some ((over w c0).exRec e)) := by
  have key : ∀ c, Grown w c0 c → ∃ c', exC w e c = some ((over w c0).exRec e, c') ∧ Grown w c0 c' := by
    intro c hc
    unfold exC
    split
    · rename_i r hr
      rw [hc.ex e r hr]
      exact ⟨c, rfl, hc⟩
    · rename_i hn
      have he : (over w c0).exRec e = w.exRec e := by rw [over_exRec, hc.ex0 e hn]; rfl
      rw [he]
      refine ⟨_, rfl, ?_, hc.les, hc.cou, hc.lesT, hc.couT, ?_, hc.les0, hc.cou0, hc.lesT0, hc.couT0⟩
      · intro e' r' h'
        simp only [AMap.find_put] at h'
        split at h'
        · rename_i hee; cases h'; rw [← hee, he]
        · exact hc.ex e' r' h'
      · intro e' h'
        simp only [AMap.find_put] at h'
        split at h'
        · cases h'
        · exact hc.ex0 e' h'
  constructor
  · intro a ha c hc; cases ha; exact key c hc
  · intro c a c' hc h
    obtain ⟨c1, h1, hc1⟩ := key c hc
    rw [h1] at h
    cases h
    exact ⟨hc1, 0, rfl⟩

theorem ag_exs (es : List ι) : Agrees w c0 (es.mapM (exC w)) (some (es.map (over w c0).exRec))
    (fun _ => some (es.map (over w c0).exRec)) := by
  simp only [← mapM_some]
  exact ag_mapM w c0 es (fun e => ag_exC w c0 e) (fun _ => mono_const _)

theorem ag_seen (u : ι) :
    Agrees w c0 (seenC w u) (some (seenP (over w c0) u)) (fun _ => some (seenP (over w c0) u)) := by
  unfold seenC
  have : some (seenP (over w c0) u) = (some ((w.allValid u).map (over w c0).exRec)).bind
      (fun rs => some (rs.all (fun r => decide (r.score > 0)))) := by
    change _ = (some (((over w c0).allValid u).map (over w c0).exRec)).bind _
    simp [seenP, List.all_map, Function.comp_def]
  rw [this]
  exact ag_bind w c0 (ag_exs w c0 _) (mono_const _) (fun _ => ag_pure w c0 _) (fun _ => mono_const _)

section
variable {f : ι → M ι R (Option R)} {n : Nat} (h : ∀ u, Agrees w c0 (f u) (scoreO w c0 n u) (fun k => scoreO w c0 k u))
include h

theorem ag_superseded (u : ι) (ids : List ι) :
    Agrees w c0 (supersededC w f u ids) (supersededP (over w c0) (scoreO w c0 n) u ids)
      (fun k => supersededP (over w c0) (scoreO w c0 k) u ids) := by
  unfold supersededC supersededP
  split
  · exact ag_pure w c0 _
  · have e : ∀ k, (if (!seenP (over w c0) u) = true then some false else do
        let vs ← ids.mapM (scoreO w c0 k)
        return vs.reduceOption.all (fun s => decide (s ≥ (over w c0).supScore))) =
      (some (seenP (over w c0) u)).bind (fun b => (fun b k => if (!b) = true then some false else
        (ids.mapM (scoreO w c0 k)).bind (fun vs =>
          some (vs.reduceOption.all (fun s => decide (s ≥ w.supScore))))) b k) := fun _ => rfl
    simp only [e]
    refine ag_bind w c0 (ag_seen w c0 u) (mono_const _) (fun b => ?_) (fun b => ?_)
    · split
      · exact ag_pure w c0 _
      · exact ag_bind w c0 (ag_mapM w c0 ids h (omono_score w c0)) (mono_mapM ids fun x _ => omono_score w c0 x)
          (fun vs => ag_pure w c0 _) (fun vs => mono_const _)
    · split
      · exact mono_const _
      · exact mono_bind (mono_mapM ids fun x _ => omono_score w c0 x) (fun vs => mono_const _)

theorem ag_replace (m : Nat) (ids : List ι) :
    Agrees w c0 (replaceC w f m ids) (replaceP (over w c0) (scoreO w c0 n) m ids)
      (fun k => replaceP (over w c0) (scoreO w c0 k) k ids) := by
  induction m generalizing ids with
  | zero =>
    constructor
    · intro a ha; simp [replaceP] at ha
    · intro c a c' _ h; simp [replaceC] at h
  | succ m ih =>
    rw [replaceC]
    have hmono : ∀ (acc : List ι) (id : ι) (s : List ι) (b : Bool), Mono (fun k =>
        if b = true then (replaceP (over w c0) (scoreO w c0 k) k s).bind (fun r => some (extendSet acc r))
        else some (acc.insert id)) := by
      intro acc id s b
      split
      · exact mono_bind (omono_replace w c0 s) (fun r => mono_const _)
      · exact mono_const _
    have key := ag_foldlM w c0 (f := fun acc id =>
      match w.graph.getSupersededBy id with
      | some s => do
        let b ← supersededC w f id s
        if b then
          let r ← replaceC w f m s
          return extendSet acc r
        else return acc.insert id
      | none => return acc.insert id)
      (g := fun acc id => match w.graph.getSupersededBy id with
        | some s => (supersededP (over w c0) (scoreO w c0 n) id s).bind (fun b => if b = true then
              (replaceP (over w c0) (scoreO w c0 n) m s).bind (fun r => some (extendSet acc r))
            else some (acc.insert id))
        | none => some (acc.insert id))
      (g' := fun acc id k => match w.graph.getSupersededBy id with
        | some s => (supersededP (over w c0) (scoreO w c0 k) id s).bind (fun b =>
          (fun b k => if b = true then
              (replaceP (over w c0) (scoreO w c0 k) k s).bind (fun r => some (extendSet acc r))
            else some (acc.insert id)) b k)
        | none => some (acc.insert id)) ids ?_ ?_ []
    · refine ag_congr w c0 key ?_ (fun k a hk => ⟨k + 1, ?_⟩)
      · rw [replaceP]; rfl
      · refine replaceP_mono _ (scoreO_mono w c0 (Nat.le_succ k)) (le_refl (k + 1)) ids a ?_
        rw [replaceP]; exact hk
    · intro acc id
      dsimp only
      split
      · rename_i s hs
        refine ag_bind w c0 (ag_superseded w c0 h id s) (omono_superseded w c0 id s) (fun b => ?_)
          (fun b => hmono acc id s b)
        split
        · exact ag_bind w c0 (ih s) (omono_replace w c0 s) (fun r => ag_pure w c0 _) (fun r => mono_const _)
        · exact ag_pure w c0 _
      · exact ag_pure w c0 _
    · intro acc id
      dsimp only
      split
      · rename_i s hs
        exact mono_bind (omono_superseded w c0 id s) (hmono acc id s)
      · exact mono_const _

theorem ag_check (m : Nat) (u : ι) :
    Agrees w c0 (checkC w f m u) (checkP (over w c0) (scoreO w c0 n) m u)
      (fun k => checkP (over w c0) (scoreO w c0 k) k u) := by
  unfold checkC checkP
  have hg : (over w c0).graph = w.graph := rfl
  rw [hg]
  cases w.graph.getSupersededBy u with
  | none => exact ag_pure w c0 _
  | some ids =>
    exact ag_bind w c0 (ag_replace w c0 h m _) (omono_replace w c0 _) (fun r => ag_superseded w c0 h u r)
      (fun r => omono_superseded w c0 u r)

end

theorem grown_les {c : Caches ι R} (hc : Grown w c0 c) {l : ι} {v : Option R}
    (hv : ∃ k, lessonO w c0 (scoreO w c0 k) k l = some v) : Grown w c0 { c with les := c.les.put l v } := by
  refine ⟨hc.ex, ?_, hc.cou, hc.lesT, hc.couT, hc.ex0, ?_, hc.cou0, hc.lesT0, hc.couT0⟩
  · intro l' v' h'
    simp only [AMap.find_put] at h'
    split at h'
    · rename_i he; cases h'; rw [← he]; exact hv
    · exact hc.les l' v' h'
  · intro l' h'
    simp only [AMap.find_put] at h'
    split at h'
    · cases h'
    · exact hc.les0 l' h'

theorem grown_cou {c : Caches ι R} (hc : Grown w c0 c) {l : ι} {v : Option R}
    (hv : ∃ k, courseO w c0 (scoreO w c0 k) k l = some v) : Grown w c0 { c with cou := c.cou.put l v } := by
  refine ⟨hc.ex, hc.les, ?_, hc.lesT, hc.couT, hc.ex0, hc.les0, ?_, hc.lesT0, hc.couT0⟩
  · intro l' v' h'
    simp only [AMap.find_put] at h'
    split at h'
    · rename_i he; cases h'; rw [← he]; exact hv
    · exact hc.cou l' v' h'
  · intro l' h'
    simp only [AMap.find_put] at h'
    split at h'
    · cases h'
    · exact hc.cou0 l' h'

theorem grown_lesT {c : Caches ι R} (hc : Grown w c0 c) {l : ι} {v : Option R}
    (hv : v = lessonTrialsO w c0 l) : Grown w c0 { c with lesT := c.lesT.put l v } := by
  refine ⟨hc.ex, hc.les, hc.cou, ?_, hc.couT, hc.ex0, hc.les0, hc.cou0, ?_, hc.couT0⟩
  · intro l' v' h'
    simp only [AMap.find_put] at h'
    split at h'
    · rename_i he; cases h'; rw [← he]; exact hv
    · exact hc.lesT l' v' h'
  · intro l' h'
    simp only [AMap.find_put] at h'
    split at h'
    · cases h'
    · exact hc.lesT0 l' h'

theorem grown_couT {c : Caches ι R} (hc : Grown w c0 c) {l : ι} {v : Option R}
    (hv : ∃ k, courseTrialsO w c0 k l = some v) : Grown w c0 { c with couT := c.couT.put l v } := by
  refine ⟨hc.ex, hc.les, hc.cou, hc.lesT, ?_, hc.ex0, hc.les0, hc.cou0, hc.lesT0, ?_⟩
  · intro l' v' h'
    simp only [AMap.find_put] at h'
    split at h'
    · rename_i he; cases h'; rw [← he]; exact hv
    · exact hc.couT l' v' h'
  · intro l' h'
    simp only [AMap.find_put] at h'
    split at h'
    · cases h'
    · exact hc.couT0 l' h'

theorem ag_lessonMean (l : ι) : Agrees w c0 (lessonMeanC w l) (some (lessonMean (over w c0) l))
    (fun _ => some (lessonMean (over w c0) l)) := by
  unfold lessonMeanC lessonMean
  have hg : (over w c0).graph = w.graph := rfl
  have hb : (over w c0).black = w.black := rfl
  rw [hg, hb]
  cases w.graph.getLessonExercises l with
  | none => exact ag_pure w c0 _
  | some es =>
    dsimp only
    by_cases he : (es.filter (fun e => !w.black e)).isEmpty = true
    · simp only [if_pos he]
      exact ag_pure w c0 _
    · simp only [if_neg he]
      have e : some (some (mean ((es.filter (fun e => !w.black e)).map (fun e => ((over w c0).exRec e).score)))) =
        (some ((es.filter (fun e => !w.black e)).map (over w c0).exRec)).bind
          (fun rs => some (some (mean (rs.map (fun r => r.score))))) := by
        simp [List.map_map, Function.comp_def]
      rw [e]
      exact ag_bind w c0 (ag_exs w c0 _) (mono_const _) (fun _ => ag_pure w c0 _) (fun _ => mono_const _)

theorem ag_storeLes {l : ι} {v : Option R} (hv : ∃ k, lessonO w c0 (scoreO w c0 k) k l = some v) :
    Agrees w c0 (storeLes l v) (some v) (fun k => lessonO w c0 (scoreO w c0 k) k l) := by
  constructor
  · intro a ha c hc; cases ha; exact ⟨_, rfl, grown_les w c0 hc hv⟩
  · intro c a c' hc h; cases h; exact ⟨grown_les w c0 hc hv, hv⟩

theorem ag_storeCou {l : ι} {v : Option R} (hv : ∃ k, courseO w c0 (scoreO w c0 k) k l = some v) :
    Agrees w c0 (storeCou l v) (some v) (fun k => courseO w c0 (scoreO w c0 k) k l) := by
  constructor
  · intro a ha c hc; cases ha; exact ⟨_, rfl, grown_cou w c0 hc hv⟩
  · intro c a c' hc h; cases h; exact ⟨grown_cou w c0 hc hv, hv⟩

section
variable {f : ι → M ι R (Option R)} {n : Nat} (h : ∀ u, Agrees w c0 (f u) (scoreO w c0 n u) (fun k => scoreO w c0 k u))
include h

theorem ag_lesson (l : ι) :
    Agrees w c0 (lessonC w f n l) (lessonO w c0 (scoreO w c0 n) n l) (fun k => lessonO w c0 (scoreO w c0 k) k l) := by
  have hblack : ∀ g m, c0.les.find l = none → w.black l = true → lessonO w c0 g m l = some none := by
    intro g m h0 hb
    have hb' : (over w c0).black l = true := hb
    unfold lessonO lessonP; rw [h0]; dsimp only; rw [if_pos hb']
  have hopen : ∀ g m b, c0.les.find l = none → ¬ w.black l = true → checkP (over w c0) g m l = some b →
      lessonO w c0 g m l = some (if b = true then none else lessonMean (over w c0) l) := by
    intro g m b h0 hb hc
    have hb' : ¬ (over w c0).black l = true := hb
    unfold lessonO lessonP; rw [h0]; dsimp only; rw [if_neg hb', hc]
    cases b <;> rfl
  constructor
  · intro v hv c hc
    unfold lessonC
    split
    · rename_i v' hv'
      obtain ⟨k, hk⟩ := hc.les l v' hv'
      rw [mono_unique (omono_lesson w c0 l) hk hv]
      exact ⟨c, rfl, hc⟩
    · rename_i hn
      have h0 := hc.les0 l hn
      unfold lessonBody
      by_cases hb : w.black l = true
      · rw [if_pos hb]
        rw [hblack _ _ h0 hb] at hv
        cases hv
        exact (ag_storeLes w c0 ⟨n, hblack _ _ h0 hb⟩).sim _ rfl c hc
      · rw [if_neg hb]
        have his := hv
        unfold lessonO lessonP at hv
        rw [h0] at hv
        dsimp only at hv
        rw [if_neg (show ¬ (over w c0).black l = true from hb)] at hv
        simp only [Option.bind_eq_bind, Option.bind_eq_some_iff] at hv
        obtain ⟨b, hb1, e⟩ := hv
        obtain ⟨c1, h1, hc1⟩ := (ag_check w c0 h n l).sim b hb1 c hc
        change ∃ c', ((checkC w f n l c).bind _) = _ ∧ _
        rw [h1, Option.bind_some]
        cases b with
        | true =>
          cases e
          exact (ag_storeLes w c0 ⟨n, his⟩).sim _ rfl c1 hc1
        | false =>
          cases e
          obtain ⟨c2, h2, hc2⟩ := (ag_lessonMean w c0 l).sim _ rfl c1 hc1
          change ∃ c', ((lessonMeanC w l c1).bind _) = _ ∧ _
          rw [h2, Option.bind_some]
          exact (ag_storeLes w c0 ⟨n, his⟩).sim _ rfl c2 hc2
  · intro c v c' hc hm
    unfold lessonC at hm
    split at hm
    · rename_i v' hv'
      cases hm
      exact ⟨hc, hc.les l v hv'⟩
    · rename_i hn
      have h0 := hc.les0 l hn
      unfold lessonBody at hm
      split at hm
      · rename_i hb
        exact (ag_storeLes w c0 ⟨0, hblack _ _ h0 hb⟩).snd c v c' hc hm
      · rename_i hb
        change (checkC w f n l c).bind _ = _ at hm
        rw [Option.bind_eq_some_iff] at hm
        obtain ⟨⟨b, c1⟩, h1, hm⟩ := hm
        obtain ⟨hc1, k, hk⟩ := (ag_check w c0 h n l).snd c b c1 hc h1
        have ho := hopen _ _ b h0 hb hk
        cases b with
        | true => exact (ag_storeLes w c0 ⟨k, ho⟩).snd c1 v c' hc1 hm
        | false =>
          change (lessonMeanC w l c1).bind _ = _ at hm
          obtain ⟨c2, h2, hc2⟩ := (ag_lessonMean w c0 l).sim _ rfl c1 hc1
          rw [h2] at hm
          exact (ag_storeLes w c0 ⟨k, ho⟩).snd c2 v c' hc2 hm

theorem ag_course (u : ι) :
    Agrees w c0 (courseC w f n u) (courseO w c0 (scoreO w c0 n) n u) (fun k => courseO w c0 (scoreO w c0 k) k u) := by
  have hblack : ∀ g m, c0.cou.find u = none → w.black u = true → courseO w c0 g m u = some none := by
    intro g m h0 hb
    unfold courseO; rw [h0]; dsimp only; rw [if_pos hb]
  constructor
  · intro v hv c hc
    unfold courseC
    split
    · rename_i v' hv'
      obtain ⟨k, hk⟩ := hc.cou u v' hv'
      rw [mono_unique (omono_course w c0 u) hk hv]
      exact ⟨c, rfl, hc⟩
    · rename_i hn
      have h0 := hc.cou0 u hn
      unfold courseBody
      by_cases hb : w.black u = true
      · rw [if_pos hb]
        rw [hblack _ _ h0 hb] at hv
        cases hv
        exact (ag_storeCou w c0 ⟨n, hblack _ _ h0 hb⟩).sim _ rfl c hc
      · rw [if_neg hb]
        have his := hv
        unfold courseO at hv
        rw [h0] at hv
        dsimp only at hv
        rw [if_neg hb] at hv
        simp only [Option.bind_eq_bind, Option.bind_eq_some_iff] at hv
        obtain ⟨b, hb1, e⟩ := hv
        obtain ⟨c1, h1, hc1⟩ := (ag_check w c0 h n u).sim b hb1 c hc
        change ∃ c', ((checkC w f n u c).bind _) = _ ∧ _
        rw [h1, Option.bind_some]
        cases b with
        | true =>
          cases e
          exact (ag_storeCou w c0 ⟨n, his⟩).sim _ rfl c1 hc1
        | false =>
          dsimp only
          rw [if_neg Bool.false_ne_true] at e ⊢
          cases hls : w.graph.getCourseLessons u with
          | none =>
            rw [hls] at e
            cases e
            exact (ag_storeCou w c0 ⟨n, his⟩).sim _ rfl c1 hc1
          | some ls =>
            rw [hls] at e
            simp only [Option.bind_eq_some_iff] at e
            obtain ⟨vs, hvs, e⟩ := e
            obtain ⟨c2, h2, hc2⟩ := (ag_mapM w c0 ls (fun x => ag_lesson w c0 h x) (omono_lesson w c0)).sim vs hvs c1 hc1
            change ∃ c', ((ls.mapM (lessonC w f n) c1).bind _) = _ ∧ _
            rw [h2, Option.bind_some]
            dsimp only
            by_cases hem : vs.reduceOption.isEmpty = true
            · rw [if_pos hem] at e ⊢
              cases e
              exact ⟨c2, rfl, hc2⟩
            · rw [if_neg hem] at e ⊢
              cases e
              exact (ag_storeCou w c0 ⟨n, his⟩).sim _ rfl c2 hc2
  · intro c v c' hc hm
    unfold courseC at hm
    split at hm
    · rename_i v' hv'
      cases hm
      exact ⟨hc, hc.cou u v hv'⟩
    · rename_i hn
      have h0 := hc.cou0 u hn
      unfold courseBody at hm
      split at hm
      · rename_i hb
        exact (ag_storeCou w c0 ⟨0, hblack _ _ h0 hb⟩).snd c v c' hc hm
      · rename_i hb
        change (checkC w f n u c).bind _ = _ at hm
        rw [Option.bind_eq_some_iff] at hm
        obtain ⟨⟨b, c1⟩, h1, hm⟩ := hm
        obtain ⟨hc1, k, hk⟩ := (ag_check w c0 h n u).snd c b c1 hc h1
        dsimp only at hm hk
        cases b with
        | true =>
          refine (ag_storeCou w c0 ⟨k, ?_⟩).snd c1 v c' hc1 hm
          unfold courseO; rw [h0]; dsimp only; rw [if_neg hb, hk]; rfl
        | false =>
          rw [if_neg Bool.false_ne_true] at hm
          cases hls : w.graph.getCourseLessons u with
          | none =>
            rw [hls] at hm
            refine (ag_storeCou w c0 ⟨k, ?_⟩).snd c1 v c' hc1 hm
            unfold courseO; rw [h0]; dsimp only; rw [if_neg hb, hk]; simp [hls]
          | some ls =>
            rw [hls] at hm
            change (ls.mapM (lessonC w f n) c1).bind _ = _ at hm
            rw [Option.bind_eq_some_iff] at hm
            obtain ⟨⟨vs, c2⟩, h2, hm⟩ := hm
            obtain ⟨hc2, k2, hk2⟩ :=
              (ag_mapM w c0 ls (fun x => ag_lesson w c0 h x) (omono_lesson w c0)).snd c1 vs c2 hc1 h2
            have hk' := omono_check w c0 u k (max k k2) false (le_max_left _ _) hk
            have hk2' := mono_mapM ls (fun x _ => omono_lesson w c0 x) k2 (max k k2) vs (le_max_right _ _) hk2
            dsimp only at hk' hk2' hm
            split at hm
            · rename_i hemp
              rw [List.isEmpty_iff] at hemp
              cases hm
              refine ⟨hc2, max k k2, ?_⟩
              unfold courseO; rw [h0]; dsimp only; rw [if_neg hb, hk']; simp [hls, hk2', hemp]
            · rename_i hemp
              rw [List.isEmpty_iff] at hemp
              refine (ag_storeCou w c0 ⟨max k k2, ?_⟩).snd c2 v c' hc2 hm
              unfold courseO; rw [h0]; dsimp only; rw [if_neg hb, hk']; simp [hls, hk2', hemp]

end

theorem ag_score (n : Nat) (u : ι) :
    Agrees w c0 (scoreC w n u) (scoreO w c0 n u) (fun k => scoreO w c0 k u) := by
  induction n generalizing u with
  | zero =>
    constructor
    · intro a ha; simp [scoreO] at ha
    · intro c a c' _ h; simp [scoreC] at h
  | succ n ih =>
    rw [scoreC]
    cases ht : w.graph.getUnitType u with
    | none =>
      exact ag_congr w c0 (ag_pure w c0 _) (by rw [scoreO, ht]) (fun k a hk => ⟨1, by rw [scoreO, ht]; exact hk⟩)
    | some ty =>
      cases ty with
      | exercise =>
        refine ag_congr w c0 (ag_bind w c0 (g' := fun r _ => some (some r.score)) (ag_exC w c0 u) (mono_const _)
          (fun r => ag_pure w c0 _) (fun r => mono_const _)) ?_ (fun k a hk => ⟨1, ?_⟩)
        · rw [scoreO, ht]; rfl
        · rw [scoreO, ht]; exact hk
      | lesson =>
        exact ag_congr w c0 (ag_lesson w c0 ih u) (by rw [scoreO, ht])
          (fun k a hk => ⟨k + 1, by rw [scoreO, ht]; exact hk⟩)
      | course =>
        exact ag_congr w c0 (ag_course w c0 ih u) (by rw [scoreO, ht])
          (fun k a hk => ⟨k + 1, by rw [scoreO, ht]; exact hk⟩)

theorem ag_lessonTrials (l : ι) : Agrees w c0 (lessonTrialsC w l) (some (lessonTrialsO w c0 l))
    (fun _ => some (lessonTrialsO w c0 l)) := by
  have key : ∀ c, Grown w c0 c → ∃ c', lessonTrialsC w l c = some (lessonTrialsO w c0 l, c') ∧ Grown w c0 c' := by
    intro c hc
    unfold lessonTrialsC
    split
    · rename_i v hv
      rw [hc.lesT l v hv]
      exact ⟨c, rfl, hc⟩
    · rename_i hn
      have h0 := hc.lesT0 l hn
      have e0 : lessonTrialsO w c0 l = lessonTrialsP (over w c0) l := by unfold lessonTrialsO; rw [h0]
      unfold lessonTrialsBody
      cases hl : w.graph.getLessonExercises l with
      | none =>
        have : lessonTrialsO w c0 l = none := by
          rw [e0]; unfold lessonTrialsP
          rw [show (over w c0).graph = w.graph from rfl, hl]
        rw [this]
        exact ⟨c, rfl, hc⟩
      | some es =>
        obtain ⟨c1, h1, hc1⟩ := (ag_exs w c0 (es.filter (fun e => !w.black e))).sim _ rfl c hc
        have e1 : lessonTrialsO w c0 l = (if ((es.filter (fun e => !w.black e)).map (over w c0).exRec).isEmpty then none
            else some (mean (((es.filter (fun e => !w.black e)).map (over w c0).exRec).map (fun r => (r.trials : R))))) := by
          rw [e0]; unfold lessonTrialsP
          rw [show (over w c0).graph = w.graph from rfl, show (over w c0).black = w.black from rfl, hl]
          simp [List.map_map, Function.comp_def]
        change ∃ c', (((es.filter (fun e => !w.black e)).mapM (exC w) c).bind _) = _ ∧ _
        rw [h1, Option.bind_some]
        refine ⟨_, ?_, grown_lesT w c0 hc1 (l := l) rfl⟩
        rw [e1]
        rfl
  constructor
  · intro a ha c hc; cases ha; exact key c hc
  · intro c a c' hc h
    obtain ⟨c1, h1, hc1⟩ := key c hc
    rw [h1] at h
    cases h
    exact ⟨hc1, 0, rfl⟩

theorem courseTrialsO_eq (k : Nat) (u : ι) (h0 : c0.couT.find u = none) :
    courseTrialsO w c0 k u = (keepM (fun l => (checkP (over w c0) (scoreO w c0 k) k l).bind (fun b =>
        some (!w.black l && !b))) ((w.graph.getCourseLessons u).getD [])).bind (fun ls =>
          some (if (ls.map (lessonTrialsO w c0)).reduceOption.isEmpty then none
            else some (mean (ls.map (lessonTrialsO w c0)).reduceOption))) := by
  unfold courseTrialsO
  rw [h0]
  simp only [Option.bind_eq_bind, Option.pure_def]
  congr 1
  funext ls
  split <;> rfl

theorem ag_courseTrials (n : Nat) (u : ι) :
    Agrees w c0 (courseTrialsC w n u) (courseTrialsO w c0 n u) (fun k => courseTrialsO w c0 k u) := by
  have hkeep := ag_keepM w c0 (f := fun l => do
        let b ← checkC w (scoreC w n) n l
        return !w.black l && !b)
      (g := fun l => (checkP (over w c0) (scoreO w c0 n) n l).bind (fun b => some (!w.black l && !b)))
      (g' := fun l k => (checkP (over w c0) (scoreO w c0 k) k l).bind (fun b => some (!w.black l && !b)))
      ((w.graph.getCourseLessons u).getD [])
      (fun l => ag_bind w c0 (g' := fun b _ => some (!w.black l && !b)) (ag_check w c0 (ag_score w c0 n) n l)
        (omono_check w c0 l) (fun b => ag_pure w c0 _) (fun b => mono_const _))
      (fun l => mono_bind (omono_check w c0 l) (fun b => mono_const _))
  have htr : ∀ (ls : List ι) c, Grown w c0 c → ∃ c', ls.mapM (lessonTrialsC w) c =
      some (ls.map (lessonTrialsO w c0), c') ∧ Grown w c0 c' := fun ls c hc =>
    (ag_mapM w c0 ls (fun x => ag_lessonTrials w c0 x) (fun _ => mono_const _)).sim _ (mapM_some _ ls) c hc
  constructor
  · intro v hv c hc
    unfold courseTrialsC
    split
    · rename_i v' hv'
      obtain ⟨k, hk⟩ := hc.couT u v' hv'
      rw [mono_unique (omono_courseTrials w c0 u) hk hv]
      exact ⟨c, rfl, hc⟩
    · rename_i hn
      have h0 := hc.couT0 u hn
      have his := hv
      rw [courseTrialsO_eq w c0 n u h0, Option.bind_eq_some_iff] at hv
      obtain ⟨ls, hls, e⟩ := hv
      obtain ⟨c1, h1, hc1⟩ := hkeep.sim ls hls c hc
      obtain ⟨c2, h2, hc2⟩ := htr ls c1 hc1
      unfold courseTrialsBody
      change ∃ c', (((keepM _ _ : M ι R (List ι)) c).bind _) = _ ∧ _
      rw [h1, Option.bind_some]
      change ∃ c', ((ls.mapM (lessonTrialsC w) c1).bind _) = _ ∧ _
      rw [h2, Option.bind_some]
      refine ⟨_, ?_, grown_couT w c0 hc2 (l := u) ⟨n, his⟩⟩
      cases e
      rfl
  · intro c v c' hc hm
    unfold courseTrialsC at hm
    split at hm
    · rename_i v' hv'
      cases hm
      exact ⟨hc, hc.couT u v hv'⟩
    · rename_i hn
      have h0 := hc.couT0 u hn
      unfold courseTrialsBody at hm
      change ((keepM _ _ : M ι R (List ι)) c).bind _ = _ at hm
      rw [Option.bind_eq_some_iff] at hm
      obtain ⟨⟨ls, c1⟩, h1, hm⟩ := hm
      obtain ⟨hc1, k, hk⟩ := hkeep.snd c ls c1 hc h1
      obtain ⟨c2, h2, hc2⟩ := htr ls c1 hc1
      change (ls.mapM (lessonTrialsC w) c1).bind _ = _ at hm
      rw [h2, Option.bind_some] at hm
      have his : courseTrialsO w c0 k u = some (if (ls.map (lessonTrialsO w c0)).reduceOption.isEmpty then none
            else some (mean (ls.map (lessonTrialsO w c0)).reduceOption)) := by
        rw [courseTrialsO_eq w c0 k u h0]
        rw [hk, Option.bind_some]
      cases hm
      exact ⟨grown_couT w c0 hc2 ⟨k, his⟩, k, his⟩

end

end Trane.UnitScorer
