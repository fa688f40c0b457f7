import Verif.Sched.UnitScorerLemmas

/-! Helper lemmas: whatever the cached code returns is the from-scratch value, for every graph, and
the specification read as equations. -/

namespace Trane.UnitScorer

variable {ι R T W : Type} [DecidableEq ι] [Field R] [LinearOrder R]

/-- Every unit is tracked. -/
abbrev Everything : ι → Prop := fun _ => True

theorem closed_everything (g : Graph ι) : Closed g Everything :=
  ⟨fun _ _ _ _ _ _ => trivial, fun _ _ _ _ _ _ => trivial⟩

/-- More fuel never changes a result. -/
def Mono {α : Type} (p : Nat → Option α) : Prop := ∀ n m a, n ≤ m → p n = some a → p m = some a

theorem mono_score (w : World ι R T W) (u : ι) : Mono (fun k => scoreP w k u) :=
  fun _ _ a h ha => scoreP_mono w h u a ha

theorem mono_const {α : Type} (o : Option α) : Mono (fun _ => o) := fun _ _ _ _ h => h

theorem mono_bind {α β : Type} {p : Nat → Option α} {g : α → Nat → Option β} (hp : Mono p)
    (hg : ∀ a, Mono (g a)) : Mono (fun k => (p k).bind (fun a => g a k)) := by
  intro n m b h hb
  simp only [Option.bind_eq_some_iff] at hb ⊢
  obtain ⟨a, ha, hb⟩ := hb
  exact ⟨a, hp n m a h ha, hg a n m b h hb⟩

theorem mono_mapM {α β : Type} {g : α → Nat → Option β} (xs : List α)
    (hg : ∀ x ∈ xs, Mono (g x)) : Mono (fun k => xs.mapM (fun x => g x k)) :=
  fun n m vs h hv => mapM_mono xs (fun x hx v hv => hg x hx n m v h hv) vs hv

/-- Everything `m` returns is a value of the specification `p`, and the caches stay coherent. -/
def Snd (w : World ι R T W) {α : Type} (m : M ι R α) (p : Nat → Option α) : Prop :=
  ∀ c a c', Coh Everything w c → m c = some (a, c') → Coh Everything w c' ∧ ∃ k, p k = some a

theorem snd_of_sim (w : World ι R T W) {α : Type} {m : M ι R α} {a : α}
    (h : Sim Everything w m (some a)) : Snd w m (fun _ => some a) := by
  intro c b c' hc hm
  obtain ⟨c1, h1, hc1⟩ := h a rfl c hc
  rw [h1] at hm
  cases hm
  exact ⟨hc1, 0, rfl⟩

theorem snd_pure (w : World ι R T W) {α : Type} (a : α) :
    Snd w (pure a : M ι R α) (fun _ => some a) := snd_of_sim w (sim_pure _ w a)

theorem snd_bind (w : World ι R T W) {α β : Type} {m : M ι R α} {p : Nat → Option α}
    {f : α → M ι R β} {g : α → Nat → Option β} (hm : Snd w m p) (hp : Mono p)
    (hf : ∀ a, Snd w (f a) (g a)) (hg : ∀ a, Mono (g a)) :
    Snd w (m >>= f) (fun k => (p k).bind (fun a => g a k)) := by
  intro c b c' hc h
  change (m c).bind (fun x => f x.1 x.2) = _ at h
  rw [Option.bind_eq_some_iff] at h
  obtain ⟨⟨a, c1⟩, h1, h2⟩ := h
  obtain ⟨hc1, k1, hk1⟩ := hm c a c1 hc h1
  obtain ⟨hc2, k2, hk2⟩ := hf a c1 b c' hc1 h2
  refine ⟨hc2, max k1 k2, ?_⟩
  dsimp only
  rw [hp k1 _ a (le_max_left _ _) hk1]
  exact hg a k2 _ b (le_max_right _ _) hk2

theorem snd_congr (w : World ι R T W) {α : Type} {m : M ι R α} {p q : Nat → Option α}
    (h : Snd w m p) (hpq : ∀ k a, p k = some a → ∃ k', q k' = some a) : Snd w m q := by
  intro c a c' hc hm
  obtain ⟨h1, k, hk⟩ := h c a c' hc hm
  exact ⟨h1, hpq k a hk⟩

theorem snd_mapM (w : World ι R T W) {α β : Type} {f : α → M ι R β} {g : α → Nat → Option β}
    (xs : List α) (h : ∀ x, Snd w (f x) (g x)) (hg : ∀ x, Mono (g x)) :
    Snd w (xs.mapM f) (fun k => xs.mapM (fun x => g x k)) := by
  induction xs with
  | nil => simpa using snd_pure w []
  | cons x xs ih =>
    simp only [List.mapM_cons]
    refine snd_bind w (h x) (hg x) (fun a => ?_) (fun a => ?_)
      (g := fun a k => (xs.mapM (fun x => g x k)).bind (fun b => some (a :: b)))
    · exact snd_bind w ih (mono_mapM xs fun x _ => hg x) (fun b => snd_pure w _)
        (fun b => mono_const _)
    · exact mono_bind (mono_mapM xs fun x _ => hg x) (fun b => mono_const _)

theorem snd_foldlM (w : World ι R T W) {α β : Type} {f : β → α → M ι R β}
    {g : β → α → Nat → Option β} (xs : List α) (h : ∀ b x, Snd w (f b x) (g b x))
    (hg : ∀ b x, Mono (g b x)) (b : β) :
    Snd w (xs.foldlM f b) (fun k => xs.foldlM (fun b x => g b x k) b) := by
  induction xs generalizing b with
  | nil => simpa using snd_pure w b
  | cons x xs ih =>
    simp only [List.foldlM_cons]
    refine snd_bind w (h b x) (hg b x) (fun a => ih a) (fun a => ?_)
    exact fun n m v hle hv => foldlM_mono xs (fun b x _ v hv => hg b x n m v hle hv) a v hv

theorem snd_keepM (w : World ι R T W) {α : Type} {f : α → M ι R Bool} {g : α → Nat → Option Bool}
    (xs : List α) (h : ∀ x, Snd w (f x) (g x)) (hg : ∀ x, Mono (g x)) :
    Snd w (keepM f xs) (fun k => keepM (fun x => g x k) xs) := by
  have hk : ∀ l : List α, Mono (fun k => keepM (fun x => g x k) l) :=
    fun l n m vs hle hv => keepM_mono l (fun x _ v hv => hg x n m v hle hv) vs hv
  induction xs with
  | nil => exact snd_pure w []
  | cons x xs ih =>
    simp only [keepM]
    refine snd_bind w (h x) (hg x) (fun a => ?_) (fun a => ?_)
      (g := fun a k => (keepM (fun x => g x k) xs).bind
        (fun ys => some (if a then x :: ys else ys)))
    · exact snd_bind w ih (hk xs) (fun b => snd_pure w _) (fun b => mono_const _)
    · exact mono_bind (hk xs) (fun b => mono_const _)

theorem mono_superseded (w : World ι R T W) (u : ι) (ids : List ι) :
    Mono (fun k => supersededP w (scoreP w k) u ids) :=
  fun _ _ b h hb => supersededP_mono w (scoreP_mono w h) u ids b hb

theorem mono_replace (w : World ι R T W) (ids : List ι) :
    Mono (fun k => replaceP w (scoreP w k) k ids) :=
  fun _ _ b h hb => replaceP_mono w (scoreP_mono w h) h ids b hb

theorem mono_check (w : World ι R T W) (u : ι) : Mono (fun k => checkP w (scoreP w k) k u) :=
  fun _ _ b h hb => checkP_mono w (scoreP_mono w h) h u b hb

theorem mono_lesson (w : World ι R T W) (u : ι) : Mono (fun k => lessonP w (scoreP w k) k u) :=
  fun _ _ b h hb => lessonP_mono w (scoreP_mono w h) h u b hb

section
variable (w : World ι R T W) {f : ι → M ι R (Option R)} (h : ∀ u, Snd w (f u) (fun k => scoreP w k u))
include h

theorem snd_superseded (u : ι) (ids : List ι) :
    Snd w (supersededC w f u ids) (fun k => supersededP w (scoreP w k) u ids) := by
  unfold supersededC supersededP
  split
  · exact snd_pure w _
  · have e : (fun k => if (!seenP w u) = true then some false else do
        let vs ← ids.mapM (scoreP w k)
        return vs.reduceOption.all (fun s => decide (s ≥ w.supScore))) =
      (fun k => (some (seenP w u)).bind (fun b => (fun b k =>
        if (!b) = true then some false else
        (ids.mapM (scoreP w k)).bind (fun vs =>
          some (vs.reduceOption.all (fun s => decide (s ≥ w.supScore))))) b k)) := rfl
    rw [e]
    refine snd_bind w (snd_of_sim w (sim_seen _ w u)) (mono_const _) (fun b => ?_) (fun b => ?_)
    · split
      · exact snd_pure w _
      · exact snd_bind w (snd_mapM w ids h (mono_score w)) (mono_mapM ids fun x _ => mono_score w x)
          (fun vs => snd_pure w _) (fun vs => mono_const _)
    · split
      · exact mono_const _
      · exact mono_bind (mono_mapM ids fun x _ => mono_score w x) (fun vs => mono_const _)

theorem snd_replace (n : Nat) (ids : List ι) :
    Snd w (replaceC w f n ids) (fun k => replaceP w (scoreP w k) k ids) := by
  induction n generalizing ids with
  | zero => intro c a c' _ h; simp [replaceC] at h
  | succ n ih =>
    rw [replaceC]
    have key : Snd w (ids.foldlM (fun acc id =>
      match w.graph.getSupersededBy id with
      | some s => do
        let b ← supersededC w f id s
        if b then
          let r ← replaceC w f n s
          return extendSet acc r
        else return acc.insert id
      | none => return acc.insert id) ([] : List ι)) (fun k => replaceP w (scoreP w k) (k + 1) ids) := by
      have hmono : ∀ (acc : List ι) (id : ι) (s : List ι) (b : Bool), Mono (fun k =>
          if b = true then (replaceP w (scoreP w k) k s).bind (fun r => some (extendSet acc r))
          else some (acc.insert id)) := by
        intro acc id s b
        split
        · exact mono_bind (mono_replace w s) (fun r => mono_const _)
        · exact mono_const _
      refine snd_foldlM w (g := fun acc id k => match w.graph.getSupersededBy id with
        | some s => (supersededP w (scoreP w k) id s).bind (fun b =>
          (fun b k => if b = true then
              (replaceP w (scoreP w k) k s).bind (fun r => some (extendSet acc r))
            else some (acc.insert id)) b k)
        | none => some (acc.insert id)) ids ?_ ?_ []
      · intro acc id
        split
        · rename_i s hs
          refine snd_bind w (snd_superseded w h id s) (mono_superseded w id s) (fun b => ?_)
            (fun b => hmono acc id s b)
          split
          · exact snd_bind w (ih s) (mono_replace w s) (fun r => snd_pure w _) (fun r => mono_const _)
          · exact snd_pure w _
        · exact snd_pure w _
      · intro acc id
        split
        · rename_i s hs
          exact mono_bind (mono_superseded w id s) (hmono acc id s)
        · exact mono_const _
    refine snd_congr w key (fun k a hk => ⟨k + 1, ?_⟩)
    exact replaceP_mono w (scoreP_mono w (by omega)) le_rfl ids a hk

theorem snd_check (n : Nat) (u : ι) :
    Snd w (checkC w f n u) (fun k => checkP w (scoreP w k) k u) := by
  unfold checkC checkP
  split
  · exact snd_pure w _
  · exact snd_bind w (snd_replace w h n _) (mono_replace w _) (fun r => snd_superseded w h u r)
      (fun r => mono_superseded w u r)

omit h in
theorem coh_storeLes {l : ι} {v : Option R} (hv : LessonIs w l v) : Snd w (storeLes l v : M ι R _)
    (fun k => lessonP w (scoreP w k) k l) := by
  intro c a c' hc hm
  obtain ⟨c1, h1, hc1⟩ := sim_storeLes Everything w l v (fun _ => hv) v rfl c hc
  rw [h1] at hm
  cases hm
  exact ⟨hc1, hv⟩

theorem snd_lesson (n : Nat) (l : ι) :
    Snd w (lessonC w f n l) (fun k => lessonP w (scoreP w k) k l) := by
  intro c v c' hc hm
  unfold lessonC at hm
  split at hm
  · rename_i v' hv'
    cases hm
    exact ⟨hc, hc.les l v trivial hv'⟩
  · unfold lessonBody at hm
    split at hm
    · rename_i hb
      exact coh_storeLes w ⟨0, by simp [lessonP, hb]⟩ c v c' hc hm
    · rename_i hb
      change (checkC w f n l c).bind _ = _ at hm
      rw [Option.bind_eq_some_iff] at hm
      obtain ⟨⟨b, c1⟩, h1, hm⟩ := hm
      obtain ⟨hc1, k, hk⟩ := snd_check w h n l c b c1 hc h1
      dsimp only at hm hk
      split at hm
      · rename_i hbt
        refine coh_storeLes w ⟨k, ?_⟩ c1 v c' hc1 hm
        unfold lessonP; rw [if_neg hb, hk]; simp [hbt]
      · rename_i hbt
        change (lessonMeanC w l c1).bind _ = _ at hm
        obtain ⟨c2, h2, hc2⟩ := sim_lessonMean Everything w l _ rfl c1 hc1
        rw [h2] at hm
        refine coh_storeLes w ⟨k, ?_⟩ c2 v c' hc2 hm
        unfold lessonP; rw [if_neg hb, hk]; simp [hbt]

omit h in
theorem coh_storeCou {l : ι} {v : Option R} (hv : CourseIs w l v) : Snd w (storeCou l v : M ι R _)
    (fun k => courseP w (scoreP w k) k l) := by
  intro c a c' hc hm
  obtain ⟨c1, h1, hc1⟩ := sim_storeCou Everything w l v (fun _ => hv) v rfl c hc
  rw [h1] at hm
  cases hm
  exact ⟨hc1, hv⟩

theorem snd_course (n : Nat) (l : ι) :
    Snd w (courseC w f n l) (fun k => courseP w (scoreP w k) k l) := by
  intro c v c' hc hm
  unfold courseC at hm
  split at hm
  · rename_i v' hv'
    cases hm
    exact ⟨hc, hc.cou l v trivial hv'⟩
  · unfold courseBody at hm
    split at hm
    · rename_i hb
      exact coh_storeCou w ⟨0, by simp [courseP, hb]⟩ c v c' hc hm
    · rename_i hb
      change (checkC w f n l c).bind _ = _ at hm
      rw [Option.bind_eq_some_iff] at hm
      obtain ⟨⟨b, c1⟩, h1, hm⟩ := hm
      obtain ⟨hc1, k, hk⟩ := snd_check w h n l c b c1 hc h1
      dsimp only at hm hk
      split at hm
      · rename_i hbt
        refine coh_storeCou w ⟨k, ?_⟩ c1 v c' hc1 hm
        unfold courseP; rw [if_neg hb, hk]; simp [hbt]
      · rename_i hbt
        cases hls : w.graph.getCourseLessons l with
        | none =>
          rw [hls] at hm
          refine coh_storeCou w ⟨k, ?_⟩ c1 v c' hc1 hm
          unfold courseP; rw [if_neg hb, hk]; simp [hbt, hls]
        | some ls =>
          rw [hls] at hm
          change (ls.mapM (lessonC w f n) c1).bind _ = _ at hm
          rw [Option.bind_eq_some_iff] at hm
          obtain ⟨⟨vs, c2⟩, h2, hm⟩ := hm
          obtain ⟨hc2, k2, hk2⟩ := snd_mapM w ls (snd_lesson w h n) (mono_lesson w) c1 vs c2 hc1 h2
          have hk' := mono_check w l k (max k k2) b (le_max_left _ _) hk
          have hk2' := mono_mapM ls (fun x _ => mono_lesson w x) k2 (max k k2) vs (le_max_right _ _) hk2
          dsimp only at hk' hk2' hm
          split at hm
          · rename_i hemp
            rw [List.isEmpty_iff] at hemp
            cases hm
            refine ⟨hc2, max k k2, ?_⟩
            dsimp only
            unfold courseP; rw [if_neg hb, hk']; simp [hbt, hls, hk2', hemp]
          · rename_i hemp
            rw [List.isEmpty_iff] at hemp
            refine coh_storeCou w ⟨max k k2, ?_⟩ c2 v c' hc2 hm
            unfold courseP; rw [if_neg hb, hk']; simp [hbt, hls, hk2', hemp]

end

theorem snd_score (w : World ι R T W) (n : Nat) (u : ι) :
    Snd w (scoreC w n u) (fun k => scoreP w k u) := by
  induction n generalizing u with
  | zero => intro c a c' _ h; simp [scoreC] at h
  | succ n ih =>
    rw [scoreC]
    have lift : ∀ {m : M ι R (Option R)} {p : Nat → Option (Option R)}, Snd w m p →
        (∀ k, scoreP w (k + 1) u = p k) → Snd w m (fun k => scoreP w k u) :=
      fun h he => snd_congr w h (fun k a hk => ⟨k + 1, by rw [he]; exact hk⟩)
    split
    · rename_i ht
      exact lift (snd_pure w _) (fun k => by rw [scoreP, ht])
    · rename_i ht
      refine lift (p := fun k => (some (w.exRec u)).bind (fun r => some (some r.score))) ?_
        (fun k => by rw [scoreP, ht]; rfl)
      exact snd_bind w (snd_of_sim w (sim_exC _ w u)) (mono_const _) (fun _ => snd_pure w _)
        (fun _ => mono_const _)
    · rename_i ht
      exact lift (snd_lesson w ih n u) (fun k => by rw [scoreP, ht])
    · rename_i ht
      exact lift (snd_course w ih n u) (fun k => by rw [scoreP, ht])

theorem snd_courseTrials (w : World ι R T W) (n : Nat) (u : ι) :
    Snd w (courseTrialsC w n u) (fun k => courseTrialsP w k u) := by
  intro c v c' hc hm
  unfold courseTrialsC at hm
  split at hm
  · rename_i v' hv'
    cases hm
    exact ⟨hc, hc.couT u v trivial hv'⟩
  · unfold courseTrialsBody at hm
    have hkeep : Snd w (keepM (fun l => do
        let b ← checkC w (scoreC w n) n l
        return !w.black l && !b) ((w.graph.getCourseLessons u).getD []))
        (fun k => keepM (fun l => (checkP w (scoreP w k) k l).bind (fun b =>
          some (!w.black l && !b))) ((w.graph.getCourseLessons u).getD [])) := by
      refine snd_keepM w (g := fun l k => (checkP w (scoreP w k) k l).bind (fun b =>
          some (!w.black l && !b))) _ (fun l => ?_) (fun l => ?_)
      · exact snd_bind w (snd_check w (snd_score w n) n l) (mono_check w l) (fun b => snd_pure w _)
          (fun b => mono_const _)
      · exact mono_bind (mono_check w l) (fun b => mono_const _)
    change ((keepM (fun l => do
        let b ← checkC w (scoreC w n) n l
        return !w.black l && !b) ((w.graph.getCourseLessons u).getD []) : M ι R (List ι)) c).bind _
        = _ at hm
    rw [Option.bind_eq_some_iff] at hm
    obtain ⟨⟨ls, c1⟩, h1, hm⟩ := hm
    obtain ⟨hc1, k, hk⟩ := hkeep c ls c1 hc h1
    change (ls.mapM (lessonTrialsC w) c1).bind _ = _ at hm
    obtain ⟨c2, h2, hc2⟩ := sim_mapM Everything w ls (g := fun l => some (lessonTrialsP w l))
      (fun x _ => sim_lessonTrials _ w x) _ (mapM_some (lessonTrialsP w) ls) c1 hc1
    rw [h2] at hm
    have his : courseTrialsP w k u = some (if (ls.map (lessonTrialsP w)).reduceOption.isEmpty then none
        else some (mean (ls.map (lessonTrialsP w)).reduceOption)) := by
      unfold courseTrialsP
      simp only [Option.bind_eq_bind, Option.pure_def]
      dsimp only at hk
      rw [hk, Option.bind_some]
      split <;> rfl
    obtain ⟨c3, h3, hc3⟩ := sim_storeCouT Everything w u _ (fun _ => ⟨k, his⟩) _ rfl c2 hc2
    have e := h3.symm.trans hm
    cases e
    exact ⟨hc3, k, his⟩

end Trane.UnitScorer
