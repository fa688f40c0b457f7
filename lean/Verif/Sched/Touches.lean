import Verif.Sched.ScoreOrder

/-!
# Which entries queries add to the caches

A query computes the entries it misses and keeps them.  Which entries these are depends on the order in which units are
asked only through what is there already: the entries after some queries are those from before and the entries each of
the queries adds on its own.
-/

namespace Trane.UnitScorer

variable {ι R T W : Type} [DecidableEq ι] [Field R] [LinearOrder R]

/-- An entry of one of the five caches. -/
inductive Key (ι : Type)
  | ex (e : ι)
  | les (l : ι)
  | cou (u : ι)
  | lesT (l : ι)
  | couT (u : ι)

/-- The entry is there. -/
def Caches.has (c : Caches ι R) : Key ι → Prop
  | .ex e => c.ex.find e ≠ none
  | .les l => c.les.find l ≠ none
  | .cou u => c.cou.find u ≠ none
  | .lesT l => c.lesT.find l ≠ none
  | .couT u => c.couT.find u ≠ none

/-- The queries and their parts. -/
inductive Query (ι : Type)
  | ex (e : ι)
  | score (u : ι)
  | lesson (l : ι)
  | course (u : ι)
  | sup (u : ι) (ids : List ι)
  | replace (ids : List ι)
  | check (u : ι)
  | lesT (l : ι)
  | couT (u : ι)

/-- The query that makes an entry. -/
def Query.of : Key ι → Query ι
  | .ex e => .ex e
  | .les l => .lesson l
  | .cou u => .course u
  | .lesT l => .lesT l
  | .couT u => .couT u

section
variable (w : World ι R T W) (c0 : Caches ι R)

/-- With the caches `c0`, is `u` superseded by the units that replace its superseding units? -/
def IsSup (u : ι) (b : Bool) : Prop := ∃ n, checkP (over w c0) (scoreO w c0 n) n u = some b

/-- The entries a query adds to the caches `c0`. -/
inductive Touches : Query ι → Key ι → Prop
  | ex {e} : c0.ex.find e = none → Touches (.ex e) (.ex e)
  | scoreEx {u k} : w.graph.getUnitType u = some .exercise → Touches (.ex u) k → Touches (.score u) k
  | scoreLes {u k} : w.graph.getUnitType u = some .lesson → Touches (.lesson u) k → Touches (.score u) k
  | scoreCou {u k} : w.graph.getUnitType u = some .course → Touches (.course u) k → Touches (.score u) k
  | supSeen {u ids e k} : ids ≠ [] → e ∈ w.allValid u → Touches (.ex e) k → Touches (.sup u ids) k
  | supScore {u ids id k} : seenP (over w c0) u = true → id ∈ ids → Touches (.score id) k → Touches (.sup u ids) k
  | replaceSup {ids id s k} : id ∈ ids → w.graph.getSupersededBy id = some s → Touches (.sup id s) k →
      Touches (.replace ids) k
  | replaceRec {ids id s k} : id ∈ ids → w.graph.getSupersededBy id = some s →
      (∃ n, supersededP (over w c0) (scoreO w c0 n) id s = some true) → Touches (.replace s) k → Touches (.replace ids) k
  | checkReplace {u ids k} : w.graph.getSupersededBy u = some ids → Touches (.replace ids) k → Touches (.check u) k
  | checkSup {u ids ids' k} : w.graph.getSupersededBy u = some ids →
      (∃ n, replaceP (over w c0) (scoreO w c0 n) n ids = some ids') → Touches (.sup u ids') k → Touches (.check u) k
  | les {l} : c0.les.find l = none → Touches (.lesson l) (.les l)
  | lesCheck {l k} : c0.les.find l = none → w.black l = false → Touches (.check l) k → Touches (.lesson l) k
  | lesEx {l es e k} : c0.les.find l = none → w.black l = false → IsSup w c0 l false →
      w.graph.getLessonExercises l = some es → e ∈ es → w.black e = false → Touches (.ex e) k → Touches (.lesson l) k
  | cou {u} : c0.cou.find u = none → (w.black u = true ∨ IsSup w c0 u true ∨ w.graph.getCourseLessons u = none ∨
      ∃ n v, courseO w c0 (scoreO w c0 n) n u = some (some v)) → Touches (.course u) (.cou u)
  | couCheck {u k} : c0.cou.find u = none → w.black u = false → Touches (.check u) k → Touches (.course u) k
  | couLes {u ls l k} : c0.cou.find u = none → w.black u = false → IsSup w c0 u false →
      w.graph.getCourseLessons u = some ls → l ∈ ls → Touches (.lesson l) k → Touches (.course u) k
  | lesT {l es} : c0.lesT.find l = none → w.graph.getLessonExercises l = some es → Touches (.lesT l) (.lesT l)
  | lesTEx {l es e k} : c0.lesT.find l = none → w.graph.getLessonExercises l = some es → e ∈ es → w.black e = false →
      Touches (.ex e) k → Touches (.lesT l) k
  | couT {u} : c0.couT.find u = none → Touches (.couT u) (.couT u)
  | couTCheck {u l k} : c0.couT.find u = none → l ∈ (w.graph.getCourseLessons u).getD [] → Touches (.check l) k →
      Touches (.couT u) k
  | couTLes {u l k} : c0.couT.find u = none → l ∈ (w.graph.getCourseLessons u).getD [] → w.black l = false →
      IsSup w c0 l false → Touches (.lesT l) k → Touches (.couT u) k

/-- What is there was made with all that belongs to it. -/
def Whole (c : Caches ι R) : Prop := ∀ k k', c.has k → Touches w c0 (.of k) k' → c.has k'

def Hered (F : Key ι → Prop) : Prop := ∀ k k', F k → Touches w c0 (.of k) k' → F k'

/-- The computation adds the entries `F`. -/
def Adds {α : Type} (m : M ι R α) (F : Key ι → Prop) : Prop :=
  ∀ c, Grown w c0 c → Whole w c0 c → ∀ a c', m c = some (a, c') → ∀ k, c'.has k ↔ c.has k ∨ F k

variable {w c0}

theorem touches_missing {k k' : Key ι} (h : Touches w c0 (.of k) k') : ¬ c0.has k := by
  cases k <;> (intro hk; cases h <;> contradiction)

theorem whole_refl : Whole w c0 c0 := fun _ _ hk h => absurd hk (touches_missing h)

theorem touches_trans {q : Query ι} {k : Key ι} (h : Touches w c0 q k) : ∀ k', Touches w c0 (.of k) k' → Touches w c0 q k' := by
  induction h with
  | ex _ => exact fun _ h => h
  | scoreEx a _ ih => exact fun k' h => .scoreEx a (ih k' h)
  | scoreLes a _ ih => exact fun k' h => .scoreLes a (ih k' h)
  | scoreCou a _ ih => exact fun k' h => .scoreCou a (ih k' h)
  | supSeen a b _ ih => exact fun k' h => .supSeen a b (ih k' h)
  | supScore a b _ ih => exact fun k' h => .supScore a b (ih k' h)
  | replaceSup a b _ ih => exact fun k' h => .replaceSup a b (ih k' h)
  | replaceRec a b c _ ih => exact fun k' h => .replaceRec a b c (ih k' h)
  | checkReplace a _ ih => exact fun k' h => .checkReplace a (ih k' h)
  | checkSup a b _ ih => exact fun k' h => .checkSup a b (ih k' h)
  | les _ => exact fun _ h => h
  | lesCheck a b _ ih => exact fun k' h => .lesCheck a b (ih k' h)
  | lesEx a b c d e f _ ih => exact fun k' h => .lesEx a b c d e f (ih k' h)
  | cou _ _ => exact fun _ h => h
  | couCheck a b _ ih => exact fun k' h => .couCheck a b (ih k' h)
  | couLes a b c d e _ ih => exact fun k' h => .couLes a b c d e (ih k' h)
  | lesT _ _ => exact fun _ h => h
  | lesTEx a b c d _ ih => exact fun k' h => .lesTEx a b c d (ih k' h)
  | couT _ => exact fun _ h => h
  | couTCheck a b _ ih => exact fun k' h => .couTCheck a b (ih k' h)
  | couTLes a b c d _ ih => exact fun k' h => .couTLes a b c d (ih k' h)

theorem hered_touches (q : Query ι) : Hered w c0 (Touches w c0 q) := fun _ k' h h' => touches_trans h k' h'

theorem hered_ex {β : Type} {F : β → Key ι → Prop} (p : β → Prop) (h : ∀ x, Hered w c0 (F x)) :
    Hered w c0 (fun k => ∃ x, p x ∧ F x k) := fun k k' ⟨x, hp, hx⟩ h' => ⟨x, hp, h x k k' hx h'⟩

theorem whole_adds {c c' : Caches ι R} {F : Key ι → Prop} (hF : Hered w c0 F) (hc : Whole w c0 c)
    (h : ∀ k, c'.has k ↔ c.has k ∨ F k) : Whole w c0 c' := by
  intro k k' hk ht
  rw [h] at hk ⊢
  exact hk.imp (fun hk => hc k k' hk ht) (fun hk => hF k k' hk ht)

theorem adds_pure {α : Type} (a : α) : Adds w c0 (pure a : M ι R α) (fun _ => False) := by
  intro c _ _ a' c' h k
  cases h
  simp

theorem adds_bind {α β : Type} {m : M ι R α} {p : Option α} {q : Nat → Option α} {f : α → M ι R β} {F H : Key ι → Prop}
    {G : α → Key ι → Prop} (hm : Adds w c0 m F) (hF : Hered w c0 F) (ha : Agrees w c0 m p q)
    (hf : ∀ a, (∃ k, q k = some a) → Adds w c0 (f a) (G a))
    (hH : ∀ a, (∃ k, q k = some a) → ∀ k, H k ↔ F k ∨ G a k) : Adds w c0 (m >>= f) H := by
  intro c hg hc b c' h k
  change (m c).bind (fun x => f x.1 x.2) = _ at h
  rw [Option.bind_eq_some_iff] at h
  obtain ⟨⟨a, c1⟩, h1, h2⟩ := h
  obtain ⟨hg1, hq⟩ := ha.snd c a c1 hg h1
  have e1 := hm c hg hc a c1 h1
  have e2 := hf a hq c1 hg1 (whole_adds hF hc e1) b c' h2
  rw [e2, e1, hH a hq, or_assoc]

theorem adds_congr {α : Type} {m : M ι R α} {F G : Key ι → Prop} (h : Adds w c0 m F) (e : ∀ k, G k ↔ F k) :
    Adds w c0 m G := fun c hg hc a c' hm k => by rw [h c hg hc a c' hm k, e]

theorem adds_map {α β : Type} {m : M ι R α} {p : Option α} {q : Nat → Option α} {F : Key ι → Prop} (f : α → β)
    (hm : Adds w c0 m F) (hF : Hered w c0 F) (ha : Agrees w c0 m p q) :
    Adds w c0 (m >>= fun a => (pure (f a) : M ι R β)) F :=
  adds_bind hm hF ha (fun a _ => adds_pure _) (fun _ _ k => by simp)

theorem adds_mapM {α β : Type} {f : α → M ι R β} {g : α → Option β} {g' : α → Nat → Option β} {F : α → Key ι → Prop}
    (xs : List α) (h : ∀ x, Adds w c0 (f x) (F x)) (hF : ∀ x, Hered w c0 (F x)) (ha : ∀ x, Agrees w c0 (f x) (g x) (g' x))
    (hg : ∀ x, Mono (g' x)) : Adds w c0 (xs.mapM f) (fun k => ∃ x, x ∈ xs ∧ F x k) := by
  induction xs with
  | nil => exact adds_congr (by simpa using adds_pure (w := w) (c0 := c0) ([] : List β)) (by simp)
  | cons x xs ih =>
    rw [List.mapM_cons]
    refine adds_bind (h x) (hF x) (ha x) (fun a _ => adds_map _ ih (hered_ex _ hF) (ag_mapM w c0 xs ha hg)) ?_
    intro a _ k
    simp

theorem adds_foldlM {α β : Type} {f : β → α → M ι R β} {g : β → α → Option β} {g' : β → α → Nat → Option β}
    {F : α → Key ι → Prop} (xs : List α) (h : ∀ b x, Adds w c0 (f b x) (F x)) (hF : ∀ x, Hered w c0 (F x))
    (ha : ∀ b x, Agrees w c0 (f b x) (g b x) (g' b x)) (b : β) :
    Adds w c0 (xs.foldlM f b) (fun k => ∃ x, x ∈ xs ∧ F x k) := by
  induction xs generalizing b with
  | nil => exact adds_congr (by simpa using adds_pure (w := w) (c0 := c0) b) (by simp)
  | cons x xs ih =>
    rw [List.foldlM_cons]
    refine adds_bind (h b x) (hF x) (ha b x) (fun a _ => ih a) ?_
    intro a _ k
    simp

theorem adds_keepM {α : Type} {f : α → M ι R Bool} {g : α → Option Bool} {g' : α → Nat → Option Bool}
    {F : α → Key ι → Prop} (xs : List α) (h : ∀ x, Adds w c0 (f x) (F x)) (hF : ∀ x, Hered w c0 (F x))
    (ha : ∀ x, Agrees w c0 (f x) (g x) (g' x)) (hg : ∀ x, Mono (g' x)) :
    Adds w c0 (keepM f xs) (fun k => ∃ x, x ∈ xs ∧ F x k) := by
  induction xs with
  | nil => exact adds_congr (adds_pure (w := w) (c0 := c0) ([] : List α)) (by simp)
  | cons x xs ih =>
    unfold keepM
    refine adds_bind (h x) (hF x) (ha x) (fun a _ => adds_map _ ih (hered_ex _ hF) (ag_keepM w c0 xs ha hg)) ?_
    intro a _ k
    simp

theorem adds_exC (e : ι) : Adds w c0 (exC w e) (Touches w c0 (.ex e)) := by
  intro c hg hc a c' h k
  unfold exC at h
  split at h
  · rename_i r hr
    cases h
    exact ⟨.inl, fun hk => hk.elim id (hc (.ex e) k (by simp [Caches.has, hr]))⟩
  · rename_i hn
    cases h
    have h0 := hg.ex0 e hn
    constructor
    · intro hk
      cases k with
      | ex e' =>
        by_cases he : e = e'
        · subst he; exact .inr (.ex h0)
        · left
          simpa [Caches.has, AMap.find_put, he] using hk
      | _ => exact .inl hk
    · rintro (hk | hk)
      · cases k with
        | ex e' =>
          simp only [Caches.has, AMap.find_put] at hk ⊢
          split
          · simp
          · exact hk
        | _ => exact hk
      · cases hk
        simp [Caches.has]

theorem adds_exs (es : List ι) : Adds w c0 (es.mapM (exC w)) (fun k => ∃ e, e ∈ es ∧ Touches w c0 (.ex e) k) :=
  adds_mapM es adds_exC (fun _ => hered_touches _) (ag_exC w c0) (fun _ => mono_const _)

theorem adds_seen (u : ι) : Adds w c0 (seenC w u) (fun k => ∃ e, e ∈ w.allValid u ∧ Touches w c0 (.ex e) k) :=
  adds_map _ (adds_exs _) (hered_ex _ fun _ => hered_touches _) (ag_exs w c0 _)

section
variable {f : ι → M ι R (Option R)} {n : Nat} (h : ∀ u, Agrees w c0 (f u) (scoreO w c0 n u) (fun k => scoreO w c0 k u))
  (hA : ∀ u, Adds w c0 (f u) (Touches w c0 (.score u)))
include h hA

theorem adds_superseded (u : ι) (ids : List ι) : Adds w c0 (supersededC w f u ids) (Touches w c0 (.sup u ids)) := by
  unfold supersededC
  split
  · rename_i he
    rw [List.isEmpty_iff] at he
    subst he
    refine adds_congr (adds_pure _) (fun k => ⟨fun hk => ?_, False.elim⟩)
    cases hk with
    | supSeen a _ _ => exact a rfl
    | supScore _ a _ => cases a
  · rename_i he
    rw [List.isEmpty_iff] at he
    refine adds_bind (G := fun b k => b = true ∧ ∃ id, id ∈ ids ∧ Touches w c0 (.score id) k) (adds_seen u)
      (hered_ex _ fun _ => hered_touches _) (ag_seen w c0 u) (fun b _ => ?_) ?_
    · cases b with
      | false => exact adds_congr (adds_pure _) (by simp)
      | true =>
        refine adds_congr (adds_map _ (adds_mapM ids hA (fun _ => hered_touches _) h (omono_score w c0))
          (hered_ex _ fun _ => hered_touches _) (ag_mapM w c0 ids h (omono_score w c0))) (by simp)
    · rintro b ⟨_, hb⟩ k
      have hb : seenP (over w c0) u = b := Option.some.inj hb
      constructor
      · intro hk
        cases hk with
        | supSeen _ a b => exact .inl ⟨_, a, b⟩
        | supScore a b c => exact .inr ⟨hb ▸ a, _, b, c⟩
      · rintro (⟨e, a, b⟩ | ⟨a, id, b, c⟩)
        · exact .supSeen he a b
        · exact .supScore (hb.trans a) b c

theorem adds_replace (m : Nat) (ids : List ι) : Adds w c0 (replaceC w f m ids) (Touches w c0 (.replace ids)) := by
  induction m generalizing ids with
  | zero => intro c _ _ a c' hh; cases hh
  | succ m ih =>
    rw [replaceC]
    have key := adds_foldlM (w := w) (c0 := c0) (F := fun id k => ∃ s, w.graph.getSupersededBy id = some s ∧
        (Touches w c0 (.sup id s) k ∨ ((∃ n, supersededP (over w c0) (scoreO w c0 n) id s = some true) ∧
          Touches w c0 (.replace s) k))) (f := fun acc id =>
      match w.graph.getSupersededBy id with
      | some s => do
        let b ← supersededC w f id s
        if b then
          let r ← replaceC w f m s
          return extendSet acc r
        else return acc.insert id
      | none => return acc.insert id)
      (g := fun acc id => match w.graph.getSupersededBy id with
        | some s => (supersededP (over w c0) (scoreO w c0 n) id s).bind (fun b => if b = true then
              (replaceP (over w c0) (scoreO w c0 n) m s).bind (fun r => some (extendSet acc r))
            else some (acc.insert id))
        | none => some (acc.insert id))
      (g' := fun acc id k => match w.graph.getSupersededBy id with
        | some s => (supersededP (over w c0) (scoreO w c0 k) id s).bind (fun b =>
          (fun b k => if b = true then
              (replaceP (over w c0) (scoreO w c0 k) k s).bind (fun r => some (extendSet acc r))
            else some (acc.insert id)) b k)
        | none => some (acc.insert id)) ids ?_ ?_ ?_ []
    · refine adds_congr key (fun k => ⟨fun hk => ?_, ?_⟩)
      · cases hk with
        | replaceSup a b c => exact ⟨_, a, _, b, .inl c⟩
        | replaceRec a b c d => exact ⟨_, a, _, b, .inr ⟨c, d⟩⟩
      · rintro ⟨id, a, s, b, c | ⟨c, d⟩⟩
        · exact .replaceSup a b c
        · exact .replaceRec a b c d
    · intro acc id
      split
      · rename_i s hs
        refine adds_bind (G := fun b k => b = true ∧ Touches w c0 (.replace s) k) (adds_superseded h hA id s)
          (hered_touches _) (ag_superseded w c0 h id s) (fun b _ => ?_) ?_
        · cases b with
          | false => exact adds_congr (adds_pure _) (by simp)
          | true => exact adds_congr (adds_map _ (ih s) (hered_touches _) (ag_replace w c0 h m s)) (by simp)
        · rintro b ⟨k0, hb⟩ k
          rw [hs]
          constructor
          · rintro ⟨s', e, c | ⟨⟨k1, c⟩, d⟩⟩
            · cases e; exact .inl c
            · cases e; exact .inr ⟨mono_unique (omono_superseded w c0 id s) hb c, d⟩
          · rintro (c | ⟨c, d⟩)
            · exact ⟨s, rfl, .inl c⟩
            · exact ⟨s, rfl, .inr ⟨⟨k0, c ▸ hb⟩, d⟩⟩
      · rename_i hs
        exact adds_congr (adds_pure _) (by simp [hs])
    · intro id k k' hk ht
      obtain ⟨s, a, b | ⟨b, d⟩⟩ := hk
      · exact ⟨s, a, .inl (touches_trans b k' ht)⟩
      · exact ⟨s, a, .inr ⟨b, touches_trans d k' ht⟩⟩
    · have hmono : ∀ (acc : List ι) (id : ι) (s : List ι) (b : Bool), Mono (fun k =>
          if b = true then (replaceP (over w c0) (scoreO w c0 k) k s).bind (fun r => some (extendSet acc r))
          else some (acc.insert id)) := by
        intro acc id s b
        split
        · exact mono_bind (omono_replace w c0 s) (fun r => mono_const _)
        · exact mono_const _
      intro acc id
      dsimp only
      split
      · rename_i s hs
        refine ag_bind w c0 (ag_superseded w c0 h id s) (omono_superseded w c0 id s) (fun b => ?_)
          (fun b => hmono acc id s b)
        split
        · exact ag_bind w c0 (ag_replace w c0 h m s) (omono_replace w c0 s) (fun r => ag_pure w c0 _) (fun r => mono_const _)
        · exact ag_pure w c0 _
      · exact ag_pure w c0 _

theorem adds_check (m : Nat) (u : ι) : Adds w c0 (checkC w f m u) (Touches w c0 (.check u)) := by
  unfold checkC
  cases hs : w.graph.getSupersededBy u with
  | none =>
    refine adds_congr (adds_pure _) (fun k => ⟨fun hk => ?_, False.elim⟩)
    cases hk with
    | checkReplace a _ => rw [hs] at a; cases a
    | checkSup a _ _ => rw [hs] at a; cases a
  | some ids =>
    refine adds_bind (adds_replace h hA m ids) (hered_touches _) (ag_replace w c0 h m ids)
      (fun r _ => adds_superseded h hA u r) ?_
    rintro r ⟨k0, hr⟩ k
    constructor
    · intro hk
      cases hk with
      | checkReplace a b => rw [hs] at a; cases a; exact .inl b
      | checkSup a b c =>
        rw [hs] at a; cases a
        obtain ⟨k1, b⟩ := b
        rw [mono_unique (omono_replace w c0 ids) hr b]
        exact .inr c
    · rintro (b | c)
      · exact .checkReplace hs b
      · exact .checkSup hs ⟨k0, hr⟩ c

end

theorem adds_storeLes {l : ι} (v : Option R) : Adds w c0 (storeLes l v) (fun k => k = .les l) := by
  intro c _ _ a c' h k
  cases h
  cases k with
  | les l' =>
    simp only [Caches.has, AMap.find_put]
    by_cases he : l = l'
    · simp [he]
    · simp [he, Ne.symm he]
  | _ => simp [Caches.has]

theorem adds_storeCou {l : ι} (v : Option R) : Adds w c0 (storeCou l v) (fun k => k = .cou l) := by
  intro c _ _ a c' h k
  cases h
  cases k with
  | cou l' =>
    simp only [Caches.has, AMap.find_put]
    by_cases he : l = l'
    · simp [he]
    · simp [he, Ne.symm he]
  | _ => simp [Caches.has]

theorem adds_storeLesT {l : ι} (v : Option R) : Adds w c0 (storeLesT l v) (fun k => k = .lesT l) := by
  intro c _ _ a c' h k
  cases h
  cases k with
  | lesT l' =>
    simp only [Caches.has, AMap.find_put]
    by_cases he : l = l'
    · simp [he]
    · simp [he, Ne.symm he]
  | _ => simp [Caches.has]

theorem adds_storeCouT {l : ι} (v : Option R) : Adds w c0 (storeCouT l v) (fun k => k = .couT l) := by
  intro c _ _ a c' h k
  cases h
  cases k with
  | couT l' =>
    simp only [Caches.has, AMap.find_put]
    by_cases he : l = l'
    · simp [he]
    · simp [he, Ne.symm he]
  | _ => simp [Caches.has]

section
variable {f : ι → M ι R (Option R)} {n : Nat} (h : ∀ u, Agrees w c0 (f u) (scoreO w c0 n u) (fun k => scoreO w c0 k u))
  (hA : ∀ u, Adds w c0 (f u) (Touches w c0 (.score u)))

theorem adds_lessonMean (l : ι) : Adds w c0 (lessonMeanC w l) (fun k => ∃ es e, w.graph.getLessonExercises l = some es ∧
    e ∈ es ∧ w.black e = false ∧ Touches w c0 (.ex e) k) := by
  unfold lessonMeanC
  cases hs : w.graph.getLessonExercises l with
  | none => exact adds_congr (adds_pure _) (by simp)
  | some es =>
    dsimp only
    split
    · rename_i he
      rw [List.isEmpty_iff, List.filter_eq_nil_iff] at he
      refine adds_congr (adds_pure _) (fun k => ⟨?_, False.elim⟩)
      rintro ⟨es', e, h1, h2, h3, _⟩
      cases h1
      exact he e h2 (by simp [h3])
    · refine adds_congr (adds_map _ (adds_exs _) (hered_ex _ fun _ => hered_touches _) (ag_exs w c0 _)) (fun k => ?_)
      simp only [List.mem_filter, Bool.not_eq_true']
      constructor
      · rintro ⟨es', e, h1, h2, h3, h4⟩; cases h1; exact ⟨e, ⟨h2, h3⟩, h4⟩
      · rintro ⟨e, ⟨h2, h3⟩, h4⟩; exact ⟨es, e, rfl, h2, h3, h4⟩

theorem isSup_unique {u : ι} {b b' : Bool} (h : IsSup w c0 u b) (h' : IsSup w c0 u b') : b = b' := by
  obtain ⟨n, h⟩ := h
  obtain ⟨n', h'⟩ := h'
  exact mono_unique (omono_check w c0 u) h h'

include h hA

theorem adds_lesson (l : ι) : Adds w c0 (lessonC w f n l) (Touches w c0 (.lesson l)) := by
  intro c hg hc v c' hm
  unfold lessonC at hm
  split at hm
  · rename_i v' hv'
    cases hm
    exact fun k => ⟨.inl, fun hk => hk.elim id (hc (.les l) k (by simp [Caches.has, hv']))⟩
  · rename_i hn
    have h0 := hg.les0 l hn
    refine (?_ : Adds w c0 (lessonBody w f n l) (Touches w c0 (.lesson l))) c hg hc v c' hm
    unfold lessonBody
    split
    · rename_i hb
      refine adds_congr (adds_storeLes none) (fun k => ⟨fun hk => ?_, fun hk => hk ▸ .les h0⟩)
      cases hk with
      | les => rfl
      | lesCheck _ a _ => rw [a] at hb; cases hb
      | lesEx _ a => rw [a] at hb; cases hb
    · rename_i hb
      have hb : w.black l = false := by simpa using hb
      refine adds_bind (G := fun b k => k = .les l ∨ (b = false ∧ ∃ es e, w.graph.getLessonExercises l = some es ∧
        e ∈ es ∧ w.black e = false ∧ Touches w c0 (.ex e) k)) (adds_check h hA n l) (hered_touches _)
        (ag_check w c0 h n l) (fun b _ => ?_) ?_
      · cases b with
        | true => exact adds_congr (adds_storeLes none) (by simp)
        | false =>
          refine adds_bind (adds_lessonMean l) ?_ (ag_lessonMean w c0 l) (fun a _ => adds_storeLes a) ?_
          · rintro k k' ⟨es, e, h1, h2, h3, h4⟩ ht
            exact ⟨es, e, h1, h2, h3, touches_trans h4 k' ht⟩
          · intro a _ k
            simp only [true_and]
            exact or_comm
      · rintro b ⟨k0, hk0⟩ k
        have hs : IsSup w c0 l b := ⟨k0, hk0⟩
        constructor
        · intro hk
          cases hk with
          | les => exact .inr (.inl rfl)
          | lesCheck _ _ a => exact .inl a
          | lesEx _ _ a b' c d e => exact .inr (.inr ⟨isSup_unique hs a, _, _, b', c, d, e⟩)
        · rintro (a | rfl | ⟨rfl, es, e, h1, h2, h3, h4⟩)
          · exact .lesCheck h0 hb a
          · exact .les h0
          · exact .lesEx h0 hb hs h1 h2 h3 h4

theorem adds_course (u : ι) : Adds w c0 (courseC w f n u) (Touches w c0 (.course u)) := by
  intro c hg hc v c' hm
  unfold courseC at hm
  split at hm
  · rename_i v' hv'
    cases hm
    exact fun k => ⟨.inl, fun hk => hk.elim id (hc (.cou u) k (by simp [Caches.has, hv']))⟩
  · rename_i hn
    have h0 := hg.cou0 u hn
    refine (?_ : Adds w c0 (courseBody w f n u) (Touches w c0 (.course u))) c hg hc v c' hm
    unfold courseBody
    split
    · rename_i hb
      refine adds_congr (adds_storeCou none) (fun k => ⟨fun hk => ?_, fun hk => hk ▸ .cou h0 (.inl hb)⟩)
      cases hk with
      | cou => rfl
      | couCheck _ a _ => rw [a] at hb; cases hb
      | couLes _ a => rw [a] at hb; cases hb
    · rename_i hb
      have hb : w.black u = false := by simpa using hb
      refine adds_bind (G := fun b k => (k = .cou u ∧ (b = true ∨ w.graph.getCourseLessons u = none ∨
          ∃ n v, courseO w c0 (scoreO w c0 n) n u = some (some v))) ∨
          (b = false ∧ ∃ ls l, w.graph.getCourseLessons u = some ls ∧ l ∈ ls ∧ Touches w c0 (.lesson l) k))
        (adds_check h hA n u) (hered_touches _) (ag_check w c0 h n u) ?_ ?_
      · rintro b ⟨k0, hk0⟩
        cases b with
        | true => exact adds_congr (adds_storeCou none) (by simp)
        | false =>
          rw [if_neg Bool.false_ne_true]
          cases hls : w.graph.getCourseLessons u with
          | none => exact adds_congr (adds_storeCou none) (by simp)
          | some ls =>
            refine adds_bind (G := fun vs k => k = .cou u ∧ vs.reduceOption ≠ []) (adds_mapM ls (adds_lesson h hA)
              (fun _ => hered_touches _) (fun x => ag_lesson w c0 h x) (omono_lesson w c0))
              (hered_ex _ fun _ => hered_touches _)
              (ag_mapM w c0 ls (fun x => ag_lesson w c0 h x) (omono_lesson w c0)) (fun vs _ => ?_) ?_
            · dsimp only
              split
              · rename_i he
                rw [List.isEmpty_iff] at he
                exact adds_congr (adds_pure _) (by simp [he])
              · rename_i he
                rw [List.isEmpty_iff] at he
                exact adds_congr (adds_storeCou _) (by simp [he])
            · rintro vs ⟨k1, hk1⟩ k
              have e : ∃ n, courseO w c0 (scoreO w c0 n) n u = some (if vs.reduceOption = [] then none
                  else some (mean vs.reduceOption)) := by
                have hk' := omono_check w c0 u k0 (max k0 k1) false (le_max_left _ _) hk0
                have hk2' := mono_mapM ls (fun x _ => omono_lesson w c0 x) k1 (max k0 k1) vs (le_max_right _ _) hk1
                dsimp only at hk' hk2'
                refine ⟨max k0 k1, ?_⟩
                unfold courseO; rw [h0]; dsimp only; rw [if_neg (by simp [hb]), hk']
                by_cases he : vs.reduceOption = [] <;> simp [hls, hk2', he]
              have key : (∃ n v, courseO w c0 (scoreO w c0 n) n u = some (some v)) ↔ vs.reduceOption ≠ [] := by
                obtain ⟨n1, e⟩ := e
                constructor
                · rintro ⟨n2, v, h2⟩ he
                  rw [if_pos he] at e
                  cases mono_unique (omono_course w c0 u) e h2
                · intro he
                  rw [if_neg he] at e
                  exact ⟨_, _, e⟩
              rw [key]
              simp only [Bool.false_eq_true, false_or, true_and, Option.some.injEq, reduceCtorEq]
              rw [or_comm]
              refine or_congr ⟨?_, ?_⟩ Iff.rfl
              · rintro ⟨ls', l, rfl, a, b⟩; exact ⟨l, a, b⟩
              · rintro ⟨l, a, b⟩; exact ⟨ls, l, rfl, a, b⟩
      · rintro b ⟨k0, hk0⟩ k
        have hs : IsSup w c0 u b := ⟨k0, hk0⟩
        constructor
        · intro hk
          cases hk with
          | cou _ a =>
            refine .inr (.inl ⟨rfl, ?_⟩)
            rcases a with a | a | a | a
            · rw [a] at hb; cases hb
            · exact .inl (isSup_unique hs a)
            · exact .inr (.inl a)
            · exact .inr (.inr a)
          | couCheck _ _ a => exact .inl a
          | couLes _ _ a b' c d => exact .inr (.inr ⟨isSup_unique hs a, _, _, b', c, d⟩)
        · rintro (a | ⟨rfl, a⟩ | ⟨rfl, ls, l, h1, h2, h3⟩)
          · exact .couCheck h0 hb a
          · refine .cou h0 (.inr ?_)
            rcases a with rfl | a | a
            · exact .inl hs
            · exact .inr (.inl a)
            · exact .inr (.inr a)
          · exact .couLes h0 hb hs h1 h2 h3

end

theorem adds_score (n : Nat) (u : ι) : Adds w c0 (scoreC w n u) (Touches w c0 (.score u)) := by
  induction n generalizing u with
  | zero => intro c _ _ a c' hh; cases hh
  | succ n ih =>
    rw [scoreC]
    cases ht : w.graph.getUnitType u with
    | none =>
      refine adds_congr (adds_pure _) (fun k => ⟨fun hk => ?_, False.elim⟩)
      cases hk <;> rename_i a _ <;> rw [ht] at a <;> cases a
    | some ty =>
      cases ty with
      | exercise =>
        refine adds_congr (adds_map _ (adds_exC u) (hered_touches _) (ag_exC w c0 u)) (fun k => ⟨fun hk => ?_, .scoreEx ht⟩)
        cases hk <;> rename_i a b <;> rw [ht] at a <;> first | exact b | cases a
      | lesson =>
        refine adds_congr (adds_lesson (ag_score w c0 n) ih u) (fun k => ⟨fun hk => ?_, .scoreLes ht⟩)
        cases hk <;> rename_i a b <;> rw [ht] at a <;> first | exact b | cases a
      | course =>
        refine adds_congr (adds_course (ag_score w c0 n) ih u) (fun k => ⟨fun hk => ?_, .scoreCou ht⟩)
        cases hk <;> rename_i a b <;> rw [ht] at a <;> first | exact b | cases a

theorem adds_lessonTrials (l : ι) : Adds w c0 (lessonTrialsC w l) (Touches w c0 (.lesT l)) := by
  intro c hg hc v c' hm
  unfold lessonTrialsC at hm
  split at hm
  · rename_i v' hv'
    cases hm
    exact fun k => ⟨.inl, fun hk => hk.elim id (hc (.lesT l) k (by simp [Caches.has, hv']))⟩
  · rename_i hn
    have h0 := hg.lesT0 l hn
    refine (?_ : Adds w c0 (lessonTrialsBody w l) (Touches w c0 (.lesT l))) c hg hc v c' hm
    unfold lessonTrialsBody
    cases hs : w.graph.getLessonExercises l with
    | none =>
      refine adds_congr (adds_pure _) (fun k => ⟨fun hk => ?_, False.elim⟩)
      cases hk with
      | lesT _ a => rw [hs] at a; cases a
      | lesTEx _ a => rw [hs] at a; cases a
    | some es =>
      refine adds_bind (adds_exs _) (hered_ex _ fun _ => hered_touches _) (ag_exs w c0 _) (fun _ _ => adds_storeLesT _) ?_
      intro _ _ k
      simp only [List.mem_filter, Bool.not_eq_true']
      constructor
      · intro hk
        cases hk with
        | lesT _ a => exact .inr rfl
        | lesTEx _ a b c d => rw [hs] at a; cases a; exact .inl ⟨_, ⟨b, c⟩, d⟩
      · rintro (⟨e, ⟨a, b⟩, c⟩ | rfl)
        · exact .lesTEx h0 hs a b c
        · exact .lesT h0 hs

theorem mem_keepM {α : Type} {p : α → Option Bool} : ∀ {xs ys : List α}, keepM p xs = some ys → ∀ x, x ∈ ys ↔ x ∈ xs ∧ p x = some true
  | [], ys, h, x => by cases h; simp
  | a :: xs, ys, h, x => by
    unfold keepM at h
    simp only [Option.bind_eq_bind, Option.bind_eq_some_iff, Option.pure_def, Option.some.injEq] at h
    obtain ⟨b, hb, zs, hz, rfl⟩ := h
    have := mem_keepM hz x
    cases b with
    | true =>
      rw [if_pos rfl, List.mem_cons, List.mem_cons, this]
      constructor
      · rintro (rfl | ⟨h1, h2⟩)
        · exact ⟨.inl rfl, hb⟩
        · exact ⟨.inr h1, h2⟩
      · rintro ⟨rfl | h1, h2⟩
        · exact .inl rfl
        · exact .inr ⟨h1, h2⟩
    | false =>
      rw [if_neg Bool.false_ne_true, List.mem_cons, this]
      constructor
      · rintro ⟨h1, h2⟩; exact ⟨.inr h1, h2⟩
      · rintro ⟨rfl | h1, h2⟩
        · rw [hb] at h2; cases h2
        · exact ⟨h1, h2⟩

theorem adds_courseTrials (n : Nat) (u : ι) : Adds w c0 (courseTrialsC w n u) (Touches w c0 (.couT u)) := by
  intro c hg hc v c' hm
  unfold courseTrialsC at hm
  split at hm
  · rename_i v' hv'
    cases hm
    exact fun k => ⟨.inl, fun hk => hk.elim id (hc (.couT u) k (by simp [Caches.has, hv']))⟩
  · rename_i hn
    have h0 := hg.couT0 u hn
    refine (?_ : Adds w c0 (courseTrialsBody w n u) (Touches w c0 (.couT u))) c hg hc v c' hm
    have hag : ∀ l, Agrees w c0 (do
        let b ← checkC w (scoreC w n) n l
        return !w.black l && !b)
        ((checkP (over w c0) (scoreO w c0 n) n l).bind (fun b => some (!w.black l && !b)))
        (fun k => (checkP (over w c0) (scoreO w c0 k) k l).bind (fun b => some (!w.black l && !b))) :=
      fun l => ag_bind w c0 (g' := fun b _ => some (!w.black l && !b)) (ag_check w c0 (ag_score w c0 n) n l)
        (omono_check w c0 l) (fun b => ag_pure w c0 _) (fun b => mono_const _)
    have hmono : ∀ l, Mono (fun k => (checkP (over w c0) (scoreO w c0 k) k l).bind (fun b => some (!w.black l && !b))) :=
      fun l => mono_bind (omono_check w c0 l) (fun b => mono_const _)
    unfold courseTrialsBody
    refine adds_bind (G := fun ls k => (∃ l, l ∈ ls ∧ Touches w c0 (.lesT l) k) ∨ k = .couT u)
      (adds_keepM _ (fun l => adds_map _ (adds_check (ag_score w c0 n) (fun u => adds_score n u) n l) (hered_touches _)
        (ag_check w c0 (ag_score w c0 n) n l)) (fun _ => hered_touches _) hag hmono)
      (hered_ex _ fun _ => hered_touches _) (ag_keepM w c0 _ hag hmono) (fun ls _ => ?_) ?_
    · exact adds_bind (adds_mapM ls adds_lessonTrials (fun _ => hered_touches _) (fun x => ag_lessonTrials w c0 x)
        (fun _ => mono_const _)) (hered_ex _ fun _ => hered_touches _)
        (ag_mapM w c0 ls (fun x => ag_lessonTrials w c0 x) (fun _ => mono_const _)) (fun _ _ => adds_storeCouT _)
        (fun _ _ k => Iff.rfl)
    · rintro ls ⟨k0, hk0⟩ k
      have hmem := mem_keepM hk0
      have hdec : ∀ l b, checkP (over w c0) (scoreO w c0 k0) k0 l = some b → IsSup w c0 l b := fun l b hb => ⟨k0, hb⟩
      constructor
      · intro hk
        cases hk with
        | couT => exact .inr (.inr rfl)
        | couTCheck _ a b => exact .inl ⟨_, a, b⟩
        | couTLes _ a b c d =>
          rename_i l _
          refine .inr (.inl ⟨l, (hmem l).2 ⟨a, ?_⟩, d⟩)
          obtain ⟨b', hb'⟩ : ∃ b', checkP (over w c0) (scoreO w c0 k0) k0 l = some b' := by
            have : ∀ (xs ys : List ι), keepM (fun l => (checkP (over w c0) (scoreO w c0 k0) k0 l).bind
                (fun b => some (!w.black l && !b))) xs = some ys → ∀ x ∈ xs,
                ∃ b', checkP (over w c0) (scoreO w c0 k0) k0 x = some b' := by
              intro xs
              induction xs with
              | nil => intro ys _ x hx; cases hx
              | cons x xs ih =>
                intro ys hy z hz
                unfold keepM at hy
                simp only [Option.bind_eq_bind, Option.bind_eq_some_iff] at hy
                obtain ⟨_, ⟨b', hb', _⟩, zs, hzs, _⟩ := hy
                rcases List.mem_cons.1 hz with rfl | hz
                · exact ⟨b', hb'⟩
                · exact ih zs hzs z hz
            exact this _ _ hk0 l a
          have := isSup_unique c (hdec l b' hb')
          subst this
          rw [hb', b]
          rfl
      · rintro (⟨l, a, b⟩ | ⟨l, a, b⟩ | rfl)
        · exact .couTCheck h0 a b
        · obtain ⟨h1, h2⟩ := (hmem l).1 a
          rw [Option.bind_eq_some_iff] at h2
          obtain ⟨b', hb', h2⟩ := h2
          have h2 : (!w.black l && !b') = true := Option.some.inj h2
          rw [Bool.and_eq_true, Bool.not_eq_true', Bool.not_eq_true'] at h2
          obtain ⟨h3, rfl⟩ := h2
          exact .couTLes h0 h1 h3 (hdec l _ hb') b
        · exact .couT h0

end

end Trane.UnitScorer
