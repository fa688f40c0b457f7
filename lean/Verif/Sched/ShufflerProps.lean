import Verif.Sched.Shuffler
import Mathlib.Data.List.SplitBy
import Mathlib.Data.List.Perm.Basic
import Mathlib.Data.List.Chain
import Mathlib.Algebra.Order.Field.Basic
import Mathlib.Tactic.Linarith
import Mathlib.Tactic.Tauto

/-! # C40: the final shuffle only reorders, in small groups -/

namespace Trane.Shuffler

variable {ι : Type} [DecidableEq ι]

/-! ### Specification -/

/-- The low-scoring candidates, which are grouped. -/
def IsLow (o : SchedulerOptions) (c : Candidate ι) : Prop := c.score ≤ o.targetWindow.hi

/-- A block of one to three low-scoring exercises of the course. -/
def LowGroup (o : SchedulerOptions) (course : ι) (g : List (Candidate ι)) : Prop :=
  g ≠ [] ∧ g.length ≤ 3 ∧ ∀ c ∈ g, IsLow o c ∧ c.course = course

/-- A block of new exercises: mean score at most 1. -/
def IsNew (g : List (Candidate ι)) : Prop := (g.map Candidate.score).sum ≤ g.length

/-- A total order. -/
structure IsOrder (le : ι → ι → Bool) : Prop where
  trans : ∀ a b c, le a b → le b c → le a c
  total : ∀ a b, le a b ∨ le b a
  antisymm : ∀ a b, le a b → le b a → a = b

/-- The blocks of a shuffled batch with the random number drawn for each: concatenated they are `out`; each
is a single high-scoring exercise or a low group; no course has two low groups with room left; and a new
block comes before one that is not new only if it drew a number smaller by 0.25 or more. -/
structure Blocks (o : SchedulerOptions) (out : List (Candidate ι)) (gs : List (ℚ × List (Candidate ι))) :
    Prop where
  concat : out = gs.flatMap Prod.snd
  shape : ∀ g ∈ gs, (∃ c, ¬ IsLow o c ∧ g.2 = [c]) ∨ ∃ course, LowGroup o course g.2
  full : ∀ course, ∀ fs : List (ℚ × List (Candidate ι)), fs.Sublist gs →
    (∀ g ∈ fs, LowGroup o course g.2 ∧ g.2.length < 3) → fs.length ≤ 1
  bias : gs.Pairwise (fun g g' => IsNew g.2 → ¬ IsNew g'.2 → g.1 + 1 / 4 ≤ g'.1)

/-! ### Lemmas -/

omit [DecidableEq ι] in
theorem chunks_flatten {α : Type} (l : List α) : (chunks l).flatten = l := by
  fun_induction chunks l with
  | case1 a b c d rest ih => simp [ih]
  | case2 => rfl
  | case3 l => simp

omit [DecidableEq ι] in
theorem chunks_mem {α : Type} (l : List α) : ∀ g ∈ chunks l, g ≠ [] ∧ g.length ≤ 3 ∧ g ⊆ l := by
  fun_induction chunks l with
  | case1 a b c d rest ih =>
    intro g hg
    rcases List.mem_cons.1 hg with rfl | hg
    · refine ⟨by simp, by simp, ?_⟩
      intro x hx; simp at hx ⊢; tauto
    · obtain ⟨h1, h2, h3⟩ := ih g hg
      refine ⟨h1, h2, fun x hx => ?_⟩
      have := h3 hx
      simp only [List.mem_cons] at this ⊢; tauto
  | case2 => simp
  | case3 l h1 h2 =>
    intro g hg
    rw [List.mem_singleton] at hg
    subst hg
    refine ⟨h2, ?_, fun x hx => hx⟩
    match g, h1 with
    | [], _ => simp
    | [_], _ => simp
    | [_, _], _ => simp
    | [_, _, _], _ => simp
    | a :: b :: c :: d :: r, h => exact absurd rfl (h a b c d r)

omit [DecidableEq ι] in
theorem chunks_short {α : Type} (l : List α) :
    ((chunks l).filter (fun g => decide (g.length < 3))).length ≤ 1 := by
  fun_induction chunks l with
  | case1 a b c d rest ih => simpa using ih
  | case2 => simp
  | case3 l h1 h2 => exact (List.length_filter_le _ _).trans (by simp)

theorem splitBy_course {l m : List (Candidate ι)}
    (h : m ∈ l.splitBy (fun a b => decide (a.course = b.course))) :
    ∀ a ∈ m, ∀ b ∈ m, a.course = b.course := by
  have hc := List.isChain_of_mem_splitBy h
  have hp : m.Pairwise (fun a b => a.course = b.course) := by
    have : IsTrans (Candidate ι) (fun a b => a.course = b.course) := ⟨fun _ _ _ h1 h2 => h1.trans h2⟩
    apply List.isChain_iff_pairwise.1
    exact hc.imp (fun a b h => of_decide_eq_true h)
  intro a ha b hb
  rcases List.mem_iff_getElem.1 ha with ⟨i, hi, rfl⟩
  rcases List.mem_iff_getElem.1 hb with ⟨j, hj, rfl⟩
  rw [List.pairwise_iff_getElem] at hp
  rcases Nat.lt_trichotomy i j with h | h | h
  · exact hp i j hi hj h
  · subst h; rfl
  · exact (hp j i hj hi h).symm

/-- The course of the first element. -/
def headCourse (l : List (Candidate ι)) : Option ι := l.head?.map Candidate.course

theorem heads_nodup {le : ι → ι → Bool} (ho : IsOrder le) {l : List (Candidate ι)}
    (hs : l.Pairwise (fun a b => le a.course b.course = true)) :
    (l.splitBy (fun a b => decide (a.course = b.course))).Pairwise
      (fun m m' => ∀ a ∈ m, ∀ b ∈ m', a.course ≠ b.course) := by
  generalize hL : l.splitBy (fun a b => decide (a.course = b.course)) = L
  have hne : ∀ m ∈ L, m ≠ [] := fun m hm => List.ne_nil_of_mem_splitBy (hL ▸ hm)
  have hcourse : ∀ m ∈ L, ∀ a ∈ m, ∀ b ∈ m, a.course = b.course :=
    fun m hm => splitBy_course (hL ▸ hm)
  have hch : L.IsChain (fun a b => ∃ ha hb,
      decide ((a.getLast ha).course = (b.head hb).course) = false) :=
    hL ▸ List.isChain_getLast_head_splitBy (fun a b : Candidate ι => decide (a.course = b.course)) l
  have hpw : L.Pairwise (fun m m' => ∀ a ∈ m, ∀ b ∈ m', le a.course b.course = true) := by
    have hf : L.flatten = l := by rw [← hL]; exact List.flatten_splitBy _ l
    rw [← hf, List.pairwise_flatten] at hs
    exact hs.2
  clear hL hs
  induction L with
  | nil => exact List.Pairwise.nil
  | cons m L ih =>
    rw [List.pairwise_cons] at hpw ⊢
    refine ⟨?_, ih (fun x hx => hne x (List.mem_cons_of_mem _ hx))
      (fun x hx => hcourse x (List.mem_cons_of_mem _ hx)) hch.tail hpw.2⟩
    cases L with
    | nil => simp
    | cons n L =>
      rw [List.isChain_cons_cons] at hch
      obtain ⟨⟨ha, hb, hd⟩, -⟩ := hch
      have hd := of_decide_eq_false hd
      intro m' hm' a ham b hbm heq
      -- a ≤ head n ≤ b
      have h1 : le a.course (n.head hb).course = true :=
        hpw.1 n List.mem_cons_self a ham _ (List.head_mem hb)
      have h2 : le (n.head hb).course b.course = true := by
        rcases List.mem_cons.1 hm' with rfl | hm'
        · have := hcourse m' (by simp) _ (List.head_mem hb) b hbm
          rw [this]
          rcases ho.total b.course b.course with h | h <;> exact h
        · exact (List.pairwise_cons.1 hpw.2).1 m' hm' _ (List.head_mem hb) b hbm
      rw [← heq] at h2
      have h3 := ho.antisymm _ _ h1 h2
      have h4 := hcourse m List.mem_cons_self _ (List.getLast_mem ha) a ham
      exact hd (h4.trans h3)

/-- At most one block of each course has room left. -/
theorem lowGroups_short {o : SchedulerOptions} {course : ι} (f : Nat → List (Candidate ι) → List (Candidate ι))
    (hf : ∀ i l, (f i l).Perm l) (L : List (List (Candidate ι))) (k : Nat)
    (hne : ∀ m ∈ L, m ≠ [])
    (hp : L.Pairwise (fun m m' => ∀ a ∈ m, ∀ b ∈ m', a.course ≠ b.course)) (fs : List (List (Candidate ι)))
    (hs : fs.Sublist ((L.zipIdx k).flatMap (fun p => chunks (f p.2 p.1))))
    (hg : ∀ g ∈ fs, LowGroup o course g ∧ g.length < 3) : fs.length ≤ 1 := by
  induction L generalizing k fs with
  | nil => simp at hs; simp [hs]
  | cons m L ih =>
    rw [List.zipIdx_cons, List.flatMap_cons] at hs
    obtain ⟨f1, f2, rfl, s1, s2⟩ := List.sublist_append_iff.1 hs
    rw [List.pairwise_cons] at hp
    have h2 := ih (k + 1) (fun x hx => hne x (List.mem_cons_of_mem _ hx)) hp.2 f2 s2
      (fun g h => hg g (List.mem_append_right _ h))
    have h1 : f1.length ≤ 1 := by
      have := (s1.filter (fun g => decide (g.length < 3))).length_le
      rw [List.filter_eq_self.2 (fun g h => decide_eq_true (hg g (List.mem_append_left _ h)).2)] at this
      exact this.trans (chunks_short _)
    rw [List.length_append]
    rcases f1 with _ | ⟨g1, f1⟩
    · simpa using h2
    · rcases f2 with _ | ⟨g2, f2⟩
      · simpa using h1
      · exfalso
        obtain ⟨⟨n1, -, c1⟩, -⟩ := hg g1 (by simp)
        obtain ⟨⟨n2, -, c2⟩, -⟩ := hg g2 (by simp)
        obtain ⟨x, hx⟩ := List.exists_mem_of_ne_nil _ n1
        obtain ⟨y, hy⟩ := List.exists_mem_of_ne_nil _ n2
        have m1 : x ∈ m := (hf _ _).subset ((chunks_mem _ g1 (s1.subset (by simp))).2.2 hx)
        obtain ⟨p, hp', hgp⟩ := List.mem_flatMap.1 (s2.subset (List.mem_cons_self (a := g2)))
        have m2 : y ∈ p.1 := (hf _ _).subset ((chunks_mem _ g2 hgp).2.2 hy)
        have hpL : p.1 ∈ L := by
          obtain ⟨pa, pb⟩ := p
          exact List.fst_mem_of_mem_zipIdx hp'
        exact hp.1 p.1 hpL x m1 y m2 ((c1 x hx).2.trans (c2 y hy).2.symm)

theorem low_flatten_perm (f : Nat → List (Candidate ι) → List (Candidate ι))
    (hf : ∀ i l, (f i l).Perm l) (L : List (List (Candidate ι))) (k : Nat) :
    ((L.zipIdx k).flatMap (fun p => chunks (f p.2 p.1))).flatten.Perm L.flatten := by
  induction L generalizing k with
  | nil => simp
  | cons m L ih =>
    rw [List.zipIdx_cons, List.flatMap_cons, List.flatten_append, List.flatten_cons, chunks_flatten]
    exact (hf _ _).append (ih (k + 1))

theorem filter_partition_perm {α : Type} (p : α → Bool) (l : List α) :
    (l.filter p ++ l.filter (fun a => !p a)).Perm l := List.filter_append_perm p l

/-- Everything about the groups before sorting. -/
theorem allGroups_spec {le : ι → ι → Bool} (ho : IsOrder le)
    {shuffle : Nat → List (Candidate ι) → List (Candidate ι)} (hf : ∀ i l, (shuffle i l).Perm l)
    (o : SchedulerOptions) (cs : List (Candidate ι)) :
    (allGroups le shuffle o cs).flatten.Perm cs ∧
    (∀ g ∈ allGroups le shuffle o cs, (∃ c, ¬ IsLow o c ∧ g = [c]) ∨ ∃ course, LowGroup o course g) ∧
    (∀ course, ∀ fs : List (List (Candidate ι)), fs.Sublist (allGroups le shuffle o cs) →
      (∀ g ∈ fs, LowGroup o course g ∧ g.length < 3) → fs.length ≤ 1) := by
  have hsort : ((cs.filter (fun c => decide (c.score ≤ o.targetWindow.hi))).mergeSort
      (fun a b => le a.course b.course)).Pairwise (fun a b => le a.course b.course = true) :=
    List.pairwise_mergeSort (le := fun a b : Candidate ι => le a.course b.course)
      (fun a b c h1 h2 => ho.trans _ _ _ h1 h2)
      (fun a b => by rcases ho.total a.course b.course with h | h <;> simp [h]) _
  have hperm := List.mergeSort_perm (cs.filter (fun c => decide (c.score ≤ o.targetWindow.hi)))
      (fun a b => le a.course b.course)
  unfold allGroups
  dsimp only
  generalize ((cs.filter (fun c => decide (c.score ≤ o.targetWindow.hi))).mergeSort
      (fun a b => le a.course b.course)) = low at hsort hperm ⊢
  have hlow : ∀ c ∈ low, IsLow o c := fun c hc =>
    of_decide_eq_true (p := c.score ≤ o.targetWindow.hi) (List.mem_filter.1 (hperm.subset hc)).2
  refine ⟨?_, ?_, ?_⟩
  · rw [List.flatten_append]
    have e : ((cs.filter (fun c => !decide (c.score ≤ o.targetWindow.hi))).map (fun c => [c])).flatten =
        cs.filter (fun c => !decide (c.score ≤ o.targetWindow.hi)) := by
      rw [← List.flatMap_def]; simp
    rw [e]
    have h1 := low_flatten_perm shuffle hf (low.splitBy (fun a b => decide (a.course = b.course))) 0
    rw [List.flatten_splitBy] at h1
    exact ((h1.trans hperm).append_right _).trans (filter_partition_perm _ cs)
  · intro g hg
    rcases List.mem_append.1 hg with hg | hg
    · right
      obtain ⟨p, hp, hgp⟩ := List.mem_flatMap.1 hg
      obtain ⟨n, l3, sub⟩ := chunks_mem _ g hgp
      have hpm : p.1 ∈ low.splitBy (fun a b => decide (a.course = b.course)) := by
        obtain ⟨pa, pb⟩ := p
        exact List.fst_mem_of_mem_zipIdx hp
      obtain ⟨x, hx⟩ := List.exists_mem_of_ne_nil _ n
      have hsub : ∀ c ∈ g, c ∈ p.1 := fun c hc => (hf _ _).subset (sub hc)
      refine ⟨x.course, n, l3, fun c hc => ⟨?_, splitBy_course hpm c (hsub c hc) x (hsub x hx)⟩⟩
      apply hlow
      rw [← List.flatten_splitBy (fun a b : Candidate ι => decide (a.course = b.course)) low]
      exact List.mem_flatten.2 ⟨p.1, hpm, hsub c hc⟩
    · left
      obtain ⟨c, hc, rfl⟩ := List.mem_map.1 hg
      refine ⟨c, ?_, rfl⟩
      have := (List.mem_filter.1 hc).2
      unfold IsLow
      simpa using this
  · intro course fs hs hg
    obtain ⟨f1, f2, rfl, s1, s2⟩ := List.sublist_append_iff.1 hs
    have h2 : f2 = [] := by
      rcases f2 with _ | ⟨g, f2⟩
      · rfl
      · exfalso
        have hg' := hg g (by simp)
        obtain ⟨c, hc, rfl⟩ := List.mem_map.1 (s2.subset (List.mem_cons_self (a := g)))
        have := (List.mem_filter.1 hc).2
        have hl := (hg'.1.2.2 c (by simp)).1
        unfold IsLow at hl
        simp [hl] at this
    subst h2
    rw [List.append_nil]
    exact lowGroups_short shuffle hf _ 0 (fun m hm => List.ne_nil_of_mem_splitBy hm)
      (heads_nodup ho hsort) f1 s1 (fun g h => hg g (List.mem_append_left _ h))

theorem isNew_iff {g : List (Candidate ι)} (h : g ≠ []) : IsNew g ↔ avgScore g ≤ 1 := by
  unfold IsNew avgScore
  have : (0 : ℚ) < g.length := Nat.cast_pos.2 (List.length_pos_iff.2 h)
  rw [div_le_one this]

/-! ### C40 -/

/-- C40: the shuffled batch is a permutation of the batch, made of the blocks specified above. -/
theorem shuffle_spec (le : ι → ι → Bool) (ho : IsOrder le)
    (shuffle : Nat → List (Candidate ι) → List (Candidate ι)) (hf : ∀ i l, (shuffle i l).Perm l)
    (draw : Nat → ℚ) (o : SchedulerOptions) (cs : List (Candidate ι)) :
    (shuffleCandidates le shuffle draw o cs).Perm cs ∧
    ∃ gs, Blocks o (shuffleCandidates le shuffle draw o cs) gs ∧
      (gs.map Prod.fst).Perm ((List.range gs.length).map draw) := by
  obtain ⟨hperm, hshape, hfull⟩ := allGroups_spec ho hf o cs
  unfold shuffleCandidates
  dsimp only
  generalize allGroups le shuffle o cs = G at hperm hshape hfull
  -- sort the triples (key, (draw, group)) instead
  have key : ∃ gs : List (ℚ × List (Candidate ι)),
      (G.zipIdx.map (fun p => (groupSortKey (draw p.2) p.1, p.1))).mergeSort
        (fun a b => decide (a.1 ≤ b.1)) = gs.map (fun g => (groupSortKey g.1 g.2, g.2)) ∧
      gs.Perm (G.zipIdx.map (fun p => (draw p.2, p.1))) := by
    have e : G.zipIdx.map (fun p => (groupSortKey (draw p.2) p.1, p.1)) =
        (G.zipIdx.map (fun p => (draw p.2, p.1))).map (fun g => (groupSortKey g.1 g.2, g.2)) := by
      rw [List.map_map]; rfl
    refine ⟨(G.zipIdx.map (fun p => (draw p.2, p.1))).mergeSort
      (fun a b => decide (groupSortKey a.1 a.2 ≤ groupSortKey b.1 b.2)), ?_, List.mergeSort_perm _ _⟩
    rw [e]
    symm
    apply List.map_mergeSort
    intro a _ b _
    rfl
  obtain ⟨gs, hgs, hp⟩ := key
  have hsorted : (gs.map (fun g => (groupSortKey g.1 g.2, g.2))).Pairwise (fun a b => a.1 ≤ b.1) := by
    rw [← hgs]
    refine (List.pairwise_mergeSort (le := fun a b : ℚ × List (Candidate ι) => decide (a.1 ≤ b.1))
      ?_ ?_ _).imp (fun h => of_decide_eq_true h)
    · intro a b c h1 h2
      exact decide_eq_true ((of_decide_eq_true h1).trans (of_decide_eq_true h2))
    · intro a b
      rcases le_total a.1 b.1 with h | h <;> simp [h]
  rw [hgs]
  have hsnd : (gs.map Prod.snd).Perm G := by
    refine (hp.map Prod.snd).trans (Eq.subst (motive := fun x => List.Perm x G) ?_ (List.Perm.refl G))
    rw [List.map_map]
    exact (List.zipIdx_map_fst 0 G).symm
  have hout : (gs.map (fun g => (groupSortKey g.1 g.2, g.2))).flatMap Prod.snd = (gs.map Prod.snd).flatten := by
    rw [List.flatMap_def, List.map_map]; rfl
  have hne : ∀ g ∈ gs, g.2 ≠ [] := by
    intro g hg
    have : g.2 ∈ G := hsnd.subset (List.mem_map_of_mem hg)
    rcases hshape _ this with ⟨c, _, h⟩ | ⟨_, h, _⟩
    · rw [h]; simp
    · exact h
  refine ⟨?_, gs, ⟨?_, ?_, ?_, ?_⟩, ?_⟩
  · rw [hout]; exact hsnd.flatten.trans hperm
  · rw [hout, List.flatMap_def]
  · intro g hg
    exact hshape _ (hsnd.subset (List.mem_map_of_mem hg))
  · intro course fs hs hg
    have h1 : (fs.map Prod.snd).Subperm G := (hs.map Prod.snd).subperm.trans hsnd.subperm
    obtain ⟨l, hl, hl'⟩ := h1
    have := hfull course l hl' (fun g hgl => by
      obtain ⟨x, hx, rfl⟩ := List.mem_map.1 (hl.subset hgl)
      exact hg x hx)
    rw [hl.length_eq, List.length_map] at this
    exact this
  · rw [List.pairwise_map] at hsorted
    rw [List.pairwise_iff_forall_sublist] at hsorted ⊢
    intro a b hab n1 n2
    have h := hsorted hab
    have ha := hne a (hab.subset (by simp))
    have hb := hne b (hab.subset (by simp))
    unfold groupSortKey at h
    rw [if_neg ha, if_neg hb, if_pos ((isNew_iff ha).1 n1), if_neg (fun x => n2 ((isNew_iff hb).2 x))] at h
    linarith
  · have e : (G.zipIdx.map (fun p => (draw p.2, p.1))).map Prod.fst = (List.range G.length).map draw := by
      rw [List.map_map]
      have : (Prod.fst ∘ fun p : List (Candidate ι) × Nat => (draw p.2, p.1)) = draw ∘ Prod.snd := rfl
      rw [this, ← List.map_map, List.zipIdx_map_snd, List.range_eq_range']
    have hl : gs.length = G.length := by have := hsnd.length_eq; simpa using this
    rw [hl, ← e]
    exact hp.map _

/-- Five low-scoring exercises of two courses and one mastered exercise. -/
def sampleBatch : List (Candidate Nat) :=
  [⟨1, 0, 7, 0, 1, 0, 1, none, false, 0, 0⟩, ⟨2, 0, 7, 0, 2, 0, 1, none, false, 0, 0⟩,
   ⟨3, 0, 9, 0, 0, 0, 1, none, false, 0, 0⟩, ⟨4, 0, 7, 0, 1, 0, 1, none, false, 0, 0⟩,
   ⟨5, 0, 7, 0, 2, 0, 1, none, false, 0, 0⟩, ⟨6, 0, 9, 0, 5, 0, 1, none, false, 0, 0⟩]

/-- The hypotheses hold of the order of numbers and of the shuffle that reverses; in the sample batch the four
low-scoring exercises of course 7 do not fit in one block. -/
example : IsOrder (fun a b : Nat => decide (a ≤ b)) ∧
    (∀ (_ : Nat) (l : List (Candidate Nat)), l.reverse.Perm l) ∧
    (sampleBatch.filter (fun c => decide (c.score ≤ SchedulerOptions.default.targetWindow.hi))).length = 5 :=
  ⟨⟨fun a b c h1 h2 => by simp at *; omega, fun a b => by simp; omega, fun a b h1 h2 => by simp at *; omega⟩,
    fun _ l => List.reverse_perm l, by decide +kernel⟩

end Trane.Shuffler
