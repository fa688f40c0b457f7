import Verif.Sched.Knocker
import Verif.Sched.PropagatorLemmas
import Mathlib.Algebra.BigOperators.Group.List.Basic

/-!
# Properties of the review knock-out

C42.
-/

namespace Trane.Knocker
open Trane Trane.Propagator

variable {ι : Type} [DecidableEq ι]

/-! ### Specification -/

/-- The units that the walk from `s` can visit: encompassed units (encompassing ones if `reverse`) over
edges of nonzero weight, and the courses of the lessons among them. -/
inductive Reached (g : Graph ι) (reverse : Bool) (s : ι) : ι → Prop
  | start : Reached g reverse s s
  | edge {u v : ι} {w : ℚ} : Reached g reverse s u → Edge g (!reverse) u v w → w ≠ 0 →
      Reached g reverse s v
  | course {u v c : ι} {w : ℚ} : Reached g reverse s u → Edge g (!reverse) u v w → w ≠ 0 →
      g.getLessonCourse v = some c → Reached g reverse s c

/-- The total weight of the edges from `u` to `v`. -/
def weightInto (g : Graph ι) (reverse : Bool) (u v : ι) : ℚ :=
  (((edges g reverse u).filter (fun p => p.1 = v)).map Prod.snd).sum

/-- A visit carries a reward or a weight below 1/5, so the walk does not go on from it. -/
def Weak (i : Item ι) : Prop := |i.reward| < 1 / 5 ∨ i.weight < 1 / 5

/-- The visit `j` follows the visit `i`: an edge of nonzero weight leads from the unit of `i` to that of
`j`, or to a lesson of the course `j`; a tenth of the reward and a fifth of the weight is lost. -/
def Next (g : Graph ι) (reverse : Bool) (i j : Item ι) : Prop :=
  ∃ v w, Edge g (!reverse) i.unit v w ∧ w ≠ 0 ∧ (j.unit = v ∨ g.getLessonCourse v = some j.unit) ∧
    j.reward = i.reward * (9 / 10) ∧ j.weight = w * i.weight * (4 / 5)

/-- `V` are the visits, in order, of a walk from `s`: it begins at `s`, visits no unit twice, every
other visit follows an earlier one that is not weak, and nothing that follows such a visit is left out. -/
structure Visits (g : Graph ι) (reverse : Bool) (s : ι) (V : List (Item ι)) : Prop where
  nodup : (V.map Item.unit).Nodup
  start : V.head? = some ⟨s, 1, 1⟩
  only : ∀ A j B, V = A ++ j :: B → A = [] ∨ ∃ i ∈ A, ¬ Weak i ∧ Next g reverse i j
  all : ∀ i ∈ V, ¬ Weak i → ∀ j, Next g reverse i j → ∃ j' ∈ V, j'.unit = j.unit

open Classical in
/-- `W` is a coverage of the units by the starting units: a walk from each starting unit contributes the
edges out of the units at which its visits are not weak. -/
def Coverage (g : Graph ι) (reverse : Bool) (starts : List ι) (W : ι → ℚ) : Prop :=
  ∃ V : ι → List (Item ι), (∀ s ∈ starts, Visits g reverse s (V s)) ∧
    ∀ v, W v = (starts.map (fun s =>
      (((V s).filter (fun i => ¬ Weak i)).map (fun i => weightInto g reverse i.unit v)).sum)).sum

/-- `starts` lists the lessons and courses of the batch, each once, in some order. -/
def StartsOf (batch : List (Candidate ι)) (starts : List ι) : Prop :=
  starts.Nodup ∧ ∀ u, u ∈ starts ↔ ∃ c ∈ batch, u = c.lesson ∨ u = c.course

/-- The lesson and course of a candidate are determined by its exercise. -/
def Consistent (batch : List (Candidate ι)) : Prop :=
  ∀ c ∈ batch, ∀ c' ∈ batch, c.exercise = c'.exercise → c.lesson = c'.lesson ∧ c.course = c'.course

/-! ### Lemmas -/

theorem mem_edges {g : Graph ι} {reverse : Bool} {u v : ι} {w : ℚ} :
    (v, w) ∈ edges g reverse u ↔ Edge g (!reverse) u v w := by
  unfold edges Edge
  cases reverse
  · simp only [Bool.false_eq_true, if_false, Bool.not_false, if_true]
    cases g.getEncompasses u <;> simp
  · simp only [if_true, Bool.not_true, Bool.false_eq_true, if_false]
    cases g.getEncompassedBy u <;> simp

theorem mem_followed {g : Graph ι} {reverse : Bool} {i : Item ι} {p : ι × ℚ}
    (h : p ∈ followed g reverse i) : Edge g (!reverse) i.unit p.1 p.2 ∧ p.2 ≠ 0 := by
  unfold followed at h
  rw [List.mem_filter] at h
  refine ⟨mem_edges.1 h.1, ?_⟩
  intro h0
  simp [h0] at h

theorem foldl_addWeight (ps : List (ι × ℚ)) (m : AMap ι ℚ) (v : ι) :
    ((ps.foldl addWeight m).find v).getD 0 =
      (m.find v).getD 0 + ((ps.filter (fun p => p.1 = v)).map Prod.snd).sum := by
  induction ps generalizing m with
  | nil => simp
  | cons p ps ih =>
    rw [List.foldl_cons, ih]
    unfold addWeight
    rw [AMap.find_upd]
    by_cases h : p.1 = v
    · subst h
      simp [add_assoc]
    · simp [h]

theorem followed_sum (g : Graph ι) (reverse : Bool) (i : Item ι) (v : ι) :
    (((followed g reverse i).filter (fun p => p.1 = v)).map Prod.snd).sum =
      if stop i.reward i.weight then 0 else weightInto g reverse i.unit v := by
  unfold followed weightInto
  generalize edges g reverse i.unit = es
  by_cases hs : stop i.reward i.weight = true
  · simp [hs]
  · rw [if_neg hs]
    simp only [hs, Bool.or_false]
    induction es with
    | nil => rfl
    | cons p es ih =>
      by_cases h0 : p.2 = 0
      · by_cases hv : p.1 = v
        · simp [h0, hv] at ih ⊢; exact ih
        · simp [h0, hv] at ih ⊢; exact ih
      · by_cases hv : p.1 = v
        · simp [h0, hv] at ih ⊢; exact ih
        · simp [h0, hv] at ih ⊢; exact ih

theorem mem_pushes {g : Graph ι} {i j : Item ι} {p : ι × ℚ} (h : j ∈ pushes g i p) :
    (j.unit = p.1 ∨ g.getLessonCourse p.1 = some j.unit) ∧ j.reward = i.reward * rewardFactor ∧
    j.weight = p.2 * i.weight * weightFactor := by
  unfold pushes at h
  rw [List.mem_cons] at h
  rcases h with rfl | h
  · exact ⟨Or.inl rfl, rfl, rfl⟩
  · cases hc : g.getLessonCourse p.1 with
    | none => rw [hc] at h; cases h
    | some c =>
      rw [hc] at h
      rw [List.mem_singleton.1 h]
      exact ⟨Or.inr rfl, rfl, rfl⟩

theorem stop_iff (i : Item ι) : stop i.reward i.weight = true ↔ Weak i := by
  unfold stop Weak minAbsReward minWeight
  simp

theorem pushed_iff {g : Graph ι} {reverse : Bool} {i j : Item ι} :
    j ∈ (followed g reverse i).flatMap (pushes g i) ↔ ¬ Weak i ∧ Next g reverse i j := by
  rw [List.mem_flatMap]
  constructor
  · rintro ⟨p, hp, hj⟩
    obtain ⟨he, h0⟩ := mem_followed hp
    refine ⟨fun hw => ?_, p.1, p.2, he, h0, mem_pushes hj⟩
    unfold followed at hp
    rw [(stop_iff i).2 hw] at hp
    simp at hp
  · rintro ⟨hw, v, w, he, h0, hu, hr, hwt⟩
    refine ⟨(v, w), ?_, ?_⟩
    · unfold followed
      rw [List.mem_filter]
      refine ⟨mem_edges.2 he, ?_⟩
      have : stop i.reward i.weight = false := by
        rw [← Bool.not_eq_true, stop_iff]; exact hw
      simp [this, h0]
    · unfold pushes
      rcases hu with hu | hu
      · have : j = ⟨v, i.reward * rewardFactor, w * i.weight * weightFactor⟩ := by
          cases j; simp only at hu hr hwt; subst hu hr hwt; rfl
        rw [this]; exact List.mem_cons_self
      · dsimp only
        rw [hu]
        have : j = ⟨j.unit, i.reward * rewardFactor, w * i.weight * weightFactor⟩ := by
          cases j; simp only at hr hwt ⊢; subst hr hwt; rfl
        rw [this]; exact List.mem_cons_of_mem _ List.mem_cons_self

open Classical in
theorem traverse_sound {g : Graph ι} {reverse : Bool} (fuel : Nat) :
    ∀ (stack : List (Item ι)) (visited : List ι) (m : AMap ι ℚ) (r : List ι × AMap ι ℚ),
      traverse g reverse fuel stack visited m = some r →
      ∃ V : List (Item ι), (V.map Item.unit).Nodup ∧ (∀ i ∈ V, i.unit ∉ visited) ∧
        (∀ i rest, stack = i :: rest → i.unit ∉ visited → V.head? = some i) ∧
        (∀ j ∈ stack, j.unit ∈ visited ∨ ∃ j' ∈ V, j'.unit = j.unit) ∧
        (∀ A j B, V = A ++ j :: B → j ∈ stack ∨ ∃ i ∈ A, ¬ Weak i ∧ Next g reverse i j) ∧
        (∀ i ∈ V, ¬ Weak i → ∀ j, Next g reverse i j →
          j.unit ∈ visited ∨ ∃ j' ∈ V, j'.unit = j.unit) ∧
        ∀ v, (r.2.find v).getD 0 = (m.find v).getD 0 +
          ((V.filter (fun i => ¬ Weak i)).map (fun i => weightInto g reverse i.unit v)).sum := by
  induction fuel with
  | zero =>
    intro stack visited m r h
    cases stack with
    | nil => cases h; exact ⟨[], by simp⟩
    | cons => cases h
  | succ fuel ih =>
    intro stack visited m r h
    cases stack with
    | nil => cases h; exact ⟨[], by simp⟩
    | cons i stack =>
      rw [traverse] at h
      split at h
      · rename_i hv
        obtain ⟨V, h1, h2, _, h4, h5, h6, h7⟩ := ih _ _ _ _ h
        refine ⟨V, h1, h2, ?_, ?_, ?_, h6, h7⟩
        · intro j rest e hn
          cases e
          exact (hn hv).elim
        · intro j hj
          rcases List.mem_cons.1 hj with rfl | hj
          · exact Or.inl hv
          · exact h4 j hj
        · intro A j B e
          exact (h5 A j B e).imp (List.mem_cons_of_mem _) id
      · rename_i hv
        obtain ⟨V, h1, h2, _, h4, h5, h6, h7⟩ := ih _ _ _ _ h
        have hV : ∀ j ∈ V, j.unit ∉ visited ∧ j.unit ≠ i.unit := by
          intro j hj
          have := h2 j hj
          simp only [List.mem_cons, not_or] at this
          exact ⟨this.2, this.1⟩
        have hin : ∀ j : Item ι, (j.unit ∈ i.unit :: visited ∨ ∃ j' ∈ V, j'.unit = j.unit) →
            j.unit ∈ visited ∨ ∃ j' ∈ i :: V, j'.unit = j.unit := by
          rintro j (hj | ⟨j', hj', e⟩)
          · rcases List.mem_cons.1 hj with e | hj
            · exact Or.inr ⟨i, List.mem_cons_self, e.symm⟩
            · exact Or.inl hj
          · exact Or.inr ⟨j', List.mem_cons_of_mem _ hj', e⟩
        refine ⟨i :: V, ?_, ?_, ?_, ?_, ?_, ?_, ?_⟩
        · rw [List.map_cons, List.nodup_cons]
          refine ⟨fun hm => ?_, h1⟩
          obtain ⟨j, hj, e⟩ := List.mem_map.1 hm
          exact (hV j hj).2 e
        · intro j hj
          rcases List.mem_cons.1 hj with rfl | hj
          · exact hv
          · exact (hV j hj).1
        · intro j rest e _
          cases e
          rfl
        · intro j hj
          rcases List.mem_cons.1 hj with rfl | hj
          · exact Or.inr ⟨j, List.mem_cons_self, rfl⟩
          · exact hin j (h4 j (List.mem_append_right _ hj))
        · intro A j B e
          cases A with
          | nil => cases e; exact Or.inl List.mem_cons_self
          | cons a A =>
            rw [List.cons_append, List.cons.injEq] at e
            obtain ⟨rfl, e⟩ := e
            rcases h5 A j B e with hj | ⟨k, hk, h⟩
            · rw [List.mem_append, List.mem_reverse] at hj
              rcases hj with hj | hj
              · exact Or.inr ⟨i, List.mem_cons_self, pushed_iff.1 hj⟩
              · exact Or.inl (List.mem_cons_of_mem _ hj)
            · exact Or.inr ⟨k, List.mem_cons_of_mem _ hk, h⟩
        · intro k hk hw j hj
          rcases List.mem_cons.1 hk with rfl | hk
          · exact hin j (h4 j (List.mem_append_left _ (List.mem_reverse.2 (pushed_iff.2 ⟨hw, hj⟩))))
          · exact hin j (h6 k hk hw j hj)
        · intro v
          rw [h7, foldl_addWeight, followed_sum]
          by_cases hst : Weak i
          · rw [if_pos ((stop_iff i).2 hst), add_zero, List.filter_cons_of_neg (by simpa using hst)]
          · rw [if_neg (fun h => hst ((stop_iff i).1 h)),
              List.filter_cons_of_pos (by simpa using hst), List.map_cons, List.sum_cons, add_assoc]

theorem Visits.reached {g : Graph ι} {reverse : Bool} {s : ι} {V : List (Item ι)}
    (h : Visits g reverse s V) : ∀ i ∈ V, Reached g reverse s i.unit := by
  have key : ∀ n A j B, A.length = n → V = A ++ j :: B → Reached g reverse s j.unit := by
    intro n
    induction n using Nat.strong_induction_on with
    | _ n ih =>
      intro A j B hn e
      rcases h.only A j B e with rfl | ⟨i, hi, _, v, w, he, h0, hu, _⟩
      · have := h.start
        rw [e] at this
        simp only [List.nil_append, List.head?_cons, Option.some.injEq] at this
        rw [this]
        exact Reached.start
      · obtain ⟨A1, A2, rfl⟩ := List.append_of_mem hi
        have hr := ih A1.length (by rw [← hn]; simp) A1 i (A2 ++ j :: B) rfl (by rw [e]; simp)
        rcases hu with hu | hu
        · rw [hu]; exact Reached.edge hr he h0
        · exact Reached.course hr he h0 hu
  intro i hi
  obtain ⟨A, B, e⟩ := List.append_of_mem hi
  exact key _ A i B rfl e

open Classical in
theorem unitWeights_sound {g : Graph ι} {reverse : Bool} {fuel : Nat} :
    ∀ (starts : List ι) (m m' : AMap ι ℚ), starts.Nodup →
      unitWeights g reverse fuel starts m = some m' →
      ∃ V : ι → List (Item ι), (∀ s ∈ starts, Visits g reverse s (V s)) ∧
        ∀ v, (m'.find v).getD 0 = (m.find v).getD 0 +
          (starts.map (fun s => (((V s).filter (fun i => ¬ Weak i)).map
            (fun i => weightInto g reverse i.unit v)).sum)).sum := by
  intro starts
  induction starts with
  | nil => intro m m' _ h; cases h; exact ⟨fun _ => [], by simp⟩
  | cons s rest ih =>
    intro m m' hn h
    rw [unitWeights, Option.bind_eq_some_iff] at h
    obtain ⟨r, hr, h⟩ := h
    rw [List.nodup_cons] at hn
    obtain ⟨V, hV, hW⟩ := ih r.2 m' hn.2 h
    obtain ⟨V0, h1, h2, h3, h4, h5, h6, h7⟩ := traverse_sound fuel _ _ _ _ hr
    have hV0 : Visits g reverse s V0 := by
      have hst : V0.head? = some ⟨s, 1, 1⟩ := h3 _ _ rfl (by simp)
      refine ⟨h1, hst, ?_, ?_⟩
      · intro A j B e
        rcases h5 A j B e with hj | h
        · left
          rw [List.mem_singleton] at hj
          subst hj
          cases A with
          | nil => rfl
          | cons a A =>
            exfalso
            rw [e] at hst h1
            simp only [List.cons_append, List.head?_cons, Option.some.injEq] at hst
            subst hst
            simp at h1
        · exact Or.inr h
      · intro i hi hw j hj
        rcases h6 i hi hw j hj with h | h
        · cases h
        · exact h
    refine ⟨fun x => if x = s then V0 else V x, ?_, ?_⟩
    · intro x hx
      rcases List.mem_cons.1 hx with rfl | hx
      · dsimp only
        rw [if_pos rfl]
        exact hV0
      · have : x ≠ s := fun e => hn.1 (e ▸ hx)
        dsimp only
        rw [if_neg this]
        exact hV x hx
    · intro v
      rw [hW, h7, List.map_cons, List.sum_cons]
      dsimp only
      rw [if_pos rfl]
      have : (rest.map fun x => ((((if x = s then V0 else V x)).filter (fun i => ¬ Weak i)).map
          (fun i => weightInto g reverse i.unit v)).sum) =
          rest.map fun x => (((V x).filter (fun i => ¬ Weak i)).map
            (fun i => weightInto g reverse i.unit v)).sum := by
        apply List.map_congr_left
        intro x hx
        have : x ≠ s := fun e => hn.1 (e ▸ hx)
        rw [if_neg this]
      rw [this, add_assoc]

theorem exerciseWeights_find {batch : List (Candidate ι)} (hc : Consistent batch) (m : AMap ι ℚ)
    {c : Candidate ι} (h : c ∈ batch) : (exerciseWeights batch m).find c.exercise =
      some ((m.find c.lesson).getD 0 + (m.find c.course).getD 0) := by
  unfold exerciseWeights
  have key : ∀ (l : List (Candidate ι)) (acc : AMap ι ℚ), (∀ x ∈ l, x ∈ batch) →
      (c ∈ l ∨ acc.find c.exercise = some ((m.find c.lesson).getD 0 + (m.find c.course).getD 0)) →
      (l.foldl (fun acc c => acc.put c.exercise ((m.find c.lesson).getD 0 + (m.find c.course).getD 0))
        acc).find c.exercise = some ((m.find c.lesson).getD 0 + (m.find c.course).getD 0) := by
    intro l
    induction l with
    | nil => rintro acc _ (h | h); · cases h
             · exact h
    | cons x l ih =>
      intro acc hl h'
      rw [List.foldl_cons]
      apply ih _ (fun y hy => hl y (List.mem_cons_of_mem _ hy))
      rw [AMap.find_put]
      by_cases he : x.exercise = c.exercise
      · obtain ⟨e1, e2⟩ := hc x (hl x List.mem_cons_self) c h he
        right; rw [if_pos he, e1, e2]
      · rcases h' with h' | h'
        · rcases List.mem_cons.1 h' with rfl | h'
          · exact (he rfl).elim
          · exact Or.inl h'
        · right; rw [if_neg he]; exact h'
  exact key batch [] (fun _ h => h) (Or.inl h)

/-! ### Termination -/

theorem edges_length {g : Graph ι} {B : Nat} (hB : ∀ u r, (nextUnits g u r).length ≤ B)
    (reverse : Bool) (u : ι) : (edges g reverse u).length ≤ B := by
  cases reverse
  · have := hB u 1
    unfold nextUnits at this
    rw [if_pos (by norm_num)] at this
    exact this
  · have := hB u 0
    unfold nextUnits at this
    rw [if_neg (by norm_num)] at this
    exact this

theorem pushes_length (g : Graph ι) (i : Item ι) (p : ι × ℚ) : (pushes g i p).length ≤ 2 := by
  unfold pushes
  cases g.getLessonCourse p.1 <;> simp

theorem flatMap_length {α β : Type} (f : α → List β) (k : Nat) (l : List α)
    (h : ∀ x ∈ l, (f x).length ≤ k) : (l.flatMap f).length ≤ l.length * k := by
  induction l with
  | nil => simp
  | cons a l ih =>
    rw [List.flatMap_cons, List.length_append, List.length_cons, Nat.add_mul, Nat.one_mul]
    have := ih (fun x hx => h x (List.mem_cons_of_mem _ hx))
    have := h a List.mem_cons_self
    omega

/-- An item of this weight is followed by at most `n` generations. -/
def Gen' (n : Nat) (i : Item ι) : Prop := i.weight * weightFactor ^ n < minWeight ∧ 0 ≤ i.weight

theorem traverse_terminates {g : Graph ι} (hg : ValidWeights g) {B : Nat}
    (hB : ∀ u r, (nextUnits g u r).length ≤ B) (reverse : Bool) (fuel : Nat) :
    ∀ (stack : List (Item ι)) (ns : List Nat) (visited : List ι) (m : AMap ι ℚ),
      List.Forall₂ Gen' ns stack → (ns.map (cost (B * 2))).sum ≤ fuel →
      ∃ r, traverse g reverse fuel stack visited m = some r := by
  induction fuel with
  | zero =>
    intro stack ns visited m h hs
    cases h with
    | nil => exact ⟨_, rfl⟩
    | @cons n _ _ _ _ _ =>
      have := cost_pos (B * 2) n
      simp only [List.map_cons, List.sum_cons] at hs
      omega
  | succ fuel ih =>
    intro stack ns visited m h hs
    cases h with
    | nil => exact ⟨_, rfl⟩
    | @cons n i ns stack hi hrest =>
      have hc := cost_pos (B * 2) n
      simp only [List.map_cons, List.sum_cons] at hs
      rw [traverse]
      split
      · exact ih stack ns visited m hrest (by omega)
      · cases n with
        | zero =>
          have hst : stop i.reward i.weight = true := by
            have := hi.1
            simp only [pow_zero, mul_one] at this
            simp [stop, this]
          have hf : followed g reverse i = [] := by
            unfold followed
            simp [hst]
          rw [hf]
          exact ih stack ns _ _ hrest (by simp only [cost] at hs; omega)
        | succ n =>
          have hk : ∀ j ∈ ((followed g reverse i).flatMap (pushes g i)).reverse, Gen' n j := by
            intro j hj
            rw [List.mem_reverse, List.mem_flatMap] at hj
            obtain ⟨p, hp, hj⟩ := hj
            obtain ⟨h0, h1⟩ := hg _ _ _ _ (mem_followed hp).1
            obtain ⟨_, _, hw⟩ := mem_pushes hj
            have hf : (0 : ℚ) < weightFactor := by norm_num [weightFactor]
            have hpos : 0 ≤ i.weight * weightFactor ^ (n + 1) := mul_nonneg hi.2 (by positivity)
            unfold Gen'
            rw [hw]
            constructor
            · calc p.2 * i.weight * weightFactor * weightFactor ^ n
                  = p.2 * (i.weight * weightFactor ^ (n + 1)) := by ring
                _ ≤ 1 * (i.weight * weightFactor ^ (n + 1)) := mul_le_mul_of_nonneg_right h1 hpos
                _ < minWeight := by rw [one_mul]; exact hi.1
            · exact mul_nonneg (mul_nonneg h0 hi.2) hf.le
          have hl : ((followed g reverse i).flatMap (pushes g i)).reverse.length ≤ B * 2 := by
            rw [List.length_reverse]
            refine Nat.le_trans (flatMap_length _ 2 _ (fun p _ => pushes_length g i p)) ?_
            refine Nat.mul_le_mul_right 2 (Nat.le_trans ?_ (edges_length hB reverse i.unit))
            exact List.length_filter_le _ _
          dsimp only
          generalize ((followed g reverse i).flatMap (pushes g i)).reverse = nx at *
          refine ih (nx ++ stack) (List.replicate nx.length n ++ ns) _ _ ?_ ?_
          · refine List.rel_append ?_ hrest
            clear hl
            induction nx with
            | nil => exact List.Forall₂.nil
            | cons a nx ihn =>
              refine List.Forall₂.cons (hk a List.mem_cons_self) ?_
              exact ihn (fun r hr => hk r (List.mem_cons_of_mem _ hr))
          · rw [List.map_append, List.sum_append, List.map_replicate, List.sum_replicate]
            simp only [cost] at hs
            have := Nat.mul_le_mul_right (cost (B * 2) n) hl
            rw [show nx.length • cost (B * 2) n = nx.length * cost (B * 2) n from rfl]
            omega

theorem unitWeights_terminates (ops : List (Graph.Op ι)) (reverse : Bool) :
    ∃ N, ∀ fuel, N ≤ fuel → ∀ starts m, ∃ m', unitWeights (Graph.run ops) reverse fuel starts m = some m' := by
  obtain ⟨B, hB⟩ := degree_bound (Graph.run ops)
  refine ⟨cost (B * 2) 8, fun fuel hf starts => ?_⟩
  induction starts with
  | nil => intro m; exact ⟨m, rfl⟩
  | cons s rest ih =>
    intro m
    obtain ⟨r, hr⟩ := traverse_terminates (validWeights_run ops) hB reverse fuel [⟨s, 1, 1⟩] [8] [] m
      (.cons ⟨by norm_num [weightFactor, minWeight], by norm_num⟩ .nil) (by simpa using hf)
    obtain ⟨m', hm'⟩ := ih r.2
    exact ⟨m', by rw [unitWeights, hr]; exact hm'⟩

/-! ### C42 -/

/-- C42: the knock-out ends, whatever the graph and the batch. -/
theorem knock_out_terminates (ops : List (Graph.Op ι)) : ∃ N, ∀ fuel, N ≤ fuel →
    ∀ starts starts' batch, ∃ r, knockOut (Graph.run ops) fuel starts starts' batch = some r := by
  obtain ⟨N, hN⟩ := unitWeights_terminates ops false
  obtain ⟨N', hN'⟩ := unitWeights_terminates ops true
  refine ⟨max N N', fun fuel hf starts starts' batch => ?_⟩
  obtain ⟨m, hm⟩ := hN fuel (le_trans (le_max_left _ _) hf) starts []
  obtain ⟨m', hm'⟩ := hN' fuel (le_trans (le_max_right _ _) hf) starts' []
  unfold knockOut encompassingMap
  rw [hm, hm']
  exact ⟨_, rfl⟩

/-- C42: the candidates left are those of the batch, in order, without the ones that score at least 4.5
and whose lesson and course are covered by the lessons and courses of the batch with weight at least
10.  The highly encompassed candidates are those among them that score at least 3.75 and are covered
with weight at least 5.  Besides that, only the two coverage weights of the candidates are filled in. -/
theorem knock_out_exact (g : Graph ι) (fuel : Nat) (starts starts' : List ι)
    (batch : List (Candidate ι)) (hc : Consistent batch) (hs : StartsOf batch starts)
    (hs' : StartsOf batch starts') (r : Result ι)
    (h : knockOut g fuel starts starts' batch = some r) :
    ∃ W W', Coverage g false starts W ∧ Coverage g true starts' W' ∧
      r.candidates = (batch.filter (fun c =>
          ¬ (10 ≤ W c.lesson + W c.course ∧ 9 / 2 ≤ c.score))).map (fun c =>
        { c with encompasses := W' c.lesson + W' c.course, encompassed := W c.lesson + W c.course }) ∧
      r.highlyEncompassed = r.candidates.filter (fun c =>
          5 ≤ W c.lesson + W c.course ∧ 15 / 4 ≤ c.score) := by
  unfold knockOut encompassingMap at h
  rw [Option.bind_eq_some_iff] at h
  obtain ⟨m1, h1, h⟩ := h
  rw [Option.map_eq_some_iff] at h1 h
  obtain ⟨m, hm, rfl⟩ := h1
  obtain ⟨m2, h2, h⟩ := h
  rw [Option.map_eq_some_iff] at h2
  obtain ⟨m', hm', rfl⟩ := h2
  subst h
  obtain ⟨E, hE, hW⟩ := unitWeights_sound starts [] m hs.1 hm
  obtain ⟨E', hE', hW'⟩ := unitWeights_sound starts' [] m' hs'.1 hm'
  refine ⟨fun v => (m.find v).getD 0, fun v => (m'.find v).getD 0,
    ⟨E, hE, fun v => by dsimp only; rw [hW]; simp⟩, ⟨E', hE', fun v => by dsimp only; rw [hW']; simp⟩, ?_, ?_⟩
  · dsimp only
    unfold removeVeryHighly
    rw [List.filter_map]
    have e1 : ∀ c ∈ batch, (({ c with
        encompasses := ((exerciseWeights batch m').find c.exercise).getD 0,
        encompassed := ((exerciseWeights batch m).find c.exercise).getD 0 } : Candidate ι)) =
        { c with
          encompasses := (m'.find c.lesson).getD 0 + (m'.find c.course).getD 0,
          encompassed := (m.find c.lesson).getD 0 + (m.find c.course).getD 0 } := by
      intro c hcb
      rw [exerciseWeights_find hc m hcb, exerciseWeights_find hc m' hcb]
      rfl
    have e2 : batch.filter ((fun c => !(decide (veryHighlyWeight ≤
        ((exerciseWeights batch m).find c.exercise).getD 0) && decide (veryHighlyScore ≤ c.score))) ∘
        fun c : Candidate ι => { c with
          encompasses := ((exerciseWeights batch m').find c.exercise).getD 0,
          encompassed := ((exerciseWeights batch m).find c.exercise).getD 0 }) =
        batch.filter (fun c => decide (¬ (10 ≤ (m.find c.lesson).getD 0 + (m.find c.course).getD 0 ∧
          9 / 2 ≤ c.score))) := by
      apply List.filter_congr
      intro c hcb
      have hf := exerciseWeights_find hc m hcb
      rw [Bool.eq_iff_iff]
      simp only [Function.comp, hf, veryHighlyWeight, veryHighlyScore, Option.getD_some,
        Bool.not_eq_true', Bool.and_eq_false_iff, decide_eq_false_iff_not, decide_eq_true_eq, not_and_or]
      exact or_congr Iff.rfl ⟨fun h => of_decide_eq_false h, fun h => decide_eq_false h⟩
    rw [e2]
    apply List.map_congr_left
    intro c hcb
    exact e1 c (List.mem_of_mem_filter hcb)
  · dsimp only
    unfold highly
    apply List.filter_congr
    intro c hcr
    unfold removeVeryHighly at hcr
    rw [List.mem_filter] at hcr
    obtain ⟨hcr, hkeep⟩ := hcr
    obtain ⟨c0, hc0, rfl⟩ := List.mem_map.1 hcr
    dsimp only at hkeep ⊢
    rw [exerciseWeights_find hc m hc0] at hkeep ⊢
    dsimp only
    rw [if_neg (by
      rintro ⟨h1, h2⟩
      simp [h1, h2] at hkeep)]
    rw [← Bool.decide_and]
    rfl

/-- C42: whatever is removed scores at least 4.5, and an edge leads to its lesson or course from a unit
that the lesson or course of some candidate of the batch reaches. -/
theorem knocked_out_covered (g : Graph ι) (fuel : Nat) (starts starts' : List ι)
    (batch : List (Candidate ι)) (hc : Consistent batch) (hs : StartsOf batch starts)
    (hs' : StartsOf batch starts') (r : Result ι)
    (h : knockOut g fuel starts starts' batch = some r) (c : Candidate ι) (hcb : c ∈ batch)
    (hrem : ∀ c' ∈ r.candidates, c'.exercise ≠ c.exercise) :
    9 / 2 ≤ c.score ∧ ∃ c' ∈ batch, ∃ s u v w, (s = c'.lesson ∨ s = c'.course) ∧
      Reached g false s u ∧ Edge g true u v w ∧ (v = c.lesson ∨ v = c.course) := by
  obtain ⟨W, W', ⟨V, hV, hW⟩, _, hcand, _⟩ := knock_out_exact g fuel starts starts' batch hc hs hs' r h
  have hbad : 10 ≤ W c.lesson + W c.course ∧ 9 / 2 ≤ c.score := by
    by_contra hn
    have : ({ c with
        encompasses := W' c.lesson + W' c.course
        encompassed := W c.lesson + W c.course } : Candidate ι) ∈ r.candidates := by
      rw [hcand]
      exact List.mem_map.2 ⟨c, List.mem_filter.2 ⟨hcb, decide_eq_true hn⟩, rfl⟩
    exact hrem _ this rfl
  refine ⟨hbad.2, ?_⟩
  by_contra hno
  have hz : ∀ v, (v = c.lesson ∨ v = c.course) → W v = 0 := by
    intro v hv
    rw [hW]
    apply List.sum_eq_zero
    intro x hx
    obtain ⟨s, hss, rfl⟩ := List.mem_map.1 hx
    apply List.sum_eq_zero
    intro y hy
    obtain ⟨u, hu, rfl⟩ := List.mem_map.1 hy
    unfold weightInto
    have : (edges g false u.unit).filter (fun p => p.1 = v) = [] := by
      rw [List.filter_eq_nil_iff]
      rintro ⟨v', w⟩ hp he
      have he : v' = v := by simpa using he
      subst he
      obtain ⟨c', hc', hs1⟩ := (hs.2 s).1 hss
      exact hno ⟨c', hc', s, u.unit, v', w, hs1, (hV s hss).reached u (List.mem_of_mem_filter hu),
        mem_edges.1 hp, hv⟩
    rw [this]; rfl
  have h1 := hz _ (Or.inl rfl)
  have h2 := hz _ (Or.inr rfl)
  have := hbad.1
  rw [h1, h2] at this
  norm_num at this

/-- C42: nothing is added, repeated or reordered. -/
theorem knock_out_sublist (g : Graph ι) (fuel : Nat) (starts starts' : List ι)
    (batch : List (Candidate ι)) (r : Result ι)
    (h : knockOut g fuel starts starts' batch = some r) :
    (r.candidates.map Candidate.exercise).Sublist (batch.map Candidate.exercise) ∧
    r.highlyEncompassed.Sublist r.candidates := by
  unfold knockOut at h
  rw [Option.bind_eq_some_iff] at h
  obtain ⟨m1, _, h⟩ := h
  rw [Option.map_eq_some_iff] at h
  obtain ⟨m2, _, rfl⟩ := h
  constructor
  · dsimp only
    unfold removeVeryHighly
    have := (List.filter_sublist (p := fun c : Candidate ι =>
      !(decide (veryHighlyWeight ≤ (m1.find c.exercise).getD 0) && decide (veryHighlyScore ≤ c.score)))
      (l := batch.map (fun c => { c with
        encompasses := (m2.find c.exercise).getD 0, encompassed := (m1.find c.exercise).getD 0 }))).map
      Candidate.exercise
    rw [List.map_map] at this
    exact this
  · exact List.filter_sublist

/-! ### Examples -/

/-- Eleven lessons, each encompassing lesson 1; the candidate of lesson 1 scores 5. -/
def crowdOps : List (Graph.Op Nat) :=
  [.addCourse 0, .addLesson 1 0] ++
    (List.range 11).flatMap (fun i => [.addLesson (i + 2) 0, .addEncompassed (i + 2) [1] []])

def crowd : List (Candidate Nat) :=
  (List.range 12).map (fun i => { exercise := 100 + i, lesson := i + 1, course := 0, score := 5 })

/-- The hypotheses hold, and the candidate of lesson 1 is knocked out. -/
example : StartsOf crowd (List.range 13) ∧ Consistent crowd ∧
    ((knockOut (Graph.run crowdOps) 100 (List.range 13) (List.range 13) crowd).map
      (fun r => r.candidates.map Candidate.exercise)) = some ((List.range 11).map (101 + ·)) := by
  refine ⟨⟨by decide +kernel, fun u => ?_⟩, by unfold Consistent; decide +kernel, by decide +kernel⟩
  rw [List.mem_range]
  constructor
  · intro h
    have : ∀ u < 13, ∃ c ∈ crowd, u = c.lesson ∨ u = c.course := by decide +kernel
    exact this u h
  · rintro ⟨c, hc, h⟩
    have : ∀ c ∈ crowd, c.lesson < 13 ∧ c.course < 13 := by decide +kernel
    have := this c hc
    omega

end Trane.Knocker
