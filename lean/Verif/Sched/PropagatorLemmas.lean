import Verif.Sched.PropagatorSpec
import Verif.Graph.Props
import Mathlib.Tactic.Ring
import Mathlib.Tactic.Positivity
import Mathlib.Algebra.Order.GroupWithZero.Unbundled.Basic

/-! # Lemmas on the propagation of rewards -/

namespace Trane.Propagator
open Trane

variable {ι : Type} [DecidableEq ι]

theorem mem_nextUnits {g : Graph ι} {u v : ι} {w r : ℚ} :
    (v, w) ∈ nextUnits g u r ↔ Edge g (decide (0 < r)) u v w := by
  unfold nextUnits Edge
  by_cases h : 0 < r
  · simp only [h, if_true, decide_true]
    cases hg : g.getEncompasses u <;> simp
  · simp only [h, if_false, decide_false, Bool.false_eq_true]
    cases hg : g.getEncompassedBy u <;> simp

/-! ### Bounded out-degree -/

omit [DecidableEq ι] in
theorem sum_bound {κ α : Type} [DecidableEq κ] (m : AMap κ (List α)) (k : κ) (l : List α)
    (h : AMap.find m k = some l) : l.length ≤ (m.map (fun e => e.2.length)).sum := by
  induction m with
  | nil => simp at h
  | cons e m ih =>
    obtain ⟨a, b⟩ := e
    rw [AMap.find] at h
    split at h
    · cases h; simp
    · have := ih h
      simp only [List.map_cons, List.sum_cons]
      omega

theorem degree_bound (g : Graph ι) : ∃ B, ∀ u r, (nextUnits g u r).length ≤ B := by
  refine ⟨(g.deps.map (fun e => e.2.length)).sum + (g.dependents.map (fun e => e.2.length)).sum +
    (g.enc.map (fun e => e.2.length)).sum + (g.encBy.map (fun e => e.2.length)).sum, fun u r => ?_⟩
  have key : ∀ {α : Type} (m : AMap ι (List α)) (u : ι),
      ((AMap.find m u).getD []).length ≤ (m.map (fun e => e.2.length)).sum := by
    intro α m u
    cases h : AMap.find m u with
    | none => simp
    | some l => exact sum_bound m u l h
  have k2 : ∀ (m : AMap ι (List ι)) (u : ι),
      (((AMap.find m u).map (fun ds => ds.map (fun d => (d, (1 : ℚ))))).getD []).length ≤
      (m.map (fun e => e.2.length)).sum := by
    intro m u
    cases h : AMap.find m u with
    | none => simp
    | some l => simpa using sum_bound m u l h
  unfold nextUnits Graph.getEncompasses Graph.getEncompassedBy Graph.getDependencies Graph.getDependents
  have h1 := key g.enc u
  have h2 := key g.encBy u
  have h3 := k2 g.deps u
  have h4 := k2 g.dependents u
  split
  · split <;> omega
  · split <;> omega

/-! ### Termination -/

/-- Steps needed for an item that can still be followed by `n` generations. -/
def cost (B : Nat) : Nat → Nat
  | 0 => 1
  | n + 1 => 1 + B * cost B n

/-- An item of this weight is followed by at most `n` generations. -/
def Gen (n : Nat) (r : UnitReward ι) : Prop := r.weight * weightFactor ^ n ≤ minWeight

def ValidWeights (g : Graph ι) : Prop := ∀ good u v w, Edge g good u v w → 0 ≤ w ∧ w ≤ 1

theorem cost_pos (B n : Nat) : 0 < cost B n := by cases n <;> simp [cost]

theorem nextItems_gen {g : Graph ι} (hg : ValidWeights g) {n : Nat} {item : UnitReward ι}
    (hw : 0 ≤ item.weight) (h : Gen (n + 1) item) {t : Int} {r : UnitReward ι}
    (hr : r ∈ nextItems g item t) : Gen n r ∧ 0 ≤ r.weight := by
  unfold nextItems at hr
  rw [List.mem_map] at hr
  obtain ⟨⟨v, w⟩, hp, rfl⟩ := hr
  rw [List.mem_filter] at hp
  obtain ⟨h0, h1⟩ := hg _ _ _ _ (mem_nextUnits.1 hp.1)
  unfold Gen at *
  dsimp only at *
  have hf : (0 : ℚ) < weightFactor := by norm_num [weightFactor]
  have hpos : 0 ≤ item.weight * weightFactor ^ (n + 1) := by positivity
  constructor
  · calc w * weightFactor * item.weight * weightFactor ^ n
        = w * (item.weight * weightFactor ^ (n + 1)) := by ring
      _ ≤ 1 * (item.weight * weightFactor ^ (n + 1)) := mul_le_mul_of_nonneg_right h1 hpos
      _ ≤ minWeight := by rw [one_mul]; exact h
  · positivity

theorem nextItems_gen_zero {g : Graph ι} (hg : ValidWeights g) {item : UnitReward ι}
    (hw : 0 ≤ item.weight) (h : Gen 0 item) (t : Int) : nextItems g item t = [] := by
  unfold nextItems
  rw [List.map_eq_nil_iff, List.filter_eq_nil_iff]
  rintro ⟨v, w⟩ hp
  obtain ⟨h0, h1⟩ := hg _ _ _ _ (mem_nextUnits.1 hp)
  unfold Gen at h
  simp only [pow_zero, mul_one] at h
  have : w * weightFactor * item.weight < minWeight := by
    have hf : weightFactor * item.weight ≤ weightFactor * minWeight := by
      apply mul_le_mul_of_nonneg_left h; norm_num [weightFactor]
    have : w * (weightFactor * item.weight) ≤ 1 * (weightFactor * item.weight) := by
      apply mul_le_mul_of_nonneg_right h1
      have : (0 : ℚ) < weightFactor := by norm_num [weightFactor]
      positivity
    have hlt : weightFactor * minWeight < minWeight := by norm_num [weightFactor, minWeight]
    linarith
  simp [stop, this]

theorem nextItems_length (g : Graph ι) (item : UnitReward ι) (t : Int) :
    (nextItems g item t).length ≤ (nextUnits g item.unit item.value).length := by
  unfold nextItems
  rw [List.length_map]
  exact List.length_filter_le _ _

theorem loop_terminates {g : Graph ι} (hg : ValidWeights g) {B : Nat}
    (hB : ∀ u r, (nextUnits g u r).length ≤ B) (t : Int) (fuel : Nat) :
    ∀ (m : AMap ι (UnitReward ι)) (stack : List (UnitReward ι)) (ns : List Nat),
      List.Forall₂ (fun n r => Gen n r ∧ 0 ≤ r.weight) ns stack → (ns.map (cost B)).sum ≤ fuel →
      ∃ m', loop g t fuel m stack = some m' := by
  induction fuel with
  | zero =>
    intro m stack ns h hs
    cases h with
    | nil => exact ⟨m, rfl⟩
    | @cons n _ _ _ _ _ =>
      have := cost_pos B n
      simp only [List.map_cons, List.sum_cons] at hs
      omega
  | succ fuel ih =>
    intro m stack ns h hs
    cases h with
    | nil => exact ⟨m, rfl⟩
    | @cons n item ns stack hi hrest =>
      have hc := cost_pos B n
      simp only [List.map_cons, List.sum_cons] at hs
      rw [loop]
      split
      · exact ih m stack ns hrest (by omega)
      · cases n with
        | zero =>
          rw [nextItems_gen_zero hg hi.2 hi.1]
          exact ih _ stack ns hrest (by simp [cost] at hs; omega)
        | succ n =>
          have hk : ∀ r ∈ (nextItems g item t).reverse, Gen n r ∧ 0 ≤ r.weight := by
            intro r hr
            exact nextItems_gen hg hi.2 hi.1 (List.mem_reverse.1 hr)
          have hl : (nextItems g item t).reverse.length ≤ B := by
            rw [List.length_reverse]
            exact Nat.le_trans (nextItems_length g item t) (hB _ _)
          generalize (nextItems g item t).reverse = nx at *
          refine ih _ (nx ++ stack) (List.replicate nx.length n ++ ns) ?_ ?_
          · refine List.rel_append ?_ hrest
            clear hl
            induction nx with
            | nil => exact List.Forall₂.nil
            | cons a nx ihn =>
              refine List.Forall₂.cons (hk a List.mem_cons_self) ?_
              exact ihn (fun r hr => hk r (List.mem_cons_of_mem _ hr))
          · rw [List.map_append, List.sum_append, List.map_replicate, List.sum_replicate]
            simp only [cost] at hs
            have := Nat.mul_le_mul_right (cost B n) hl
            rw [show nx.length • cost B n = nx.length * cost B n from rfl]
            omega

/-! ### Invariants -/

theorem loop_inv {g : Graph ι} {t : Int} (I : AMap ι (UnitReward ι) → List (UnitReward ι) → Prop)
    (hskip : ∀ m i s, I m (i :: s) → weaker m i = true → I m s)
    (hvisit : ∀ m i s, I m (i :: s) → weaker m i = false →
      I (m.put i.unit i) ((nextItems g i t).reverse ++ s)) (fuel : Nat) :
    ∀ m s m', I m s → loop g t fuel m s = some m' → I m' [] := by
  induction fuel with
  | zero =>
    intro m s m' h hl
    cases s with
    | nil => cases hl; exact h
    | cons => cases hl
  | succ fuel ih =>
    intro m s m' h hl
    cases s with
    | nil => cases hl; exact h
    | cons i s =>
      rw [loop] at hl
      split at hl
      · rename_i hw; exact ih _ _ _ (hskip m i s h hw) hl
      · rename_i hw; exact ih _ _ _ (hvisit m i s h (by simpa using hw)) hl

/-- What is true of every item of the work list. -/
def Good (g : Graph ι) (l c : ι) (init : ℚ) (t : Int) (r : UnitReward ι) : Prop :=
  ∃ p k, Path g (decide (0 < init)) l c r.unit p (k + 1) ∧ 0 < p ∧ p ≤ 1 ∧
    r.value = init * p * rewardFactor ^ k ∧ r.weight = p * weightFactor ^ k ∧
    minAbsReward ≤ |r.value| ∧ minWeight ≤ r.weight ∧ r.time = t

theorem stop_false {v w : ℚ} : stop v w = false ↔ minAbsReward ≤ |v| ∧ minWeight ≤ w := by
  simp [stop]

theorem good_initial {g : Graph ι} (hg : ValidWeights g) {l c : ι} {init : ℚ} {t : Int}
    {r : UnitReward ι} (hr : r ∈ initialItems g l c init t) : Good g l c init t r := by
  unfold initialItems at hr
  rw [List.mem_map] at hr
  obtain ⟨⟨v, w⟩, hp, rfl⟩ := hr
  rw [List.mem_filter] at hp
  obtain ⟨hm, hs⟩ := hp
  have hs : stop (w * init) w = false := by simpa using hs
  obtain ⟨h1, h2⟩ := stop_false.1 hs
  have hmw : (0 : ℚ) < minWeight := by norm_num [minWeight]
  rw [List.mem_append] at hm
  have he : ∃ s, (s = l ∨ s = c) ∧ Edge g (decide (0 < init)) s v w := by
    rcases hm with hm | hm
    · exact ⟨l, Or.inl rfl, mem_nextUnits.1 hm⟩
    · exact ⟨c, Or.inr rfl, mem_nextUnits.1 hm⟩
  obtain ⟨s, hs', he⟩ := he
  exact ⟨w, 0, Path.first hs' he, by dsimp only at *; linarith, (hg _ _ _ _ he).2, by simp [mul_comm], by simp, h1,
    h2, rfl⟩

theorem good_sign {g : Graph ι} {l c : ι} {init : ℚ} {t : Int} {r : UnitReward ι}
    (h : Good g l c init t r) : (0 < r.value ↔ 0 < init) := by
  obtain ⟨p, k, _, hp, _, hv, _⟩ := h
  rw [hv]
  have : 0 < p * rewardFactor ^ k := mul_pos hp (pow_pos (by norm_num [rewardFactor]) k)
  rw [mul_assoc]
  exact mul_pos_iff_of_pos_right this

theorem good_next {g : Graph ι} (hg : ValidWeights g) {l c : ι} {init : ℚ} {t : Int}
    {i r : UnitReward ι} (hi : Good g l c init t i) (hr : r ∈ nextItems g i t) :
    Good g l c init t r := by
  have hsg := good_sign hi
  obtain ⟨p, k, hpath, hp0, hp1, hv, hw, ha, hb, ht⟩ := hi
  unfold nextItems at hr
  rw [List.mem_map] at hr
  obtain ⟨⟨v, w⟩, hp, rfl⟩ := hr
  rw [List.mem_filter] at hp
  obtain ⟨hm, hs⟩ := hp
  have hs : stop (w * rewardFactor * i.value) (w * weightFactor * i.weight) = false := by simpa using hs
  obtain ⟨h1, h2⟩ := stop_false.1 hs
  have he := mem_nextUnits.1 hm
  rw [decide_eq_decide.2 hsg] at he
  obtain ⟨hw0, hw1⟩ := hg _ _ _ _ he
  have hmw : (0 : ℚ) < minWeight := by norm_num [minWeight]
  have hwp : 0 < w := by
    rcases lt_or_eq_of_le hw0 with h | h
    · exact h
    · rw [← h] at h2; simp at h2; linarith
  refine ⟨p * w, k + 1, Path.step hpath he, mul_pos hp0 hwp, ?_, ?_, ?_, h1, h2, rfl⟩
  · calc p * w ≤ 1 * 1 := mul_le_mul hp1 hw1 hw0 (by norm_num)
      _ = 1 := by norm_num
  · dsimp only; rw [hv]; ring
  · dsimp only; rw [hw]; ring

/-- The invariant of the loop. -/
structure Inv (g : Graph ι) (l c : ι) (init : ℚ) (t : Int) (m : AMap ι (UnitReward ι))
    (s : List (UnitReward ι)) : Prop where
  nodup : m.keys.Nodup
  key : ∀ u r, m.find u = some r → r.unit = u
  good : ∀ r, (r ∈ s ∨ ∃ u, m.find u = some r) → Good g l c init t r
  start : ∀ r ∈ initialItems g l c init t, (∃ r' ∈ s, r'.unit = r.unit ∧ |r.value| ≤ |r'.value|) ∨
    ∃ r', m.find r.unit = some r' ∧ |r.value| ≤ |r'.value|
  closed : ∀ u i, m.find u = some i → ∀ r ∈ nextItems g i t,
    (∃ r' ∈ s, r'.unit = r.unit ∧ |r.value| ≤ |r'.value|) ∨
    ∃ r', m.find r.unit = some r' ∧ |r.value| ≤ |r'.value|

theorem inv_init {g : Graph ι} (hg : ValidWeights g) (l c : ι) (init : ℚ) (t : Int) :
    Inv g l c init t [] (initialItems g l c init t).reverse where
  nodup := List.nodup_nil
  key := by intro u r h; cases h
  good := by
    rintro r (h | ⟨u, h⟩)
    · exact good_initial hg (List.mem_reverse.1 h)
    · cases h
  start := fun r h => Or.inl ⟨r, List.mem_reverse.2 h, rfl, le_refl _⟩
  closed := by intro u r h; cases h

/-- Covered by the stack or by the results. -/
def Cov (m : AMap ι (UnitReward ι)) (s : List (UnitReward ι)) (r : UnitReward ι) : Prop :=
  (∃ r' ∈ s, r'.unit = r.unit ∧ |r.value| ≤ |r'.value|) ∨
    ∃ r', m.find r.unit = some r' ∧ |r.value| ≤ |r'.value|

theorem cov_skip {m : AMap ι (UnitReward ι)} {i : UnitReward ι} {s : List (UnitReward ι)}
    (hw : weaker m i = true) {r : UnitReward ι} (h : Cov m (i :: s) r) : Cov m s r := by
  rcases h with ⟨r', hr', hu, hv⟩ | h
  · rcases List.mem_cons.1 hr' with rfl | hr'
    · right
      unfold weaker at hw
      cases hf : m.find r'.unit with
      | none => rw [hf] at hw; cases hw
      | some e =>
        rw [hf] at hw
        exact ⟨e, by rw [← hu]; exact hf, le_trans hv (of_decide_eq_true hw)⟩
    · exact Or.inl ⟨r', hr', hu, hv⟩
  · exact Or.inr h

theorem cov_visit {m : AMap ι (UnitReward ι)} {i : UnitReward ι} {s nx : List (UnitReward ι)}
    (hw : weaker m i = false) {r : UnitReward ι} (h : Cov m (i :: s) r) :
    Cov (m.put i.unit i) (nx ++ s) r := by
  rcases h with ⟨r', hr', hu, hv⟩ | ⟨r', hr', hv⟩
  · rcases List.mem_cons.1 hr' with rfl | hr'
    · exact Or.inr ⟨r', by rw [← hu]; exact AMap.find_put_self _ _ _, hv⟩
    · exact Or.inl ⟨r', List.mem_append_right _ hr', hu, hv⟩
  · right
    by_cases hk : i.unit = r.unit
    · refine ⟨i, by rw [hk]; exact AMap.find_put_self _ _ _, ?_⟩
      unfold weaker at hw
      rw [hk, hr'] at hw
      have : ¬ |i.value| ≤ |r'.value| := of_decide_eq_false hw
      exact le_trans hv (le_of_lt (not_le.1 this))
    · exact ⟨r', by rw [AMap.find_put_ne _ _ hk]; exact hr', hv⟩

theorem inv_loop {g : Graph ι} (hg : ValidWeights g) {l c : ι} {init : ℚ} {t : Int} {fuel : Nat}
    {m : AMap ι (UnitReward ι)}
    (h : loop g t fuel [] (initialItems g l c init t).reverse = some m) : Inv g l c init t m [] := by
  refine loop_inv (Inv g l c init t) ?_ ?_ fuel _ _ _ (inv_init hg l c init t) h
  · intro m i s hI hw
    exact ⟨hI.nodup, hI.key, fun r hr => hI.good r (hr.imp_left (List.mem_cons_of_mem _)),
      fun r hr => cov_skip hw (hI.start r hr), fun u j hj r hr => cov_skip hw (hI.closed u j hj r hr)⟩
  · intro m i s hI hw
    have hgi := hI.good i (Or.inl List.mem_cons_self)
    refine ⟨AMap.nodup_keys_put _ _ _ hI.nodup, ?_, ?_, fun r hr => cov_visit hw (hI.start r hr), ?_⟩
    · intro u r hr
      rw [AMap.find_put] at hr
      split at hr
      · cases hr; assumption
      · exact hI.key u r hr
    · rintro r (hr | ⟨u, hr⟩)
      · rcases List.mem_append.1 hr with hr | hr
        · exact good_next hg hgi (List.mem_reverse.1 hr)
        · exact hI.good r (Or.inl (List.mem_cons_of_mem _ hr))
      · rw [AMap.find_put] at hr
        split at hr
        · cases hr; exact hgi
        · exact hI.good r (Or.inr ⟨u, hr⟩)
    · intro u j hj r hr
      rw [AMap.find_put] at hj
      split at hj
      · cases hj
        exact Or.inl ⟨r, List.mem_append_left _ (List.mem_reverse.2 hr), rfl, le_refl _⟩
      · exact cov_visit hw (hI.closed u j hj r hr)

theorem validWeights_run (ops : List (Graph.Op ι)) : ValidWeights (Graph.run ops) := by
  rintro good u v w ⟨l, hl, hm⟩
  have := Graph.encompassing_weights_valid ops u v w
  cases good
  · exact this.2 l hl hm
  · exact this.1 l hl hm

theorem loop_total {g : Graph ι} (hg : ValidWeights g) (l c : ι) (init : ℚ) (t : Int) :
    ∃ N, ∀ fuel, N ≤ fuel → ∃ m, loop g t fuel [] (initialItems g l c init t).reverse = some m := by
  obtain ⟨B, hB⟩ := degree_bound g
  generalize hs : (initialItems g l c init t).reverse = s
  have hgood : ∀ r ∈ s, Gen 8 r ∧ 0 ≤ r.weight := by
    intro r hr
    rw [← hs, List.mem_reverse] at hr
    unfold initialItems at hr
    rw [List.mem_map] at hr
    obtain ⟨⟨v, w⟩, hp, rfl⟩ := hr
    rw [List.mem_filter, List.mem_append] at hp
    have : 0 ≤ w ∧ w ≤ 1 := by
      rcases hp.1 with h | h <;> exact hg _ _ _ _ (mem_nextUnits.1 h)
    refine ⟨?_, this.1⟩
    unfold Gen
    have h2 : weightFactor ^ 8 ≤ minWeight := by norm_num [weightFactor, minWeight]
    calc w * weightFactor ^ 8 ≤ 1 * weightFactor ^ 8 :=
          mul_le_mul_of_nonneg_right this.2 (by norm_num [weightFactor])
      _ ≤ minWeight := by rw [one_mul]; exact h2
  refine ⟨((List.replicate s.length 8).map (cost B)).sum, fun fuel hf => ?_⟩
  refine loop_terminates hg hB t fuel [] s (List.replicate s.length 8) ?_ hf
  clear hs hf
  induction s with
  | nil => exact List.Forall₂.nil
  | cons a s ih =>
    exact List.Forall₂.cons (hgood a List.mem_cons_self)
      (ih (fun r hr => hgood r (List.mem_cons_of_mem _ hr)))

end Trane.Propagator
