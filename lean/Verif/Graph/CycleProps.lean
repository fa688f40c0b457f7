import Verif.Graph.Spec
import Verif.Graph.Invariants
import Verif.Graph.CycleLemmas

/-! # C06: the cycle check is exact -/

namespace Trane.Graph
variable {ι : Type} [DecidableEq ι]

open Relation

/-- `get_encompasses(u)` lists `v` with some weight. -/
def Encompasses (g : Graph ι) (u v : ι) : Prop := ∃ l w, g.getEncompasses u = some l ∧ (v, w) ∈ l

/-- The relation has a directed cycle: some node reaches itself in one or more steps. -/
def HasCycle {α : Type} (R : α → α → Prop) : Prop := ∃ u, TransGen R u u

/-- A walk (in order) whose last node already occurred in it. -/
def ClosesALoop {α : Type} (R : α → α → Prop) (walk : List α) : Prop :=
  ∃ p n, walk = p ++ [n] ∧ n ∈ p ∧ List.IsChain R walk

theorem transGen_congr {α : Type} {R S : α → α → Prop} (h : ∀ a b, R a b ↔ S a b) :
    HasCycle R ↔ HasCycle S := by
  have : R = S := by funext a b; exact propext (h a b)
  rw [this]

theorem edge_map (m : ι → Option (List ι)) (f : ι → List ι → List ι)
    (hf : ∀ u l x, x ∈ f u l ↔ x ∈ l) (u v : ι) :
    Edge (fun u => (m u).map (f u)) u v ↔ ∃ s, m u = some s ∧ v ∈ s := by
  unfold Edge
  cases h : m u <;> simp [hf, h]

section
variable (g : Graph ι) (o : KeyOrder ι) (ho : o.Valid)

theorem edge_deps (ho : o.Valid) (u v : ι) :
    Edge (fun u => (g.getDependencies u).map (o.members u)) u v ↔ DependsOn g u v :=
  edge_map _ _ ho.2 u v

theorem edge_sup (ho : o.Valid) (u v : ι) :
    Edge (fun u => (g.getSupersedes u).map (o.members u)) u v ↔ Supersedes g u v :=
  edge_map _ _ ho.2 u v

theorem edge_enc (ho : o.Valid) (u v : ι) :
    Edge (fun u => (g.getEncompasses u).map (fun l => o.members u (l.map Prod.fst))) u v ↔
      Encompasses g u v := by
  unfold Edge Encompasses
  cases h : g.getEncompasses u <;> simp [ho.2, h]
end

/-- The reverse checks never fail on a graph built with the edit calls. -/
theorem reverse_checks (ops : List (Op ι)) :
    (∀ u v, DependsOn (run ops) u v → u ∈ ((run ops).getDependents v).getD []) ∧
    (∀ u v, Supersedes (run ops) u v → u ∈ ((run ops).getSupersededBy v).getD []) ∧
    (∀ u v, (run ops).enc.isEmpty = false → Encompasses (run ops) u v →
      (((run ops).getEncompassedBy v).getD []).any (fun e => e.1 = u) = true) := by
  have hD : DepInv (run ops) := run_induction (fun u d => by simp [empty, Rel]) depInv_step ops
  have hS : SupInv (run ops) := run_induction (fun u d => by simp [empty, Rel]) supInv_step ops
  have hE : EncInv (run ops) := run_induction
    ⟨fun _ _ _ => rfl, fun u v w h => (not_rel_nil _ _ h).elim, fun h => (h rfl).elim⟩
    encInv_step ops
  refine ⟨?_, ?_, ?_⟩
  · intro u v h; exact (rel_iff_getD _ _ _).1 ((hD u v).1 h)
  · intro u v h; exact (rel_iff_getD _ _ _).1 ((hS u v).1 h)
  · rintro u v he ⟨l, w, hl, hm⟩
    simp only [getEncompasses, he] at hl
    rw [if_neg (by simp)] at hl
    have hc : 0 < cnt (run ops).encBy v (u, w) := by
      rw [← hE.cnt]; simp only [cnt, hl, Option.getD_some, List.count_pos_iff]; exact hm
    have hm' : (u, w) ∈ ((run ops).encBy.find v).getD [] := List.count_pos_iff.1 hc
    have hne : (run ops).encBy.isEmpty = false := by
      cases hb : (run ops).encBy with
      | nil => rw [hb] at hm'; simp at hm'
      | cons _ _ => rfl
    simp only [getEncompassedBy, hne]
    rw [if_neg (by simp), List.any_eq_true]
    exact ⟨(u, w), hm', by simp⟩

/-- C06: on every graph built by edit calls, whatever the iteration order of the maps and sets, the
cycle check terminates, and it succeeds iff none of the three relations has a cycle. -/
theorem check_cycles_exact (ops : List (Op ι)) (o : KeyOrder ι) (ho : o.Valid) :
    ∃ N, ∀ fuel, N ≤ fuel →
      ∃ r, (run ops).checkCycles o fuel = some r ∧
        (r = .ok () ↔ ¬ HasCycle (DependsOn (run ops)) ∧ ¬ HasCycle (Supersedes (run ops)) ∧
          ¬ HasCycle (Encompasses (run ops))) := by
  obtain ⟨r1, r2, r3⟩ := reverse_checks ops
  generalize run ops = g at *
  refine ⟨(1 + remaining (fun u => (g.getDependencies u).map (o.members u)) g.deps.keys []) +
    (1 + remaining (fun u => (g.getSupersedes u).map (o.members u)) g.sup.keys []) +
    (1 + remaining (fun u => (g.getEncompasses u).map (fun l => o.members u (l.map Prod.fst)))
      (g.deps.keys ++ g.enc.keys) []), fun fuel hf => ?_⟩
  have t1 : ∀ rev, checkGraph (fun u => (g.getDependencies u).map (o.members u)) rev fuel
      (o.keys g.deps.keys) [] ≠ none := fun rev => by
    refine checkGraph_terminates g.deps.keys ?_ fuel _ _ (by omega)
    intro u s h
    cases hd : g.getDependencies u with
    | none => simp [hd] at h
    | some s => exact (AMap.mem_keys_iff _ _).2 ⟨s, hd⟩
  have t2 : ∀ rev, checkGraph (fun u => (g.getSupersedes u).map (o.members u)) rev fuel
      (o.keys g.sup.keys) [] ≠ none := fun rev => by
    refine checkGraph_terminates g.sup.keys ?_ fuel _ _ (by omega)
    intro u s h
    cases hd : g.getSupersedes u with
    | none => simp [hd] at h
    | some s => exact (AMap.mem_keys_iff _ _).2 ⟨s, hd⟩
  have t3 : ∀ rev, checkGraph (fun u => (g.getEncompasses u).map
      (fun l => o.members u (l.map Prod.fst))) rev fuel (o.keys g.enc.keys) [] ≠ none :=
    fun rev => by
    refine checkGraph_terminates (g.deps.keys ++ g.enc.keys) ?_ fuel _ _ (by omega)
    intro u s h
    rw [List.mem_append]
    unfold getEncompasses at h
    split at h
    · left
      cases hd : g.getDependencies u with
      | none => simp [hd] at h
      | some s => exact (AMap.mem_keys_iff _ _).2 ⟨s, hd⟩
    · right
      cases hd : g.enc.find u with
      | none => simp [hd] at h
      | some s => exact (AMap.mem_keys_iff _ _).2 ⟨s, hd⟩
  have x1 := checkGraph_exact (nb := fun u => (g.getDependencies u).map (o.members u))
    (rev := fun u d => decide (u ∈ (g.getDependents d).getD [])) (o.keys g.deps.keys)
    (by
      intro u s h _
      rw [ho.1]
      cases hd : g.getDependencies u with
      | none => simp [hd] at h
      | some s => exact (AMap.mem_keys_iff _ _).2 ⟨s, hd⟩)
    (by intro u v h; simpa using r1 u v ((edge_deps g o ho u v).1 h)) fuel (t1 _)
  have x2 := checkGraph_exact (nb := fun u => (g.getSupersedes u).map (o.members u))
    (rev := fun u d => decide (u ∈ (g.getSupersededBy d).getD [])) (o.keys g.sup.keys)
    (by
      intro u s h _
      rw [ho.1]
      cases hd : g.getSupersedes u with
      | none => simp [hd] at h
      | some s => exact (AMap.mem_keys_iff _ _).2 ⟨s, hd⟩)
    (by intro u v h; simpa using r2 u v ((edge_sup g o ho u v).1 h)) fuel (t2 _)
  have c1 := transGen_congr (edge_deps g o ho)
  have c2 := transGen_congr (edge_sup g o ho)
  have c3 := transGen_congr (edge_enc g o ho)
  have y1 : checkGraph (fun u => (g.getDependencies u).map (o.members u))
      (fun u d => decide (u ∈ (g.getDependents d).getD [])) fuel (o.keys g.deps.keys) [] =
      some (.ok ()) ↔ ¬ HasCycle (DependsOn g) := by rw [x1, ← c1]; exact not_exists.symm
  have y2 : checkGraph (fun u => (g.getSupersedes u).map (o.members u))
      (fun u d => decide (u ∈ (g.getSupersededBy d).getD [])) fuel (o.keys g.sup.keys) [] =
      some (.ok ()) ↔ ¬ HasCycle (Supersedes g) := by rw [x2, ← c2]; exact not_exists.symm
  have y3 : ¬ HasCycle (DependsOn g) → (checkGraph (fun u => (g.getEncompasses u).map
      (fun l => o.members u (l.map Prod.fst)))
      (fun u d => ((g.getEncompassedBy d).getD []).any (fun e => e.1 = u)) fuel
      (o.keys g.enc.keys) [] = some (.ok ()) ↔ ¬ HasCycle (Encompasses g)) := by
    intro hnd
    cases he : g.enc.isEmpty with
    | true =>
      have hk : o.keys g.enc.keys = [] := by
        rw [List.eq_nil_iff_forall_not_mem]
        intro x hx
        rw [ho.1, List.isEmpty_iff.1 he] at hx
        simp [AMap.keys] at hx
      rw [hk]
      have : HasCycle (Encompasses g) ↔ HasCycle (DependsOn g) := by
        apply transGen_congr
        intro a b
        unfold Encompasses DependsOn getEncompasses
        rw [he, if_pos rfl]
        cases g.getDependencies a <;> simp
      simp [checkGraph, this, hnd]
    | false =>
      have x3 := checkGraph_exact
        (nb := fun u => (g.getEncompasses u).map (fun l => o.members u (l.map Prod.fst)))
        (rev := fun u d => ((g.getEncompassedBy d).getD []).any (fun e => e.1 = u))
        (o.keys g.enc.keys)
        (by
          intro u s h _
          rw [ho.1]
          unfold getEncompasses at h
          rw [he, if_neg (by simp)] at h
          cases hd : g.enc.find u with
          | none => simp [hd] at h
          | some s => exact (AMap.mem_keys_iff _ _).2 ⟨s, hd⟩)
        (by intro u v h; exact r3 u v he ((edge_enc g o ho u v).1 h)) fuel (t3 _)
      rw [x3, ← c3]; exact not_exists.symm
  unfold checkCycles
  have n1 := t1 (fun u d => decide (u ∈ (g.getDependents d).getD []))
  have n2 := t2 (fun u d => decide (u ∈ (g.getSupersededBy d).getD []))
  have n3 := t3 (fun u d => ((g.getEncompassedBy d).getD []).any (fun e => e.1 = u))
  generalize checkGraph (fun u => (g.getDependencies u).map (o.members u))
      (fun u d => decide (u ∈ (g.getDependents d).getD [])) fuel (o.keys g.deps.keys) [] = a1 at *
  generalize checkGraph (fun u => (g.getSupersedes u).map (o.members u))
      (fun u d => decide (u ∈ (g.getSupersededBy d).getD [])) fuel (o.keys g.sup.keys) [] = a2 at *
  generalize checkGraph (fun u => (g.getEncompasses u).map
      (fun l => o.members u (l.map Prod.fst)))
      (fun u d => ((g.getEncompassedBy d).getD []).any (fun e => e.1 = u)) fuel
      (o.keys g.enc.keys) [] = a3 at *
  rcases a1 with _ | (e1 | u1)
  · exact (n1 rfl).elim
  · have : ¬ ¬ HasCycle (DependsOn g) := by rw [← y1]; simp
    exact ⟨_, rfl, by simp [this]⟩
  · have h1 : ¬ HasCycle (DependsOn g) := y1.1 rfl
    rcases a2 with _ | (e2 | u2)
    · exact (n2 rfl).elim
    · have : ¬ ¬ HasCycle (Supersedes g) := by rw [← y2]; simp
      exact ⟨_, rfl, by simp [this]⟩
    · have h2 : ¬ HasCycle (Supersedes g) := y2.1 rfl
      rcases a3 with _ | r
      · exact (n3 rfl).elim
      · have y3 := y3 h1
        rw [Option.some.injEq] at y3
        exact ⟨r, rfl, by rw [y3]; simp [h1, h2]⟩

/-- C06: the path printed in a cycle error is a walk of one of the three relations whose last node
already occurred in it, and no other error is ever reported. -/
theorem check_cycles_error_genuine (ops : List (Op ι)) (o : KeyOrder ι) (ho : o.Valid)
    (fuel : Nat) (e : CycleError ι) (h : (run ops).checkCycles o fuel = some (.error e)) :
    ∃ walk, e = .cycle walk ∧ (ClosesALoop (DependsOn (run ops)) walk ∨
      ClosesALoop (Supersedes (run ops)) walk ∨ ClosesALoop (Encompasses (run ops)) walk) := by
  obtain ⟨r1, r2, r3⟩ := reverse_checks ops
  generalize run ops = g at *
  have key : ∀ (nb : ι → Option (List ι)) (rev : ι → ι → Bool) (R : ι → ι → Prop) ks,
      (∀ u v, Edge nb u v ↔ R u v) → (∀ u v, R u v → ks ≠ [] → rev u v = true) →
      checkGraph nb rev fuel ks [] = some (.error e) →
      ∃ walk, e = .cycle walk ∧ ClosesALoop R walk := by
    intro nb rev R ks hE hr hc
    have hks : ks ≠ [] := by rintro rfl; simp [checkGraph] at hc
    rcases checkGraph_error hc with ⟨u, v, huv, hf, _⟩ | ⟨n, p, hp, hn, rfl⟩
    · rw [hr u v ((hE u v).1 huv) hks] at hf; cases hf
    · refine ⟨_, rfl, p.reverse, n, by simp, by simpa using hn, ?_⟩
      rw [List.isChain_reverse]
      have : (fun a b => Edge nb b a) = fun a b => R b a := by
        funext a b; exact propext (hE b a)
      unfold IsPath at hp
      rw [this] at hp
      exact hp
  unfold checkCycles at h
  split at h
  · split at h
    · obtain ⟨w, h1, h2⟩ := key _ _ _ _ (edge_enc g o ho) (by
        intro u v huv hks
        refine r3 u v ?_ huv
        cases he : g.enc.isEmpty with
        | false => rfl
        | true =>
          exfalso; apply hks
          rw [List.eq_nil_iff_forall_not_mem]
          intro x hx
          rw [ho.1, List.isEmpty_iff.1 he] at hx
          simp [AMap.keys] at hx) h
      exact ⟨w, h1, Or.inr (Or.inr h2)⟩
    · obtain ⟨w, h1, h2⟩ := key _ _ _ _ (edge_sup g o ho)
        (fun u v huv _ => by simpa using r2 u v huv) h
      exact ⟨w, h1, Or.inr (Or.inl h2)⟩
  · obtain ⟨w, h1, h2⟩ := key _ _ _ _ (edge_deps g o ho)
      (fun u v huv _ => by simpa using r1 u v huv) h
    exact ⟨w, h1, Or.inl h2⟩

/-- The identity order, used in the examples. -/
def idOrder (ι : Type) : KeyOrder ι := ⟨id, fun _ => id⟩

example : (idOrder Nat).Valid := ⟨fun _ _ => Iff.rfl, fun _ _ _ => Iff.rfl⟩

/-- A cycle `1 → 2 → 3 → 1` is found, an acyclic diamond is accepted. -/
example :
    (run [.addCourse 1, .addCourse 2, .addCourse 3, .addDependencies 1 .course [2],
      .addDependencies 2 .course [3], .addDependencies 3 .course [1]]).checkCycles (idOrder Nat) 20
      = some (.error (.cycle [1, 2, 3, 1])) ∧
    (run [.addCourse 1, .addCourse 2, .addCourse 3, .addDependencies 1 .course [2, 3],
      .addDependencies 2 .course [4], .addDependencies 3 .course [4]]).checkCycles (idOrder Nat) 20
      = some (.ok ()) := by decide +kernel

end Trane.Graph
