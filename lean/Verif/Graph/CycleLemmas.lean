import Verif.Graph.Cycles
import Mathlib.Logic.Relation
import Mathlib.Data.List.Chain
import Mathlib.Tactic.Linarith

/-! Correctness and termination of the depth-first cycle check (helper lemmas). -/

namespace Trane.Graph
variable {ι : Type} [DecidableEq ι]

open Relation

/-- The edge relation of a neighbour function. -/
def Edge (nb : ι → Option (List ι)) (u v : ι) : Prop := ∃ s, nb u = some s ∧ v ∈ s

variable {nb : ι → Option (List ι)} {rev : ι → ι → Bool}

/-! ### `expand` -/

theorem expand_ok {cur : ι} {path ns : List ι} {stack out : List (List ι)}
    (h : expand rev cur path ns stack = .ok out) :
    out = (ns.map (fun n => n :: path)).reverse ++ stack ∧ ∀ n ∈ ns, n ∉ path := by
  induction ns generalizing stack with
  | nil => simp only [expand] at h; injection h with h; simp [h]
  | cons n ns ih =>
    simp only [expand] at h
    split at h
    · cases h
    · split at h
      · cases h
      · rename_i hn
        obtain ⟨h1, h2⟩ := ih h
        refine ⟨by simp [h1], ?_⟩
        intro m hm
        rcases List.mem_cons.1 hm with rfl | hm
        · exact hn
        · exact h2 m hm

theorem expand_base {cur : ι} {path ns : List ι} (stack : List (List ι)) :
    expand rev cur path ns stack =
      match expand rev cur path ns [] with
      | .ok out => .ok (out ++ stack)
      | .error e => .error e := by
  suffices H : ∀ a b : List (List ι), expand rev cur path ns (a ++ b) =
      match expand rev cur path ns a with
      | .ok out => .ok (out ++ b)
      | .error e => .error e by simpa using H [] stack
  induction ns with
  | nil => intro a b; simp [expand]
  | cons n ns ih =>
    intro a b
    simp only [expand]
    split
    · rfl
    · split
      · rfl
      · rw [← List.cons_append, ih]

theorem expand_error {cur : ι} {path ns : List ι} {stack : List (List ι)} {e : CycleError ι}
    (h : expand rev cur path ns stack = .error e) :
    (∃ n ∈ ns, rev cur n = false ∧ e = .inconsistent cur n) ∨
    (∃ n ∈ ns, n ∈ path ∧ e = .cycle (n :: path).reverse) := by
  induction ns generalizing stack with
  | nil => simp [expand] at h
  | cons n ns ih =>
    simp only [expand] at h
    split at h
    · rename_i hr
      injection h with h
      exact Or.inl ⟨n, by simp, hr, h.symm⟩
    · split at h
      · rename_i hn
        injection h with h
        exact Or.inr ⟨n, by simp, hn, h.symm⟩
      · rcases ih h with ⟨m, hm, h'⟩ | ⟨m, hm, h'⟩
        · exact Or.inl ⟨m, List.mem_cons_of_mem _ hm, h'⟩
        · exact Or.inr ⟨m, List.mem_cons_of_mem _ hm, h'⟩

/-! ### `dfs` -/

/-- Unfolding of one successful iteration. -/
theorem dfs_cons_ok {fuel : Nat} {vis vis' : List ι} {p : List ι} {B : List (List ι)}
    (h : dfs nb rev (fuel + 1) vis (p :: B) = some (.ok vis')) :
    (dfs nb rev fuel vis B = some (.ok vis') ∧ (p = [] ∨ ∃ c r, p = c :: r ∧ c ∈ vis)) ∨
    (∃ c r ns, p = c :: r ∧ c ∉ vis ∧ (nb c).getD [] = ns ∧ (∀ n ∈ ns, n ∉ c :: r) ∧
      dfs nb rev fuel (c :: vis) ((ns.map (fun n => n :: c :: r)).reverse ++ B) =
        some (.ok vis')) := by
  cases p with
  | nil => exact Or.inl ⟨h, Or.inl rfl⟩
  | cons c r =>
    simp only [dfs] at h
    split at h
    · rename_i hc; exact Or.inl ⟨h, Or.inr ⟨c, r, rfl, hc⟩⟩
    · rename_i hc
      right
      cases hn : nb c with
      | none =>
        simp only [hn] at h
        exact ⟨c, r, [], rfl, hc, by simp [hn], by simp, by simpa using h⟩
      | some ns =>
        simp only [hn] at h
        split at h
        · cases h
        · rename_i s he
          obtain ⟨h1, h2⟩ := expand_ok he
          subst h1
          exact ⟨c, r, ns, rfl, hc, by simp [hn], h2, h⟩

/-- The stack discipline: the part above `B` is finished before `B` is touched. -/
theorem dfs_split {fuel : Nat} {vis vis' : List ι} {A B : List (List ι)}
    (h : dfs nb rev fuel vis (A ++ B) = some (.ok vis')) :
    ∃ f1 f2 mid, dfs nb rev f1 vis A = some (.ok mid) ∧ dfs nb rev f2 mid B = some (.ok vis') := by
  induction fuel generalizing vis A with
  | zero =>
    cases A with
    | nil => exact ⟨0, 0, vis, by simp [dfs], h⟩
    | cons p A => simp [dfs] at h
  | succ fuel ih =>
    cases A with
    | nil => exact ⟨0, fuel + 1, vis, by simp [dfs], h⟩
    | cons p A =>
      cases p with
      | nil =>
        simp only [List.cons_append, dfs] at h
        obtain ⟨f1, f2, mid, h1, h2⟩ := ih h
        exact ⟨f1 + 1, f2, mid, by simpa [dfs] using h1, h2⟩
      | cons c r =>
        simp only [List.cons_append, dfs] at h
        split at h
        · rename_i hc
          obtain ⟨f1, f2, mid, h1, h2⟩ := ih h
          exact ⟨f1 + 1, f2, mid, by simpa [dfs, hc] using h1, h2⟩
        · rename_i hc
          cases hn : nb c with
          | none =>
            simp only [hn] at h
            obtain ⟨f1, f2, mid, h1, h2⟩ := ih h
            exact ⟨f1 + 1, f2, mid, by simpa [dfs, hc, hn] using h1, h2⟩
          | some ns =>
            simp only [hn] at h
            split at h
            · cases h
            · rename_i s he
              have he' := he
              rw [expand_base] at he'
              split at he'
              · rename_i out ho
                injection he' with he'
                subst he'
                have e2 : expand rev c (c :: r) ns A = .ok (out ++ A) := by
                  rw [expand_base, ho]
                rw [← List.append_assoc] at h
                obtain ⟨f1, f2, mid, h1, h2⟩ := ih h
                refine ⟨f1 + 1, f2, mid, ?_, h2⟩
                simp only [dfs, hc, if_false, hn, e2]
                exact h1
              · cases he'

/-- Nodes visited below `X` do not have `X` as a neighbour. -/
theorem dfs_no_back_edge {fuel : Nat} {vis vis' : List ι} {A : List (List ι)} {X : ι}
    (h : dfs nb rev fuel vis A = some (.ok vis')) (hX : ∀ p ∈ A, X ∈ p) :
    ∀ z ∈ vis', z ∉ vis → ¬ Edge nb z X := by
  induction fuel generalizing vis A with
  | zero =>
    cases A with
    | nil => simp only [dfs] at h; injection h with h; injection h with h; subst h
             intro z hz hz'; exact (hz' hz).elim
    | cons p A => simp [dfs] at h
  | succ fuel ih =>
    cases A with
    | nil => simp only [dfs] at h; injection h with h; injection h with h; subst h
             intro z hz hz'; exact (hz' hz).elim
    | cons p A =>
      rcases dfs_cons_ok h with ⟨h, -⟩ | ⟨c, r, ns, rfl, hc, hn, hns, h⟩
      · exact ih h (fun q hq => hX q (List.mem_cons_of_mem _ hq))
      · intro z hz hzv
        by_cases hzc : z = c
        · subst hzc
          rintro ⟨s, hs, hXs⟩
          rw [hs] at hn
          simp only [Option.getD_some] at hn
          subst hn
          exact hns X hXs (hX _ (by simp))
        · refine ih h ?_ z hz (by simp [hzc, hzv])
          intro q hq
          rw [List.mem_append, List.mem_reverse, List.mem_map] at hq
          rcases hq with ⟨n, _, rfl⟩ | hq
          · exact List.mem_cons_of_mem _ (hX _ (by simp))
          · exact hX q (List.mem_cons_of_mem _ hq)

/-- Closure: visited nodes are kept, the end of every path is visited, and the neighbours of newly
visited nodes are visited. -/
theorem dfs_closure {fuel : Nat} {vis vis' : List ι} {A : List (List ι)}
    (h : dfs nb rev fuel vis A = some (.ok vis')) :
    (∀ z ∈ vis, z ∈ vis') ∧ (∀ c r, c :: r ∈ A → c ∈ vis') ∧
    (∀ z ∈ vis', z ∉ vis → ∀ n, Edge nb z n → n ∈ vis') := by
  induction fuel generalizing vis A with
  | zero =>
    cases A with
    | nil => simp only [dfs] at h; injection h with h; injection h with h; subst h
             exact ⟨fun _ h => h, by simp, fun z hz hz' => (hz' hz).elim⟩
    | cons p A => simp [dfs] at h
  | succ fuel ih =>
    cases A with
    | nil => simp only [dfs] at h; injection h with h; injection h with h; subst h
             exact ⟨fun _ h => h, by simp, fun z hz hz' => (hz' hz).elim⟩
    | cons p A =>
      rcases dfs_cons_ok h with ⟨h, hp⟩ | ⟨c, r, ns, rfl, hc, hn, hns, h⟩
      · obtain ⟨i1, i2, i3⟩ := ih h
        refine ⟨i1, ?_, i3⟩
        intro c r hm
        rcases List.mem_cons.1 hm with hm | hm
        · rcases hp with rfl | ⟨c', r', rfl, hc⟩
          · cases hm
          · injection hm with a b; subst a; exact i1 c hc
        · exact i2 c r hm
      · obtain ⟨i1, i2, i3⟩ := ih h
        refine ⟨fun z hz => i1 z (List.mem_cons_of_mem _ hz), ?_, ?_⟩
        · intro c' r' hm
          rcases List.mem_cons.1 hm with hm | hm
          · injection hm with a b; subst a; exact i1 c' (by simp)
          · exact i2 c' r' (List.mem_append_right _ hm)
        · intro z hz hzv n hzn
          by_cases hzc : z = c
          · subst hzc
            obtain ⟨s, hs, hns'⟩ := hzn
            rw [hs] at hn
            simp only [Option.getD_some] at hn
            subst hn
            refine i2 n (z :: r) ?_
            rw [List.mem_append, List.mem_reverse, List.mem_map]
            exact Or.inl ⟨n, hns', rfl⟩
          · exact i3 z hz (by simp [hzc, hzv]) n hzn

/-- A successful search visits no node of a strongly connected component that was entirely
unvisited and contains a cycle. -/
theorem dfs_no_cycle {fuel : Nat} {vis vis' : List ι} {A : List (List ι)} {u : ι}
    (hu : TransGen (Edge nb) u u)
    (hC : ∀ x, ReflTransGen (Edge nb) u x → ReflTransGen (Edge nb) x u → x ∉ vis)
    (h : dfs nb rev fuel vis A = some (.ok vis')) :
    ∀ x, ReflTransGen (Edge nb) u x → ReflTransGen (Edge nb) x u → x ∉ vis' := by
  induction fuel generalizing vis A with
  | zero =>
    cases A with
    | nil => simp only [dfs] at h; injection h with h; injection h with h; subst h; exact hC
    | cons p A => simp [dfs] at h
  | succ fuel ih =>
    cases A with
    | nil => simp only [dfs] at h; injection h with h; injection h with h; subst h; exact hC
    | cons p A =>
      rcases dfs_cons_ok h with ⟨h, -⟩ | ⟨c, r, ns, rfl, hc, hn, hns, h⟩
      · exact ih hC h
      · by_cases hcC : ReflTransGen (Edge nb) u c ∧ ReflTransGen (Edge nb) c u
        · exfalso
          obtain ⟨huc, hcu⟩ := hcC
          obtain ⟨f1, f2, mid, h1, -⟩ := dfs_split h
          have hback := dfs_no_back_edge (X := c) h1 (by
            intro q hq
            rw [List.mem_reverse, List.mem_map] at hq
            obtain ⟨n, _, rfl⟩ := hq
            simp)
          obtain ⟨k1, k2, k3⟩ := dfs_closure h1
          -- every member of the component reachable from `c` is visited in this frame
          have hreach : ∀ z, ReflTransGen (Edge nb) c z → ReflTransGen (Edge nb) z c → z ∈ mid := by
            intro z hz
            induction hz with
            | refl => intro _; exact k1 c (by simp)
            | @tail y z hcy hyz ihy =>
              intro hzc
              have hy := ihy (ReflTransGen.head hyz hzc)
              by_cases hyc : y = c
              · subst hyc
                obtain ⟨s, hs, hzs⟩ := hyz
                rw [hs] at hn
                simp only [Option.getD_some] at hn
                subst hn
                refine k2 z (y :: r) ?_
                rw [List.mem_reverse, List.mem_map]
                exact ⟨z, hzs, rfl⟩
              · have hyvis : y ∉ vis :=
                  hC y (huc.trans hcy) ((ReflTransGen.head hyz hzc).trans hcu)
                exact k3 y hy (by simp [hyc, hyvis]) z hyz
          -- the predecessor of `c` on a cycle
          have hcc : TransGen (Edge nb) c c :=
            (TransGen.trans_right hcu hu).trans_left huc
          obtain ⟨z, hcz, hzc⟩ := TransGen.tail'_iff.1 hcc
          have hz := hreach z hcz (ReflTransGen.single hzc)
          by_cases hzc' : z = c
          · subst hzc'
            obtain ⟨s, hs, hzs⟩ := hzc
            rw [hs] at hn
            simp only [Option.getD_some] at hn
            subst hn
            exact hns z hzs (by simp)
          · have hzvis : z ∉ vis := hC z (huc.trans hcz) ((ReflTransGen.single hzc).trans hcu)
            exact hback z hz (by simp [hzc', hzvis]) hzc
        · refine ih ?_ h
          intro x hux hxu
          rw [List.mem_cons, not_or]
          refine ⟨?_, hC x hux hxu⟩
          rintro rfl
          exact hcC ⟨hux, hxu⟩

/-! ### The loop over the keys -/

theorem checkGraph_ok {fuel : Nat} {ks vis : List ι}
    (hcl : ∀ z ∈ vis, ∀ n, Edge nb z n → n ∈ vis)
    (hac : ∀ z ∈ vis, ¬ TransGen (Edge nb) z z)
    (h : checkGraph nb rev fuel ks vis = some (.ok ())) :
    ∀ z ∈ ks, ¬ TransGen (Edge nb) z z := by
  induction ks generalizing vis with
  | nil => simp
  | cons k ks ih =>
    simp only [checkGraph] at h
    split at h
    · rename_i hk
      intro z hz
      rcases List.mem_cons.1 hz with rfl | hz
      · exact hac z hk
      · exact ih hcl hac h z hz
    · split at h
      · cases h
      · cases h
      · rename_i vis' hd
        obtain ⟨c1, c2, c3⟩ := dfs_closure hd
        have hreach : ∀ z ∈ vis, ∀ x, ReflTransGen (Edge nb) z x → x ∈ vis := by
          intro z hz x hx
          induction hx with
          | refl => exact hz
          | tail _ hyz ihy => exact hcl _ ihy _ hyz
        have hac' : ∀ z ∈ vis', ¬ TransGen (Edge nb) z z := by
          intro z hz hzz
          by_cases hzv : z ∈ vis
          · exact hac z hzv hzz
          · refine dfs_no_cycle hzz ?_ hd z ReflTransGen.refl ReflTransGen.refl hz
            intro x _ hxz hxv
            exact hzv (hreach x hxv z hxz)
        have hcl' : ∀ z ∈ vis', ∀ n, Edge nb z n → n ∈ vis' := by
          intro z hz n hn
          by_cases hzv : z ∈ vis
          · exact c1 n (hcl z hzv n hn)
          · exact c3 z hz hzv n hn
        intro z hz
        rcases List.mem_cons.1 hz with rfl | hz
        · exact hac' z (c2 z [] (by simp))
        · exact ih hcl' hac' h z hz

/-! ### Errors are genuine -/

/-- A path stored last-node-first that follows edges. -/
def IsPath (nb : ι → Option (List ι)) (p : List ι) : Prop := List.IsChain (fun a b => Edge nb b a) p

theorem dfs_error {fuel : Nat} {vis : List ι} {A : List (List ι)} {e : CycleError ι}
    (hA : ∀ p ∈ A, IsPath nb p) (h : dfs nb rev fuel vis A = some (.error e)) :
    (∃ u v, Edge nb u v ∧ rev u v = false ∧ e = .inconsistent u v) ∨
    (∃ n p, IsPath nb (n :: p) ∧ n ∈ p ∧ e = .cycle (n :: p).reverse) := by
  induction fuel generalizing vis A with
  | zero => cases A <;> simp [dfs] at h
  | succ fuel ih =>
    cases A with
    | nil => simp [dfs] at h
    | cons p A =>
      have hA' : ∀ p ∈ A, IsPath nb p := fun q hq => hA q (List.mem_cons_of_mem _ hq)
      cases p with
      | nil => simp only [dfs] at h; exact ih hA' h
      | cons c r =>
        have hp := hA (c :: r) (by simp)
        simp only [dfs] at h
        split at h
        · exact ih hA' h
        · cases hn : nb c with
          | none => simp only [hn] at h; exact ih hA' h
          | some ns =>
            simp only [hn] at h
            split at h
            · rename_i e' he
              injection h with h
              injection h with h
              subst h
              rcases expand_error he with ⟨n, hm, hr, rfl⟩ | ⟨n, hm, hr, rfl⟩
              · exact Or.inl ⟨c, n, ⟨ns, hn, hm⟩, hr, rfl⟩
              · refine Or.inr ⟨n, c :: r, ?_, hr, rfl⟩
                exact List.IsChain.cons_cons ⟨ns, hn, hm⟩ hp
            · rename_i s he
              refine ih ?_ h
              obtain ⟨h1, -⟩ := expand_ok he
              subst h1
              intro q hq
              rw [List.mem_append, List.mem_reverse, List.mem_map] at hq
              rcases hq with ⟨n, hm, rfl⟩ | hq
              · exact List.IsChain.cons_cons ⟨ns, hn, hm⟩ hp
              · exact hA' q hq

theorem checkGraph_error {fuel : Nat} {ks vis : List ι} {e : CycleError ι}
    (h : checkGraph nb rev fuel ks vis = some (.error e)) :
    (∃ u v, Edge nb u v ∧ rev u v = false ∧ e = .inconsistent u v) ∨
    (∃ n p, IsPath nb (n :: p) ∧ n ∈ p ∧ e = .cycle (n :: p).reverse) := by
  induction ks generalizing vis with
  | nil => simp [checkGraph] at h
  | cons k ks ih =>
    simp only [checkGraph] at h
    split at h
    · exact ih h
    · split at h
      · cases h
      · rename_i e' hd
        injection h with h; injection h with h; subst h
        exact dfs_error (by simp [IsPath]) hd
      · exact ih h

omit [DecidableEq ι] in
/-- A path whose last node occurs earlier contains a cycle. -/
theorem cycle_of_path {n : ι} {p : List ι} (h : IsPath nb (n :: p)) (hn : n ∈ p) :
    TransGen (Edge nb) n n := by
  have key : ∀ (q : List ι) (a : ι), IsPath nb (a :: q) → ∀ x ∈ q, TransGen (Edge nb) x a := by
    intro q
    induction q with
    | nil => simp
    | cons b q ih =>
      intro a ha x hx
      have hba : Edge nb b a := (List.isChain_cons_cons.1 ha).1
      have hb : IsPath nb (b :: q) := (List.isChain_cons_cons.1 ha).2
      rcases List.mem_cons.1 hx with rfl | hx
      · exact TransGen.single hba
      · exact (ih b hb x hx).tail hba
  exact key p n h n hn

/-! ### Termination -/

/-- Number of edges leaving the unvisited keys. -/
def remaining (nb : ι → Option (List ι)) (K vis : List ι) : Nat :=
  ((K.filter (fun k => k ∉ vis)).map (fun k => ((nb k).getD []).length)).sum

theorem remaining_cons_le (K vis : List ι) (c : ι) :
    remaining nb K (c :: vis) ≤ remaining nb K vis := by
  induction K with
  | nil => simp [remaining]
  | cons k K ih =>
    simp only [remaining, List.filter_cons] at *
    by_cases h1 : k ∈ vis
    · simpa [h1] using ih
    · by_cases h2 : k = c
      · subst h2; simp [h1] at *; omega
      · simp [h1, h2] at *; omega

theorem remaining_cons (K vis : List ι) (c : ι) (hK : c ∈ K) (hc : c ∉ vis) :
    remaining nb K (c :: vis) + ((nb c).getD []).length ≤ remaining nb K vis := by
  induction K with
  | nil => simp at hK
  | cons k K ih =>
    by_cases h2 : k = c
    · subst h2
      have := remaining_cons_le (nb := nb) K vis k
      simp only [remaining, List.filter_cons] at *
      simp [hc] at *; omega
    · have ih := ih (by simpa [Ne.symm h2] using hK)
      simp only [remaining, List.filter_cons] at *
      by_cases h1 : k ∈ vis
      · simpa [h1] using ih
      · simp [h1, h2] at *; omega

theorem expand_length {cur : ι} {path ns : List ι} {stack out : List (List ι)}
    (h : expand rev cur path ns stack = .ok out) : out.length = ns.length + stack.length := by
  obtain ⟨rfl, -⟩ := expand_ok h; simp

theorem dfs_terminates (K : List ι) (hK : ∀ u s, nb u = some s → u ∈ K) (fuel : Nat)
    (vis : List ι) (A : List (List ι)) (hf : A.length + remaining nb K vis ≤ fuel) :
    dfs nb rev fuel vis A ≠ none := by
  induction fuel generalizing vis A with
  | zero => cases A <;> simp [dfs] at *
  | succ fuel ih =>
    cases A with
    | nil => simp [dfs]
    | cons p A =>
      simp only [List.length_cons] at hf
      cases p with
      | nil => simp only [dfs]; exact ih _ _ (by omega)
      | cons c r =>
        simp only [dfs]
        split
        · exact ih _ _ (by omega)
        · rename_i hc
          have hle := remaining_cons_le (nb := nb) K vis c
          cases hn : nb c with
          | none => exact ih _ _ (by omega)
          | some ns =>
            simp only
            split
            · simp
            · rename_i s he
              have h1 := expand_length he
              have h2 := remaining_cons (nb := nb) K vis c (hK c ns hn) hc
              rw [hn] at h2
              simp only [Option.getD_some] at h2
              exact ih _ _ (by omega)

theorem remaining_le_nil (K vis : List ι) : remaining nb K vis ≤ remaining nb K [] := by
  induction vis with
  | nil => exact Nat.le_refl _
  | cons c vis ih => exact Nat.le_trans (remaining_cons_le K vis c) ih

theorem checkGraph_terminates (K : List ι) (hK : ∀ u s, nb u = some s → u ∈ K) (fuel : Nat)
    (ks vis : List ι) (hf : 1 + remaining nb K [] ≤ fuel) :
    checkGraph nb rev fuel ks vis ≠ none := by
  induction ks generalizing vis with
  | nil => simp [checkGraph]
  | cons k ks ih =>
    simp only [checkGraph]
    split
    · exact ih _
    · have := dfs_terminates (rev := rev) K hK fuel vis [[k]]
        (by have := remaining_le_nil (nb := nb) K vis; simp; omega)
      split
      · contradiction
      · simp
      · exact ih _

/-- Exactness of one check, for a consistent pair of relations. -/
theorem checkGraph_exact (keys : List ι) (hK : ∀ u s, nb u = some s → s ≠ [] → u ∈ keys)
    (hrev : ∀ u v, Edge nb u v → rev u v = true) (fuel : Nat)
    (hne : checkGraph nb rev fuel keys [] ≠ none) :
    checkGraph nb rev fuel keys [] = some (.ok ()) ↔ ∀ u, ¬ TransGen (Edge nb) u u := by
  constructor
  · intro h u hu
    have hk : u ∈ keys := by
      obtain ⟨v, ⟨s, hs, hv⟩, _⟩ := TransGen.head'_iff.1 hu
      exact hK u s hs (by rintro rfl; simp at hv)
    exact checkGraph_ok (by simp) (by simp) h u hk hu
  · intro h
    cases hr : checkGraph nb rev fuel keys [] with
    | none => exact (hne hr).elim
    | some r =>
      cases r with
      | ok v => rfl
      | error e =>
        rcases checkGraph_error hr with ⟨u, v, huv, hf, _⟩ | ⟨n, p, hp, hn, _⟩
        · rw [hrev u v huv] at hf; cases hf
        · exact (h n (cycle_of_path hp hn)).elim

end Trane.Graph
