import Verif.Graph.CycleProps

/-! More fuel does not change the answer of the cycle check. -/

namespace Trane.Graph
variable {ι : Type} [DecidableEq ι]

theorem dfs_mono (nb : ι → Option (List ι)) (rev : ι → ι → Bool) (fuel : Nat) (vis : List ι)
    (stack : List (List ι)) (r) (h : dfs nb rev fuel vis stack = some r) :
    dfs nb rev (fuel + 1) vis stack = some r := by
  induction fuel generalizing vis stack with
  | zero =>
    cases stack with
    | nil => simpa [dfs] using h
    | cons p stack => simp [dfs] at h
  | succ fuel ih =>
    cases stack with
    | nil => simpa [dfs] using h
    | cons p stack =>
      cases p with
      | nil => rw [dfs] at h ⊢; exact ih _ _ h
      | cons c rest =>
        rw [dfs] at h ⊢
        split
        · rename_i hv; rw [if_pos hv] at h; exact ih _ _ h
        · rename_i hv
          rw [if_neg hv] at h
          cases hn : nb c with
          | none => simp only [hn] at h ⊢; exact ih _ _ h
          | some ns =>
            simp only [hn] at h ⊢
            cases he : expand rev c (c :: rest) ns stack with
            | error e => simp only [he] at h ⊢; exact h
            | ok st => simp only [he] at h ⊢; exact ih _ _ h

theorem checkGraph_mono (nb : ι → Option (List ι)) (rev : ι → ι → Bool) (fuel : Nat)
    (ks vis : List ι) (r) (h : checkGraph nb rev fuel ks vis = some r) :
    checkGraph nb rev (fuel + 1) ks vis = some r := by
  induction ks generalizing vis with
  | nil => simpa [checkGraph] using h
  | cons k ks ih =>
    rw [checkGraph] at h ⊢
    split
    · rename_i hv; rw [if_pos hv] at h; exact ih _ h
    · rename_i hv
      rw [if_neg hv] at h
      cases hd : dfs nb rev fuel vis [[k]] with
      | none => rw [hd] at h; cases h
      | some x =>
        rw [hd] at h
        rw [dfs_mono _ _ _ _ _ _ hd]
        cases x with
        | error e => exact h
        | ok v => exact ih _ h

theorem checkCycles_mono (g : Graph ι) (o : KeyOrder ι) (fuel : Nat) (r)
    (h : g.checkCycles o fuel = some r) : g.checkCycles o (fuel + 1) = some r := by
  unfold checkCycles at h ⊢
  split at h
  · rename_i x h1
    rw [checkGraph_mono _ _ _ _ _ _ h1]
    simp only
    split at h
    · rename_i y h2
      rw [checkGraph_mono _ _ _ _ _ _ h2]
      exact checkGraph_mono _ _ _ _ _ _ h
    · rename_i hn
      rw [checkGraph_mono _ _ _ _ _ _ h]
      split
      · rename_i y hy
        exact (hn y (by rw [h]; exact hy)).elim
      · rfl
  · rename_i hn
    rw [checkGraph_mono _ _ _ _ _ _ h]
    split
    · rename_i y hy
      exact (hn y (by rw [h]; exact hy)).elim
    · rfl

theorem checkCycles_mono_le (g : Graph ι) (o : KeyOrder ι) {n m : Nat} (hnm : n ≤ m) (r)
    (h : g.checkCycles o n = some r) : g.checkCycles o m = some r := by
  induction hnm with
  | refl => exact h
  | step _ ih => exact checkCycles_mono _ _ _ _ ih

/-- An accepted graph has no cycles, whatever the fuel was. -/
theorem check_ok_acyclic (ops : List (Op ι)) (o : KeyOrder ι) (ho : o.Valid) (fuel : Nat)
    (h : (run ops).checkCycles o fuel = some (.ok ())) :
    ¬ HasCycle (DependsOn (run ops)) ∧ ¬ HasCycle (Supersedes (run ops)) ∧
      ¬ HasCycle (Encompasses (run ops)) := by
  obtain ⟨N, hN⟩ := check_cycles_exact ops o ho
  obtain ⟨r, h1, h2⟩ := hN (max N fuel) (le_max_left _ _)
  rw [checkCycles_mono_le _ _ (le_max_right N fuel) _ h] at h1
  exact h2.1 (Option.some.inj h1).symm

end Trane.Graph
