import Verif.Sched.Propagator
import Verif.Graph.Spec

/-!
# Vocabulary for the properties of reward propagation

Phrased with the queries of the unit graph only.
-/

namespace Trane.Propagator

variable {ι : Type} [DecidableEq ι]

/-- `get_encompasses(u)` (`good`) or `get_encompassed_by(u)` (not `good`) lists `v` with weight `w`. -/
def Edge (g : Graph ι) (good : Bool) (u v : ι) (w : ℚ) : Prop :=
  ∃ l, (if good then g.getEncompasses u else g.getEncompassedBy u) = some l ∧ (v, w) ∈ l

/-- A chain of `k` edges starting at `l` or `c`; `p` is the product of the weights. -/
inductive Path (g : Graph ι) (good : Bool) (l c : ι) : ι → ℚ → Nat → Prop
  | first {s v : ι} {w : ℚ} : (s = l ∨ s = c) → Edge g good s v w → Path g good l c v w 1
  | step {u v : ι} {p w : ℚ} {k : Nat} : Path g good l c u p k → Edge g good u v w →
      Path g good l c v (p * w) (k + 1)

/-- A walk of `n` steps along `R`. -/
inductive Walk (R : ι → ι → Prop) : Nat → ι → ι → Prop
  | nil (a : ι) : Walk R 0 a a
  | step {n : Nat} {a b c : ι} : Walk R n a b → R b c → Walk R (n + 1) a c

/-- `v` is `n ≥ 1` steps away from `l` or `c`, whichever is closer. -/
def Distance (R : ι → ι → Prop) (l c v : ι) (n : Nat) : Prop :=
  0 < n ∧ (Walk R n l v ∨ Walk R n c v) ∧ ∀ m, 0 < m → m < n → ¬ Walk R m l v ∧ ¬ Walk R m c v

/-- The direction rewards flow in when the encompassing relation is the dependency relation: good
scores go to dependencies, bad ones to dependents. -/
def Flows (g : Graph ι) (score : MasteryScore) : ι → ι → Prop :=
  match score with
  | .four | .five => Graph.DependsOn g
  | _ => Graph.HasDependent g

end Trane.Propagator
