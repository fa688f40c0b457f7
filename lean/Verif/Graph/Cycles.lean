import Verif.Graph.Model

/-!
# Model of the cycle check (/repo/src/graph.rs:409-520)

The iteration order of hash maps and sets is unspecified, so the order in which the keys of a map
and the members of a set are visited is a parameter (`KeyOrder`).  The `while` loop takes a fuel
argument; running out of fuel is the separate value `none`.
-/

namespace Trane.Graph
variable {ι : Type} [DecidableEq ι]

/-- The two `Err` results of /repo/src/graph.rs:411-458. -/
inductive CycleError (ι : Type)
  /-- The `bail!` in lines 440-452, with the path it reports. -/
  | cycle (path : List ι)
  /-- `check_reverse` failed. -/
  | inconsistent (u v : ι)
  deriving DecidableEq

/-- The `for neighbor_id in neighbors` loop, /repo/src/graph.rs:437-455.  `path` is stored with its
last node first; `stack` has its top first. -/
def expand (rev : ι → ι → Bool) (cur : ι) (path : List ι) :
    List ι → List (List ι) → Except (CycleError ι) (List (List ι))
  | [], stack => .ok stack
  | n :: ns, stack =>
    if rev cur n = false then .error (.inconsistent cur n)
    else if n ∈ path then .error (.cycle (n :: path).reverse)
    else expand rev cur path ns ((n :: path) :: stack)

/-- The `while let Some(path) = stack.pop()` loop, /repo/src/graph.rs:425-457.  A path on the stack
is never empty in the code; the model skips an empty one. -/
def dfs (nb : ι → Option (List ι)) (rev : ι → ι → Bool) :
    Nat → List ι → List (List ι) → Option (Except (CycleError ι) (List ι))
  | _, vis, [] => some (.ok vis)
  | 0, _, _ :: _ => none
  | fuel + 1, vis, [] :: stack => dfs nb rev fuel vis stack
  | fuel + 1, vis, (cur :: rest) :: stack =>
    if cur ∈ vis then dfs nb rev fuel vis stack
    else
      match nb cur with
      | none => dfs nb rev fuel (cur :: vis) stack
      | some ns =>
        match expand rev cur (cur :: rest) ns stack with
        | .error e => some (.error e)
        | .ok stack => dfs nb rev fuel (cur :: vis) stack

/-- The `for unit_id in graph_keys` loop of `check_graph_cycles`, /repo/src/graph.rs:411-458. -/
def checkGraph (nb : ι → Option (List ι)) (rev : ι → ι → Bool) (fuel : Nat) :
    List ι → List ι → Option (Except (CycleError ι) Unit)
  | [], _ => some (.ok ())
  | k :: ks, vis =>
    if k ∈ vis then checkGraph nb rev fuel ks vis
    else
      match dfs nb rev fuel vis [[k]] with
      | none => none
      | some (.error e) => some (.error e)
      | some (.ok vis) => checkGraph nb rev fuel ks vis

/-- An iteration order: how the keys of each map and the members of each set are enumerated.
Used in /repo/src/graph.rs:464-506. -/
structure KeyOrder (ι : Type) where
  keys : List ι → List ι
  members : ι → List ι → List ι

/-- An order enumerates everything and nothing else. -/
def KeyOrder.Valid (o : KeyOrder ι) : Prop :=
  (∀ l x, x ∈ o.keys l ↔ x ∈ l) ∧ (∀ u l x, x ∈ o.members u l ↔ x ∈ l)

/-- /repo/src/graph.rs:461-519 `check_cycles_helper` and 687-690 `check_cycles`. -/
def checkCycles (g : Graph ι) (o : KeyOrder ι) (fuel : Nat) :
    Option (Except (CycleError ι) Unit) :=
  match checkGraph (fun u => (g.getDependencies u).map (o.members u))
      (fun u d => decide (u ∈ (g.getDependents d).getD [])) fuel (o.keys g.deps.keys) [] with
  | some (.ok _) =>
    match checkGraph (fun u => (g.getSupersedes u).map (o.members u))
        (fun u d => decide (u ∈ (g.getSupersededBy d).getD [])) fuel (o.keys g.sup.keys) [] with
    | some (.ok _) =>
      checkGraph (fun u => (g.getEncompasses u).map (fun l => o.members u (l.map Prod.fst)))
        (fun u d => ((g.getEncompassedBy d).getD []).any (fun e => e.1 = u)) fuel
        (o.keys g.enc.keys) []
    | r => r
  | r => r

end Trane.Graph
