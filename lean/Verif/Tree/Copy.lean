import Verif.Tree.MovedPractice
import Verif.Bench.Model

/-!
# C102: the benchmark works on copies of the library

Models `copy_library_dir` and the threads of `run_benchmark`, /repo/src/benchmark.rs:194-208 and 349-382.  A directory is
there if there is something in it, so making directories does nothing.  Every file can be read and written.
-/

namespace Trane.Tree
open Trane.Store (Str)
open Trane.Library (Path)
open Trane.Assets (isAbsolute)

/-! ### Model -/

/-- `std::fs::copy` of a file found below `src` to the same place below `dst`, /repo/src/benchmark.rs:197-204. -/
def copyFile (src dst : Path) (t : Tree) (k : Path) : Tree :=
  match t.find k with
  | some c => t.put (dst ++ k.drop src.length) c
  | none => t

/-- `copy_library_dir`, /repo/src/benchmark.rs:194-208; `order` is the order in which `WalkDir` returns the files. -/
def copyLibrary (order : List Path → List Path) (src dst : Path) (t : Tree) : Tree :=
  (order (t.keys.filter (fun k => src.isPrefixOf k))).foldl (copyFile src dst) t

/-- The errors of the benchmark: one that a student returned, or the message that the thread of a profile panicked,
/repo/src/benchmark.rs:358-372. -/
inductive Fault (ε : Type)
  | returned (e : ε)
  | panicked (profile : Fin 5)

/-- `join().map_err(..).and_then(|r| r)`, /repo/src/benchmark.rs:358-372; `none` is a panic. -/
def joined {ρ ε : Type} (i : Fin 5) : Option (Except ε ρ) → Except (Fault ε) ρ
  | none => .error (.panicked i)
  | some (.error e) => .error (.returned e)
  | some (.ok r) => .ok r

/-- `run_benchmark`, /repo/src/benchmark.rs:349-382, given how each of the five threads ends.  The profiles are in the order
in which they are listed there. -/
def runBenchmark {ρ ε : Type} (ends : Fin 5 → Option (Except ε ρ)) : Except (Fault ε) (Fin 5 → ρ) := do
  let a ← joined 0 (ends 0)
  let b ← joined 1 (ends 1)
  let c ← joined 2 (ends 2)
  let d ← joined 3 (ends 3)
  let e ← joined 4 (ends 4)
  return fun i => match i with | 0 => a | 1 => b | 2 => c | 3 => d | 4 => e

/-! ### Specification -/

/-- Neither directory is in the other. -/
def Apart (p q : Path) : Prop := ¬ p <+: q ∧ ¬ q <+: p

/-- The two file systems have the same files below the directory. -/
def SameBelow (p : Path) (t t' : Tree) : Prop := ∀ q, t.find (p ++ q) = t'.find (p ++ q)

/-- What a thread does in one step to the files: it depends only on the files below `src` and below its own directory, and
changes only the latter. -/
structure Local (src own : Path) (f : Tree → Tree) : Prop where
  reads : ∀ t t', SameBelow src t t' → SameBelow own t t' → SameBelow own (f t) (f t')
  writes : ∀ t k, ¬ own <+: k → (f t).find k = t.find k

/-- The list is made of the given lists, one for each thread, each in its order. -/
inductive Interleaved {ι σ : Type} [DecidableEq ι] : (ι → List σ) → List (ι × σ) → Prop
  | done : Interleaved (fun _ => []) []
  | step {threads : ι → List σ} {l : List (ι × σ)} (i : ι) (f : σ) (fs : List σ) :
      threads i = f :: fs → Interleaved (Function.update threads i fs) l → Interleaved threads ((i, f) :: l)

/-! ### Lemmas -/

theorem apart_append {p q a b : Path} (h : Apart p q) : p ++ a ≠ q ++ b := by
  intro e
  rcases List.append_eq_append_iff.mp e with ⟨c, h1, _⟩ | ⟨c, h1, _⟩
  · exact h.1 ⟨c, h1.symm⟩
  · exact h.2 ⟨c, h1.symm⟩

theorem apart_not_prefix {p q a : Path} (h : Apart p q) : ¬ q <+: p ++ a := by
  rintro ⟨b, e⟩
  exact apart_append h e.symm

theorem copyFile_find (src dst : Path) (t : Tree) (k x : Path) :
    (copyFile src dst t k).find x = if (t.find k).isSome = true ∧ dst ++ k.drop src.length = x then t.find k else t.find x := by
  unfold copyFile
  cases h : t.find k with
  | none => simp
  | some c => rw [AMap.find_put]; simp

theorem copy_fold (src dst : Path) (hd : Apart src dst) (t : Tree) (ks : List Path) (hks : ∀ k ∈ ks, src <+: k ∧ k ∈ t.keys) :
    ∀ t' : Tree, SameBelow src t' t →
      (∀ x, ¬ dst <+: x → (ks.foldl (copyFile src dst) t').find x = t'.find x) ∧
      ∀ q, (ks.foldl (copyFile src dst) t').find (dst ++ q) = if src ++ q ∈ ks then t.find (src ++ q) else t'.find (dst ++ q) := by
  induction ks with
  | nil => intro t' _; exact ⟨fun _ _ => rfl, fun q => by simp⟩
  | cons k ks ih =>
    intro t' ht
    obtain ⟨⟨a, rfl⟩, hk⟩ := hks k (by simp)
    obtain ⟨c, hc⟩ := (AMap.mem_keys_iff _ _).mp hk
    have hc' : t'.find (src ++ a) = some c := (ht a).trans hc
    have hdrop : (src ++ a).drop src.length = a := by simp
    have hother : ∀ x, ¬ dst <+: x → (copyFile src dst t' (src ++ a)).find x = t'.find x := by
      intro x hx
      rw [copyFile_find, if_neg]
      rintro ⟨-, e⟩
      exact hx ⟨_, e⟩
    obtain ⟨h1, h2⟩ := ih (fun k hk => hks k (List.mem_cons_of_mem _ hk)) (copyFile src dst t' (src ++ a))
      (fun q => (hother _ (apart_not_prefix hd)).trans (ht q))
    refine ⟨fun x hx => ?_, fun q => ?_⟩
    · rw [List.foldl_cons, h1 x hx, hother x hx]
    · rw [List.foldl_cons, h2]
      by_cases hq : src ++ q ∈ ks
      · rw [if_pos hq, if_pos (List.mem_cons_of_mem _ hq)]
      · rw [if_neg hq, copyFile_find, hdrop, hc']
        by_cases e : a = q
        · subst e
          rw [if_pos (by simp), if_pos (by simp), hc]
        · rw [if_neg (by simp [e]), if_neg]
          simp [hq, Ne.symm e]

/-! ### Theorems -/

/-- **C102, the copy.**  Afterwards every file of the library, those in `.trane` with the grades and the preferences
included, is at the same place below the destination; there is nothing else there but what was there before; and no
other file has changed, in particular none of the library. -/
theorem copy_exact (order : List Path → List Path) (ho : ∀ l, (order l).Perm l) (src dst : Path) (hd : Apart src dst)
    (t : Tree) :
    (∀ q c, t.find (src ++ q) = some c → (copyLibrary order src dst t).find (dst ++ q) = some c) ∧
    (∀ q, t.find (src ++ q) = none → (copyLibrary order src dst t).find (dst ++ q) = t.find (dst ++ q)) ∧
    ∀ x, ¬ dst <+: x → (copyLibrary order src dst t).find x = t.find x := by
  have hks : ∀ k, k ∈ order (t.keys.filter (fun k => src.isPrefixOf k)) ↔ src <+: k ∧ k ∈ t.keys := fun k => by
    rw [(ho _).mem_iff, List.mem_filter, List.isPrefixOf_iff_prefix, and_comm]
  obtain ⟨h1, h2⟩ := copy_fold src dst hd t _ (fun k hk => (hks k).mp hk) t (fun _ => rfl)
  refine ⟨fun q c hc => ?_, fun q hq => ?_, h1⟩
  · unfold copyLibrary
    rw [h2, if_pos ((hks _).mpr ⟨List.prefix_append _ _, (AMap.mem_keys_iff _ _).mpr ⟨c, hc⟩⟩), hc]
  · unfold copyLibrary
    rw [h2, if_neg]
    intro hm
    obtain ⟨c, hc⟩ := (AMap.mem_keys_iff _ _).mp ((hks _).mp hm).2
    rw [hq] at hc
    cases hc

/-- **C102, the copy is the library.**  A machine that opens the copy, made in a directory in which nothing was, opens the
same library as the original. -/
theorem copy_moves {F : Type} {M M' : Machine F} {order : List Path → List Path} (ho : ∀ l, (order l).Perm l)
    {src dst : Path} (hd : Apart src dst) (hempty : ∀ k ∈ M.tree.keys, ¬ dst <+: k)
    (htree : M'.tree = copyLibrary order src dst M.tree) (hhome : M.home = some src) (hhome' : M'.home = some dst)
    (ha : isAbsolute M.libraryRoot = true) (ha' : isAbsolute M'.libraryRoot = true) (hdir : isDir M.tree src = true)
    (hw : ∀ dir, M'.walk dir = M.walk dir) (hn : ∀ p, M'.names (dst ++ p) = M.names (src ++ p))
    (hf : M'.floats = M.floats) (hv : M'.val = M.val) : Moved M M' src dst := by
  obtain ⟨h1, h2, _⟩ := copy_exact order ho src dst hd M.tree
  have hsame : ∀ p, M'.tree.find (dst ++ p) = M.tree.find (src ++ p) := by
    intro p
    rw [htree]
    cases hc : M.tree.find (src ++ p) with
    | some c => exact h1 p c hc
    | none =>
      rw [h2 p hc]
      cases hx : M.tree.find (dst ++ p) with
      | none => rfl
      | some c => exact absurd (List.prefix_append dst p) (hempty _ (key_of_find hx))
  refine ⟨hhome, hhome', ha, ha', hdir, ?_, hsame, hw, hn, hf, hv⟩
  have hsrc : src ≠ [] := fun e => hd.1 (e ▸ List.nil_prefix)
  rw [isDir_iff] at hdir ⊢
  rcases hdir with e | ⟨n, k, hk, ⟨a, rfl⟩⟩
  · exact absurd e hsrc
  · obtain ⟨c, hc⟩ := (AMap.mem_keys_iff _ _).mp hk
    rw [List.append_assoc] at hc
    have := (hsame ([n] ++ a)).trans hc
    exact .inr ⟨n, _, key_of_find this, by rw [← List.append_assoc]; exact List.prefix_append _ _⟩

/-- Copying is local to the destination. -/
theorem copyFile_local (src dst : Path) (a : Path) : Local src dst (fun t => copyFile src dst t (src ++ a)) where
  reads t t' hs ho q := by
    have hdrop : (src ++ a).drop src.length = a := by simp
    simp only [copyFile_find, hdrop, hs a, ho q]
  writes t k hk := by
    rw [copyFile_find, if_neg]
    rintro ⟨-, e⟩
    exact hk ⟨_, e⟩

/-- **C102, the students.**  Each thread copies the library to a directory of its own and then changes files only there.
However the steps of the threads are interleaved, the library is unchanged, and each thread ends with the files it would
have had if it had run alone. -/
theorem students_apart {ι : Type} [DecidableEq ι] (src : Path) (own : ι → Path) (hsrc : ∀ i, Apart src (own i))
    (hown : ∀ i j, i ≠ j → Apart (own i) (own j)) {threads : ι → List (Tree → Tree)}
    (hl : ∀ i, ∀ f ∈ threads i, Local src (own i) f) {l : List (ι × (Tree → Tree))} (h : Interleaved threads l) (t : Tree) :
    SameBelow src (l.foldl (fun t s => s.2 t) t) t ∧
    ∀ i, SameBelow (own i) (l.foldl (fun t s => s.2 t) t) ((threads i).foldl (fun t f => f t) t) := by
  have key : ∀ {threads : ι → List (Tree → Tree)} {l : List (ι × (Tree → Tree))}, Interleaved threads l →
      (∀ i, ∀ f ∈ threads i, Local src (own i) f) → ∀ (t : Tree) (s : ι → Tree), (∀ i, SameBelow src t (s i)) →
      (∀ i, SameBelow (own i) t (s i)) →
      SameBelow src (l.foldl (fun t s => s.2 t) t) t ∧
      ∀ i, SameBelow (own i) (l.foldl (fun t s => s.2 t) t) ((threads i).foldl (fun t f => f t) (s i)) := by
    intro threads l h
    induction h with
    | done => intro _ t s _ h2; exact ⟨fun _ => rfl, h2⟩
    | @step threads l i f fs e _ ih =>
      intro hl t s h1 h2
      have hf : Local src (own i) f := hl i f (by rw [e]; simp)
      have hft : SameBelow src (f t) t := fun q => hf.writes t _ (apart_not_prefix (hsrc i))
      have hfs : SameBelow src (f (s i)) (s i) := fun q => hf.writes _ _ (apart_not_prefix (hsrc i))
      obtain ⟨a, b⟩ := ih (fun j g hg => by
          by_cases hj : j = i
          · subst hj
            rw [Function.update_self] at hg
            exact hl j g (by rw [e]; exact List.mem_cons_of_mem _ hg)
          · rw [Function.update_of_ne hj] at hg
            exact hl j g hg)
        (f t) (Function.update s i (f (s i))) (fun j q => by
          by_cases hj : j = i
          · subst hj; rw [Function.update_self, hft q, hfs q, h1 j q]
          · rw [Function.update_of_ne hj, hft q, h1 j q]) (fun j => by
          by_cases hj : j = i
          · subst hj; rw [Function.update_self]; exact hf.reads t (s j) (h1 j) (h2 j)
          · rw [Function.update_of_ne hj]
            intro q
            rw [hf.writes t _ (apart_not_prefix (hown j i hj)), h2 j q])
      refine ⟨fun q => (a q).trans (hft q), fun j => ?_⟩
      have := b j
      by_cases hj : j = i
      · subst hj
        rw [Function.update_self, Function.update_self] at this
        rw [e]
        exact this
      · rw [Function.update_of_ne hj, Function.update_of_ne hj] at this
        exact this
  exact key h hl t (fun _ => t) (fun _ _ => rfl) (fun _ _ => rfl)

/-- The thread of a profile failed with the error. -/
def FailsWith {ρ ε : Type} (ends : Fin 5 → Option (Except ε ρ)) (i : Fin 5) : Fault ε → Prop
  | .returned e => ends i = some (.error e)
  | .panicked j => j = i ∧ ends i = none

theorem joined_ok {ρ ε : Type} (i : Fin 5) (x : Option (Except ε ρ)) (r : ρ) : joined i x = .ok r ↔ x = some (.ok r) := by
  rcases x with _ | (_ | _) <;> simp [joined]

theorem joined_error {ρ ε : Type} (ends : Fin 5 → Option (Except ε ρ)) (i : Fin 5) (e : Fault ε) :
    joined i (ends i) = .error e ↔ FailsWith ends i e := by
  rcases h : ends i with _ | (_ | _) <;> cases e <;> simp [joined, FailsWith, h, eq_comm]

/-- **C102, the report.**  The benchmark succeeds exactly if all five students do, with the result of each; otherwise it
reports the error, or the panic, of the first profile that failed. -/
theorem benchmark_report {ρ ε : Type} (ends : Fin 5 → Option (Except ε ρ)) :
    (∀ r, runBenchmark ends = .ok r ↔ ∀ i, ends i = some (.ok (r i))) ∧
    ∀ e, runBenchmark ends = .error e ↔ ∃ i, FailsWith ends i e ∧ ∀ j < i, ∃ r, ends j = some (.ok r) := by
  simp only [← joined_error]
  have hj : ∀ i r, ends i = some (.ok r) ↔ joined i (ends i) = .ok r := fun i r => (joined_ok i _ r).symm
  simp only [hj]
  unfold runBenchmark
  generalize hres : (fun i => joined i (ends i)) = results
  have hr : ∀ i, joined i (ends i) = results i := fun i => congrFun hres i
  simp only [hr]
  have h5 : ∀ {P : Fin 5 → Prop}, (∀ i, P i) ↔ P 0 ∧ P 1 ∧ P 2 ∧ P 3 ∧ P 4 := by
    intro P
    constructor
    · intro h; exact ⟨h 0, h 1, h 2, h 3, h 4⟩
    · rintro ⟨h0, h1, h2, h3, h4⟩ i
      fin_cases i <;> assumption
  have e5 : ∀ {P : Fin 5 → Prop}, (∃ i, P i) ↔ P 0 ∨ P 1 ∨ P 2 ∨ P 3 ∨ P 4 := by
    intro P
    rw [← not_iff_not]
    push_neg
    exact h5
  have lt5 : ∀ i j : Fin 5, j < i ↔ j.1 < i.1 := fun i j => Iff.rfl
  constructor
  · intro r
    rw [h5]
    cases h0 : results 0 <;> cases h1 : results 1 <;> cases h2 : results 2 <;> cases h3 : results 3 <;>
      cases h4 : results 4 <;> simp [bind, Except.bind, pure, Except.pure, funext_iff, h5]
  · intro e
    rw [e5]
    simp only [h5]
    cases h0 : results 0 <;> cases h1 : results 1 <;> cases h2 : results 2 <;> cases h3 : results 3 <;>
      cases h4 : results 4 <;> simp [bind, Except.bind, pure, Except.pure]

end Trane.Tree
