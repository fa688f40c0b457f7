import Verif.Base
import Verif.Data.Options
import Verif.Store.LogProps
import Mathlib.Tactic.Linarith
import Mathlib.Data.List.Infix

/-!
# Simulations

Models `TraneSimulation` in `/repo/src/test_utils.rs`: exercises are asked for and answered.

* The object is given by the calls that the simulation makes on it; `σ` is its state, with the random choices to come.
* The closure that answers may depend on what it was asked before.
* The clock stands still during an iteration of the loop. -/

namespace Trane.TestLib

variable {σ ι : Type} [DecidableEq ι]

/-- The calls on a `Trane` object that a simulation makes, with the filter of the simulation; `none` is `Err`.  `wait` is
not a call: the time of the computer changes. /repo/src/test_utils.rs:461-506. -/
structure SimApi (σ ι : Type) where
  addToBlacklist : σ → ι → Option σ
  batch : σ → Option (σ × List ι)
  score : σ → ι → MasteryScore → Int → Option σ
  wait : σ → Int → σ

/-- What happens, for the specification. -/
inductive SimEvent (ι : Type)
  | batch (ids : List ι)
  | presented (x : ι) (answer : Option MasteryScore) (time : Int)

/-- The variables of the simulation, /repo/src/test_utils.rs:437-447 and 466-468; `events` is for the specification. -/
structure Sim (σ ι : Type) where
  obj : σ
  batch : List ι := []
  history : AMap ι (List MasteryScore) := []
  completed : Nat := 0
  events : List (SimEvent ι) := []

section
variable (A : SimApi σ ι) (answer : Nat → ι → Option MasteryScore) (clock : Nat → Int)

/-- /repo/src/test_utils.rs:483-501: the last exercise of the batch is answered. The Boolean is false if the call
fails. -/
def present (s : Sim σ ι) : Sim σ ι × Bool :=
  match s.batch.getLast? with
  | none => (s, true)
  | some x =>
    let k := s.completed - 1
    match answer k x with
    | none => ({ s with batch := s.batch.dropLast, events := s.events ++ [.presented x none (clock k)] }, true)
    | some g =>
      match A.score s.obj x g (clock k) with
      | none => ({ s with batch := s.batch.dropLast }, false)
      | some obj =>
        ({ s with obj := obj, batch := s.batch.dropLast, history := s.history.upd x [] (· ++ [g]),
                  events := s.events ++ [.presented x (some g) (clock k)] }, true)

/-- The loop, /repo/src/test_utils.rs:471-502; the first argument is the number of exercises that are left. -/
def simLoop : Nat → Sim σ ι → Sim σ ι × Bool
  | 0, s => (s, true)
  | n + 1, s =>
    let s := { s with obj := A.wait s.obj (clock s.completed), completed := s.completed + 1 }
    if s.batch.isEmpty then
      match A.batch s.obj with
      | none => (s, false)
      | some (obj, []) => ({ s with obj := obj, events := s.events ++ [.batch []] }, true)
      | some (obj, x :: xs) =>
        match present A answer clock { s with obj := obj, batch := x :: xs, events := s.events ++ [.batch (x :: xs)] } with
        | (s, false) => (s, false)
        | (s, true) => simLoop n s
    else
      match present A answer clock s with
      | (s, false) => (s, false)
      | (s, true) => simLoop n s

/-- /repo/src/test_utils.rs:461-464. -/
def blacklistAll : List ι → σ → σ × Bool
  | [], o => (o, true)
  | u :: us, o =>
    match A.addToBlacklist o u with
    | none => (o, false)
    | some o => blacklistAll us o

/-- `run_simulation`, /repo/src/test_utils.rs:461-506, with a new simulation object (lines 452-458). -/
def runSimulation (n : Nat) (blacklist : List ι) (obj : σ) : Sim σ ι × Bool :=
  match blacklistAll A blacklist obj with
  | (obj, false) => ({ obj := obj }, false)
  | (obj, true) => simLoop A answer clock n { obj := obj }

end

/-- `assert_simulation_scores`, /repo/src/test_utils.rs:559-590, on the scores that Trane reports; `f32::EPSILON` is
2^(-23). -/
def scoresMatch (history : AMap ι (List MasteryScore)) (x : ι) (scores : List (ℚ × Int)) : Bool :=
  ((((history.find x).getD []).reverse.take scores.length).zip scores).all
    (fun p => |p.2.1 - p.1.toFloat| < 1 / 2 ^ 23)

/-! ### Specification -/

/-- The exercises that were presented, in order. -/
def presentedIds (es : List (SimEvent ι)) : List ι :=
  es.filterMap (fun e => match e with | .presented x _ _ => some x | .batch _ => none)

/-- The grades that an exercise got, with the times. -/
def gradesOf (es : List (SimEvent ι)) (x : ι) : List (MasteryScore × Int) :=
  es.filterMap (fun e => match e with
    | .presented y (some g) t => if y = x then some (g, t) else none
    | _ => none)

/-- How a simulation goes on the given object: what happened, what is left of the batch, and the object now.  Each
exercise is presented when the clock says so, in the order from the end of the batch. -/
inductive SimStory (A : SimApi σ ι) (answer : Nat → ι → Option MasteryScore) (clock : Nat → Int) (obj : σ) :
    List (SimEvent ι) → List ι → σ → Prop
  | start : SimStory A answer clock obj [] [] obj
  | wait {es rest o} : SimStory A answer clock obj es rest o →
      SimStory A answer clock obj es rest (A.wait o (clock (presentedIds es).length))
  | batch {es o o' xs} : SimStory A answer clock obj es [] o → A.batch o = some (o', xs) →
      SimStory A answer clock obj (es ++ [.batch xs]) xs o'
  | skipped {es rest x o} : SimStory A answer clock obj es (rest ++ [x]) o →
      answer (presentedIds es).length x = none →
      SimStory A answer clock obj (es ++ [.presented x none (clock (presentedIds es).length)]) rest o
  | graded {es rest x o o' g} : SimStory A answer clock obj es (rest ++ [x]) o →
      answer (presentedIds es).length x = some g → A.score o x g (clock (presentedIds es).length) = some o' →
      SimStory A answer clock obj (es ++ [.presented x (some g) (clock (presentedIds es).length)]) rest o'

/-! ### Proofs -/

set_option linter.unusedSectionVars false

theorem presentedIds_snoc (es : List (SimEvent ι)) (e : SimEvent ι) :
    presentedIds (es ++ [e]) = presentedIds es ++ (match e with | .presented x _ _ => [x] | .batch _ => []) := by
  unfold presentedIds
  rw [List.filterMap_append]
  cases e <;> rfl

theorem gradesOf_snoc (es : List (SimEvent ι)) (e : SimEvent ι) (x : ι) :
    gradesOf (es ++ [e]) x = gradesOf es x ++ gradesOf [e] x := by
  unfold gradesOf
  rw [List.filterMap_append]

section
variable {A : SimApi σ ι} {answer : Nat → ι → Option MasteryScore} {clock : Nat → Int} {obj : σ}

/-- What holds between iterations. -/
structure SimInv (A : SimApi σ ι) (answer : Nat → ι → Option MasteryScore) (clock : Nat → Int) (obj : σ) (s : Sim σ ι) :
    Prop where
  story : SimStory A answer clock obj s.events s.batch s.obj
  history : ∀ x, s.history.find x = if gradesOf s.events x = [] then none else some ((gradesOf s.events x).map Prod.fst)

theorem present_inv {s s' : Sim σ ι} (h : SimInv A answer clock obj s)
    (hc : s.completed = (presentedIds s.events).length + 1) (hb : s.batch ≠ []) (hp : present A answer clock s = (s', true)) :
    SimInv A answer clock obj s' ∧ s'.completed = (presentedIds s'.events).length ∧ s'.completed = s.completed := by
  obtain ⟨rest, x, hx⟩ : ∃ rest x, s.batch = rest ++ [x] := ⟨_, _, (List.dropLast_append_getLast hb).symm⟩
  have hl : s.batch.getLast? = some x := by rw [hx]; simp
  have hd : s.batch.dropLast = rest := by rw [hx]; simp
  have hk : s.completed - 1 = (presentedIds s.events).length := by omega
  unfold present at hp
  rw [hl] at hp
  simp only [hd, hk] at hp
  have hst := h.story
  rw [hx] at hst
  cases ha : answer (presentedIds s.events).length x with
  | none =>
    simp only [ha] at hp
    injection hp with hp _
    subst hp
    refine ⟨⟨hst.skipped ha, ?_⟩, ?_, rfl⟩
    · intro y
      simp only [gradesOf_snoc]
      rw [show gradesOf [SimEvent.presented x none (clock (presentedIds s.events).length)] y = [] from rfl, List.append_nil]
      exact h.history y
    · simp only [presentedIds_snoc, List.length_append, List.length_cons, List.length_nil]
      exact hc
  | some g =>
    simp only [ha] at hp
    cases hs : A.score s.obj x g (clock (presentedIds s.events).length) with
    | none => simp only [hs] at hp; injection hp with _ hp; cases hp
    | some o =>
      simp only [hs] at hp
      injection hp with hp _
      subst hp
      refine ⟨⟨hst.graded ha hs, ?_⟩, ?_, rfl⟩
      · intro y
        simp only [gradesOf_snoc]
        by_cases hy : x = y
        · subst hy
          have e : gradesOf [SimEvent.presented x (some g) (clock (presentedIds s.events).length)] x =
              [(g, clock (presentedIds s.events).length)] := by simp [gradesOf]
          have hne : ¬ gradesOf s.events x ++ [(g, clock (presentedIds s.events).length)] = [] := by simp
          rw [e, AMap.find_upd, if_pos rfl, h.history x, if_neg hne]
          by_cases hq : gradesOf s.events x = []
          · rw [if_pos hq, hq]; rfl
          · rw [if_neg hq]; simp
        · have e : gradesOf [SimEvent.presented x (some g) (clock (presentedIds s.events).length)] y = [] := by
            simp [gradesOf, hy]
          rw [e, List.append_nil, AMap.find_upd, if_neg hy]
          exact h.history y
      · simp only [presentedIds_snoc, List.length_append, List.length_cons, List.length_nil]
        exact hc

/-- The end of a simulation that did not fail: as many exercises were presented as were asked for, or Trane had no more. -/
def Ended (n : Nat) (es : List (SimEvent ι)) : Prop :=
  (presentedIds es).length = n ∨ (presentedIds es).length < n ∧ ∃ es', es = es' ++ [.batch []]

theorem simLoop_inv {n : Nat} {s s' : Sim σ ι} (h : SimInv A answer clock obj s)
    (hc : s.completed = (presentedIds s.events).length) (hl : simLoop A answer clock n s = (s', true)) :
    SimInv A answer clock obj s' ∧ Ended (s.completed + n) s'.events := by
  induction n generalizing s with
  | zero =>
    rw [simLoop] at hl
    injection hl with hl _
    subst hl
    exact ⟨h, Or.inl hc.symm⟩
  | succ n ih =>
    rw [simLoop] at hl
    simp only at hl
    have hw : SimStory A answer clock obj s.events s.batch (A.wait s.obj (clock s.completed)) := by
      rw [hc]; exact h.story.wait
    cases hb : s.batch with
    | nil =>
      rw [hb] at hw
      simp only [hb, List.isEmpty_nil, if_true] at hl
      cases hab : A.batch (A.wait s.obj (clock s.completed)) with
      | none => simp only [hab] at hl; injection hl with _ hl; cases hl
      | some r =>
        obtain ⟨o, xs⟩ := r
        have hst := hw.batch hab
        have hg : ∀ x, gradesOf (s.events ++ [SimEvent.batch xs]) x = gradesOf s.events x := by
          intro x
          rw [gradesOf_snoc, show gradesOf [SimEvent.batch xs] x = [] from rfl, List.append_nil]
        have hpi : presentedIds (s.events ++ [SimEvent.batch xs]) = presentedIds s.events := by
          rw [presentedIds_snoc]; simp
        cases xs with
        | nil =>
          simp only [hab] at hl
          injection hl with hl _
          subst hl
          refine ⟨⟨?_, ?_⟩, Or.inr ⟨?_, s.events, rfl⟩⟩
          · simpa only [hb] using hst
          · intro x; simp only [hg]; exact h.history x
          · simp only [hpi]; omega
        | cons x xs =>
          simp only [hab] at hl
          have h0 : SimInv A answer clock obj (⟨o, x :: xs, s.history, s.completed + 1, s.events ++ [.batch (x :: xs)]⟩ : Sim σ ι) :=
            ⟨hst, fun y => by simp only [hg]; exact h.history y⟩
          cases hp : present A answer clock (⟨o, x :: xs, s.history, s.completed + 1, s.events ++ [.batch (x :: xs)]⟩ : Sim σ ι) with
          | mk s1 ok =>
            rw [hp] at hl
            cases ok with
            | false => injection hl with _ hl; cases hl
            | true =>
              obtain ⟨k1, k2, k3⟩ := present_inv h0 (by simp only [hpi]; omega) (List.cons_ne_nil _ _) hp
              have := ih k1 k2 hl
              rw [k3] at this
              simp only at this
              rwa [show s.completed + 1 + n = s.completed + (n + 1) by omega] at this
    | cons x xs =>
      rw [hb] at hw
      simp only [hb, List.isEmpty_cons, Bool.false_eq_true, if_false] at hl
      have h0 : SimInv A answer clock obj (⟨A.wait s.obj (clock s.completed), x :: xs, s.history, s.completed + 1, s.events⟩ : Sim σ ι) :=
        ⟨hw, h.history⟩
      cases hp : present A answer clock (⟨A.wait s.obj (clock s.completed), x :: xs, s.history, s.completed + 1, s.events⟩ : Sim σ ι) with
      | mk s1 ok =>
        rw [hp] at hl
        cases ok with
        | false => injection hl with _ hl; cases hl
        | true =>
          obtain ⟨k1, k2, k3⟩ := present_inv h0 (by simp only; omega) (List.cons_ne_nil _ _) hp
          have := ih k1 k2 hl
          rw [k3] at this
          simp only at this
          rwa [show s.completed + 1 + n = s.completed + (n + 1) by omega] at this

/-- The object after units were blacklisted, one after the other. -/
inductive Blacklists (A : SimApi σ ι) : List ι → σ → σ → Prop
  | nil (o : σ) : Blacklists A [] o o
  | cons {u us o o' o''} : A.addToBlacklist o u = some o' → Blacklists A us o' o'' → Blacklists A (u :: us) o o''

theorem blacklistAll_iff {us : List ι} {o o' : σ} : blacklistAll A us o = (o', true) ↔ Blacklists A us o o' := by
  induction us generalizing o with
  | nil =>
    rw [blacklistAll]
    constructor
    · intro h; injection h with h _; subst h; exact .nil o
    · intro h; cases h; rfl
  | cons u us ih =>
    rw [blacklistAll]
    constructor
    · intro h
      cases ha : A.addToBlacklist o u with
      | none => simp only [ha] at h; injection h with _ h; cases h
      | some o1 => simp only [ha] at h; exact .cons ha (ih.1 h)
    · intro h
      cases h with
      | cons ha h => simp only [ha]; exact ih.2 h

/-- **C97, simulations**: a simulation that does not fail blacklists the units first, then presents the exercises of
batches from their ends, asking for a batch when there are none left, until there were as many as it was made for or
Trane has no more.  The history has, for each exercise that got grades, these grades in order. -/
theorem simulation_runs {n : Nat} {us : List ι} {s : Sim σ ι} (h : runSimulation A answer clock n us obj = (s, true)) :
    ∃ o, Blacklists A us obj o ∧ SimStory A answer clock o s.events s.batch s.obj ∧ Ended n s.events ∧
      ∀ x, s.history.find x = if gradesOf s.events x = [] then none else some ((gradesOf s.events x).map Prod.fst) := by
  unfold runSimulation at h
  cases hb : blacklistAll A us obj with
  | mk o ok =>
    rw [hb] at h
    cases ok with
    | false => injection h with _ h; cases h
    | true =>
      obtain ⟨h1, h2⟩ := simLoop_inv (A := A) (answer := answer) (clock := clock) (obj := o) (s := { obj := o })
        ⟨.start, fun x => by simp [gradesOf, AMap.find]⟩ rfl h
      refine ⟨o, blacklistAll_iff.1 hb, h1.story, ?_, h1.history⟩
      simpa using h2

/-! ### Success -/

theorem present_succeeds {P : σ → Prop} {V : ι → Prop} {s : Sim σ ι}
    (hs : ∀ o x g τ, P o → V x → ∃ o', A.score o x g τ = some o' ∧ P o') (hp : P s.obj) (hv : ∀ x ∈ s.batch, V x) :
    ∃ s', present A answer clock s = (s', true) ∧ P s'.obj ∧ (∀ x ∈ s'.batch, V x) := by
  unfold present
  cases hb : s.batch.getLast? with
  | none => exact ⟨s, rfl, hp, hv⟩
  | some x =>
    have hx : V x := hv x (List.mem_of_getLast? hb)
    have hd : ∀ y ∈ s.batch.dropLast, V y := fun y hy => hv y (List.mem_of_mem_dropLast hy)
    simp only
    cases answer (s.completed - 1) x with
    | none => exact ⟨_, rfl, hp, hd⟩
    | some g =>
      obtain ⟨o, ho, hpo⟩ := hs s.obj x g (clock (s.completed - 1)) hp hx
      simp only [ho]
      exact ⟨_, rfl, hpo, hd⟩

theorem simLoop_succeeds {P : σ → Prop} {V : ι → Prop}
    (hw : ∀ o τ, P o → P (A.wait o τ)) (hb : ∀ o, P o → ∃ o' xs, A.batch o = some (o', xs) ∧ P o' ∧ ∀ x ∈ xs, V x)
    (hs : ∀ o x g τ, P o → V x → ∃ o', A.score o x g τ = some o' ∧ P o') (n : Nat) {s : Sim σ ι} (hp : P s.obj)
    (hv : ∀ x ∈ s.batch, V x) : ∃ s', simLoop A answer clock n s = (s', true) := by
  induction n generalizing s with
  | zero => exact ⟨s, rfl⟩
  | succ n ih =>
    rw [simLoop]
    simp only
    have hp' := hw s.obj (clock s.completed) hp
    cases hbt : s.batch with
    | nil =>
      simp only [List.isEmpty_nil, if_true]
      obtain ⟨o, xs, h1, h2, h3⟩ := hb _ hp'
      simp only [h1]
      cases xs with
      | nil => exact ⟨_, rfl⟩
      | cons x xs =>
        simp only
        obtain ⟨s1, k1, k2, k3⟩ := present_succeeds (A := A) (answer := answer) (clock := clock)
          (s := ⟨o, x :: xs, s.history, s.completed + 1, s.events ++ [.batch (x :: xs)]⟩) hs h2 h3
        rw [k1]
        exact ih k2 k3
    | cons x xs =>
      simp only [List.isEmpty_cons, Bool.false_eq_true, if_false]
      obtain ⟨s1, k1, k2, k3⟩ := present_succeeds (A := A) (answer := answer) (clock := clock)
        (s := ⟨A.wait s.obj (clock s.completed), x :: xs, s.history, s.completed + 1, s.events⟩) hs hp' (hbt ▸ hv)
      rw [k1]
      exact ih k2 k3

end

/-! ### The comparison of scores -/

theorem newest_unique {n : Nat} {log ans : List (ℚ × Int)} (h : Store.Table.IsNewest n log ans)
    (hlt : log.Pairwise (fun a b => a.2 < b.2)) : ans = log.reverse.take n := by
  obtain ⟨h1, h2, rest, h3, h4⟩ := h
  have hinj : ∀ a ∈ log, ∀ b ∈ log, a.2 = b.2 → a = b := by
    intro a ha b hb e
    by_contra hne
    obtain ⟨i, hi, rfl⟩ := List.getElem_of_mem ha
    obtain ⟨j, hj, rfl⟩ := List.getElem_of_mem hb
    rw [List.pairwise_iff_getElem] at hlt
    rcases lt_trichotomy i j with h | h | h
    · have := hlt i j hi hj h; omega
    · subst h; exact hne rfl
    · have := hlt j i hj hi h; omega
  have hsort : (rest.mergeSort (fun a b => decide (b.2 ≤ a.2))).Pairwise (fun a b => b.2 ≤ a.2) := by
    have := List.pairwise_mergeSort (le := fun a b : ℚ × Int => decide (b.2 ≤ a.2))
      (by intro a b c; simp only [decide_eq_true_eq]; omega)
      (by intro a b; simp only [Bool.or_eq_true, decide_eq_true_eq]; omega) rest
    simpa using this
  have hperm := List.mergeSort_perm rest (fun a b => decide (b.2 ≤ a.2))
  have hall : ans ++ rest.mergeSort (fun a b => decide (b.2 ≤ a.2)) = log.reverse := by
    refine List.Perm.eq_of_pairwise (le := fun a b => b.2 ≤ a.2) ?_ ?_ ?_ ?_
    · intro a b ha hb hab hba
      refine hinj a ?_ b (List.mem_reverse.1 hb) (by omega)
      exact ((List.Perm.append_left ans hperm).trans h3).mem_iff.1 ha
    · rw [List.pairwise_append]
      exact ⟨h2, hsort, fun a ha b hb => h4 a ha b (hperm.mem_iff.1 hb)⟩
    · rw [List.pairwise_reverse]
      exact hlt.imp (fun h => le_of_lt h)
    · exact ((List.Perm.append_left ans hperm).trans h3).trans (List.reverse_perm log).symm
  have : ans = log.reverse.take ans.length := by rw [← hall]; simp
  rw [this, h1, List.take_eq_take_iff]
  simp

/-- The scores that Trane has are those of the simulation. -/
def Stored (es : List (SimEvent ι)) (x : ι) (log : List (ℚ × Int)) : Prop :=
  log = (gradesOf es x).map (fun p => (p.1.toFloat, p.2))

theorem zip_all {A B : Type} {p : A × B → Bool} {as : List A} {bs : List B} (h : ∀ a ∈ as, ∀ b ∈ bs, p (a, b) = true) :
    (as.zip bs).all p = true := by
  rw [List.all_eq_true]
  rintro ⟨a, b⟩ hab
  exact h a (List.of_mem_zip hab).1 b (List.of_mem_zip hab).2

/-- **C97, comparing scores**: if Trane has the scores of the simulation, comparing them succeeds if the exercise got no
two grades in the same second, or always the same grade. -/
theorem scores_match_partial {history : AMap ι (List MasteryScore)} {es : List (SimEvent ι)} {x : ι} {log ans : List (ℚ × Int)}
    {n : Nat} (hh : history.find x = if gradesOf es x = [] then none else some ((gradesOf es x).map Prod.fst))
    (hl : Stored es x log) (ha : Store.Table.IsNewest n log ans)
    (ht : (gradesOf es x).Pairwise (fun a b => a.2 < b.2) ∨ ∃ g, ∀ p ∈ gradesOf es x, p.1 = g) :
    scoresMatch history x ans = true := by
  have hh' : (history.find x).getD [] = (gradesOf es x).map Prod.fst := by
    rw [hh]
    split <;> rename_i h <;> simp [h]
  unfold scoresMatch
  rw [hh']
  unfold Stored at hl
  subst hl
  rcases ht with ht | ⟨g, hg⟩
  · have e := newest_unique ha (by rw [List.pairwise_map]; exact ht)
    have hlen : ans.length = min n (gradesOf es x).length := by rw [ha.1, List.length_map]
    generalize gradesOf es x = gs at e hlen
    rw [e, List.all_eq_true]
    rintro ⟨a, b⟩ hab
    rw [← List.map_reverse, ← List.map_reverse] at hab
    generalize gs.reverse = rs at hab
    simp only [List.length_take, List.length_map] at hab
    rw [← List.map_take, ← List.map_take, show List.take (min n rs.length) rs = List.take n rs from by
      rw [List.take_eq_take_iff]; simp, List.zip_map', List.mem_map] at hab
    obtain ⟨p, _, e⟩ := hab
    injection e with e1 e2
    subst e1 e2
    simp
  · refine zip_all ?_
    intro a h1 b h2
    have h1' := List.mem_of_mem_take h1
    rw [List.mem_reverse, List.mem_map] at h1'
    obtain ⟨p, hp, rfl⟩ := h1'
    obtain ⟨rest, hr, _⟩ := ha.2.2
    have h2' := hr.mem_iff.1 (List.mem_append_left rest h2)
    rw [List.mem_map] at h2'
    obtain ⟨q, hq, rfl⟩ := h2'
    rw [hg p hp, hg q hq]
    simp

end Trane.TestLib
