import Verif.Conc.Deadlock

/-! # Helper lemmas: which functions are called with what in hand; cells -/

namespace Trane.Conc

/-- Frozen locks that may be held when a function is called. -/
def ctxF : Held :=
  [(.lock .graph, .read), (.lock .blacklist, .read), (.lock .library, .read)]

/-- What may be held when a function is called by a `&self` call, the review list left out. -/
def ctxShared : Fn → Held
  | .hasEntry | .insideBlacklisted => (.lock .pile, .write) :: (.lock .frequency, .read) :: ctxF
  | .dataBlacklisted | .validInLesson | .allValid | .exScore | .exOther | .allHaveScores
  | .isSuperseded | .replaceSuperseding | .supersedingRec | .lessonScore | .courseScore
  | .unitScore => (.lock .frequency, .read) :: ctxF
  | .finishBatch | .select | .scoreExercise | .fromOther | .fromReviewList => []
  | _ => ctxF

def usedShared : Fn → Bool
  | .fromReviewList => false
  | _ => true

theorem checkAll_shared : checkAll okD ctxShared usedShared = true := by decide +kernel

theorem api_shared (c : Api) (h : c.shared = true) (h' : c ≠ .getBatchReviewList) :
    check okD ctxShared usedShared [] c.prog = true := by
  cases c <;> first | exact absurd rfl h' | (simp [Api.shared] at h; done) | decide +kernel

/-! ## A thread that is alone -/

/-- A thread does not wait for itself and does not break the rule of a `RefCell`. -/
def okA (h : Held) (r : Res) (m : Mode) : Bool :=
  !h.contains (r, .write) && (decide (m = .read) || !h.contains (r, .read))

theorem okA_mono (h h' : Held) (r : Res) (m : Mode) (hs : h ⊆ h') (ho : okA h' r m = true) :
    okA h r m = true := by
  unfold okA at *
  simp only [Bool.and_eq_true, Bool.or_eq_true, Bool.not_eq_true', contains_false] at *
  exact ⟨fun hx => ho.1 (hs hx), ho.2.imp id (fun hn hx => hn (hs hx))⟩

/-- What may be held when a function is called by any call. -/
def ctxAll : Fn → Held
  | .hasEntry =>
    (.lock .blacklist, .write) :: (.lock .pile, .write) :: (.lock .frequency, .read) :: ctxF
  | .insideBlacklisted => [(.lock .pile, .write)]
  | .finishBatch | .select | .scoreExercise | .fromOther | .fromReviewList | .invalidate
  | .invalidatePrefix => []
  | _ => (.lock .frequency, .read) :: ctxF

theorem checkAll_all : checkAll okA ctxAll (fun _ => true) = true := by decide +kernel

theorem api_all (c : Api) : check okA ctxAll (fun _ => true) [] c.prog = true := by
  cases c <;> decide +kernel

/-! ## Calls without scores borrow no cells -/

def okN (_ : Held) (r : Res) (_ : Mode) : Bool := match r with | .cell _ => false | .lock _ => true

def usedPlain : Fn → Bool
  | .hasEntry | .dataBlacklisted => true
  | _ => false

theorem checkAll_plain : checkAll okN ctxShared usedPlain = true := by decide +kernel

theorem api_plain (c : Api) (h : c.scores = false) :
    check okN ctxShared usedPlain [] c.prog = true := by
  cases c <;> first | (simp [Api.scores] at h; done) | decide +kernel

/-- The borrows of one thread follow the rule. -/
def CellsOk (h : Held) : Prop :=
  ∀ c : Cell, (Res.cell c, Mode.write) ∈ h → ∀ m, (Res.cell c, m) ∉ h.erase (Res.cell c, Mode.write)

theorem cellsOk_erase {h : Held} (hk : CellsOk h) (x : Res × Mode) : CellsOk (h.erase x) := by
  intro c hc m hm
  rw [List.erase_comm] at hm
  exact hk c (List.mem_of_mem_erase hc) m (List.mem_of_mem_erase hm)

theorem cellsOk_cons {h : Held} (hk : CellsOk h) {r : Res} {m : Mode} (ho : okA h r m = true) :
    CellsOk ((r, m) :: h) := by
  unfold okA at ho
  simp only [Bool.and_eq_true, Bool.or_eq_true, Bool.not_eq_true', contains_false,
    decide_eq_true_eq] at ho
  intro c hc m' hm
  by_cases he : (r, m) = (Res.cell c, Mode.write)
  · obtain ⟨rfl, rfl⟩ := Prod.mk.inj he
    rw [List.erase_cons_head] at hm
    cases m' with
    | write => exact ho.1 hm
    | read => exact (ho.2.resolve_left (by simp)) hm
  · rw [List.erase_cons_tail (by simpa using he)] at hm
    rcases List.mem_cons.1 hc with hc' | hc'
    · exact he hc'.symm
    · rcases List.mem_cons.1 hm with hm | hm
      · obtain ⟨rfl, rfl⟩ := Prod.mk.inj hm
        exact ho.1 hc'
      · exact hk c hc' m' hm

def NoCells (h : Held) : Prop := ∀ c m, (Res.cell c, m) ∉ h

/-- Between steps: the `k`-th thread follows the rule of cells, the others have no cells. -/
def CellInv (k : Nat) (s : List Thread) : Prop :=
  ∀ i t, s[i]? = some t →
    (i = k → Disc (fun h r m => okA h r m = true) t.held t.rest ∧ CellsOk t.held) ∧
    (i ≠ k → Disc (fun h r m => okN h r m = true) t.held t.rest ∧ NoCells t.held)

theorem cellInv_step {b : Bool} {s s' : List Thread} {i k : Nat} (h : stepAt b s i = some s')
    (hk : CellInv k s) : CellInv k s' := by
  obtain ⟨t, ht, hc⟩ := step_cases h
  have hlt : i < s.length := (List.getElem?_eq_some_iff.1 ht).1
  have h0 := hk i t ht
  -- it is enough to look at the thread that moved
  have key : ∀ x : Thread, ((i = k → Disc (fun h r m => okA h r m = true) x.held x.rest ∧
        CellsOk x.held) ∧
      (i ≠ k → Disc (fun h r m => okN h r m = true) x.held x.rest ∧ NoCells x.held)) →
      CellInv k (s.set i x) := by
    intro x hx j u hu
    by_cases hj : i = j
    · subst hj
      rw [List.getElem?_set_self hlt] at hu
      obtain rfl := Option.some.inj hu
      exact hx
    · rw [List.getElem?_set_ne hj] at hu
      exact hk j u hu
  rcases hc with ⟨r, m, rest, hr, rfl⟩ | ⟨r, m, rest, hr, rfl⟩ | ⟨l, rest, hr, hw, rfl⟩
  · refine key _ ⟨fun he => ?_, fun he => ?_⟩
    · obtain ⟨hd, hok⟩ := h0.1 he
      rw [hr] at hd
      exact ⟨hd, cellsOk_erase hok _⟩
    · obtain ⟨hd, hok⟩ := h0.2 he
      rw [hr] at hd
      exact ⟨hd, fun c m hm => hok c m (List.mem_of_mem_erase hm)⟩
  · refine key _ ⟨fun he => ?_, fun he => ?_⟩
    · obtain ⟨hd, hok⟩ := h0.1 he
      rw [hr] at hd
      exact ⟨hd.2, cellsOk_cons hok hd.1⟩
    · obtain ⟨hd, hok⟩ := h0.2 he
      rw [hr] at hd
      refine ⟨hd.2, fun c m' hm => ?_⟩
      rcases List.mem_cons.1 hm with hm | hm
      · obtain ⟨rfl, rfl⟩ := Prod.mk.inj hm
        have := hd.1
        simp [okN] at this
      · exact hok c m' hm
  · exact key _ h0

theorem cellInv_noClash {k : Nat} {s : List Thread} (hk : CellInv k s) : ¬ Clash s := by
  rintro ⟨c, i, t, hi, hc, hor⟩
  by_cases he : i = k
  · rcases hor with ⟨j, u, m, hj, hu, hm⟩ | ⟨m, hm⟩
    · exact ((hk j u hu).2 (fun e => hj (e.trans he.symm))).2 c m hm
    · exact ((hk i t hi).1 he).2 c hc m hm
  · exact ((hk i t hi).2 he).2 c _ hc

end Trane.Conc
