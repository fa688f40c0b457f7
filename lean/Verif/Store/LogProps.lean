import Verif.Store.TableLemmas

/-!
# C13, C14, C15 for practice stats and practice deltas

`SortDesc` ranges over every way SQLite may order rows with equal timestamps.
-/

namespace Trane.Store.Table
variable {α : Type}

/-! ### Specification -/

/-- `ans` is a correct answer to "the newest `n` entries of `log`": it has `min n |log|` entries, they
are entries of the log (each used at most as often as it was recorded), newest first, and nothing left
out is newer than something returned. -/
def IsNewest (n : Nat) (log ans : List (α × Int)) : Prop :=
  ans.length = min n log.length ∧
  ans.Pairwise (fun a b => b.2 ≤ a.2) ∧
  ∃ rest, (ans ++ rest).Perm log ∧ ∀ a ∈ ans, ∀ b ∈ rest, b.2 ≤ a.2

/-- `kept` is `log` cut down to its `n` newest entries. -/
def KeepsNewest (n : Nat) (log kept : List (α × Int)) : Prop :=
  kept.length = min n log.length ∧
  ∃ gone, (kept ++ gone).Perm log ∧ ∀ a ∈ kept, ∀ b ∈ gone, b.2 ≤ a.2

/-- The entries of a recorded batch that belong to a unit, in order. -/
def entriesOf (es : List (Entry α)) (u : Str) : List (α × Int) :=
  (es.filter (fun e => e.unit = u)).map (fun e => (e.val, e.ts))

/-- What each call must do to the log of each unit: `h` before, `h'` after. -/
def AbsStep (h h' : Str → List (α × Int)) : LogOp α → Bool → Prop
  | .record es _, true => ∀ u, h' u = h u ++ entriesOf es u
  | .trim n _, true => ∀ u, h' u = (h u).filter (fun x => (h u).countP (fun y => x.2 < y.2) < n)
  | .trim n _, false => ∀ u, h' u = h u ∨
      h' u = (h u).filter (fun x => (h u).countP (fun y => x.2 < y.2) < n)
  | .removePrefix p _, true => ∀ u, h' u = if likePrefix p u then [] else h u
  | .removePrefix p _, false => ∀ u, h' u = h u ∨ (likePrefix p u = true ∧ h' u = [])
  | _, _ => ∀ u, h' u = h u

/-! ### C13 -/

theorem get_newest (S : SortDesc α) (t : Table α) (u : Str) (n : Nat) :
    IsNewest n (t.history u) (t.get S u n) := by
  have hp := S.perm (t.rowsOf u)
  have hs := S.sorted (t.rowsOf u)
  refine ⟨?_, ?_, ((S.sort (t.rowsOf u)).drop n).map (fun r => (r.val, r.ts)), ?_, ?_⟩
  · simp [get, history, hp.length_eq]
  · unfold get
    rw [List.pairwise_map]
    exact hs.sublist (List.take_sublist _ _)
  · unfold get history
    rw [← List.map_append, List.take_append_drop]
    exact hp.map _
  · intro a ha b hb
    obtain ⟨x, hx, rfl⟩ := List.mem_map.1 ha
    obtain ⟨y, hy, rfl⟩ := List.mem_map.1 hb
    rw [← List.take_append_drop n (S.sort (t.rowsOf u)), List.pairwise_append] at hs
    exact hs.2.2 x hx y hy

/-- C13: after every history of calls (with failures, crashes and reopening), `get_scores(u, n)`
returns the newest `n` entries of the log of `u`. -/
theorem get_scores_newest (S : SortDesc α) (ops : List (LogOp α)) (u : Str) (n : Nat) :
    IsNewest n ((run S ops).history u) ((run S ops).get S u n) := get_newest S _ u n

/-- C13: the log is what was recorded: every call of every history acts on the per-unit logs as the
abstract operation says, and a fresh database is empty. -/
theorem log_refines (S : SortDesc α) (ops : List (LogOp α)) (o : LogOp α) :
    AbsStep (run S ops).history (run S (ops ++ [o])).history o ((run S ops).step S o).2 ∧
    ∀ u, (run S []).history u = [] := by
  refine ⟨?_, fun u => rfl⟩
  rw [run_snoc]
  have h := wf_run S ops
  generalize run S ops = t at *
  cases o with
  | record es f =>
    obtain ⟨t', h1, _, h3, _⟩ := record_spec t es h
    simp only [step, h1]
    cases f with
    | true => exact fun u => rfl
    | false => exact fun u => h3 u
  | trim n stop =>
    have e := rowsOf_trimByTime S t n stop h
    cases stop with
    | none =>
      intro u
      show ((t.trimByTime S n none).rowsOf u).map _ = _
      rw [(e u).1 rfl, history_newest]; rfl
    | some k =>
      intro u
      show ((t.trimByTime S n (some k)).rowsOf u).map _ = _ ∨
        ((t.trimByTime S n (some k)).rowsOf u).map _ = _
      rcases (e u).2 with e | e
      · left; rw [e]; rfl
      · right; rw [e, history_newest]; rfl
  | removePrefix p stop =>
    have e := rowsOf_removePrefix t p stop h
    cases stop with
    | none =>
      intro u
      show ((t.removePrefix p none).rowsOf u).map _ = _
      rw [(e u).1 rfl]
      split <;> rfl
    | some k =>
      intro u
      show ((t.removePrefix p (some k)).rowsOf u).map _ = _ ∨
        (_ ∧ ((t.removePrefix p (some k)).rowsOf u).map _ = _)
      rcases (e u).2 with e | ⟨hl, e⟩
      · left; rw [e]; rfl
      · right; exact ⟨hl, by rw [e]; rfl⟩
  | reopen => exact fun u => rfl

/-- C13: recording never changes any answer about a unit that is not in the batch. -/
theorem record_leaves_other_units (S : SortDesc α) (ops : List (LogOp α)) (es : List (Entry α))
    (f : Bool) (u : Str) (hu : ∀ e ∈ es, e.unit ≠ u) (n : Nat) :
    (run S (ops ++ [.record es f])).get S u n = (run S ops).get S u n := by
  rw [run_snoc]
  have h := wf_run S ops
  obtain ⟨t', h1, _, _, h4⟩ := record_spec (run S ops) es h
  simp only [step, h1]
  cases f with
  | true => rfl
  | false => simp only [Bool.false_eq_true, if_false, get, h4 u hu]

/-- C13: recording succeeds unless the database fails. -/
theorem record_succeeds (S : SortDesc α) (ops : List (LogOp α)) (es : List (Entry α)) :
    ((run S ops).step S (.record es false)).2 = true := by
  obtain ⟨t', h1, _⟩ := record_spec (run S ops) es (wf_run S ops)
  simp [step, h1]

/-! ### C14 -/

/-- C14, full statement: a successful trim cuts every log down to its `n` newest entries and leaves
queries limited to `n` unchanged. -/
def TrimKeepsNewest (α : Type) : Prop :=
  ∀ (S : SortDesc α) (ops : List (LogOp α)) (n : Nat) (u : Str),
    KeepsNewest n ((run S ops).history u) ((run S (ops ++ [.trim n none])).history u) ∧
    ∀ k ≤ n, (run S (ops ++ [.trim n none])).get S u k = (run S ops).get S u k

theorem newest_perm (S : SortDesc α) (L : List (Row α)) (hn : (L.map Row.ts).Nodup) (n : Nat) :
    (newest Row.ts n L).Perm ((S.sort L).take n) := by
  have hp := S.perm L
  have hn' : ((S.sort L).map Row.ts).Nodup := (hp.map _).nodup_iff.2 hn
  rw [← filter_key_take Row.ts (S.sort L) hn' n]
  unfold newest
  have : L.filter (fun x => decide (L.countP (fun y => decide (x.ts < y.ts)) < n)) =
      L.filter (fun x => (((S.sort L).take n).map Row.ts).contains x.ts) := by
    apply List.filter_congr
    intro x hx
    rw [Bool.eq_iff_iff, List.contains_iff_mem, decide_eq_true_iff,
      mem_take_times (S.sorted L) x (hp.mem_iff.2 hx) n, hp.countP_eq]
  rw [this]
  exact (hp.filter _).symm

/-- C14 when the stored times of the unit are distinct.  What is missing: with equal times the code
can keep more than `n` entries (`trim_keeps_too_many`). -/
theorem trim_keeps_newest_partial (S : SortDesc α) (ops : List (LogOp α)) (n : Nat) (u : Str)
    (hd : (((run S ops).history u).map Prod.snd).Nodup) :
    KeepsNewest n ((run S ops).history u) ((run S (ops ++ [.trim n none])).history u) ∧
    ∀ k ≤ n, (run S (ops ++ [.trim n none])).get S u k = (run S ops).get S u k := by
  rw [run_snoc]
  have h := wf_run S ops
  generalize run S ops = t at *
  have hr : (t.step S (.trim n none)).1.rowsOf u = newest Row.ts n (t.rowsOf u) :=
    (rowsOf_trimByTime S t n none h u).1 rfl
  have hd' : ((t.rowsOf u).map Row.ts).Nodup := by
    have : ((t.history u).map Prod.snd) = (t.rowsOf u).map Row.ts := by
      simp [history, List.map_map]
    rwa [this] at hd
  have hp := newest_perm S (t.rowsOf u) hd' n
  obtain ⟨g1, _, rest, g3, g4⟩ := get_newest S t u n
  constructor
  · have hp' : ((t.step S (.trim n none)).1.history u).Perm (t.get S u n) := by
      unfold history get; rw [hr]; exact hp.map _
    refine ⟨by rw [hp'.length_eq]; exact g1, rest, (hp'.append_right rest).trans g3, ?_⟩
    intro a ha b hb
    exact g4 a (hp'.mem_iff.1 ha) b hb
  · intro k hk
    unfold get
    rw [hr]
    have e : S.sort (newest Row.ts n (t.rowsOf u)) = (S.sort (t.rowsOf u)).take n := by
      apply sorted_unique ((S.perm _).trans hp) (S.sorted _)
        ((S.sorted _).sublist (List.take_sublist _ _))
      refine (((S.perm _).trans hp).map _).nodup_iff.2 ?_
      exact ((S.perm _).map _).nodup_iff.2 hd' |>.sublist ((List.take_sublist _ _).map _)
    rw [e, List.take_take, Nat.min_eq_left hk]

/-- C14: with any times, a trim keeps exactly the entries with fewer than `n` strictly newer ones, so
it never deletes an entry that belongs to the newest `n`, keeps at least `min n count` entries, and
every deleted entry is strictly older than every kept one. -/
theorem trim_keeps_newest_with_ties (S : SortDesc α) (ops : List (LogOp α)) (n : Nat) (u : Str) :
    let old := (run S ops).history u
    let new := (run S (ops ++ [.trim n none])).history u
    (∀ x, x ∈ new ↔ x ∈ old ∧ old.countP (fun y => x.2 < y.2) < n) ∧
    min n old.length ≤ new.length ∧ new.Sublist old ∧
    ∀ x ∈ old, x ∉ new → ∀ y ∈ new, x.2 < y.2 := by
  intro old new
  have e : new = old.filter (fun x => old.countP (fun y => x.2 < y.2) < n) :=
    (log_refines S ops (.trim n none)).1 u
  have m : ∀ x, x ∈ new ↔ x ∈ old ∧ old.countP (fun y => x.2 < y.2) < n := by
    intro x; rw [e]; simp
  refine ⟨m, ?_, by rw [e]; exact List.filter_sublist, ?_⟩
  · -- the answer to a query is contained in what is kept
    have hr : new.length = (newest Row.ts n ((run S ops).rowsOf u)).length := by
      rw [← List.length_map (f := fun r : Row α => (r.val, r.ts)), history_newest, e]; rfl
    have hle : ((S.sort ((run S ops).rowsOf u)).take n).length ≤
        (newest Row.ts n ((run S ops).rowsOf u)).length := by
      generalize (run S ops).rowsOf u = L
      have hp := S.perm L
      have : (newest Row.ts n L).Perm
          ((S.sort L).filter (fun x => (((S.sort L).take n).map Row.ts).contains x.ts)) := by
        unfold newest
        have : L.filter (fun x => decide (L.countP (fun y => decide (x.ts < y.ts)) < n)) =
            L.filter (fun x => (((S.sort L).take n).map Row.ts).contains x.ts) := by
          apply List.filter_congr
          intro x hx
          rw [Bool.eq_iff_iff, List.contains_iff_mem, decide_eq_true_iff,
            mem_take_times (S.sorted L) x (hp.mem_iff.2 hx) n, hp.countP_eq]
        rw [this]
        exact (hp.filter _).symm
      rw [this.length_eq]
      have hs : ((S.sort L).take n).Sublist
          ((S.sort L).filter (fun x => (((S.sort L).take n).map Row.ts).contains x.ts)) := by
        have h0 : ((S.sort L).take n).filter
            (fun x => (((S.sort L).take n).map Row.ts).contains x.ts) = (S.sort L).take n := by
          rw [List.filter_eq_self]
          intro x hx
          rw [List.contains_iff_mem]
          exact List.mem_map.2 ⟨x, hx, rfl⟩
        have h1 := (List.take_sublist n (S.sort L)).filter
          (fun x => (((S.sort L).take n).map Row.ts).contains x.ts)
        rwa [h0] at h1
      exact hs.length_le
    rw [hr]
    refine Nat.le_trans ?_ hle
    have : old.length = ((run S ops).rowsOf u).length := by simp [old, history]
    rw [List.length_take, (S.perm _).length_eq, this]
    exact Nat.le_refl _
  · intro x hx hxn y hy
    by_contra hlt
    apply hxn
    rw [m]
    refine ⟨hx, ?_⟩
    have hy' := ((m y).1 hy).2
    refine Nat.lt_of_le_of_lt ?_ hy'
    apply List.countP_mono_left
    intro z _ hz
    simp only [decide_eq_true_eq] at hz ⊢
    omega

/-! ### C15 -/

/-- C15: the whole history of every unit whose id starts with the prefix is gone. -/
theorem remove_prefix_complete (S : SortDesc α) (ops : List (LogOp α)) (p u : Str)
    (hu : p <+: u) : (run S (ops ++ [.removePrefix p none])).history u = [] := by
  have := (log_refines S ops (.removePrefix p none)).1 u
  rw [this, if_pos (likePrefix_of_prefix p u hu)]

/-- C15 for prefixes without `%` and `_`: a unit whose id does not start with the prefix, up to ASCII
letter case, keeps its whole history.  What is missing: the code matches with SQL `LIKE`, so wildcards
and letter case can delete more (`remove_prefix_not_exact`). -/
theorem remove_prefix_exact_partial (S : SortDesc α) (ops : List (LogOp α)) (p u : Str)
    (hp : '%' ∉ p ∧ '_' ∉ p) :
    (run S (ops ++ [.removePrefix p none])).history u =
      if p.map Char.toLower <+: u.map Char.toLower then [] else (run S ops).history u := by
  have := (log_refines S ops (.removePrefix p none)).1 u
  rw [this]
  by_cases h : likePrefix p u = true
  · rw [if_pos h, if_pos ((likePrefix_iff p u hp).1 h)]
  · rw [if_neg h, if_neg (fun h' => h ((likePrefix_iff p u hp).2 h'))]

/-! ### Non-vacuity and counterexamples -/

/-- A concrete sort: insertion sort by descending time. -/
def insSort : SortDesc α where
  sort l := l.foldr (fun a acc => acc.takeWhile (fun b => a.ts < b.ts) ++
    a :: acc.dropWhile (fun b => a.ts < b.ts)) []
  perm l := by
    induction l with
    | nil => exact List.Perm.refl _
    | cons a l ih =>
      simp only [List.foldr_cons]
      refine List.perm_middle.trans ?_
      rw [List.takeWhile_append_dropWhile]
      exact ih.cons a
  sorted l := by
    induction l with
    | nil => simp
    | cons a l ih =>
      simp only [List.foldr_cons]
      generalize l.foldr _ [] = m at ih
      clear l
      induction m with
      | nil => simp
      | cons b m ih' =>
        rw [List.pairwise_cons] at ih
        by_cases h : a.ts < b.ts
        · simp only [List.takeWhile_cons, List.dropWhile_cons, h, decide_true, if_true,
            List.cons_append, List.pairwise_cons]
          refine ⟨?_, ih' ih.2⟩
          intro c hc
          have hc : c ∈ a :: m := by
            have := (List.perm_middle (a := a) (l₁ := m.takeWhile (fun b => decide (a.ts < b.ts)))
              (l₂ := m.dropWhile (fun b => decide (a.ts < b.ts)))).mem_iff.1 hc
            rwa [List.takeWhile_append_dropWhile] at this
          rcases List.mem_cons.1 hc with rfl | hc
          · omega
          · exact ih.1 c hc
        · simp only [List.takeWhile_cons, List.dropWhile_cons, h, decide_false,
            Bool.false_eq_true, if_false, List.nil_append, List.pairwise_cons]
          refine ⟨?_, ih⟩
          intro c hc
          rcases List.mem_cons.1 hc with rfl | hc
          · omega
          · have := ih.1 c hc; omega

/-- A history with two units, three trials of one of them recorded out of order. -/
def exampleOps : List (LogOp Nat) :=
  [.record [⟨"a::1".toList, 3, 10⟩, ⟨"a::1".toList, 5, 30⟩, ⟨"b::1".toList, 1, 5⟩] false, .reopen,
    .record [⟨"a::1".toList, 4, 20⟩] false]

/-- The hypotheses of the theorems above hold of a concrete history, with non-trivial answers. -/
example : (run insSort exampleOps).get insSort "a::1".toList 2 = [(5, 30), (4, 20)] ∧
    (((run insSort exampleOps).history "a::1".toList).map Prod.snd).Nodup ∧
    (run insSort (exampleOps ++ [.trim 1 none])).history "a::1".toList = [(5, 30)] ∧
    (run insSort (exampleOps ++ [.removePrefix "a".toList none])).history "a::1".toList = [] ∧
    (run insSort (exampleOps ++ [.removePrefix "a".toList none])).history "b::1".toList =
      [(1, 5)] := by
  decide +kernel

/-- C14 is false as stated: two trials in the same second, trimmed to one, are both kept. -/
theorem trim_keeps_too_many : ¬ TrimKeepsNewest Nat := by
  intro h
  have := (h insSort [.record [⟨"a".toList, 3, 10⟩, ⟨"a".toList, 5, 10⟩] false] 1 "a".toList).1.1
  revert this
  decide +kernel

/-- C15 is false as stated: `_` is a wildcard, so removing `a_` deletes the history of `ab`. -/
theorem remove_prefix_not_exact : ¬ ∀ (S : SortDesc Nat) (ops : List (LogOp Nat)) (p u : Str),
    ¬ p <+: u → (run S (ops ++ [.removePrefix p none])).history u = (run S ops).history u := by
  intro h
  have := h insSort [.record [⟨"ab".toList, 3, 10⟩] false] "a_".toList "ab".toList (by decide)
  revert this
  decide +kernel

end Trane.Store.Table
