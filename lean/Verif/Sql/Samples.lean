import Verif.Sql.Props

/-!
# Cases for C93 and C94
-/

namespace Trane.Sql
open Trane.Store (Str LogOp Entry Reward likePrefix)
open Trane.Store.Table (AbsStep IsNewest)

/-- Rows in the order of their insertion. -/
def inOrder : Scan Int := ⟨fun _ l => l, fun _ _ => .refl _⟩

/-- Rows in the opposite order. -/
def backwards : Scan Int := ⟨fun _ l => l.reverse, fun _ l => List.reverse_perm l⟩

/-! ### The texts run in the kernel -/

def sampleBlacklist : List (Scan Int × Store.Blacklist.Op) :=
  [(inOrder, .add "a".toList false), (inOrder, .add "b::1".toList false), (inOrder, .add "b::2".toList true),
   (backwards, .add "b::3".toList false), (inOrder, .remove "a".toList false), (backwards, .reopen),
   (inOrder, .removePrefix "b::".toList (some 1))]

/-- The blacklist after calls of which two fail. -/
example : (BlacklistState.openDb inOrder {}).bind (fun b =>
      let r := runBlacklist b sampleBlacklist
      (listEntries backwards blacklistTexts r.1.db).map fun l => (l, r.2)) =
    some (["b::3".toList], [true, true, false, true, true, true, false]) := by decide +kernel

def sampleReview : List (Scan Int × Store.ReviewList.Op) :=
  [(inOrder, .add "a".toList false), (inOrder, .add "b".toList false), (inOrder, .add "a".toList false),
   (inOrder, .add "c".toList true), (backwards, .remove "b".toList false), (backwards, .reopen)]

/-- The review list after calls. -/
example : (toLatest inOrder reviewListTexts.migrations {}).bind (fun db =>
      let r := runReview db sampleReview
      (listEntries backwards reviewListTexts r.1).map fun l => (l, r.2)) =
    some (["a".toList], [true, true, true, false, true, true]) := by decide +kernel

/-- One score written and read. -/
example : ((openStore inOrder statsTexts {}).bind fun db =>
    getEntries inOrder statsTexts one (logStep inOrder statsTexts one db (.record [⟨"a".toList, 3, 10⟩] false)).1
      "a".toList 5) = some [(3, 10)] := by decide +kernel

/-! ### What the theorems say of a history -/

def sampleCalls : List (Scan Int × LogOp Int) :=
  [(inOrder, .record [⟨"a".toList, 3, 10⟩, ⟨"b".toList, 4, 10⟩, ⟨"a".toList, 5, 20⟩] false),
   (backwards, .record [⟨"a".toList, 1, 15⟩] true),
   (backwards, .trim 1 none)]

theorem LoggedFrom.inv {α : Type} {start : Str → List (α × Int)} {ops all : List (LogOp α)} {o : LogOp α}
    {log' : Str → List (α × Int)} (h : LoggedFrom start all log') (e : all = ops ++ [o]) :
    ∃ log, LoggedFrom start ops log ∧ AbsStep log log' o (!logFails o) := by
  cases h with
  | nil => simp at e
  | snoc h a =>
    obtain ⟨rfl, e'⟩ := List.append_inj' e rfl
    injection e' with e'
    subst e'
    exact ⟨_, h, a⟩

theorem LoggedFrom.inv_nil {α : Type} {start log : Str → List (α × Int)} (h : LoggedFrom start [] log) :
    log = start := by
  generalize hn : ([] : List (LogOp α)) = ops at h
  cases h with
  | nil => rfl
  | snoc h a => simp at hn

/-- After these calls a file of scores has the newer of the two scores of `a`. -/
example : ∃ db : Db Int, openStore inOrder statsTexts {} = some db ∧
    (runLog statsTexts one db sampleCalls).2 = [true, false, true] ∧
    getEntries backwards statsTexts one (runLog statsTexts one db sampleCalls).1 "a".toList 5 = some [(5, 20)] := by
  obtain ⟨db, h1, h2, log, h3, h4⟩ := stats_sql_keeps_logs inOrder sampleCalls
  refine ⟨db, h1, h2, ?_⟩
  obtain ⟨l2, h3, a3⟩ := h3.inv (ops := [_, _]) rfl
  obtain ⟨l1, h3, a2⟩ := h3.inv (ops := [_]) rfl
  obtain ⟨l0, h3, a1⟩ := h3.inv (ops := []) rfl
  rw [h3.inv_nil] at a1
  have b1 := a1 "a".toList
  have b2 := a2 "a".toList
  have b3 := a3 "a".toList
  have e : log "a".toList = [(5, 20)] := by
    rw [b3, b2, b1]
    decide +kernel
  obtain ⟨ans, g1, g2, _, rest, g3, _⟩ := h4 backwards "a".toList 5
  rw [g1, Option.some.injEq]
  rw [e] at g2 g3
  simp only [List.length_singleton, Nat.reduceLeDiff, inf_of_le_right] at g2
  obtain ⟨x, rfl⟩ := List.length_eq_one_iff.mp g2
  have : x ∈ [((5 : Int), (20 : Int))] := g3.mem_iff.mp (by simp)
  rw [List.mem_singleton.mp this]

/-! ### A file of an earlier release -/

/-- A file with the first three migrations and a score in it. -/
def oldFile : Db Int where
  version := 3
  tables := [(nUids, ⟨uidCols, [[.int 1, .text "a".toList]]⟩),
    (statsShape.tab, ⟨rowCols statsShape, [[.int 1, .int 1, .real 4, .int 100]]⟩)]
  indexes := [("unit_ids".toList, nUids, [nUnit])]

theorem oldFile_release : OfRelease statsTexts.migrations 3 oldFile := by
  refine ⟨rfl, inOrder, ofTable statsShape one 0 [("unit_ids".toList, nUids, [nUnit])] {}, ?_, ⟨rfl, rfl⟩⟩
  simp only [statsTexts, List.take_succ_cons, List.take_zero, runTexts_parsed _ parse_uids,
    runTexts_parsed _ parse_stats_table, runTexts_parsed _ parse_unit_ids]
  rfl

/-- It opens, and the score is there. -/
example : ∃ db : Db Int, openStore inOrder statsTexts oldFile = some db ∧
    getEntries inOrder statsTexts one db "a".toList 5 = some [(4, 100)] := by
  obtain ⟨db, h1, h2⟩ := (answers_survive_opening inOrder inOrder 3 oldFile).1 (by omega)
    (by simp [statsTexts]) oldFile_release
  refine ⟨db, h1, ?_⟩
  rw [h2]
  decide +kernel

end Trane.Sql
