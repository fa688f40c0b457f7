import Verif.Sql.Code
import Verif.Store.LogProps

/-!
# The texts and the tables of Verif/Store

The database file that belongs to a table of the model of the stores, and what the SQL texts do to it.
-/

namespace Trane.Sql
open Trane.Store (Str LogOp Entry Reward Row Table SortDesc)
open Trane.Store.Table (Wf)

set_option linter.unusedSectionVars false

variable {R : Type} [DecidableEq R] {α : Type}

/-! ### Names -/

def nUids : Str := "uids".toList
def nUid : Str := "unit_uid".toList
def nUnit : Str := "unit_id".toList
def nId : Str := "id".toList
def nTime : Str := "timestamp".toList

/-- The table with the entries and its columns with numbers. -/
structure Shape where
  tab : Str
  vals : List Str
  other : tab ≠ nUids
  nodup : (nId :: nUid :: (vals ++ [nTime])).Nodup

/-- The columns of `uids`. -/
def uidCols : List Col :=
  [{ name := nUid, ty := .integer, key := true }, { name := nUnit, ty := .text, notNull := true, unique := true }]

/-- The columns of the table with the entries. -/
def rowCols (sh : Shape) : List Col :=
  { name := nId, ty := .integer, key := true } ::
    { name := nUid, ty := .integer, notNull := true, refs := some (nUids, nUid) } ::
      (sh.vals.map (fun n => { name := n, ty := .real }) ++ [{ name := nTime, ty := .integer }])

/-- What is to be known of the numbers. -/
structure Fits (sh : Shape) (P : Payload R α) : Prop where
  length : ∀ x, (P.enc x).length = sh.vals.length
  real : ∀ x, ∀ v ∈ P.enc x, ∃ y, v = .real y
  dec : ∀ x, P.dec (P.enc x) = some x

/-- A row of `uids`. -/
def encUid (e : Nat × Str) : Record R := [.int e.1, .text e.2]

/-- A row with an entry. -/
def encRow (P : Payload R α) (r : Row α) : Record R :=
  .int r.id :: .int r.uid :: (P.enc r.val ++ [.int r.ts])

/-- The file of a table. -/
def ofTable (sh : Shape) (P : Payload R α) (version : Nat) (idx : List (Str × Str × List Str)) (t : Table α) : Db R where
  version := version
  tables := [(nUids, ⟨uidCols, t.uids.map encUid⟩), (sh.tab, ⟨rowCols sh, t.rows.map (encRow P)⟩)]
  indexes := idx

/-! ### The statements -/

def uidSel : Select := .mk [nUid] nUids (.eq (.col nUnit) (.param 1)) none (.num (-1)) (.num 0)

def getSel (sh : Shape) : Select :=
  .mk (sh.vals ++ [nTime]) sh.tab (.eq (.col nUid) (.sub uidSel)) (some (nTime, true)) (.param 2) (.num 0)

def timeSel (sh : Shape) : Select :=
  .mk [nTime] sh.tab (.eq (.col nUid) (.param 1)) (some (nTime, true)) (.param 2) (.num 0)

def idSel (sh : Shape) (uid offset : Expr) : Select :=
  .mk [nId] sh.tab (.eq (.col nUid) uid) (some (nTime, true)) (.num (-1)) offset

def uidsSel : Select := .mk [nUid] nUids .always none (.num (-1)) (.num 0)

def likeSel : Select := .mk [nUid] nUids (.like (.col nUnit) (.param 1)) none (.num (-1)) (.num 0)

def internStmt : Stmt := .insert true nUids [nUnit] [.param 1]

def insertStmt (sh : Shape) : Stmt :=
  .insert false sh.tab (nUid :: (sh.vals ++ [nTime]))
    (.sub uidSel :: (List.range (sh.vals.length + 1)).map (fun i => .param (i + 2)))

def deleteStmt (sh : Shape) : Stmt := .delete sh.tab (.eq (.col nUid) (.param 1))

/-- The texts are these statements. -/
structure Reads (sh : Shape) (T : Texts) (trim : Cond) : Prop where
  get : parse T.get = some (.select (getSel sh), 2)
  intern : parse T.intern = some (internStmt, 1)
  insert : parse T.insert = some (insertStmt sh, sh.vals.length + 2)
  uids : parse T.uids = some (.select uidsSel, 0)
  trim : parse T.trim = some (.delete sh.tab trim, 2)
  like : parse T.like = some (.select likeSel, 1)
  delete : parse T.delete = some (deleteStmt sh, 1)

def statsShape : Shape := ⟨"practice_stats".toList, ["score".toList], by decide +kernel, by decide +kernel⟩
def deltasShape : Shape := ⟨"practice_deltas".toList, ["delta".toList], by decide +kernel, by decide +kernel⟩
def rewardsShape : Shape :=
  ⟨"practice_rewards".toList, ["reward".toList, "weight".toList], by decide +kernel, by decide +kernel⟩

/-- The condition of `DELETE` in `trim_scores` and `trim_deltas`. -/
def trimByTimeCond (sh : Shape) : Cond :=
  .and (.eq (.col nUid) (.param 1)) (.isIn true (.col nTime) (timeSel sh))

/-- The condition of `DELETE` in `trim_rewards`. -/
def trimByIdCond (sh : Shape) : Cond := .isIn false (.col nId) (idSel sh (.param 1) (.param 2))

theorem stats_reads : Reads statsShape statsTexts (trimByTimeCond statsShape) := by
  constructor <;> decide +kernel

theorem deltas_reads : Reads deltasShape deltasTexts (trimByTimeCond deltasShape) := by
  constructor <;> decide +kernel

theorem rewards_reads : Reads rewardsShape rewardsTexts (trimByIdCond rewardsShape) := by
  constructor <;> decide +kernel

theorem truncate_reads : parse truncateText =
    some (.delete rewardsShape.tab (.isIn false (.col nId) (idSel rewardsShape (.sub uidSel) (.num 20))), 1) := by
  decide +kernel

theorem vacuum_reads : parse ["VACUUM;"] = some (.vacuum, 0) := by decide +kernel

theorem one_fits {sh : Shape} (h : sh.vals.length = 1) : Fits sh (one (R := R)) where
  length _ := by rw [h]; rfl
  real x v hv := ⟨x, by simpa [one] using hv⟩
  dec _ := rfl

theorem two_fits {sh : Shape} (h : sh.vals.length = 2) : Fits sh (two (R := R)) where
  length _ := by rw [h]; rfl
  real x v hv := by
    rcases (by simpa [two] using hv : v = .real x.1 ∨ v = .real x.2) with h | h
    · exact ⟨_, h⟩
    · exact ⟨_, h⟩
  dec _ := rfl

end Trane.Sql
