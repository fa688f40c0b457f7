import Verif.Sql.Syntax
import Mathlib.Data.List.Sort

/-!
# What the statements do

After SQLite's documentation, for the statements of Verif/Sql/Syntax.lean.

Simplifications: a value is only stored in a column of its own type (SQLite converts; the theorems show that no
statement is refused for this); values of different types are different; `LIKE` is only defined for texts;
`ORDER BY` does not distinguish floating point numbers; a `LIMIT` or `OFFSET` that is not an integer counts as
0; keys do not run out.  `NaN`, which SQLite stores as `NULL`, is not among the numbers.
-/

namespace Trane.Sql
open Trane.Store (Str like)

variable {R : Type} [DecidableEq R]

/-- The values, with `R` for the floating point numbers. -/
inductive Val (R : Type)
  | null
  | int (i : Int)
  | real (x : R)
  | text (s : Str)
  deriving DecidableEq

/-- A row of a table. -/
abbrev Record (R : Type) := List (Val R)

/-- A table. -/
structure Tab (R : Type) where
  cols : List Col
  rows : List (Record R)

/-- A database file: `PRAGMA user_version`, the tables and the indexes. -/
structure Db (R : Type) where
  version : Nat := 0
  tables : List (Str × Tab R) := []
  indexes : List (Str × Str × List Str) := []

/-- The names of the columns. -/
def Tab.names (t : Tab R) : List Str := t.cols.map Col.name

/-- The table with the name. -/
def Db.find (db : Db R) (n : Str) : Option (Tab R) := (db.tables.find? (fun e => e.1 = n)).map Prod.snd

/-- The table with the name; an empty one if there is none. -/
def Db.table (db : Db R) (n : Str) : Tab R := (db.find n).getD ⟨[], []⟩

/-- Other rows for a table. -/
def Db.setRows (db : Db R) (n : Str) (rows : List (Record R)) : Db R :=
  { db with tables := db.tables.map (fun e => if e.1 = n then (e.1, { e.2 with rows := rows }) else e) }

/-- What is not laid down: the order in which a query sees the rows that fulfil its condition.  With `ORDER BY`
it decides the order of the rows with the same key. -/
structure Scan (R : Type) where
  scan : Select → List (Record R) → List (Record R)
  perm : ∀ q l, (scan q l).Perm l

/-! ### Queries -/

/-- The value of a column in the rows that are looked at, the innermost first. -/
def lookup : List (List Str × Record R) → Str → Val R
  | [], _ => .null
  | (names, row) :: outer, n => if n ∈ names then (row[names.idxOf n]?).getD .null else lookup outer n

/-- `=`. -/
def Val.eq : Val R → Val R → Option Bool
  | .null, _ => none
  | _, .null => none
  | a, b => some (decide (a = b))

/-- `LIKE`; the pattern is on the right. Used in /repo/src/practice_stats.rs:189. -/
def Val.like : Val R → Val R → Option Bool
  | .text s, .text p => some (Store.like p s)
  | _, _ => none

/-- `IN`. Used in /repo/src/practice_stats.rs:172. -/
def Val.isIn (v : Val R) (vs : List (Val R)) : Option Bool :=
  if vs = [] then some false
  else if v = .null then none
  else if v ∈ vs then some true
  else if .null ∈ vs then none
  else some false

/-- `AND`. -/
def and3 : Option Bool → Option Bool → Option Bool
  | some false, _ => some false
  | _, some false => some false
  | some true, some true => some true
  | _, _ => none

/-- The order of values: `NULL`, numbers, texts. -/
def Val.le : Val R → Val R → Bool
  | .null, _ => true
  | _, .null => false
  | .int a, .int b => decide (a ≤ b)
  | .text a, .text b => decide (a ≤ b)
  | .text _, _ => false
  | _, _ => true

/-- `LIMIT` and `OFFSET`: a negative limit is none.
Used in /repo/src/practice_stats.rs:113 and /repo/src/practice_rewards.rs:217. -/
def window (limit offset : Val R) (l : List (Record R)) : List (Record R) :=
  let n := match offset with | .int i => i.toNat | _ => 0
  match limit with
  | .int i => if i < 0 then l.drop n else (l.drop n).take i.toNat
  | _ => []

/-- `ORDER BY`. Used in /repo/src/practice_stats.rs:113. -/
def sortRows (names : List Str) (order : Option (Str × Bool)) (l : List (Record R)) : List (Record R) :=
  match order with
  | none => l
  | some (c, desc) => l.insertionSort fun a b =>
      if desc then (lookup [(names, b)] c).le (lookup [(names, a)] c) = true
      else (lookup [(names, a)] c).le (lookup [(names, b)] c) = true

section
variable (S : Scan R) (db : Db R) (ps : List (Val R))

mutual
/-- The value of an expression. -/
def Expr.eval : Expr → List (List Str × Record R) → Val R
  | .col n, sc => lookup sc n
  | .param n, _ => (ps[n - 1]?).getD .null
  | .num i, _ => .int i
  | .sub q, sc =>
    match Select.eval q sc with
    | (v :: _) :: _ => v
    | _ => .null

/-- Whether a condition holds; `none` is `NULL`. -/
def Cond.eval : Cond → List (List Str × Record R) → Option Bool
  | .always, _ => some true
  | .eq a b, sc => (Expr.eval a sc).eq (Expr.eval b sc)
  | .like a b, sc => (Expr.eval a sc).like (Expr.eval b sc)
  | .isIn neg a q, sc =>
    ((Expr.eval a sc).isIn ((Select.eval q sc).map (fun r => r.headD .null))).map (fun b => b != neg)
  | .and a b, sc => and3 (Cond.eval a sc) (Cond.eval b sc)

/-- The rows of a query. -/
def Select.eval : Select → List (List Str × Record R) → List (Record R)
  | .mk cols t c o l f, sc =>
    let names := (db.table t).names
    let rows := (db.table t).rows.filter (fun r => Cond.eval c ((names, r) :: sc) = some true)
    let rows := sortRows names o (S.scan (.mk cols t c o l f) rows)
    (window (Expr.eval l sc) (Expr.eval f sc) rows).map (fun r => cols.map (lookup [(names, r)]))
end

end

/-! ### Names -/

section
variable (db : Db R)

mutual
/-- The names in an expression mean something. -/
def Expr.known : Expr → List Str → Bool
  | .col n, sc => decide (n ∈ sc)
  | .param _, _ => true
  | .num _, _ => true
  | .sub q, sc => Select.known q sc && (match q with | .mk cols _ _ _ _ _ => cols.length = 1)

/-- The names in a condition mean something. -/
def Cond.known : Cond → List Str → Bool
  | .always, _ => true
  | .eq a b, sc => Expr.known a sc && Expr.known b sc
  | .like a b, sc => Expr.known a sc && Expr.known b sc
  | .isIn _ a q, sc => Expr.known a sc && Select.known q sc && (match q with | .mk cols _ _ _ _ _ => cols.length = 1)
  | .and a b, sc => Cond.known a sc && Cond.known b sc

/-- The names in a query mean something. -/
def Select.known : Select → List Str → Bool
  | .mk cols t c o l f, sc =>
    (db.find t).isSome && cols.all (fun n => n ∈ (db.table t).names) &&
      Cond.known c ((db.table t).names ++ sc) && o.all (fun x => decide (x.1 ∈ (db.table t).names)) &&
      Expr.known l [] && Expr.known f []
end

/-- The names in a statement mean something, and new names are new. -/
def Stmt.known : Stmt → Bool
  | .createTable n _ => (db.find n).isNone && decide (n ∉ db.indexes.map Prod.fst)
  | .createIndex n t cs => (db.find t).isSome && cs.all (fun c => c ∈ (db.table t).names) &&
      (db.find n).isNone && decide (n ∉ db.indexes.map Prod.fst)
  | .dropTable n => (db.find n).isSome
  | .dropIndex n => decide (n ∈ db.indexes.map Prod.fst)
  | .insert _ t cs es => (db.find t).isSome && cs.all (fun c => c ∈ (db.table t).names) &&
      decide (cs.length = es.length) && es.all (fun e => Expr.known db e [])
  | .delete t c => (db.find t).isSome && Cond.known db c (db.table t).names
  | .select q => Select.known db q []
  | .vacuum => true

end

/-! ### Statements -/

/-- Whether a value can be in a column. -/
def Col.fits (c : Col) : Val R → Bool
  | .null => true
  | .int _ => c.ty = .integer
  | .real _ => c.ty = .real
  | .text _ => c.ty = .text

/-- An integer as an integer. -/
def Val.asInt : Val R → Int
  | .int i => i
  | _ => 0

/-- The next key: one more than the largest one. -/
def nextKey : List (Val R) → Int
  | [] => 1
  | v :: vs => vs.foldl (fun m v => max m v.asInt) v.asInt + 1

/-- The values in a column. -/
def Tab.column (t : Tab R) (n : Str) : List (Val R) := t.rows.map (fun r => lookup [(t.names, r)] n)

/-- The row that is to be inserted. -/
def newRow (t : Tab R) (cs : List Str) (vs : List (Val R)) : Record R :=
  t.cols.map fun c =>
    let v := lookup [(cs, vs)] c.name
    if c.key ∧ v = .null then .int (nextKey (t.column c.name)) else v

/-- No `NULL` where there must be none, and nothing twice that must be unique. -/
def allowed (t : Tab R) (r : Record R) : Bool :=
  (t.cols.zip r).all fun (c, v) =>
    (!c.notNull || decide (v ≠ .null)) &&
      (!(c.unique || c.key) || decide (v = .null) || decide (v ∉ t.column c.name))

/-- References lead to something. -/
def refers (db : Db R) (t : Tab R) (r : Record R) : Bool :=
  (t.cols.zip r).all fun (c, v) =>
    match c.refs with
    | none => true
    | some (p, k) => decide (v = .null) || decide (v ∈ (db.table p).column k)

/-- Nothing refers to the row of the table. -/
def unreferenced (db : Db R) (n : Str) (r : Record R) : Bool :=
  db.tables.all fun e => e.2.cols.all fun c =>
    match c.refs with
    | none => true
    | some (p, k) => decide (p ≠ n) || decide (lookup [((db.table n).names, r)] k ∉ e.2.column c.name)

/-- Executing a statement; `none` is an error, which leaves everything as it is.  Foreign keys are enforced. -/
def exec (S : Scan R) (db : Db R) (ps : List (Val R)) : Stmt → Option (Db R)
  | .createTable n cs => some { db with tables := db.tables ++ [(n, ⟨cs, []⟩)] }
  | .createIndex n t cs => some { db with indexes := db.indexes ++ [(n, t, cs)] }
  | .dropTable n => some { db with
      tables := db.tables.filter (fun e => e.1 ≠ n), indexes := db.indexes.filter (fun e => e.2.1 ≠ n) }
  | .dropIndex n => some { db with indexes := db.indexes.filter (fun e => e.1 ≠ n) }
  | .insert ign n cs es =>
    let t := db.table n
    let r := newRow t cs (es.map (fun e => Expr.eval S db ps e []))
    if (t.cols.zip r).all (fun (c, v) => c.fits v) then
      if allowed t r then
        if refers db t r then some (db.setRows n (t.rows ++ [r])) else none
      else if ign then some db else none
    else none
  | .delete n c =>
    let t := db.table n
    let gone := fun r => decide (Cond.eval S db ps c [(t.names, r)] = some true)
    if (t.rows.filter gone).all (unreferenced db n) then some (db.setRows n (t.rows.filter (fun r => !gone r)))
    else none
  | .select _ => some db
  | .vacuum => some db

/-- Preparing a text: it must be a statement and the names must mean something. -/
def prepare (db : Db R) (text : Text) : Option (Stmt × Nat) :=
  match parse text with
  | some (s, n) => if s.known db then some (s, n) else none
  | none => none

/-- `execute`: prepare, bind and run.  The number of parameters must be right. -/
def execute (S : Scan R) (db : Db R) (text : Text) (ps : List (Val R)) : Option (Db R) :=
  match prepare db text with
  | some (s, n) => if n = ps.length then exec S db ps s else none
  | none => none

/-- `query`: the rows. -/
def query (S : Scan R) (db : Db R) (text : Text) (ps : List (Val R)) : Option (List (Record R)) :=
  match prepare db text with
  | some (.select q, n) => if n = ps.length then some (Select.eval S db ps q []) else none
  | _ => none

/-- `Migrations::to_latest` of `rusqlite_migration`, with the texts of the migrations: those after the version of
the database are run in one transaction, and the version is set.  A database from the future is an error. -/
def toLatest (S : Scan R) (ms : List Text) (db : Db R) : Option (Db R) :=
  if ms = [] ∨ ms.length < db.version then none
  else ((ms.drop db.version).foldl (fun o m => o.bind (fun d => execute S d m [])) (some db)).map
    (fun d => { d with version := ms.length })

end Trane.Sql
