import Verif.Base
import Verif.Store.Like

/-!
# The part of SQL that the stores use

A reader of the SQL texts in `/repo/src/practice_stats.rs`, `/repo/src/practice_deltas.rs`,
`/repo/src/practice_rewards.rs`, `/repo/src/blacklist.rs` and `/repo/src/review_list.rs`, after the
grammar in SQLite's documentation.  Statements outside of that part (joins, comments, quoted names, strings,
arithmetic, …) are refused.
-/

namespace Trane.Sql
open Trane.Store (Str)

/-! ### Statements -/

mutual
/-- Expressions: a column, a parameter, an integer, and the first value of a query. -/
inductive Expr
  | col (name : Str)
  | param (n : Nat)
  | num (i : Int)
  | sub (q : Select)
  deriving DecidableEq

/-- Conditions. -/
inductive Cond
  | always
  | eq (a b : Expr)
  | like (a b : Expr)
  | isIn (negated : Bool) (a : Expr) (q : Select)
  | and (a b : Cond)
  deriving DecidableEq

/-- `SELECT cols FROM table WHERE cond ORDER BY order LIMIT limit OFFSET offset`.  In `order`, the truth value says
that the order is descending. -/
inductive Select
  | mk (cols : List Str) (table : Str) (cond : Cond) (order : Option (Str × Bool)) (limit offset : Expr)
  deriving DecidableEq
end

/-- The declared type of a column. -/
inductive Ty
  | integer | text | real
  deriving DecidableEq

/-- A column of a table. -/
structure Col where
  name : Str
  ty : Ty
  notNull : Bool := false
  unique : Bool := false
  key : Bool := false
  refs : Option (Str × Str) := none
  deriving DecidableEq

/-- Statements. -/
inductive Stmt
  | createTable (name : Str) (cols : List Col)
  | createIndex (name table : Str) (cols : List Str)
  | dropTable (name : Str)
  | dropIndex (name : Str)
  | insert (orIgnore : Bool) (table : Str) (cols : List Str) (vals : List Expr)
  | delete (table : Str) (cond : Cond)
  | select (q : Select)
  | vacuum
  deriving DecidableEq

/-! ### Words -/

/-- The words of a text.  Names and keywords are not sensitive to case and are kept in small letters. -/
inductive Tok
  | word (s : Str)
  | num (n : Nat)
  /-- `$name` -/
  | named (s : Str)
  /-- `?n` -/
  | numbered (n : Nat)
  | sym (c : Char)
  deriving DecidableEq

/-- The characters of names. -/
def isWordChar (c : Char) : Bool := c.isAlphanum || c = '_'

/-- White space. -/
def isSpace (c : Char) : Bool := c = ' ' || c = '\n' || c = '\t' || c = '\r'

/-- The value of digits. -/
def digits (s : Str) : Nat := s.foldl (fun n c => 10 * n + (c.toNat - 48)) 0

/-- The word made of characters that were read, the last one first. -/
def flush (cur : Str) : List Tok :=
  match cur.reverse with
  | [] => []
  | '$' :: s => [.named s]
  | '?' :: s => [.numbered (digits s)]
  | c :: s => if c.isDigit then [.num (digits (c :: s))] else [.word ((c :: s).map Char.toLower)]

/-- Cutting a text into words. -/
def lex : Str → Str → List Tok
  | cur, [] => flush cur
  | cur, c :: s =>
    if isWordChar c then lex (c :: cur) s
    else if c = '$' ∨ c = '?' then flush cur ++ lex [c] s
    else if isSpace c then flush cur ++ lex [] s
    else flush cur ++ .sym c :: lex [] s

/-- SQLite's numbering of parameters: `?n` has the number `n`, and a name gets, where it occurs first, the number
after the largest one so far.  Returns the largest number as well. -/
def number : AMap Str Nat → Nat → List Tok → List Tok × Nat
  | _, top, [] => ([], top)
  | m, top, .named s :: ts =>
    match m.find s with
    | some k => let r := number m top ts; (.numbered k :: r.1, r.2)
    | none => let r := number (m.put s (top + 1)) (top + 1) ts; (.numbered (top + 1) :: r.1, r.2)
  | m, top, .numbered k :: ts => let r := number m (max top k) ts; (.numbered k :: r.1, r.2)
  | m, top, t :: ts => let r := number m top ts; (t :: r.1, r.2)

/-! ### Reading -/

/-- The given keyword. -/
def eat (w : String) : List Tok → Option (List Tok)
  | .word v :: ts => if v = w.toList then some ts else none
  | _ => none

/-- The given keywords. -/
def eats : List String → List Tok → Option (List Tok)
  | [], ts => some ts
  | w :: ws, ts => (eat w ts).bind (eats ws)

/-- The given symbol. -/
def eatSym (c : Char) : List Tok → Option (List Tok)
  | .sym d :: ts => if d = c then some ts else none
  | _ => none

/-- A name. -/
def ident : List Tok → Option (Str × List Tok)
  | .word v :: ts => some (v, ts)
  | _ => none

/-- Names with commas between them. -/
def idents : Nat → List Tok → Option (List Str × List Tok)
  | 0, _ => none
  | n + 1, ts => do
    let (x, ts) ← ident ts
    match eatSym ',' ts with
    | some ts => let (xs, ts) ← idents n ts; some (x :: xs, ts)
    | none => some ([x], ts)

/-- Names in parentheses. -/
def identList (n : Nat) (ts : List Tok) : Option (List Str × List Tok) := do
  let ts ← eatSym '(' ts
  let (xs, ts) ← idents n ts
  let ts ← eatSym ')' ts
  some (xs, ts)

/-- `ORDER BY`. -/
def order (ts : List Tok) : Option (Option (Str × Bool) × List Tok) :=
  match eats ["order", "by"] ts with
  | none => some (none, ts)
  | some ts => do
    let (c, ts) ← ident ts
    match eat "desc" ts with
    | some ts => some (some (c, true), ts)
    | none => some (some (c, false), (eat "asc" ts).getD ts)

mutual
/-- An expression. -/
def expr : Nat → List Tok → Option (Expr × List Tok)
  | 0, _ => none
  | n + 1, ts =>
    match ts with
    | .numbered k :: ts => some (.param k, ts)
    | .num k :: ts => some (.num k, ts)
    | .sym '-' :: .num k :: ts => some (.num (-k), ts)
    | .sym '(' :: ts => do
      let (q, ts) ← select n ts
      let ts ← eatSym ')' ts
      some (.sub q, ts)
    | .word w :: ts => some (.col w, ts)
    | _ => none

/-- A comparison. -/
def comparison : Nat → List Tok → Option (Cond × List Tok)
  | 0, _ => none
  | n + 1, ts => do
    let (a, ts) ← expr n ts
    match eatSym '=' ts with
    | some ts => let (b, ts) ← expr n ts; some (.eq a b, ts)
    | none =>
      match eat "like" ts with
      | some ts => let (b, ts) ← expr n ts; some (.like a b, ts)
      | none =>
        let neg := (eat "not" ts).isSome
        let ts ← eat "in" ((eat "not" ts).getD ts)
        let ts ← eatSym '(' ts
        let (q, ts) ← select n ts
        let ts ← eatSym ')' ts
        some (.isIn neg a q, ts)

/-- Comparisons with `AND` between them. -/
def conds : Nat → List Tok → Option (Cond × List Tok)
  | 0, _ => none
  | n + 1, ts => do
    let (a, ts) ← comparison n ts
    match eat "and" ts with
    | some ts => let (b, ts) ← conds n ts; some (.and a b, ts)
    | none => some (a, ts)

/-- A query. -/
def select : Nat → List Tok → Option (Select × List Tok)
  | 0, _ => none
  | n + 1, ts => do
    let ts ← eat "select" ts
    let (cols, ts) ← idents n ts
    let ts ← eat "from" ts
    let (t, ts) ← ident ts
    let (c, ts) ← match eat "where" ts with
      | some ts => conds n ts
      | none => some (.always, ts)
    let (o, ts) ← order ts
    match eat "limit" ts with
    | none => some (.mk cols t c o (.num (-1)) (.num 0), ts)
    | some ts =>
      let (l, ts) ← expr n ts
      match eat "offset" ts with
      | none => some (.mk cols t c o l (.num 0), ts)
      | some ts => let (f, ts) ← expr n ts; some (.mk cols t c o l f, ts)
end

/-- The constraints of a column. -/
def constraints : Nat → Col → List Tok → Option (Col × List Tok)
  | 0, _, _ => none
  | n + 1, c, ts =>
    match eats ["primary", "key"] ts with
    | some ts => constraints n { c with key := true } ts
    | none =>
      match eats ["not", "null"] ts with
      | some ts => constraints n { c with notNull := true } ts
      | none =>
        match eat "unique" ts with
        | some ts => constraints n { c with unique := true } ts
        | none =>
          match eat "references" ts with
          | some ts => do
            let (t, ts) ← ident ts
            let ts ← eatSym '(' ts
            let (k, ts) ← ident ts
            let ts ← eatSym ')' ts
            constraints n { c with refs := some (t, k) } ts
          | none => some (c, ts)

/-- The type of a column. -/
def ty : List Tok → Option (Ty × List Tok)
  | .word w :: ts =>
    if w = "integer".toList then some (.integer, ts)
    else if w = "text".toList then some (.text, ts)
    else if w = "real".toList then some (.real, ts)
    else none
  | _ => none

/-- Columns with commas between them. -/
def columns : Nat → List Tok → Option (List Col × List Tok)
  | 0, _ => none
  | n + 1, ts => do
    let (x, ts) ← ident ts
    let (y, ts) ← ty ts
    let (c, ts) ← constraints n { name := x, ty := y } ts
    match eatSym ',' ts with
    | some ts => let (cs, ts) ← columns n ts; some (c :: cs, ts)
    | none => some ([c], ts)

/-- Expressions with commas between them. -/
def exprs : Nat → List Tok → Option (List Expr × List Tok)
  | 0, _ => none
  | n + 1, ts => do
    let (x, ts) ← expr n ts
    match eatSym ',' ts with
    | some ts => let (xs, ts) ← exprs n ts; some (x :: xs, ts)
    | none => some ([x], ts)

/-- A statement. -/
def stmt (n : Nat) (ts : List Tok) : Option (Stmt × List Tok) :=
  match eats ["create", "table"] ts with
  | some ts => do
    let (t, ts) ← ident ts
    let ts ← eatSym '(' ts
    let (cs, ts) ← columns n ts
    let ts ← eatSym ')' ts
    some (.createTable t cs, ts)
  | none =>
  match eats ["create", "index"] ts with
  | some ts => do
    let (i, ts) ← ident ts
    let ts ← eat "on" ts
    let (t, ts) ← ident ts
    let (cs, ts) ← identList n ts
    some (.createIndex i t cs, ts)
  | none =>
  match eats ["drop", "table"] ts with
  | some ts => do let (t, ts) ← ident ts; some (.dropTable t, ts)
  | none =>
  match eats ["drop", "index"] ts with
  | some ts => do let (t, ts) ← ident ts; some (.dropIndex t, ts)
  | none =>
  match eat "vacuum" ts with
  | some ts => some (.vacuum, ts)
  | none =>
  match eats ["delete", "from"] ts with
  | some ts => do
    let (t, ts) ← ident ts
    match eat "where" ts with
    | some ts => let (c, ts) ← conds n ts; some (.delete t c, ts)
    | none => some (.delete t .always, ts)
  | none =>
  match eat "insert" ts with
  | some ts => do
    let ign := (eats ["or", "ignore"] ts).isSome
    let ts ← eat "into" ((eats ["or", "ignore"] ts).getD ts)
    let (t, ts) ← ident ts
    let (cs, ts) ← identList n ts
    let ts ← eat "values" ts
    let ts ← eatSym '(' ts
    let (es, ts) ← exprs n ts
    let ts ← eatSym ')' ts
    some (.insert ign t cs es, ts)
  | none => do
    let (q, ts) ← select n ts
    some (.select q, ts)

/-- A text, line by line. -/
abbrev Text := List String

/-- Reading a text with one statement; the number is that of its parameters. -/
def parse (text : Text) : Option (Stmt × Nat) :=
  let (ts, top) := number [] 0 (lex [] (text.flatMap (fun l => l.toList ++ ['\n'])))
  match stmt (ts.length + 1) ts with
  | some (s, ts) => if (eatSym ';' ts).getD ts = [] then some (s, top) else none
  | none => none

end Trane.Sql
