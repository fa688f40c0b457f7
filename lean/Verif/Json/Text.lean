import Verif.Store.Like

/-!
# JSON texts

The code writes and reads files with `serde_json` 1.0 (/repo/Cargo.toml:26): `to_string`,
`to_string_pretty`, `from_str` and `from_reader`.  This file models the text format: how a value is
written, compact or indented, and how a text is read, with the limit of 128 on nesting that the reader
has (`remaining_depth` starts at 128 and entering an array or an object when it would drop to 0 is an
error).  A text is a list of characters; UTF-8 is left out.  A number is kept as its text.
-/

namespace Trane.Json
open Trane.Store (Str)

/-- A JSON value.  The members of an object are kept in the order of the text, repeated names too. -/
inductive Json
  | null
  | bool (b : Bool)
  | num (text : Str)
  | str (s : Str)
  | arr (xs : List Json)
  | obj (fs : List (Str × Json))

/-! ### Writing -/

/-- A hexadecimal digit, lower case. -/
def hexDigit (n : Nat) : Char := if n < 10 then Char.ofNat (48 + n) else Char.ofNat (87 + n)

/-- How `serde_json` writes a character of a string (`format_escaped_str`). -/
def escape (c : Char) : Str :=
  if c = '"' then ['\\', '"']
  else if c = '\\' then ['\\', '\\']
  else if c = '\x08' then ['\\', 'b']
  else if c = '\x0c' then ['\\', 'f']
  else if c = '\n' then ['\\', 'n']
  else if c = '\r' then ['\\', 'r']
  else if c = '\t' then ['\\', 't']
  else if c.toNat < 32 then ['\\', 'u', '0', '0', hexDigit (c.toNat / 16), hexDigit (c.toNat % 16)]
  else [c]

/-- A string between quotes. -/
def quote (s : Str) : Str := '"' :: (s.flatMap escape ++ ['"'])

/-- The line break and indentation of `PrettyFormatter`; `none` is `CompactFormatter`. -/
def newline : Option Nat → Str
  | none => []
  | some n => '\n' :: List.replicate (2 * n) ' '

/-- One level deeper. -/
def deeper : Option Nat → Option Nat := Option.map (· + 1)

/-- Between a name and its value. -/
def colon : Option Nat → Str
  | none => [':']
  | some _ => [':', ' ']

mutual
/-- `serde_json::to_string` (`none`) and `to_string_pretty` (`some 0`).
As in /repo/src/course_builder.rs:87 and /repo/src/filter_manager.rs:148. -/
def print (o : Option Nat) : Json → Str
  | .null => ['n', 'u', 'l', 'l']
  | .bool true => ['t', 'r', 'u', 'e']
  | .bool false => ['f', 'a', 'l', 's', 'e']
  | .num t => t
  | .str s => quote s
  | .arr [] => ['[', ']']
  | .arr (x :: xs) =>
    '[' :: (newline (deeper o) ++ (print (deeper o) x ++ (printItems (deeper o) xs ++ (newline o ++ [']']))))
  | .obj [] => ['{', '}']
  | .obj (f :: fs) =>
    '{' :: (newline (deeper o) ++ (printField (deeper o) f ++
      (printFields (deeper o) fs ++ (newline o ++ ['}']))))
/-- The further members of an array. -/
def printItems (o : Option Nat) : List Json → Str
  | [] => []
  | x :: xs => ',' :: (newline o ++ (print o x ++ printItems o xs))
/-- A member of an object. -/
def printField (o : Option Nat) : Str × Json → Str
  | (k, v) => quote k ++ (colon o ++ print o v)
/-- The further members of an object. -/
def printFields (o : Option Nat) : List (Str × Json) → Str
  | [] => []
  | f :: fs => ',' :: (newline o ++ (printField o f ++ printFields o fs))
end

/-! ### Reading -/

/-- White space of JSON. -/
def isSpace (c : Char) : Bool := c = ' ' || c = '\n' || c = '\t' || c = '\r'

/-- `parse_whitespace`. -/
def skip : Str → Str := List.dropWhile isSpace

/-- The value of a hexadecimal digit, either case. -/
def hexValue (c : Char) : Option Nat :=
  if '0'.toNat ≤ c.toNat ∧ c.toNat ≤ '9'.toNat then some (c.toNat - 48)
  else if 'a'.toNat ≤ c.toNat ∧ c.toNat ≤ 'f'.toNat then some (c.toNat - 87)
  else if 'A'.toNat ≤ c.toNat ∧ c.toNat ≤ 'F'.toNat then some (c.toNat - 55)
  else none

/-- Four hexadecimal digits. -/
def hex4 : Str → Option (Nat × Str)
  | a :: b :: c :: d :: r => do
    some (4096 * (← hexValue a) + 256 * (← hexValue b) + 16 * (← hexValue c) + (← hexValue d), r)
  | _ => none

/-- What follows `\u`: one unit, or two that form a surrogate pair. -/
def unicode (r : Str) : Option (Char × Str) :=
  match hex4 r with
  | none => none
  | some (n, r) =>
    if 0xDC00 ≤ n ∧ n < 0xE000 then none
    else if 0xD800 ≤ n ∧ n < 0xDC00 then
      match r with
      | '\\' :: 'u' :: r =>
        match hex4 r with
        | none => none
        | some (m, r) =>
          if 0xDC00 ≤ m ∧ m < 0xE000 then
            some (Char.ofNat ((n - 0xD800) * 1024 + (m - 0xDC00) + 0x10000), r)
          else none
      | _ => none
    else some (Char.ofNat n, r)

/-- One character of a string, possibly escaped. -/
def oneChar : Str → Option (Char × Str)
  | [] => none
  | c :: r =>
    if c = '\\' then
      match r with
      | [] => none
      | e :: r =>
        if e = '"' ∨ e = '\\' ∨ e = '/' then some (e, r)
        else if e = 'b' then some ('\x08', r)
        else if e = 'f' then some ('\x0c', r)
        else if e = 'n' then some ('\n', r)
        else if e = 'r' then some ('\r', r)
        else if e = 't' then some ('\t', r)
        else if e = 'u' then unicode r
        else none
    else if c.toNat < 32 then none
    else some (c, r)

/-- A string after its first quote, up to the last one; `fuel` is at least the number of characters. -/
def parseStr : Nat → Str → Option (Str × Str)
  | 0, _ => none
  | _ + 1, [] => none
  | n + 1, c :: r =>
    if c = '"' then some ([], r)
    else
      match oneChar (c :: r) with
      | none => none
      | some (x, r) => (parseStr n r).map (fun p => (x :: p.1, p.2))

/-- The characters of numbers. -/
def isNumChar (c : Char) : Bool := c.isDigit || c = '-' || c = '+' || c = '.' || c = 'e' || c = 'E'

/-- At least one digit, and nothing else. -/
def isDigits (s : Str) : Bool := !s.isEmpty && s.all Char.isDigit

/-- The exponent of a number: nothing, or `e`, a sign and digits. -/
def isExponent : Str → Bool
  | [] => true
  | c :: r =>
    (c = 'e' || c = 'E') &&
      isDigits (match r with | '+' :: r => r | '-' :: r => r | r => r)

/-- What follows the integral part of a number. -/
def isFraction : Str → Bool
  | '.' :: r => isDigits (r.takeWhile Char.isDigit) && isExponent (r.dropWhile Char.isDigit)
  | r => isExponent r

/-- A number without its sign: no zero in front of other digits. -/
def isUnsigned : Str → Bool
  | '0' :: r => isFraction r
  | r => isDigits (r.takeWhile Char.isDigit) && isFraction (r.dropWhile Char.isDigit)

/-- The text is a JSON number. -/
def isNum : Str → Bool
  | '-' :: r => isUnsigned r
  | r => isUnsigned r

/-- The rest of `null`, `true` or `false`. -/
def literal (w : Str) (v : Json) (r : Str) : Option (Json × Str) :=
  if w.isPrefixOf r then some (v, r.drop w.length) else none

/-- A number: as many characters of numbers as there are, which must be a number. -/
def number (s : Str) : Option (Json × Str) :=
  if isNum (s.takeWhile isNumChar) then some (.num (s.takeWhile isNumChar), s.dropWhile isNumChar)
  else none

mutual
/-- `Deserializer::parse_value` and the like.  `d` is `remaining_depth`.  Each call takes fuel; `parse`
gives enough (`value_fuel`). -/
def value : Nat → Nat → Str → Option (Json × Str)
  | 0, _, _ => none
  | n + 1, d, s =>
    match skip s with
    | [] => none
    | c :: r =>
      if c = 'n' then literal ['u', 'l', 'l'] .null r
      else if c = 't' then literal ['r', 'u', 'e'] (.bool true) r
      else if c = 'f' then literal ['a', 'l', 's', 'e'] (.bool false) r
      else if c = '"' then (parseStr r.length r).map (fun p => (.str p.1, p.2))
      else if c = '[' then
        if d ≤ 1 then none
        else
          match skip r with
          | [] => none
          | e :: r =>
            if e = ']' then some (.arr [], r)
            else (items n (d - 1) (e :: r)).map (fun p => (.arr p.1, p.2))
      else if c = '{' then
        if d ≤ 1 then none
        else
          match skip r with
          | [] => none
          | e :: r =>
            if e = '}' then some (.obj [], r)
            else (fields n (d - 1) (e :: r)).map (fun p => (.obj p.1, p.2))
      else number (c :: r)
/-- The members of an array that is not empty, and its end. -/
def items : Nat → Nat → Str → Option (List Json × Str)
  | 0, _, _ => none
  | n + 1, d, s =>
    match value n d s with
    | none => none
    | some (x, r) =>
      match skip r with
      | [] => none
      | c :: r =>
        if c = ']' then some ([x], r)
        else if c = ',' then (items n d r).map (fun p => (x :: p.1, p.2))
        else none
/-- The members of an object that is not empty, and its end. -/
def fields : Nat → Nat → Str → Option (List (Str × Json) × Str)
  | 0, _, _ => none
  | n + 1, d, s =>
    match skip s with
    | [] => none
    | c :: r =>
      if c = '"' then
        match parseStr r.length r with
        | none => none
        | some (k, r) =>
          match skip r with
          | [] => none
          | c :: r =>
            if c = ':' then
              match value n d r with
              | none => none
              | some (v, r) =>
                match skip r with
                | [] => none
                | c :: r =>
                  if c = '}' then some ([(k, v)], r)
                  else if c = ',' then (fields n d r).map (fun p => ((k, v) :: p.1, p.2))
                  else none
            else none
      else none
end

/-- `serde_json::from_str` and `from_reader`, as far as the text goes: one value, and only white space
after it. As in /repo/src/course_library.rs:181 and /repo/src/preferences_manager.rs:31. -/
def parse (s : Str) : Option Json :=
  match value (2 * s.length + 2) 128 s with
  | some (v, r) => if skip r = [] then some v else none
  | none => none

end Trane.Json
