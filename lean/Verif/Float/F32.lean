import Verif.Float.Round
import Mathlib.Analysis.SpecialFunctions.Pow.Real

/-!
# `f32` arithmetic

Values of Rust's `f32` and its operations, following IEEE 754.  The sign of zero is not modelled; it can be
seen only by dividing by zero.
-/

namespace Trane.Float

/-- An `f32`: a number, an infinity or NaN. -/
inductive F | num (x : ℝ) | inf (neg : Bool) | nan

namespace F

/-- The `f32` nearest to a real number: too large numbers become infinite. -/
noncomputable def round (x : ℝ) : F :=
  if (2 : ℝ) ^ 128 ≤ rnd x then inf false
  else if rnd x ≤ -(2 : ℝ) ^ 128 then inf true
  else num (rnd x)

/-- Whether a number is negative, as a sign. -/
noncomputable def sign (x : ℝ) : Bool := decide (x < 0)

noncomputable def add : F → F → F
  | num x, num y => round (x + y)
  | inf a, inf b => if a = b then inf a else nan
  | inf a, num _ => inf a
  | num _, inf b => inf b
  | _, _ => nan

def neg : F → F
  | num x => num (-x)
  | inf a => inf (!a)
  | nan => nan

noncomputable def sub (a b : F) : F := add a (neg b)

noncomputable def mul : F → F → F
  | num x, num y => round (x * y)
  | inf a, inf b => inf (a != b)
  | inf a, num y => if y = 0 then nan else inf (a != sign y)
  | num x, inf b => if x = 0 then nan else inf (sign x != b)
  | _, _ => nan

/-- Division; the sign of a quotient by zero is taken as if zero were positive. -/
noncomputable def div : F → F → F
  | num x, num y => if y = 0 then (if x = 0 then nan else inf (sign x)) else round (x / y)
  | inf _, inf _ => nan
  | inf a, num y => inf (a != sign y)
  | num _, inf _ => num 0
  | _, _ => nan

/-- `a < b`; false if one is NaN. -/
noncomputable def lt : F → F → Bool
  | num x, num y => decide (x < y)
  | inf a, inf b => a && !b
  | inf a, num _ => a
  | num _, inf b => !b
  | _, _ => false

/-- `a <= b`; false if one is NaN. -/
noncomputable def le : F → F → Bool
  | num x, num y => decide (x ≤ y)
  | inf a, inf b => a || !b
  | inf a, num _ => a
  | num _, inf b => !b
  | _, _ => false

/-- `f32::max`: NaN is ignored. -/
noncomputable def max (a b : F) : F :=
  match a, b with
  | nan, b => b
  | a, nan => a
  | a, b => if lt a b then b else a

/-- `f32::min`: NaN is ignored. -/
noncomputable def min (a b : F) : F :=
  match a, b with
  | nan, b => b
  | a, nan => a
  | a, b => if lt b a then b else a

def abs : F → F
  | num x => num |x|
  | inf _ => inf false
  | nan => nan

end F

/-- What the code uses of arithmetic: `f32` operations, literals, `as f32` and `powf`. -/
structure Arith (α : Type) where
  add : α → α → α
  sub : α → α → α
  mul : α → α → α
  div : α → α → α
  max : α → α → α
  min : α → α → α
  abs : α → α
  lt : α → α → Bool
  le : α → α → Bool
  lit : ℚ → α
  ofInt : ℤ → α
  powf : α → α → α

/-- `f32::clamp` for bounds in order: NaN stays NaN. -/
def Arith.clamp {α : Type} (A : Arith α) (x lo hi : α) : α :=
  if A.lt x lo then lo else if A.lt hi x then hi else x

/-- Arithmetic without rounding. -/
noncomputable def exact : Arith ℝ where
  add := (· + ·)
  sub := (· - ·)
  mul := (· * ·)
  div := (· / ·)
  max := Max.max
  min := Min.min
  abs := fun x => |x|
  lt := fun x y => decide (x < y)
  le := fun x y => decide (x ≤ y)
  lit := fun q => (q : ℝ)
  ofInt := fun n => (n : ℝ)
  powf := fun x y => x ^ y

/-- `f32` arithmetic.  `powf` is a parameter: Rust leaves its last digits open. -/
noncomputable def f32 (powf : F → F → F) : Arith F where
  add := F.add
  sub := F.sub
  mul := F.mul
  div := F.div
  max := F.max
  min := F.min
  abs := F.abs
  lt := F.lt
  le := F.le
  lit := fun q => F.round (q : ℝ)
  ofInt := fun n => F.round (n : ℝ)
  powf := powf

/-- What is assumed of `powf`: for a positive base and a result that is not too large, it returns one of
the `f32` numbers next to the true power, so that it never crosses an `f32` number. -/
def Faithful (powf : F → F → F) : Prop :=
  ∀ x y : ℝ, 0 < x → x ^ y < 2 ^ 127 → ∃ z, powf (.num x) (.num y) = .num z ∧ Rep z ∧
    ∀ a, Rep a → (a ≤ x ^ y → a ≤ z) ∧ (x ^ y ≤ a → z ≤ a)

end Trane.Float
