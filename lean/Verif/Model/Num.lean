import Verif.IEEE.Basic
import Mathlib.Analysis.Real.Sqrt
import Mathlib.Data.Real.Sign
import Mathlib.Analysis.SpecialFunctions.Pow.Real
import Mathlib.Analysis.SpecialFunctions.Trigonometric.Basic

/-!
# The number types

The Rust code is generic in `T: num::Float`.  `FloatT` lists the operations of
`num::Float` / `NumCast` / `PartialOrd` the library uses.  It has two instances:

* `Fl f`: IEEE-754, the real program (f32, f64);
* `ℝ`: the ideal in which the program would compute without rounding;
  used only in theorems that say "in exact arithmetic".
-/

namespace Verif

/-- The operations of `num::Float` the library uses. -/
class FloatT (α : Type) where
  zero : α
  one : α
  add : α → α → α
  sub : α → α → α
  mul : α → α → α
  div : α → α → α
  abs : α → α
  signum : α → α
  sqrt : α → α
  /-- `a < b` -/
  lt : α → α → Bool
  /-- `a <= b` -/
  le : α → α → Bool
  isFinite : α → Bool
  isNan : α → Bool
  /-- `T::from(n)` for `n: usize` -/
  ofNat : Nat → α
  /-- `T::from(x)` for `x: f32` or `x: f64` -/
  ofFl : {g : Fmt} → Fl g → α
  /-- `T::from(lit)` for a non-negative decimal `f64` literal `n / d` -/
  lit : Nat → Nat → α

/-- IEEE-754.  A decimal literal is an `f64` that is then converted to `T`. -/
instance (f : Fmt) : FloatT (Fl f) where
  zero := Fl.zero
  one := Fl.one
  add := Fl.add
  sub := Fl.sub
  mul := Fl.mul
  div := Fl.div
  abs := Fl.abs
  signum := Fl.signum
  sqrt := Fl.sqrt
  lt := Fl.lt
  le := Fl.le
  isFinite := Fl.isFinite
  isNan := Fl.isNan
  ofNat := Fl.ofNat
  ofFl := Fl.cast
  lit n d := Fl.cast (Fl.ofRat false n d : F64)

open Classical in
/-- Exact arithmetic.  (`signum 0 = 1` as for `+0.0` in Rust.) -/
noncomputable instance : FloatT ℝ where
  zero := 0
  one := 1
  add := (· + ·)
  sub := (· - ·)
  mul := (· * ·)
  div := (· / ·)
  abs x := |x|
  signum x := if x < 0 then -1 else 1
  sqrt := Real.sqrt
  lt a b := decide (a < b)
  le a b := decide (a ≤ b)
  isFinite _ := true
  isNan _ := false
  ofNat n := n
  ofFl {g} x := (x.toInt : ℝ) / g.D
  lit n d := (n : ℝ) / d

/-- Functions computed by the platform's math library (libm). They have no
executable IEEE model here: theorems take them as parameters. -/
class FloatFn (α : Type) where
  exp2 : α → α
  powf : α → α → α
  sin : α → α
  cos : α → α

noncomputable instance : FloatFn ℝ where
  exp2 x := (2 : ℝ) ^ x
  powf x y := x ^ y
  sin := Real.sin
  cos := Real.cos

end Verif
