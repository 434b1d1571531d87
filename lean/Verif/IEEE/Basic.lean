/-!
# A bit-level model of IEEE-754 binary floating point numbers

Rust's `f32` and `f64` are the IEEE-754 formats binary32 and binary64, with
round-to-nearest-even arithmetic.  This file defines an executable model that
is generic in the format.  A value *is* its bit pattern.

Numbers are measured in integer multiples of the smallest positive subnormal
number (the *unit* of the format), so that every finite float is an integer
(`Fl.toInt`) and exact results can be compared without fractions.

Simplifications: arithmetic that produces NaN always produces one fixed quiet NaN
(Rust does not specify the payload); there are no floating point exceptions/flags.
-/

namespace Verif

/-- A binary interchange format: `mw` stored mantissa bits, `ew` exponent bits. -/
structure Fmt where
  mw : Nat
  ew : Nat
  hmw : 1 ≤ mw
  hew : 2 ≤ ew
  deriving DecidableEq

namespace Fmt

/-- binary32, Rust `f32` -/
def f32 : Fmt := ⟨23, 8, by decide, by decide⟩
/-- binary64, Rust `f64` -/
def f64 : Fmt := ⟨52, 11, by decide, by decide⟩

variable (f : Fmt)

/-- total width in bits -/
abbrev w : Nat := f.ew + f.mw + 1
/-- number of magnitude bits (all but the sign) -/
abbrev kw : Nat := f.ew + f.mw
/-- exponent bias -/
def bias : Nat := 2 ^ (f.ew - 1) - 1
/-- magnitude bits of infinity: exponent all ones, mantissa zero -/
def infIdx : Nat := (2 ^ f.ew - 1) * 2 ^ f.mw
/-- magnitude bits of 1.0 -/
def oneIdx : Nat := f.bias * 2 ^ f.mw
/-- 1.0 measured in units -/
def D : Nat := 2 ^ (f.bias + f.mw - 1)

/-- The magnitude, in units, of the non-negative float whose magnitude bits
are `k`: subnormals (exponent field 0) are `k` itself, normals are
`(2^mw + mantissa) * 2^(exponent - 1)`. -/
def mag (k : Nat) : Nat :=
  if k / 2 ^ f.mw = 0 then k
  else (2 ^ f.mw + k % 2 ^ f.mw) * 2 ^ (k / 2 ^ f.mw - 1)

/-- The greatest `k` with `mag k ≤ v`. -/
def floorIdx (v : Nat) : Nat :=
  if v.log2 ≤ f.mw then v
  else (v.log2 - f.mw) * 2 ^ f.mw + v / 2 ^ (v.log2 - f.mw)

/-- Round to nearest, ties to even, saturating at infinity.  The exact
non-negative result `x` (in units) is given by `t = ⌊2x⌋` and `sticky`,
which says whether `2x` is not an integer. -/
def roundIdx (t : Nat) (sticky : Bool) : Nat :=
  let k := f.floorIdx (t / 2)
  let m := f.mag k + f.mag (k + 1)          -- twice the midpoint
  let k' :=
    if t < m then k
    else if m < t then k + 1
    else if sticky then k + 1
    else if k % 2 = 0 then k else k + 1
  min k' f.infIdx

end Fmt

/-- A floating point value of format `f`: its bits. -/
structure Fl (f : Fmt) where
  bits : BitVec f.w
  deriving DecidableEq

/-- Rust `f64` -/
abbrev F64 := Fl Fmt.f64
/-- Rust `f32` -/
abbrev F32 := Fl Fmt.f32

namespace Fl

variable {f : Fmt}

/-- the magnitude bits (everything but the sign) -/
def idx (x : Fl f) : Nat := x.bits.toNat % 2 ^ f.kw
/-- the sign bit -/
def sgn (x : Fl f) : Bool := decide (2 ^ f.kw ≤ x.bits.toNat)
/-- assemble a float from sign and magnitude bits -/
def mk' (s : Bool) (k : Nat) : Fl f :=
  ⟨BitVec.ofNat f.w ((if s then 2 ^ f.kw else 0) + k)⟩

def isNan (x : Fl f) : Bool := decide (f.infIdx < x.idx)
def isInf (x : Fl f) : Bool := decide (x.idx = f.infIdx)
def isFinite (x : Fl f) : Bool := decide (x.idx < f.infIdx)
def isZero (x : Fl f) : Bool := decide (x.idx = 0)

/-- The value in units; for an infinity it is `± mag infIdx`, which is beyond
every finite value. -/
def toInt (x : Fl f) : Int := if x.sgn then -(f.mag x.idx : Int) else f.mag x.idx

/-- Rust `<`: false if an operand is NaN. -/
def lt (x y : Fl f) : Bool := !x.isNan && !y.isNan && decide (x.toInt < y.toInt)
/-- Rust `<=` -/
def le (x y : Fl f) : Bool := !x.isNan && !y.isNan && decide (x.toInt ≤ y.toInt)
/-- Rust `==`: `-0.0 == 0.0`, NaN is not equal to itself. -/
def feq (x y : Fl f) : Bool := !x.isNan && !y.isNan && decide (x.toInt = y.toInt)

def nan : Fl f := mk' false (f.infIdx + 2 ^ (f.mw - 1))
def inf (s : Bool) : Fl f := mk' s f.infIdx
def zero : Fl f := mk' false 0
def one : Fl f := mk' false f.oneIdx
/-- `MAX`: the greatest finite value -/
def maxFinite : Fl f := mk' false (f.infIdx - 1)

/-- round `± x` where `t = ⌊2x⌋` -/
def round (s : Bool) (t : Nat) (sticky : Bool) : Fl f := mk' s (f.roundIdx t sticky)

def neg (x : Fl f) : Fl f := mk' (!x.sgn) x.idx
def abs (x : Fl f) : Fl f := mk' false x.idx
def signum (x : Fl f) : Fl f := if x.isNan then nan else mk' x.sgn f.oneIdx

def add (x y : Fl f) : Fl f :=
  if x.isNan || y.isNan then nan
  else if x.isInf then (if y.isInf && (x.sgn != y.sgn) then nan else x)
  else if y.isInf then y
  else
    let s := x.toInt + y.toInt
    if s = 0 then mk' (x.sgn && y.sgn) 0
    else round (decide (s < 0)) (2 * s.natAbs) false

def sub (x y : Fl f) : Fl f := add x (neg y)

def mul (x y : Fl f) : Fl f :=
  if x.isNan || y.isNan then nan
  else if x.isInf || y.isInf then
    (if x.isZero || y.isZero then nan else inf (x.sgn != y.sgn))
  else
    let p := 2 * (f.mag x.idx * f.mag y.idx)
    round (x.sgn != y.sgn) (p / f.D) (decide (p % f.D ≠ 0))

def div (x y : Fl f) : Fl f :=
  if x.isNan || y.isNan then nan
  else if x.isInf then (if y.isInf then nan else inf (x.sgn != y.sgn))
  else if y.isInf then mk' (x.sgn != y.sgn) 0
  else if y.isZero then (if x.isZero then nan else inf (x.sgn != y.sgn))
  else
    let p := 2 * (f.mag x.idx * f.D)
    round (x.sgn != y.sgn) (p / f.mag y.idx) (decide (p % f.mag y.idx ≠ 0))

/-- Integer square root by bisection on bits: greatest `r < 2^n` with `r*r ≤ v`. -/
def isqrtAux (v : Nat) : Nat → Nat → Nat
  | 0, r => r
  | n + 1, r =>
    let r' := r + 2 ^ n
    if r' * r' ≤ v then isqrtAux v n r' else isqrtAux v n r

/-- `⌊√v⌋` -/
def isqrt (v : Nat) : Nat := isqrtAux v (v.log2 / 2 + 1) 0

def sqrt (x : Fl f) : Fl f :=
  if x.isNan then nan
  else if x.isZero then x
  else if x.sgn then nan
  else if x.isInf then x
  else
    let v := 4 * (f.mag x.idx * f.D)
    let t := isqrt v
    round false t (decide (t * t ≠ v))

/-- `n as f64`, `T::from(n)` for an integer `n` -/
def ofInt (n : Int) : Fl f := round (decide (n < 0)) (2 * (n.natAbs * f.D)) false

def ofNat (n : Nat) : Fl f := round false (2 * (n * f.D)) false

/-- Conversion between formats (`as f32`, `as f64`, `NumCast`): exact value
`mag x.idx * D g / D f` units of `g`, rounded. A NaN becomes the canonical NaN. -/
def cast {f g : Fmt} (x : Fl f) : Fl g :=
  if x.isNan then nan
  else if x.isInf then inf x.sgn
  else
    let p := 2 * (f.mag x.idx * g.D)
    round x.sgn (p / f.D) (decide (p % f.D ≠ 0))

/-- The float nearest to the rational `n / d` (decimal literals). -/
def ofRat (s : Bool) (n d : Nat) : Fl f :=
  let p := 2 * (n * f.D)
  round s (p / d) (decide (p % d ≠ 0))

end Fl

end Verif
