import Verif.Basic.Monad

/-!
# Rust integer shifts and `usize` subtraction in both build profiles
-/

namespace Verif

/-- Cargo build profile: overflow checks on (`debug`) or off (`release`). -/
inductive Profile where
  | debug
  | release
  deriving DecidableEq, Repr

/-- The number of values of a 64-bit `usize`. -/
def usizeSize : Nat := 2 ^ 64

/-- `a - b` on `usize`: panics on underflow with overflow checks, wraps without. -/
def usizeSub (p : Profile) (a b : Nat) : Except Err Nat :=
  if b ≤ a then .ok (a - b)
  else match p with
    | .debug => .error .arith
    | .release => .ok (a + usizeSize - b)

/-- `a + b` on `usize`: panics on overflow with overflow checks, wraps without. -/
def usizeAdd (p : Profile) (a b : Nat) : Except Err Nat :=
  if a + b < usizeSize then .ok (a + b)
  else match p with
    | .debug => .error .arith
    | .release => .ok ((a + b) % usizeSize)

/-- `x << n` -/
def shl (p : Profile) {w : Nat} (x : BitVec w) (n : Nat) : Except Err (BitVec w) :=
  if n < w then .ok (x <<< n)
  else match p with
    | .debug => .error .arith
    | .release => .ok (x <<< (n % w))

/-- `x >> n` for an unsigned `x` -/
def shrU (p : Profile) {w : Nat} (x : BitVec w) (n : Nat) : Except Err (BitVec w) :=
  if n < w then .ok (x >>> n)
  else match p with
    | .debug => .error .arith
    | .release => .ok (x >>> (n % w))

/-- `x >> n` for a signed `x` (arithmetic shift) -/
def shrS (p : Profile) {w : Nat} (x : BitVec w) (n : Nat) : Except Err (BitVec w) :=
  if n < w then .ok (x.sshiftRight n)
  else match p with
    | .debug => .error .arith
    | .release => .ok (x.sshiftRight (n % w))

end Verif
