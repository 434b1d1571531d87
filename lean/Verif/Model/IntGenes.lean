import Verif.Model.Bits
import Verif.Model.Rng

/-!
# Integer genes

`CrossMean`, `RandomCreator`, `RandomVectorCreator` and the swarm initializers accept every type with the traits `Num`, `NumCast`,
`PartialOrd`; the float instances are in `Model/Cross.lean` and `Model/Creation.lean`, this file has the instances at Rust's
integer types. A gene is its value, an integer between `min` and `max` of its type.
-/

namespace Verif.IntGenes

open Verif

variable {σ : Type}

/-- A primitive integer type: `i8` … `i128`, `isize` (signed) and `u8` … `u128`, `usize`. -/
structure IntTy where
  width : Nat
  signed : Bool

/-- `T::MIN` -/
def IntTy.min (T : IntTy) : Int := if T.signed then -2 ^ (T.width - 1) else 0

/-- `T::MAX` -/
def IntTy.max (T : IntTy) : Int := if T.signed then 2 ^ (T.width - 1) - 1 else 2 ^ T.width - 1

/-- The value that the lowest `width` bits of `x` stand for. -/
def IntTy.wrap (T : IntTy) (x : Int) : Int := if T.signed then Int.bmod x (2 ^ T.width) else x % 2 ^ T.width

/-- `a + b`: panics on overflow with overflow checks, wraps without. -/
def IntTy.add (T : IntTy) (p : Profile) (a b : Int) : Except Err Int :=
  if T.min ≤ a + b ∧ a + b ≤ T.max then .ok (a + b)
  else match p with
    | .debug => .error .arith
    | .release => .ok (T.wrap (a + b))

/-- `T::from(n)` for a `usize` (num-traits: nothing if the number is not in the range) -/
def IntTy.fromUsize (T : IntTy) (n : Nat) : Option Int := if (n : Int) ≤ T.max then some n else none

/-- `x.trunc()` of a finite float, as an integer: `toInt` counts units, `D` units are 1 -/
def truncate {f : Fmt} (x : Fl f) : Int := x.toInt.tdiv f.D

/-- `T::from(x)` for an `f64` (num-traits: rounds toward zero; nothing for NaN, infinities, and if the result is not in the range) -/
def IntTy.fromF64 (T : IntTy) (x : F64) : Option Int :=
  if x.isFinite = true ∧ T.min ≤ truncate x ∧ truncate x ≤ T.max then some (truncate x) else none

/-- `n.to_f64()` (num-traits: `n as f64`, rounds to nearest; never nothing) -/
def toF64 (n : Int) : F64 := Fl.ofInt n

/-- `Cross<G> for CrossMean` (cross/mod.rs:50-60) for integer genes. The quotient does not overflow because the divisor is positive. -/
def crossMean (T : IntTy) (p : Profile) (parents : List Int) : M σ (List Int) := do
  M.assert (decide (2 ≤ parents.length))
  let sum ← M.foldL (fun x y => M.ofExcept (T.add p x y)) 0 parents
  let count ← M.unwrap (T.fromUsize parents.length)
  pure [sum.tdiv count]

/-- Draw one gene in an interval (creation/vec_float.rs:54-58, tools/mod.rs:31-32) -/
def drawGene (T : IntTy) (R : Rng σ) (iv : Int × Int) : M σ Int := do
  let x ← R.uniformFlIncl (toF64 iv.1) (toF64 iv.2)
  M.unwrap (T.fromF64 x)

/-- `RandomCreator` (creation/vec_float.rs:14-18) -/
structure RandomCreator where
  populationSize : Nat
  intervals : List (Int × Int)

/-- `RandomCreator::new` (creation/vec_float.rs:30-43) -/
def RandomCreator.new (size : Nat) (ivs : List (Int × Int)) : M σ RandomCreator := do
  M.assert (decide (0 < size))
  M.assert (!ivs.isEmpty)
  M.assert (ivs.all (fun iv => decide (iv.1 < iv.2)))
  pure ⟨size, ivs⟩

/-- `RandomCreator::create` (creation/vec_float.rs:46-66) -/
def RandomCreator.create (T : IntTy) (R : Rng σ) (c : RandomCreator) : M σ (List (List Int)) :=
  M.replicate c.populationSize (M.mapL (drawGene T R) c.intervals)

/-- `RandomVectorCreator::create_vec` (tools/mod.rs:23-37) -/
def createVec (T : IntTy) (R : Rng σ) (ivs : List (Int × Int)) : M σ (List Int) := do
  M.assert (ivs.all (fun iv => decide (iv.1 < iv.2)))
  M.mapL (drawGene T R) ivs

/-- `RandomCoordinatesInitializer::get_coordinates` (initializing/mod.rs:30-36) and
`RandomVelocityInitializer::get_velocity` (60-66), which have the same text. -/
def randomInit (T : IntTy) (R : Rng σ) (ivs : List (Int × Int)) (count : Nat) : M σ (List (List Int)) :=
  M.replicate count (createVec T R ivs)

/-- `ZeroVelocityInitializer::get_velocity` (initializing/mod.rs:80-86) -/
def zeroInit (dimension count : Nat) : M σ (List (List Int)) :=
  M.replicate count (pure (List.replicate dimension 0))

end Verif.IntGenes
