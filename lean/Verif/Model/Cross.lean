import Verif.Model.Bits
import Verif.Model.Num
import Verif.Model.Rng

/-!
# Crossing: `optlib/src/genetic/cross/mod.rs`

A `Cross<T>` object is a function `List T → M σ (List T)`.
-/

namespace Verif.Cross

open Verif

variable {σ : Type}

/-- The common text of `cross_u64` (cross/mod.rs:213-218), `cross_u32` (238-243),
`cross_u16` (296-301) and `cross_u8` (353-358), which differ only in the width. -/
def crossU (p : Profile) {w : Nat} (parent1 parent2 : BitVec w) (pos : Nat) :
    Except Err (BitVec w) := do
  let mask1 ← shl p (BitVec.allOnes w) pos
  let mask2 ← shrU p (BitVec.allOnes w) (← usizeSub p w pos)
  .ok ((parent1 &&& mask1) ||| (parent2 &&& mask2))

/-- The common text of `cross_i16` (cross/mod.rs:272-277) and `cross_i8` (329-334).
`BitVec.intMax w` is `i16::MAX` / `i8::MAX`. -/
def crossS (p : Profile) {w : Nat} (parent1 parent2 : BitVec w) (pos : Nat) :
    Except Err (BitVec w) := do
  let mask1 ← shl p (BitVec.allOnes w) pos
  let mask2 ← shrS p (BitVec.intMax w) (← usizeSub p (← usizeSub p w pos) 1)
  .ok ((parent1 &&& mask1) ||| (parent2 &&& mask2))

/-- cross/mod.rs:213-218 (the size is written as `size_of::<f64>() * 8` = 64) -/
def cross_u64 (p : Profile) (a b : BitVec 64) (pos : Nat) := crossU p a b pos
/-- cross/mod.rs:238-243 -/
def cross_u32 (p : Profile) (a b : BitVec 32) (pos : Nat) := crossU p a b pos
/-- cross/mod.rs:296-301 -/
def cross_u16 (p : Profile) (a b : BitVec 16) (pos : Nat) := crossU p a b pos
/-- cross/mod.rs:353-358 -/
def cross_u8 (p : Profile) (a b : BitVec 8) (pos : Nat) := crossU p a b pos
/-- cross/mod.rs:272-277 -/
def cross_i16 (p : Profile) (a b : BitVec 16) (pos : Nat) := crossS p a b pos
/-- cross/mod.rs:329-334 -/
def cross_i8 (p : Profile) (a b : BitVec 8) (pos : Nat) := crossS p a b pos

/-- `cross_f64` (cross/mod.rs:404-410) and `cross_f32` (378-384): transmute to
bits, cross as unsigned integers, transmute back. Generic in the format. -/
def cross_fl (p : Profile) {f : Fmt} (a b : Fl f) (pos : Nat) : Except Err (Fl f) := do
  .ok ⟨← crossU p a.bits b.bits pos⟩

/-- `Cross<f64> for CrossBitwise` (cross/mod.rs:105-114) and `Cross<f32>` (116-125). -/
def crossBitwise (p : Profile) (R : Rng σ) {f : Fmt} (parents : List (Fl f)) :
    M σ (List (Fl f)) := do
  M.assert (parents.length == 2)
  let pos ← R.uniformNat 1 f.w
  let p0 ← M.index parents 0
  let p1 ← M.index parents 1
  let c ← M.ofExcept (cross_fl p p0 p1 pos)
  pure [c]

/-- `Cross<G> for CrossMean` (cross/mod.rs:50-60), for float genes
(`IntGenes.crossMean` is the one for integer genes). -/
def crossMean {α : Type} [FloatT α] (parents : List α) : M σ (List α) := do
  M.assert (decide (2 ≤ parents.length))
  let sum := parents.foldl (fun x y => FloatT.add x y) FloatT.zero
  pure [FloatT.div sum (FloatT.ofNat parents.length)]

/-- `Cross<G> for FloatCrossGeometricMean` (cross/mod.rs:87-95) -/
def crossGeomMean {α : Type} [FloatT α] [FloatFn α] (parents : List α) : M σ (List α) := do
  M.assert (decide (2 ≤ parents.length))
  let prod := parents.foldl (fun x y => FloatT.mul x y) FloatT.one
  pure [FloatFn.powf prod (FloatT.div FloatT.one (FloatT.ofNat parents.length))]

/-- The gene loop of `VecCrossAllGenes` (cross/mod.rs:143-148): `n` runs over
`0..parent_1.len()`; the single crosses' results are appended to `child`. -/
def vecCrossLoop {G : Type} (single : List G → M σ (List G)) (p1 p2 : List G) :
    List Nat → List G → M σ (List G)
  | [], child => pure child
  | n :: ns, child => do
    let g1 ← M.index p1 n
    let g2 ← M.index p2 n
    let new ← single [g1, g2]
    vecCrossLoop single p1 p2 ns (child ++ new)

/-- `Cross<Vec<G>> for VecCrossAllGenes<G>` (cross/mod.rs:133-151) -/
def vecCrossAllGenes {G : Type} (single : List G → M σ (List G)) (parents : List (List G)) :
    M σ (List (List G)) := do
  M.assert (parents.length == 2)
  let p1 ← M.index parents 0
  let p2 ← M.index parents 1
  let child ← vecCrossLoop single p1 p2 (List.range p1.length) []
  pure [child]

/-- `num::Float::integer_decode` (num-traits 0.2): mantissa (u64), exponent
(i16, as an integer here), sign (i8: +1 / -1); subnormals have their mantissa shifted left by one. -/
def integerDecode {f : Fmt} (x : Fl f) : Nat × Int × Int :=
  let e := x.idx / 2 ^ f.mw
  let m := x.idx % 2 ^ f.mw
  (if e = 0 then m * 2 else m + 2 ^ f.mw,
   (e : Int) - (f.bias + f.mw : Nat),
   if x.sgn then -1 else 1)

/-- `Cross<T> for FloatCrossExp` (cross/mod.rs:160-191); `exp2` is libm's. -/
def floatCrossExp (p : Profile) (R : Rng σ) {f : Fmt} (exp2 : Fl f → Fl f)
    (parents : List (Fl f)) : M σ (List (Fl f)) := do
  M.assert (parents.length == 2)
  let p0 ← M.index parents 0
  let p1 ← M.index parents 1
  let (m1, e1, s1) := integerDecode p0
  let (m2, e2, s2) := integerDecode p1
  let mpos ← R.uniformNat 1 64
  let epos ← R.uniformNat 1 16
  let m ← M.ofExcept (cross_u64 p (BitVec.ofNat 64 m1) (BitVec.ofNat 64 m2) mpos)
  let e ← M.ofExcept (cross_i16 p (BitVec.ofInt 16 e1) (BitVec.ofInt 16 e2) epos)
  let sn ← R.uniformNatIncl 0 1
  let s ← match sn with
    | 0 => pure s1
    | 1 => pure s2
    | _ => M.fail .user
  pure [Fl.mul (Fl.mul (Fl.ofInt s) (Fl.ofNat m.toNat)) (exp2 (Fl.ofInt e.toInt))]

end Verif.Cross
