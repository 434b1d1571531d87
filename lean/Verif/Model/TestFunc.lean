import Verif.Model.Num
import Verif.Model.Bits

/-!
# Test functions: `optlib-testfunc/src/lib.rs`

Each function is generic in the number type and modelled up to the final `to_f64()`; the versions
`*F64` include it for IEEE formats (`Fl.cast`). `powi(2)` is `x * x`.
-/

namespace Verif.TestFunc

open Verif

variable {σ α : Type} [FloatT α]

/-- `x.powi(2)` -/
def sq (x : α) : α := FloatT.mul x x

/-- The loop of `paraboloid` (optlib-testfunc/src/lib.rs:22-24); `n` is the index. -/
def paraboloidLoop : Nat → List α → α → α
  | _, [], acc => acc
  | n, x :: xs, acc =>
    paraboloidLoop (n + 1) xs
      (FloatT.add acc (sq (FloatT.sub x (FloatT.add (FloatT.ofNat n) (FloatT.lit 1 1)))))

/-- `paraboloid` (optlib-testfunc/src/lib.rs:20-27) -/
def paraboloid (x : List α) : α := paraboloidLoop 0 x (FloatT.lit 0 1)

/-- `schwefel` (optlib-testfunc/src/lib.rs:43-47) -/
def schwefel [FloatFn α] (x : List α) : α :=
  FloatT.sub (FloatT.mul (FloatT.lit 4189829 10000) (FloatT.ofNat x.length))
    (x.foldl (fun acc xi =>
      FloatT.add acc (FloatT.mul xi (FloatFn.sin (FloatT.sqrt (FloatT.abs xi))))) FloatT.zero)

/-- `rastrigin` (optlib-testfunc/src/lib.rs:62-69) -/
def rastrigin [FloatFn α] (x : List α) : α :=
  let a : α := FloatT.lit 10 1
  let pi : α := FloatT.lit 314159265358979 100000000000000
  FloatT.add (FloatT.mul a (FloatT.ofNat x.length))
    (x.foldl (fun acc xi =>
      FloatT.sub (FloatT.add acc (FloatT.mul xi xi))
        (FloatT.mul a (FloatFn.cos (FloatT.mul (FloatT.mul (FloatT.ofNat 2) pi) xi)))) FloatT.zero)

/-- The loop of `rosenbrock` (optlib-testfunc/src/lib.rs:86-88) -/
def rosenbrockStep (x : List α) (sum : α) (n : Nat) : M σ α := do
  let x1 ← M.index x (n + 1)
  let x0 ← M.index x n
  pure (FloatT.add (FloatT.add sum
    (FloatT.mul (FloatT.lit 100 1) (sq (FloatT.sub x1 (FloatT.mul x0 x0)))))
    (sq (FloatT.sub (FloatT.lit 1 1) x0)))

/-- `rosenbrock` (optlib-testfunc/src/lib.rs:84-91). `x.len() - 1` panics for an empty vector
in a checked build. In an unchecked build the loop bound wraps, and the first turn panics on `x[1]`; the
model stops there directly. -/
def rosenbrock (p : Profile) (x : List α) : M σ α :=
  match p, x with
  | .debug, [] => M.fail .arith
  | .release, [] => M.fail .index
  | _, x => M.foldL (rosenbrockStep x) (FloatT.lit 0 1) (List.range (x.length - 1))

/-- `paraboloid` with the final `to_f64()` (optlib-testfunc/src/lib.rs:26) -/
def paraboloidF64 {f : Fmt} (x : List (Fl f)) : F64 := Fl.cast (paraboloid x)

/-- `schwefel` with the final `to_f64()` (optlib-testfunc/src/lib.rs:46) -/
def schwefelF64 {f : Fmt} [FloatFn (Fl f)] (x : List (Fl f)) : F64 := Fl.cast (schwefel x)

/-- `rastrigin` with the final `to_f64()` (optlib-testfunc/src/lib.rs:68) -/
def rastriginF64 {f : Fmt} [FloatFn (Fl f)] (x : List (Fl f)) : F64 := Fl.cast (rastrigin x)

/-- `rosenbrock` with the final `to_f64()` (optlib-testfunc/src/lib.rs:90) -/
def rosenbrockF64 {f : Fmt} (p : Profile) (x : List (Fl f)) : M σ F64 := do
  let r ← rosenbrock p x
  pure (Fl.cast r)

/-- `GoalFromFunction` (optlib/src/lib.rs:74-89) -/
def goalFromFunction {T : Type} (f : T → F64) (x : T) : M σ F64 := pure (f x)

end Verif.TestFunc
