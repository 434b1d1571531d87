import Verif.Model.Num
import Verif.Model.Rng

/-!
# Mutation: `optlib/src/genetic/mutation/mod.rs`

A `Mutation<T>` object is a function `T → M σ T`.
-/

namespace Verif.Mutation

open Verif

variable {σ : Type}

/-- The loop of `BitwiseMutation` (mutation/mod.rs:44-47, 58-61):
`change_gene_count` times flip the bit at a random position. -/
def flipLoop (R : Rng σ) {w : Nat} : Nat → BitVec w → M σ (BitVec w)
  | 0, bits => pure bits
  | n + 1, bits => do
    let pos ← R.uniformNat 0 w
    flipLoop R n (bits ^^^ (1#w <<< pos))

/-- `Mutation<f32>`/`Mutation<f64>` for `BitwiseMutation` (mutation/mod.rs:38-64).
`Uniform::new(0, size)` is constructed even if no bit is to be flipped; as
`size` is 32 or 64 this never panics. -/
def bitwise (R : Rng σ) {f : Fmt} (changeGeneCount : Nat) (gene : Fl f) : M σ (Fl f) := do
  let bits ← flipLoop R changeGeneCount gene.bits
  pure ⟨bits⟩

/-- The literals `0.0` and `100.0` of mutation/mod.rs:84 (type `f64`). -/
def hundred : F64 := Fl.ofNat 100

/-- `Mutation<Vec<G>> for VecMutation<G>` (mutation/mod.rs:82-97) -/
def vec (R : Rng σ) {G : Type} (probability : F64) (single : G → M σ G)
    (chromosomes : List G) : M σ (List G) :=
  M.mapL (fun chromo => do
    let x ← R.uniformFl (Fl.zero : F64) hundred
    if x.lt probability then single chromo else pure chromo) chromosomes

end Verif.Mutation
