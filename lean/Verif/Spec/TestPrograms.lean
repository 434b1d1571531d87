import Verif.Model.TestPrograms
import Verif.Spec.StatPrograms

/-!
# Vocabulary for C85: when an integration test passes
-/

namespace Verif.Spec

open Verif Examples Workers

variable {σ : Type}

/-- All the coordinates and the goal value are as near as a test asks for. -/
def Near (dims : Nat) (valid : Nat → F32) (delta : F32) (limit : F64) (x : List F32) (v : F64) : Prop :=
  (∀ i (h : i < x.length), i < dims → (x[i].sub (valid i)).abs.lt delta = true) ∧ v.abs.lt limit = true

/-- A test that passes exactly if `good`, and otherwise fails at one of its assertions. -/
def PassesIff (run : Except Err (Unit × σ)) (good : Prop) : Prop :=
  (good → ∃ s', run = .ok ((), s')) ∧ (¬ good → run = .error .assert)

/-- What a run of genetic-rosenbrock.rs leaves: a faithful record (`GeneticRecord`), but no counter. -/
def RosenbrockRecord (P : Platform σ) (m : Nat) (d : Data (List F32)) : Prop :=
  ∃ counter, GeneticRecord 700 350 m (box (minus 2 1) (plus 2 1) 3)
    (fun x v => Returned (TestFunc.rosenbrockF64 P.profile x : M σ F64) v) (d.1, counter) ∧ d.2 = []

end Verif.Spec
