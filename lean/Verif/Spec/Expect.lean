import Verif.Spec.Average
import Verif.Spec.Chance

/-!
# Specification vocabulary: what an operation does on average
-/

namespace Verif.Spec

open Verif

/-- Whatever the draws are, the operation succeeds and takes just these draws; all sequences of draws being equally likely, the mean value
of `V` at its result is `μ`. -/
def Expected {α : Type} (ns : List Nat) (op : M (List Nat) α) (V : α → ℚ) (μ : ℚ) : Prop :=
  HasMean ns (fun draws x => ∃ y, op draws = .ok (y, []) ∧ V y = x) μ

/-- How often the individual `i` is a member of one of the families -/
def timesChosen (families : List (List Nat)) (i : Nat) : Nat := (families.map (fun f => f.count i)).sum

/-- The number of places where the chromosomes differ -/
def changedGenes {G : Type} [DecidableEq G] (xs ys : List G) : Nat := (xs.zip ys).countP (fun z => z.1 ≠ z.2)

end Verif.Spec
