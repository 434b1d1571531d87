import Verif.Spec.Trace
import Verif.Spec.Genetic
import Verif.Spec.SwarmHistory
import Verif.Model.Mutation
import Verif.Model.Cross

/-!
# Specification vocabulary: what a population inherits from the one it began with
-/

namespace Verif.Spec

open Verif GA

variable {σ T G : Type}

/-- The chromosomes with which the run that is going on began. -/
def lastCreated (tr : List (Ev T)) : List T :=
  tr.foldl (fun l e => match e with
    | .created xs => xs
    | _ => l) []

/-- The chromosomes of `xs` have the gene `g` in the place `j`. -/
def HasGene (xs : List (List G)) (j : Nat) (g : G) : Prop := ∃ x ∈ xs, x[j]? = some g

/-- The number of genes of `y` is that of a chromosome of `xs`, and each bit of each gene of `y` is found in the same place in a
chromosome of `xs`. -/
def Inherits {f : Fmt} (xs : List (List (Fl f))) (y : List (Fl f)) : Prop :=
  (∃ x ∈ xs, x.length = y.length) ∧
  ∀ j g, y[j]? = some g → ∀ i, i < f.w → ∃ h, HasGene xs j h ∧ h.bits.getLsbD i = g.bits.getLsbD i

/-- Each gene of `y` is finite and lies between two genes that chromosomes of `xs` have in the same place. -/
def Between {f : Fmt} (xs : List (List (Fl f))) (y : List (Fl f)) : Prop :=
  (∃ x ∈ xs, x.length = y.length) ∧
  ∀ j g, y[j]? = some g → g.isFinite = true ∧ ∃ lo hi, HasGene xs j lo ∧ HasGene xs j hi ∧ lo.le g = true ∧ g.le hi = true

/-- Crossing of pairs gene by gene with `single`, mutation that never happens (the probability is not above 0), pre-birth components that
only drop children, selections as in the library or as users can write them. -/
structure Recombining (single : List G → M σ (List G)) (c : Comps σ (List G)) : Prop where
  legal : Legal c
  cross : c.cross = Cross.vecCrossAllGenes single
  mutation : ∃ (R : Rng σ) (prob : F64) (m : G → M σ G), (Fl.zero : F64).lt prob = false ∧ c.mutation = Mutation.vec R prob m
  preBirths : ∀ g ∈ c.preBirths, ∀ p xs ys, Returned (g p xs) ys → ∀ y ∈ ys, y ∈ xs

end Verif.Spec
