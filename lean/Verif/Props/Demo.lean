import Verif.Model.Genetic
import Verif.Model.Selection
import Verif.Model.Pairing
import Verif.Model.Creation
import Verif.Model.Cross
import Verif.Model.Mutation
import Verif.Model.StopChecker
import Verif.Model.TestFunc
import Verif.Model.Logging
import Verif.Spec.Genetic

/-!
# A concrete genetic optimizer

Used beside the theorems about histories to show that their hypotheses are met by real executions: it is built from
the library's components and runs in the kernel.
-/

namespace Verif.Props.Demo

open Verif

/-- The interval [0, 10]. -/
def ivs : List (F64 × F64) := [(Fl.zero, Fl.ofNat 10)]

/-- RandomCreator, tournament, gene-wise mean, vector mutation, interval filter, NaN killer and population limit on the
one-dimensional paraboloid, two generations. -/
def opt : GA.Opt (List Nat) (List F64) :=
  let o := GA.new (fun x => pure (TestFunc.paraboloid x)) (Stop.maxIterations 2)
    (Creation.RandomCreator.create Rng.script ⟨4, ivs⟩)
    (Pairing.tournament Rng.script (Pairing.Tournament.new 2))
    (Cross.vecCrossAllGenes Cross.crossMean)
    (Mutation.vec Rng.script (Fl.zero) (fun x => pure x))
    [Selection.killFitnessNaN, Selection.limitPopulation 4]
    [Selection.preBirthInterval ivs]
  { o with comps := { o.comps with loggers := [Logging.silent, Logging.silent] } }

def script : List Nat := [0, 1, 1, 0, 3, 1, 4, 1, 5, 9, 2, 6, 5, 3, 5, 8, 9, 7, 9, 3, 2, 3, 8, 4, 6]

def world : World (List Nat) (List F64) := ⟨script, []⟩

/-- Two generations pass and leave a population of four with a best individual. -/
theorem runs : M.okAnd (GA.findMin 3 opt world) (fun r _ =>
    r.2.pop.iteration == 2 && r.2.pop.individuals.length == 4 && r.1.isSome) = true := by decide +kernel

end Verif.Props.Demo
