import Verif.Model.Population
import Mathlib.Data.List.Forall2

/-!
# Specification vocabulary: what a selection may do
-/

namespace Verif.Spec

variable {T : Type}

/-- `p'` is `p` with some individuals killed: nothing is reordered, added, dropped, changed or revived. -/
def OnlyKills (p p' : Population T) : Prop :=
  p'.best = p.best ∧ p'.worst = p.worst ∧ p'.iteration = p.iteration ∧
  List.Forall₂ (fun i j => j.chromosomes = i.chromosomes ∧ j.fitness = i.fitness ∧
    (j.alive = true → i.alive = true)) p.individuals p'.individuals

/-- Individual number `n` is alive. -/
def AliveAt (p : Population T) (n : Nat) : Prop := ∃ i, p.individuals[n]? = some i ∧ i.alive = true

/-- Individual number `n` exists and has fitness `v`. -/
def FitnessAt (p : Population T) (n : Nat) (v : F64) : Prop :=
  ∃ i, p.individuals[n]? = some i ∧ i.fitness = v

end Verif.Spec
