import Verif.Model.Population

/-!
# Specification vocabulary: tournaments
-/

namespace Verif.Spec

variable {T : Type}

/-- `v` is the fitness of individual `n` of the population. -/
def HasFitness (p : Population T) (n : Nat) (v : F64) : Prop :=
  ∃ i, p.individuals[n]? = some i ∧ i.fitness = v

/-- `w` may be the winner among the individuals with the numbers `drawn`: it is one of
them; if the first one drawn has a NaN fitness it is that one; otherwise none of those drawn has
a strictly smaller fitness. -/
def Wins (p : Population T) (drawn : List Nat) (w : Nat) : Prop :=
  w ∈ drawn ∧ ∀ first rest v, drawn = first :: rest → HasFitness p first v →
    (v.isNan = true → w = first) ∧
    (v.isNan = false → ∃ vw, HasFitness p w vw ∧ vw.isNan = false ∧
      ∀ d ∈ drawn, ∀ vd, HasFitness p d vd → vd.lt vw = false)

end Verif.Spec
