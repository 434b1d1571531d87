import Verif.Spec.Settle

/-!
# Specification vocabulary: a swarm that does not come to rest
-/

namespace Verif.Spec

open Verif PSO

/-- A call of `find_min` of this optimizer takes just the draws `ns`, whatever they are. The mean square of component `j` of the velocity of the
particle number `n` after it is at least `K`. -/
def SquareSpeed (ns : List Nat) (o : Opt (List Nat) ℝ) (fuel n j : Nat) (K : ℝ) : Prop :=
  ∃ V : List Nat → ℝ, (∀ draws ∈ tapes ns, ∃ res o' w' p, findMin fuel o ⟨draws, []⟩ = .ok ((res, o'), w') ∧ w'.user = [] ∧
      o'.swarm.particles[n]? = some p ∧ p.velocity[j]? = some (V draws)) ∧
    K ≤ realMean ns (fun draws => V draws ^ 2)

end Verif.Spec
