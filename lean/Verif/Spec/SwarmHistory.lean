import Verif.Spec.Swarm
import Verif.Spec.SwarmOrder

/-!
# Specification vocabulary: the history of goal values in a swarm run
-/

namespace Verif.Spec

variable {T : Type}

/-- What an event shows of the best solution: `none` if it shows nothing. -/
def shownBest : Ev T → Option (Option (Solution T))
  | .generation _ best _ _ => some best
  | .log _ _ s => some s.best
  | .check s _ => some s.best
  | _ => none

/-- Every event but the creation of a swarm or population. -/
def NotCreated : Ev T → Prop
  | .created _ => False
  | _ => True

end Verif.Spec

namespace Verif.Spec.Swarm

open Verif PSO

variable {α : Type}

/-- Column `n` of a table. -/
def column (n : Nat) (rows : List (List (Solution (List α)))) : List (Solution (List α)) :=
  rows.filterMap (·[n]?)

/-- The personal extremes of a particle are those of its column. -/
def Personal (p : Particle α) (col : List (Solution (List α))) : Prop :=
  IsBestOf col (p.bestCoords, p.bestValue) ∧ IsWorstOf col (p.worstCoords, p.worstValue)

/-- The values of this run, row by row: the initial swarm and one row per turn; column `n` is the history of particle `n`. -/
structure Table (s : Swarm α) (tr : List (Ev (List α))) (rows : List (List (Solution (List α)))) : Prop where
  flat : goalsSince tr = rows.flatten
  count : rows.length = s.iteration + 1
  width : ∀ row ∈ rows, row.length = s.particles.length
  last : rows.getLast? = some (s.particles.map Particle.sol)
  personal : ∀ (n : Nat) (p : Particle α), s.particles[n]? = some p → Personal p (column n rows)

/-- What an event shows is the best (and worst) of everything evaluated in this run before it. -/
def ShowsExtremes (before : List (Ev (List α))) (e : Ev (List α)) : Prop :=
  (∀ best, shownBest e = some best → (best = none ↔ goalsSince before = []) ∧
    ∀ b, best = some b → IsBestOf (goalsSince before) b) ∧
  ∀ ags best worst it, e = .generation ags best worst it → (worst = none ↔ goalsSince before = []) ∧
    (∀ b, worst = some b → IsWorstOf (goalsSince before) b) ∧ ∀ a ∈ ags, a ∈ goalsSince before

end Verif.Spec.Swarm
