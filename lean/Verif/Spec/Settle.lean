import Verif.Spec.Drift
import Verif.Model.Swarm
import Verif.Model.StopChecker

/-!
# Specification vocabulary: a swarm over flat ground
-/

namespace Verif.Spec

open Verif PSO

/-- A particle swarm optimizer over flat ground, where the goal has the value `c` everywhere, that starts with the given points and
velocities and stops after `t` iterations. -/
noncomputable def flatSwarm (c : F64) (points velocities : List (List ℝ))
    (calculator : Swarm ℝ → Particle ℝ → M (List Nat) (List ℝ)) (t : Nat) : Opt (List Nat) ℝ :=
  PSO.new (fun _ => pure c) (Stop.maxIterations t) (pure points) (pure velocities) calculator

/-- A call of `find_min` of this optimizer takes just the draws `ns`, whatever they are. The mean values of the coordinates of the particle
number `n` after it are `μ`. -/
def MeanPlace (ns : List Nat) (o : Opt (List Nat) ℝ) (fuel n : Nat) (μ : List ℝ) : Prop :=
  ∃ V : List Nat → List ℝ, (∀ draws ∈ tapes ns, ∃ res o' w' p, findMin fuel o ⟨draws, []⟩ = .ok ((res, o'), w') ∧ w'.user = [] ∧
      o'.swarm.particles[n]? = some p ∧ p.coordinates = V draws ∧ (V draws).length = μ.length) ∧
    ∀ j x, μ[j]? = some x → realMean ns (fun draws => (V draws).getD j 0) = x

/-- Coordinate `j` of point `n` -/
noncomputable def entry (points : List (List ℝ)) (n j : Nat) : ℝ := (points.getD n []).getD j 0

/-- For each `t`, each particle `n` and each coordinate `j`, the mean value of this coordinate after `t` iterations over flat ground is
`μ t n j`, where an iteration takes `k` draws, and each of them is one of `m`. -/
def MeanPath (m k d : Nat) (c : F64) (points velocities : List (List ℝ)) (calculator : Swarm ℝ → Particle ℝ → M (List Nat) (List ℝ))
    (μ : Nat → Nat → Nat → ℝ) : Prop :=
  ∀ t fuel n, t < fuel → n < points.length →
    MeanPlace (List.replicate (t * k) m) (flatSwarm c points velocities calculator t) fuel n ((List.range d).map (μ t n))

/-- At least one point, as many velocities, and `d` components in each of them -/
structure Start (d : Nat) (points velocities : List (List ℝ)) : Prop where
  some : points ≠ []
  both : velocities.length = points.length
  point : ∀ x ∈ points, x.length = d
  velocity : ∀ v ∈ velocities, v.length = d

end Verif.Spec
