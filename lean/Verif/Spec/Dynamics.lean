import Verif.Model.Swarm
import Verif.Model.Rng
import Mathlib.Analysis.SpecificLimits.Basic

/-!
# Specification vocabulary: one coordinate of one particle, watched over an endless run
-/

namespace Verif.Spec.Swarm

open Verif PSO

variable {σ : Type}

/-- The point of an execution after `t` iterations of the call that is running. -/
inductive Counts (t0 : Nat) : (Nat → Point) → Prop
  | findMin : Counts t0 (fun t => .inFindMin (t0 + t))
  | nextIterations : Counts t0 (fun t => .inNextIterations (t0 + t))

/-- A call on `o` never stops by itself. From its iteration `t0` on, coordinate `i` of particle `n` is `x 0, x 1, ..` and its
velocity there is `v 0, v 1, ..`, while this coordinate of the particle's own best position stays `b` and that of the best
position of the swarm stays `g`. -/
def Watched (o : Opt σ ℝ) (w : World σ (List ℝ)) (n i : Nat) (x v : Nat → ℝ) (b g : ℝ) : Prop :=
  ∃ t0 pt, Counts t0 pt ∧ ∀ t, ∃ o' w' p q, runTo o [] (pt t) w = .ok (o', w') ∧
    o'.swarm.particles[n]? = some p ∧ p.coordinates[i]? = some (x t) ∧ p.velocity[i]? = some (v t) ∧
    p.bestCoords[i]? = some b ∧ o'.swarm.best = some q ∧ q.coordinates[i]? = some g

/-- Every random factor the source can draw is `r`. -/
def Steady (R : Rng σ) (r : ℝ) : Prop :=
  ∀ s, (FloatT.ofFl (R.flIncl (Fl.zero : F32) Fl.one s).1 : ℝ) = r

/-- No hooks are installed. -/
def Bare (c : Comps σ ℝ) : Prop := c.postVel = [] ∧ c.postMove = []

end Verif.Spec.Swarm
