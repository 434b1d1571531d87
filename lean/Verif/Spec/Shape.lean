import Verif.Model.Swarm
import Verif.Spec.Swarm

/-!
# Specification vocabulary: the shape of a swarm, components that fit it, the library's own components
-/

namespace Verif.Spec.Swarm

open Verif PSO

variable {σ α : Type}

/-- All vectors of a particle have `d` components. -/
structure OfDim (d : Nat) (p : Particle α) : Prop where
  coordinates : p.coordinates.length = d
  velocity : p.velocity.length = d
  best : p.bestCoords.length = d
  worst : p.worstCoords.length = d

/-- A swarm of `n` particles with `d` dimensions; if it has particles, it has a best and a worst one. -/
structure Shaped (d n : Nat) (s : Swarm α) : Prop where
  count : s.particles.length = n
  particles : ∀ p ∈ s.particles, OfDim d p
  hasBest : n ≠ 0 → s.best ≠ none
  best : ∀ b, s.best = some b → OfDim d b
  hasWorst : n ≠ 0 → s.worst ≠ none
  worst : ∀ b, s.worst = some b → OfDim d b

/-- `m` never panics and its result satisfies `Q`. -/
def Works {ω β : Type} (m : M ω β) (Q : β → Prop) : Prop := ∀ s, ∃ b s', m s = .ok (b, s') ∧ Q b

/-- `n` vectors with `d` components. -/
def Vectors (d n : Nat) (xs : List (List α)) : Prop := xs.length = n ∧ ∀ x ∈ xs, x.length = d

/-- Components that work for `n` particles with `d` dimensions. -/
structure Fits (d n : Nat) (c : Comps σ α) : Prop where
  goal : ∀ x, x.length = d → Works (c.goal x) (fun _ => True)
  stop : ∀ s, Works (c.stop s) (fun _ => True)
  coordInit : Works c.coordInit (Vectors d n)
  velInit : Works c.velInit (Vectors d n)
  velCalc : ∀ s, Shaped d n s → ∀ p ∈ s.particles, Works (c.velCalc s p) (fun v => v.length = d)
  postVel : ∀ h ∈ c.postVel, ∀ x, x.length = d → Works (h x) (fun y => y.length = d)
  postMove : ∀ h ∈ c.postMove, ∀ x, x.length = d → Works (h x) (fun y => y.length = d)
  loggers : ∀ l ∈ c.loggers, ∀ s, Works (l.start s) (fun _ => True) ∧ Works (l.resume s) (fun _ => True) ∧
    Works (l.nextIteration s) (fun _ => True) ∧ Works (l.finish s) (fun _ => True)

/-- How many particles there are after a history: none before the first `find_min`. -/
def countAfter (n : Nat) : Nat → List (Call σ α) → Nat
  | k, [] => k
  | _, .findMin _ :: ks => countAfter n n ks
  | k, _ :: ks => countAfter n k ks

/-- How many particles there are at a point of an execution. -/
def countAt (n : Nat) (ks : List (Call σ α)) : Point → Nat
  | .inFindMin _ => n
  | _ => countAfter n 0 ks

end Verif.Spec.Swarm
