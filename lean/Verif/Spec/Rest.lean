import Verif.Spec.Swarm
import Verif.Spec.Recombine
import Verif.Model.Velocity

/-!
# Specification vocabulary: coordinates in which a swarm is at rest
-/

namespace Verif.Spec.Swarm

open Verif PSO

variable {σ : Type} {f : Fmt}

/-- Component `i` is equal to `c` (as floats compare: 0 and -0 are equal). -/
def At (i : Nat) (c : Fl f) (x : List (Fl f)) : Prop := ∃ g, x[i]? = some g ∧ g.feq c = true

/-- One of the four velocity calculators of the library, with finite parameters. -/
inductive FiniteCalc : (Swarm (Fl f) → Particle (Fl f) → M σ (List (Fl f))) → Prop
  | classic (R : Rng σ) {phiP phiG : Fl f} : phiP.isFinite = true → phiG.isFinite = true →
      FiniteCalc (Velocity.classic R phiP phiG)
  | canonical (R : Rng σ) {k : Velocity.Canonical (Fl f)} : k.phiP.isFinite = true → k.phiG.isFinite = true →
      k.xi.isFinite = true → FiniteCalc (Velocity.canonical R k)
  | inertia (R : Rng σ) {phiP phiG : Fl f} {get : Nat → M σ (Fl f)} : phiP.isFinite = true → phiG.isFinite = true →
      (∀ t w, Returned (get t) w → w.isFinite = true) → FiniteCalc (Velocity.inertia R phiP phiG get)
  | negative (R : Rng σ) {k : Velocity.NegReinf (Fl f)} : k.phiBestPersonal.isFinite = true →
      k.phiBestCurrent.isFinite = true → k.phiBestGlobal.isFinite = true → k.phiWorstPersonal.isFinite = true →
      k.phiWorstCurrent.isFinite = true → k.phiWorstGlobal.isFinite = true → k.xi.isFinite = true →
      FiniteCalc (Velocity.negReinf R k)

/-- A velocity calculator of the library; particles begin without velocity in the direction `i`; no hook changes a velocity of 0 in this
direction or a coordinate `i` that is equal to `c`. -/
structure Restful (i : Nat) (c : Fl f) (k : Comps σ (Fl f)) : Prop where
  velCalc : FiniteCalc k.velCalc
  velInit : ∀ vs, Returned k.velInit vs → ∀ v ∈ vs, At i Fl.zero v
  postVel : ∀ h ∈ k.postVel, ∀ v v', At i Fl.zero v → Returned (h v) v' → At i Fl.zero v'
  postMove : ∀ h ∈ k.postMove, ∀ x x', At i c x → Returned (h x) x' → At i c x'

end Verif.Spec.Swarm
