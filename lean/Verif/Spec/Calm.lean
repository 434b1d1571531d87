import Verif.Spec.Intervals
import Verif.Model.Velocity

/-!
# Specification vocabulary: bounds for velocities
-/

namespace Verif.Spec

open Verif

variable {f : Fmt}

/-- `x` is a finite number of at most the size `B`. -/
def Within (B x : Fl f) : Prop := x.isFinite = true ∧ x.abs.le B = true

/-- `|phi| * W`: the strongest pull towards a place at most `W` away -/
def topPull (phi W : Fl f) : Fl f := phi.abs.mul W

/-- The largest result of the formula of ClassicVelocityCalculator, computed with floats: from a velocity of at most `B` and places at
most `W` away -/
def topClassic (phiP phiG B W : Fl f) : Fl f := (B.add (topPull phiP W)).add (topPull phiG W)

/-- The same for CanonicalVelocityCalculator -/
def topCanonical (c : Velocity.Canonical (Fl f)) (B W : Fl f) : Fl f := c.xi.abs.mul (topClassic c.phiP c.phiG B W)

/-- The same for InertiaVelocityCalculator with a weight of at most `w` -/
def topInertia (w phiP phiG B W : Fl f) : Fl f := ((w.mul B).add (topPull phiP W)).add (topPull phiG W)

/-- The same for NegativeReinforcement -/
def topNegative (c : Velocity.NegReinf (Fl f)) (B W : Fl f) : Fl f :=
  c.xi.abs.mul ((((((B.add (topPull c.phiBestPersonal W)).add (topPull c.phiBestCurrent W)).add (topPull c.phiBestGlobal W)).add
    (topPull c.phiWorstPersonal W)).add (topPull c.phiWorstCurrent W)).add (topPull c.phiWorstGlobal W))

/-- No interval is longer than `W`. -/
def WideAtMost (ivs : List (Fl f × Fl f)) (W : Fl f) : Prop := W.isFinite = true ∧ ∀ iv ∈ ivs, Within W (iv.2.sub iv.1)

end Verif.Spec
