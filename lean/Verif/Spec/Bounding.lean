import Verif.Model.Core

/-!
# Specification vocabulary: stop checkers that bound the number of iterations
-/

namespace Verif.Spec

variable {σ T : Type}

/-- From iteration `n` on the stop checker answers `true` whenever it answers, whatever its internal state. -/
def Bounding (n : Nat) (stop : AlgState T → M σ Bool) : Prop :=
  ∀ s w b w', n ≤ s.iteration → stop s w = .ok (b, w') → b = true

end Verif.Spec
