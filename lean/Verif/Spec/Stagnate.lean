import Verif.Spec.Private

/-!
# Specification vocabulary: a stop checker among others
-/

namespace Verif.Spec

variable {σ τ T : Type}

/-- Whenever `stop` says that the run goes on, the object with the fields `L` has been consulted, once, and has said so too. -/
def NeedsConsent (L : Lens σ τ) (chk : AlgState T → M τ Bool) (stop : AlgState T → M σ Bool) : Prop :=
  ∀ s w w', stop s w = .ok (false, w') → chk s (L.get w) = .ok (false, L.get w')

end Verif.Spec

namespace Verif.GA

open Spec

variable {σ τ T : Type}

/-- The run goes on only with the consent of an object with the fields `L`, which only the stop checker touches. -/
structure Consented (L : Lens σ τ) (chk : AlgState T → M τ Bool) (c : Comps σ T) : Prop where
  stop : NeedsConsent L chk c.stop
  operators : OperatorsLeave L c
  goal : ∀ x, Leaves L (c.goal x)
  loggers : ∀ l ∈ c.loggers, ∀ k s, Leaves L (l.on k s)

end Verif.GA

namespace Verif.PSO

open Spec

variable {σ τ α : Type}

/-- The run goes on only with the consent of an object with the fields `L`, which only the stop checker touches. -/
structure Consented (L : Lens σ τ) (chk : AlgState (List α) → M τ Bool) (c : Comps σ α) : Prop where
  stop : NeedsConsent L chk c.stop
  operators : OperatorsLeave L c
  goal : ∀ x, Leaves L (c.goal x)
  loggers : ∀ l ∈ c.loggers, ∀ k s, Leaves L (l.on k s)

end Verif.PSO
