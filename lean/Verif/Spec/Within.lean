import Verif.IEEE.Basic

/-!
# Specification vocabulary: floats of bounded size
-/

namespace Verif.Fl

/-- `x` is a finite number with `-n ≤ x ≤ n` (`toInt` counts in units of `1 / D`). -/
def Within {f : Fmt} (n : Nat) (x : Fl f) : Prop := x.isFinite = true ∧ x.toInt.natAbs ≤ n * f.D

instance {f : Fmt} (n : Nat) (x : Fl f) : Decidable (Within n x) := by unfold Within; infer_instance

end Verif.Fl
