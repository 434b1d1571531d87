import Verif.Model.Statistics

/-!
# Specification vocabulary: results that are no worse than others
-/

namespace Verif.Spec

variable {T : Type}

/-- Both runs failed, or both have a solution with a finite goal and that of the first is not greater. -/
def NoWorse : Option (Solution T) → Option (Solution T) → Prop
  | none, none => True
  | some a, some b => a.2.isFinite = true ∧ b.2.isFinite = true ∧ a.2.le b.2 = true
  | _, _ => False

/-- `r` lies between `a` and `b`. -/
def LiesBetween (a r b : F64) : Prop := (a.le r = true ∧ r.le b = true) ∨ (b.le r = true ∧ r.le a = true)

end Verif.Spec
