import Verif.Spec.Speed

/-!
# Specification vocabulary: rounding errors
-/

namespace Verif.Spec

/-- The unit roundoff of a format: `2 ^ -24` for `f32`, `2 ^ -53` for `f64`. -/
noncomputable def roundoff (f : Fmt) : ℝ := 1 / 2 ^ (f.mw + 1)

/-- Half of the smallest positive number of a format: `2 ^ -150` for `f32`, `2 ^ -1075` for `f64`. -/
noncomputable def tiny (f : Fmt) : ℝ := 1 / (2 * f.D)

end Verif.Spec
