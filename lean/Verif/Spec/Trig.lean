import Verif.Spec.Error
import Verif.Model.Num
import Mathlib.Analysis.SpecialFunctions.Trigonometric.Basic

/-!
# How accurate the platform's sine and cosine are
-/

namespace Verif.Spec

/-- On finite arguments `sin` and `cos` are off by at most `ε`. -/
def AccurateTrig {f : Fmt} (ε : ℝ) (F : FloatFn (Fl f)) : Prop := ∀ a : Fl f, a.isFinite = true →
  |value (F.sin a) - Real.sin (value a)| ≤ ε ∧ |value (F.cos a) - Real.cos (value a)| ≤ ε

end Verif.Spec
