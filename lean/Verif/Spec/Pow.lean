import Verif.Spec.Error
import Verif.Model.Num
import Mathlib.Analysis.SpecialFunctions.Pow.Real

/-!
# How accurate the platform's power function is
-/

namespace Verif.Spec

/-- A root of a positive number, `a ^ b` with `0 ≤ b ≤ 1 / 2`, is off by at most the part `ε` of itself. -/
def AccuratePow {f : Fmt} (ε : ℝ) (F : FloatFn (Fl f)) : Prop := ∀ a b : Fl f, a.isFinite = true → b.isFinite = true →
  0 < value a → 0 ≤ value b → value b ≤ 1 / 2 →
  (F.powf a b).isFinite = true ∧ |value (F.powf a b) - value a ^ value b| ≤ ε * value a ^ value b

/-- The geometric mean of positive reals. -/
noncomputable def geometricMean (xs : List ℝ) : ℝ := xs.prod ^ (1 / (xs.length : ℝ))

/-- A positive number, at least twice the smallest normal one: there is no underflow. -/
def Normal {f : Fmt} (p : Fl f) : Prop := p.isFinite = true ∧ 2 * (tiny f / roundoff f) ≤ value p

end Verif.Spec
