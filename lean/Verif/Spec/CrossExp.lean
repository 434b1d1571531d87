import Verif.Spec.Bits
import Verif.Spec.Speed

/-!
# Specification vocabulary: a number as a whole mantissa and a power of two
-/

namespace Verif.Spec

/-- `x` is `m * 2^e` or `-m * 2^e`, with a mantissa of full length (`mw + 1` bits: 53 for `f64`, 24 for `f32`). -/
def Scientific {f : Fmt} (x : Fl f) (m : Nat) (e : Int) : Prop :=
  |value x| = m * (2 : ℝ) ^ e ∧ 2 ^ f.mw ≤ m ∧ m < 2 ^ (f.mw + 1)

end Verif.Spec
