import Verif.IEEE.More

/-!
# Specification vocabulary: `exp2` on integers
-/

namespace Verif.Spec

/-- What is asked of the math library's `exp2`: on every integer in the range of `i16` it
returns the correctly rounded power of two. `2^n * D` is `2^n` measured in units of the format. -/
def Exp2OnIntegers {f : Fmt} (exp2 : Fl f → Fl f) : Prop :=
  ∀ n : Int, -32768 ≤ n → n ≤ 32767 →
    Fl.Rounds ((2 : ℝ) ^ n * f.D) (exp2 (Fl.ofInt n))

/-- A function with that property: it reads the integer back from the argument. -/
def exp2Ref {f : Fmt} (x : Fl f) : Fl f :=
  let n := x.toInt / (f.D : Int)
  if 0 ≤ n then Fl.ofRat false (2 ^ n.toNat) 1 else Fl.ofRat false 1 (2 ^ (-n).toNat)

end Verif.Spec
