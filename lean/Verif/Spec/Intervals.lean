import Verif.IEEE.Basic
import Mathlib.Data.List.Forall2

/-!
# Specification vocabulary: points inside a box
-/

namespace Verif.Spec

variable {f : Fmt}

/-- `x` is a finite number with `lo <= x <= hi`. -/
def InInterval (iv : Fl f × Fl f) (x : Fl f) : Prop :=
  x.isFinite = true ∧ iv.1.le x = true ∧ x.le iv.2 = true

/-- `x` is a finite number that is not excluded by either end of the interval: a NaN end excludes nothing. -/
def NotExcluded (iv : Fl f × Fl f) (x : Fl f) : Prop :=
  x.isFinite = true ∧ (iv.1.isNan = true ∨ iv.1.le x = true) ∧ (iv.2.isNan = true ∨ x.le iv.2 = true)

/-- One coordinate per interval, each inside its interval. -/
def InBox (ivs : List (Fl f × Fl f)) (xs : List (Fl f)) : Prop :=
  List.Forall₂ InInterval ivs xs

/-- Both ends finite and `lo < hi`. -/
def FiniteIncreasing (ivs : List (Fl f × Fl f)) : Prop :=
  ∀ iv ∈ ivs, iv.1.isFinite = true ∧ iv.2.isFinite = true ∧ iv.1.lt iv.2 = true

end Verif.Spec
