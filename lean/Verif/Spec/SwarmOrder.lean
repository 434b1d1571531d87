import Verif.IEEE.Basic
import Verif.Model.Core

/-!
# Specification vocabulary: how the swarm ranks goal values
-/

namespace Verif.Spec

variable {T : Type}

/-- `x` is at least as good as `y`: a finite number that is not larger than the finite number `y`, or anything if `y`
is not finite (NaN or an infinity of either sign). -/
def NotWorse (x y : F64) : Prop :=
  (x.isFinite = true ∧ y.isFinite = true ∧ x.le y = true) ∨ y.isFinite = false

/-- `b` is one of `xs` and none of them is better. -/
def IsBestOf (xs : List (Solution T)) (b : Solution T) : Prop := b ∈ xs ∧ ∀ a ∈ xs, NotWorse b.2 a.2

/-- `b` is one of `xs` and none of them is worse. -/
def IsWorstOf (xs : List (Solution T)) (b : Solution T) : Prop := b ∈ xs ∧ ∀ a ∈ xs, NotWorse a.2 b.2

end Verif.Spec
