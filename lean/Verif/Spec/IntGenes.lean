import Verif.Model.IntGenes
import Mathlib.Data.List.Forall2
import Mathlib.Algebra.BigOperators.Group.List.Basic

/-!
# Specification vocabulary: integer genes
-/

namespace Verif.Spec

open Verif IntGenes

/-- A value of the type. -/
def InRange (T : IntTy) (x : Int) : Prop := T.min ≤ x ∧ x ≤ T.max

/-- Nothing overflows when the numbers are added from the left. -/
def SumsInRange (T : IntTy) (xs : List Int) : Prop := ∀ k ≤ xs.length, InRange T (xs.take k).sum

/-- `c` is `sum / n` without its fractional part: not farther from 0, less than 1 away, on the same side. -/
def TruncatedQuotient (sum n c : Int) : Prop := |n * c| ≤ |sum| ∧ |sum - n * c| < n ∧ 0 ≤ sum * c

/-- One number per interval, each inside its interval. -/
def IntBox (ivs : List (Int × Int)) (xs : List Int) : Prop := List.Forall₂ (fun iv x => iv.1 ≤ x ∧ x ≤ iv.2) ivs xs

end Verif.Spec
