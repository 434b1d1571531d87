import Verif.IEEE.Basic
import Mathlib.Analysis.Real.Sqrt
import Mathlib.Algebra.BigOperators.Group.List.Basic

/-!
# Specification vocabulary: values of floats as real numbers, the length of a vector
-/

namespace Verif.Spec

/-- The real number a finite float stands for. -/
noncomputable def value {f : Fmt} (x : Fl f) : ℝ := (x.toInt : ℝ) / f.D

/-- The smallest positive normal number of a format; below it precision is lost (underflow). -/
noncomputable def minNormal (f : Fmt) : ℝ := (2 : ℝ) ^ f.mw / f.D

/-- The Euclidean length of a vector of real numbers. -/
noncomputable def length₂ (v : List ℝ) : ℝ := Real.sqrt (v.map (fun x => x ^ 2)).sum

end Verif.Spec
