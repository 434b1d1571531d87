import Mathlib.Analysis.SpecialFunctions.Trigonometric.Basic

/-!
# The test functions as their documentation gives them, on real numbers
-/

namespace Verif.Spec.Exact

/-- `(x0 - 1)^2 + (x1 - 2)^2 + ...` -/
noncomputable def paraboloid (x : List ℝ) : ℝ := ((List.range x.length).map fun i : ℕ => (x.getD i 0 - (i + 1)) ^ 2).sum

/-- The Schwefel function, with its constant rounded to seven digits. -/
noncomputable def schwefel (x : List ℝ) : ℝ := (x.map fun a => 4189829 / 10000 - a * Real.sin (Real.sqrt |a|)).sum

/-- The Rastrigin function, with π rounded to fifteen digits. -/
noncomputable def rastrigin (x : List ℝ) : ℝ :=
  (x.map fun a => a ^ 2 + 10 * (1 - Real.cos (2 * (314159265358979 / 100000000000000) * a))).sum

/-- The Rosenbrock function. -/
noncomputable def rosenbrock (x : List ℝ) : ℝ := ((List.range (x.length - 1)).map fun i : ℕ =>
  100 * (x.getD (i + 1) 0 - x.getD i 0 ^ 2) ^ 2 + (1 - x.getD i 0) ^ 2).sum

end Verif.Spec.Exact
