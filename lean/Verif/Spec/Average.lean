import Verif.Spec.Estimate
import Verif.Spec.Error
import Verif.Spec.Stats

/-!
# Specification vocabulary: mean values of what a run returns and of what a program reports
-/

namespace Verif.Spec

open Verif Stats Workers

variable {σ τ T : Type}

/-- The mean value of `V` over all sequences of draws: the sum of the values divided by the number of sequences -/
def meanOver (ns : List Nat) (V : List Nat → ℚ) : ℚ := ((tapes ns).map V).sum / (tapes ns).length

/-- For each sequence of draws there is exactly one number `x` for which `Q` holds, and the mean value of these numbers is `μ`. -/
def HasMean (ns : List Nat) (Q : List Nat → ℚ → Prop) (μ : ℚ) : Prop :=
  ∃ V : List Nat → ℚ, (∀ t ∈ tapes ns, ∀ x, Q t x ↔ x = V t) ∧ μ = meanOver ns V

/-- The mean value of `v` at the solution that a single run returns is `μ`, if there are `N` draws for the run. -/
def RunMean (m N : Nat) (job : Nat → M (List Nat × τ) (Data T)) (u : τ) (v : Solution T → ℚ) (μ : ℚ) : Prop :=
  HasMean (List.replicate N m) (fun t x => Succeeds job (t, u) (fun a => v a = x)) μ

/-- The program can come to its end, and whatever the scheduler does, the number `H` of its results is `x` then. -/
def Yields (P : Program σ T) (H : List (Option (Solution T)) → ℚ) (x : ℚ) : Prop :=
  (∃ acc, Finishes P acc) ∧ ∀ acc, Finishes P acc → H acc.1.results = x

/-- The mean value of `H` at the results of the program is `μ`, if there are `N` draws for each thread. -/
def ProgramMean (m N cpu runs : Nat) (job : Nat → M (List Nat × τ) (Data T)) (u : Nat → τ) (H : List (Option (Solution T)) → ℚ) (μ : ℚ) : Prop :=
  HasMean (List.replicate (cpu * N) m) (fun t x => Yields ⟨cpu, runs, job, pieces N u t⟩ H x) μ

/-- The values of `v` at the solutions among the results -/
def valuesOf (v : Solution T → ℚ) (rs : List (Option (Solution T))) : List ℚ := (rs.filterMap id).map v

/-- The average of some numbers, without rounding -/
def exactAverage (l : List ℚ) : ℚ := l.sum / l.length

/-- The sample variance of some numbers, without rounding: the sum of the squares of their differences from the average, divided by one less than how
many they are -/
def exactVariance (l : List ℚ) : ℚ := (l.map fun x => (x - exactAverage l) ^ 2).sum / (l.length - 1)

/-- The goal value of a solution as a number; zero if it is not finite -/
def goalValue (a : Solution T) : ℚ := if a.2.isFinite = true then ratValue a.2 else 0

/-- How far the printed average may be from the exact one by rounding (C83) -/
noncomputable def averageError (rs : List (Option (Solution T))) : ℝ :=
  ((1 + roundoff .f64) ^ ((goals rs).length + 1) - 1) * Spec.mean ((goals rs).map fun x => |value x|) + tiny .f64

/-- How far the printed standard deviation may be from the exact one by rounding (C84) -/
noncomputable def deviationError (rs : List (Option (Solution T))) : ℝ :=
  2 * (((goals rs).length : ℝ) + 5) * roundoff .f64 *
    (Real.sqrt (exactVariance (valuesOf goalValue rs)) + Spec.mean ((goals rs).map fun x => |value x|)) + 6 * Real.sqrt (tiny .f64)

/-- The printed average goal is a good estimate. The goal value of a single run has the mean value `μ` and the variance `s`. The program does `n` runs.
Then the mean value of the exact average is `μ`, the mean value of the square of its error is `s / n`, and the chance is at most `s / (n δ ^ 2)` that the
program prints a finite average goal that differs from `μ` by `δ` and the rounding error or more. With two runs or more the mean value of the exact
sample variance is `s`. -/
def AveragesWell (m total cpu : Nat) (job : Nat → M (List Nat × τ) (Data (List F32))) (profile : Profile) (valid delta : List F32) : Prop :=
  ∃ K, ∀ N, K ≤ N → ∀ (u : Nat → τ), ∃ μ s : ℚ, RunMean m N job (u 0) goalValue μ ∧ RunMean m N job (u 0) (fun a => (goalValue a - μ) ^ 2) s ∧
    ProgramMean m N cpu (total / cpu) job u (fun rs => exactAverage (valuesOf goalValue rs)) μ ∧
    ProgramMean m N cpu (total / cpu) job u (fun rs => (exactAverage (valuesOf goalValue rs) - μ) ^ 2) (s / (cpu * (total / cpu) : Nat)) ∧
    (2 ≤ cpu * (total / cpu) → ProgramMean m N cpu (total / cpu) job u (fun rs => exactVariance (valuesOf goalValue rs)) s) ∧
    ∀ δ : ℚ, 0 < δ → chance (List.replicate (cpu * N) m) (fun t => ∃ acc, ∃ s : List Nat × τ, ∃ printed s',
      Finishes (StatPrograms.threads total cpu job (pieces N u t)) acc ∧ StatPrograms.report profile valid delta acc s = .ok (printed, s') ∧
      printed.2.2.1.isFinite = true ∧ (δ : ℝ) + averageError acc.1.results ≤ |value printed.2.2.1 - μ|) ≤ s / ((cpu * (total / cpu) : Nat) * δ ^ 2)

end Verif.Spec
