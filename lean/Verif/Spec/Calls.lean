import Verif.Spec.Average

/-!
# Specification vocabulary: the mean number of calls of the goal function
-/

namespace Verif.Spec

open Verif Stats Workers

variable {σ τ T : Type}

/-- Each run ends with one counter, which is at most `b`. -/
def CountedRuns (job : Nat → M σ (Data T)) (b : Nat) : Prop := ∃ fuel, ∀ s, ∃ d s' k, job fuel s = .ok (d, s') ∧ d.2 = [k] ∧ k ≤ b

/-- The mean value of `v` at the number of calls of a single run is `μ`, if there are `N` draws for the run. -/
def CallsMean (m N : Nat) (job : Nat → M (List Nat × τ) (Data T)) (u : τ) (v : Nat → ℚ) (μ : ℚ) : Prop :=
  HasMean (List.replicate N m) (fun t x => ∃ fuel d s' k, job fuel (t, u) = .ok (d, s') ∧ d.2 = [k] ∧ v k = x) μ

/-- The program can come to its end, and whatever the scheduler does, the number `H` of its counters is `x` then. -/
def YieldsCalls (P : Program σ T) (H : List Nat → ℚ) (x : ℚ) : Prop := (∃ acc, Finishes P acc) ∧ ∀ acc, Finishes P acc → H acc.2 = x

/-- The mean value of `H` at the counters of the program is `μ`, if there are `N` draws for each thread. -/
def ProgramCalls (m N cpu runs : Nat) (job : Nat → M (List Nat × τ) (Data T)) (u : Nat → τ) (H : List Nat → ℚ) (μ : ℚ) : Prop :=
  HasMean (List.replicate (cpu * N) m) (fun t x => YieldsCalls ⟨cpu, runs, job, pieces N u t⟩ H x) μ

/-- The average of the counters, without rounding -/
def averageCalls (c : List Nat) : ℚ := (c.sum : ℚ) / c.length

/-- The printed average call count is a good estimate. A single run calls the goal function at most `b` times, `μ` times on average. The program does `n`
runs. The mean value of the exact average is `μ`, and that of the total `n μ`. The chance is at most `μ (b - μ) / (n δ ^ 2)` that the program prints an
average call count that differs from `μ` by `δ` and the rounding error or more. -/
def CountsCallsWell (m total cpu b : Nat) (job : Nat → M (List Nat × τ) (Data (List F32))) (profile : Profile) (valid delta : List F32) : Prop :=
  ∃ K, ∀ N, K ≤ N → ∀ (u : Nat → τ), ∃ μ : ℚ, CallsMean m N job (u 0) (fun k => k) μ ∧ 0 ≤ μ ∧ μ ≤ b ∧
    ProgramCalls m N cpu (total / cpu) job u averageCalls μ ∧
    ProgramCalls m N cpu (total / cpu) job u (fun c => (c.sum : ℚ)) ((cpu * (total / cpu) : Nat) * μ) ∧
    ∀ δ : ℚ, 0 < δ → chance (List.replicate (cpu * N) m) (fun t => ∃ acc, ∃ s : List Nat × τ, ∃ printed s',
      Finishes (StatPrograms.threads total cpu job (pieces N u t)) acc ∧ StatPrograms.report profile valid delta acc s = .ok (printed, s') ∧
      (δ : ℝ) + (b + 1) / 2 ^ 53 ≤ |value printed.2.2.2.2 - μ|) ≤ μ * (b - μ) / ((cpu * (total / cpu) : Nat) * δ ^ 2)

end Verif.Spec
