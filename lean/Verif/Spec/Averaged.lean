import Verif.Spec.Calls

/-!
# Specification vocabulary: the averaged convergence as an estimate
-/

namespace Verif.Spec

open Verif Stats Workers

variable {σ τ T : Type}

/-- What a run has recorded after each iteration -/
abbrev Row (T : Type) := List (Option (Solution T))

/-- Each run ends with one row, which has a solution everywhere. -/
def RowRuns (job : Nat → M σ (Data T)) : Prop := ∃ fuel, ∀ s, ∃ d s' row, job fuel s = .ok (d, s') ∧ d.1.convergence = [row] ∧ none ∉ row

/-- One if the run lasts beyond iteration `i`, otherwise zero -/
def reaches (i : Nat) (row : Row T) : ℚ := if i < row.length then 1 else 0

/-- The goal value of the solution at iteration `i`; zero if there is none or it is not finite -/
def goalAt (i : Nat) (row : Row T) : ℚ := match row[i]? with
  | some (some a) => goalValue a
  | _ => 0

/-- The mean value of `w` at the row of a single run is `μ`, if there are `N` draws for the run. -/
def RowMean (m N : Nat) (job : Nat → M (List Nat × τ) (Data T)) (u : τ) (w : Row T → ℚ) (μ : ℚ) : Prop :=
  HasMean (List.replicate N m) (fun t x => ∃ fuel d s' row, job fuel (t, u) = .ok (d, s') ∧ d.1.convergence = [row] ∧ w row = x) μ

/-- The mean value of `H` at the rows of the program is `μ`, if there are `N` draws for each thread. -/
def ProgramRows (m N cpu runs : Nat) (job : Nat → M (List Nat × τ) (Data T)) (u : Nat → τ) (H : List (Row T) → ℚ) (μ : ℚ) : Prop :=
  HasMean (List.replicate (cpu * N) m) (fun t x => (∃ acc, Finishes ⟨cpu, runs, job, pieces N u t⟩ acc) ∧
    ∀ acc, Finishes ⟨cpu, runs, job, pieces N u t⟩ acc → H acc.1.convergence = x) μ

/-- The average goal at iteration `i`, without rounding -/
def averageAt (i : Nat) (conv : List (Row T)) : ℚ := exactAverage (conv.map (goalAt i))

/-- `x` if all runs last beyond iteration `i`, otherwise zero -/
def ifAllReach (i : Nat) (conv : List (Row T)) (x : ℚ) : ℚ := if ∀ row ∈ conv, i < row.length then x else 0

/-- The averaged convergence is a good estimate for the runs that last. Let `p` be the chance that a single run lasts beyond iteration `i`. The program
does `n` runs. The chance that it prints something for iteration `i` is `p ^ n`. Let this not be zero. Let `μ` be the mean goal at iteration `i` of the
runs that last beyond it, and `s` the variance. The mean value of the exact average at iteration `i`, in the cases where it is printed, is `μ`, and that
of the square of its error is `s / n`. The chance is at most `p ^ n * s / (n δ ^ 2)` that a finite value is printed for iteration `i` that differs from
`μ` by `δ` and the rounding error or more. -/
def ConvergesWell (m total cpu : Nat) (job : Nat → M (List Nat × τ) (Data (List F32))) : Prop :=
  ∃ K, ∀ N, K ≤ N → ∀ (u : Nat → τ) (i : Nat), ∃ p : ℚ, RowMean m N job (u 0) (reaches i) p ∧
    chance (List.replicate (cpu * N) m) (fun t => ∃ acc, ∃ s : List Nat × τ, ∃ results conv s',
      Finishes (StatPrograms.threads total cpu job (pieces N u t)) acc ∧ StatPrograms.lookups acc s = .ok ((results, conv), s') ∧ i < conv.length) =
      p ^ (cpu * (total / cpu)) ∧
    (p ≠ 0 → ∃ μ s : ℚ, RowMean m N job (u 0) (goalAt i) (p * μ) ∧ RowMean m N job (u 0) (fun row => reaches i row * (goalAt i row - μ) ^ 2) (p * s) ∧
      ProgramRows m N cpu (total / cpu) job u (fun c => ifAllReach i c (averageAt i c)) (p ^ (cpu * (total / cpu)) * μ) ∧
      ProgramRows m N cpu (total / cpu) job u (fun c => ifAllReach i c ((averageAt i c - μ) ^ 2))
        (p ^ (cpu * (total / cpu)) * (s / (cpu * (total / cpu) : Nat))) ∧
      ∀ δ : ℚ, 0 < δ → chance (List.replicate (cpu * N) m) (fun t => ∃ acc, ∃ s : List Nat × τ, ∃ results conv s' x,
        Finishes (StatPrograms.threads total cpu job (pieces N u t)) acc ∧ StatPrograms.lookups acc s = .ok ((results, conv), s') ∧
        conv[i]? = some (some x) ∧ x.isFinite = true ∧ (δ : ℝ) + averageError (atIteration i acc.1.convergence) ≤ |value x - μ|) ≤
        p ^ (cpu * (total / cpu)) * (s / ((cpu * (total / cpu) : Nat) * δ ^ 2)))

end Verif.Spec
