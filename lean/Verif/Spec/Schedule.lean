import Verif.Spec.StatPrograms
import Verif.Spec.Error

/-!
# Specification vocabulary: two executions that print the same up to order and rounding
-/

namespace Verif.Spec

open Verif Stats Workers

/-- A bound for the rounding error of an average of these numbers -/
noncomputable def averageRounding (l : List F64) : ℝ :=
  ((1 + roundoff .f64) ^ (l.length + 1) - 1) * mean (l.map fun x => |value x|) + tiny .f64

/-- A bound for the rounding error of a standard deviation of these numbers -/
noncomputable def deviationRounding (l : List F64) : ℝ :=
  2 * ((l.length : ℝ) + 5) * roundoff .f64 * (Real.sqrt (sampleVariance (l.map value)) + mean (l.map fun x => |value x|)) +
    6 * Real.sqrt (tiny .f64)

/-- Two sets of data are printed alike. The same results are listed, perhaps in another order. The averaged convergence has the same length; there are
values at the same iterations, which differ by rounding errors. If one of the reports is made without panic so is the other: run count, success rate and
call count are the same, average and deviation differ by rounding errors. -/
structure PrintedAlike (σ : Type) (profile : Profile) (valid delta : List F32) (d e : Data (List F32)) : Prop where
  results : d.1.results.Perm e.1.results
  convergence : ∀ s : σ, ∃ conv conv', StatPrograms.lookups d s = .ok ((d.1.results, conv), s) ∧ StatPrograms.lookups e s = .ok ((e.1.results, conv'), s) ∧
    conv.length = conv'.length ∧ (∀ i : Nat, conv[i]? = some none ↔ conv'[i]? = some none) ∧
    ∀ (i : Nat) (x y : F64), conv[i]? = some (some x) → conv'[i]? = some (some y) → x.isFinite = true → y.isFinite = true →
      |value x - value y| ≤ 2 * averageRounding (goals (atIteration i d.1.convergence))
  report : ∀ (s s1 : σ) (runs : Nat) (rate average deviation calls : F64),
    StatPrograms.report profile valid delta d s = .ok ((runs, rate, average, deviation, calls), s1) →
    ∃ average' deviation' : F64, StatPrograms.report profile valid delta e s = .ok ((runs, rate, average', deviation', calls), s1) ∧
      (average.isFinite = true → average'.isFinite = true →
        |value average - value average'| ≤ 2 * averageRounding (goals d.1.results)) ∧
      (deviation.isFinite = true → deviation'.isFinite = true →
        |value deviation - value deviation'| ≤ 2 * deviationRounding (goals d.1.results))

/-- Whatever the scheduler does in two executions of a program of this form with the same random numbers in each thread, the output is the same up to the
order of the threads and rounding. -/
def IgnoresScheduler {σ : Type} (total cpu : Nat) (job : Nat → M σ (Data (List F32))) (seed : Nat → σ) (profile : Profile) (valid delta : List F32) : Prop :=
  ∀ n n' y y' acc acc', Steps (StatPrograms.threads total cpu job seed) n .start y → Steps (StatPrograms.threads total cpu job seed) n' .start y' →
    y.main = .finished acc → y'.main = .finished acc' → PrintedAlike σ profile valid delta acc acc'

end Verif.Spec
