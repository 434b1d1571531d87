import Verif.Spec.Chance
import Verif.Spec.Speed
import Mathlib.Algebra.BigOperators.Group.Finset.Basic

/-!
# Specification vocabulary: the mean of a random vector
-/

namespace Verif.Spec

open Verif

/-- The mean value of `V`, all sequences of draws being equally likely -/
noncomputable def realMean (ns : List Nat) (V : List Nat → ℝ) : ℝ := ((tapes ns).map V).sum / (tapes ns).length

/-- Whatever the draws are, the operation succeeds and takes just these draws; its result has as many components as `μ`, and these are
their mean values. -/
def MeanVector (ns : List Nat) (op : M (List Nat) (List ℝ)) (μ : List ℝ) : Prop :=
  ∃ V : List Nat → List ℝ, (∀ draws ∈ tapes ns, op draws = .ok (V draws, []) ∧ (V draws).length = μ.length) ∧
    ∀ j x, μ[j]? = some x → realMean ns (fun draws => (V draws).getD j 0) = x

/-- The same for the variances of the components: the means of the squared distances from their mean values. -/
def VarianceVector (ns : List Nat) (op : M (List Nat) (List ℝ)) (ν : List ℝ) : Prop :=
  ∃ V : List Nat → List ℝ, (∀ draws ∈ tapes ns, op draws = .ok (V draws, []) ∧ (V draws).length = ν.length) ∧
    ∀ j x, ν[j]? = some x →
      realMean ns (fun draws => ((V draws).getD j 0 - realMean ns (fun draws => (V draws).getD j 0)) ^ 2) = x

/-- A source of random numbers that reads the numbers of its draws from a tape: the draw with the number `k` of a float from 0 to 1 is `u k`. -/
def UnitDraws (R : Rng (List Nat)) (g : Fmt) (u : Nat → Fl g) : Prop :=
  ∀ k rest, R.flIncl (Fl.zero : Fl g) (Fl.one : Fl g) (k :: rest) = (u k, rest)

/-- The mean of the draws with the numbers less than `m` -/
noncomputable def drawMean {g : Fmt} (u : Nat → Fl g) (m : Nat) : ℝ := (∑ k ∈ Finset.range m, value (u k)) / m

/-- Their variance -/
noncomputable def drawVariance {g : Fmt} (u : Nat → Fl g) (m : Nat) : ℝ := (∑ k ∈ Finset.range m, (value (u k) - drawMean u m) ^ 2) / m

end Verif.Spec
