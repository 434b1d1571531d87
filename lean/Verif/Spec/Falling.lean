import Verif.Spec.StatPrograms

/-!
# Specification vocabulary: an averaged convergence that does not rise
-/

namespace Verif.Spec

open Verif Stats Workers

variable {σ : Type}

/-- The averaged convergence is made without panic. A later entry is not greater than an earlier one, and the average goal of the results is not greater
than any entry. -/
def Falling (d : Data (List F32)) : Prop := ∀ s : σ, ∃ conv : List (Option F64), StatPrograms.lookups d s = .ok ((d.1.results, conv), s) ∧
  (∀ (i j : Nat) (x y : F64), i ≤ j → conv[i]? = some (some x) → conv[j]? = some (some y) → y.le x = true) ∧
  ∀ (i : Nat) (x average : F64), conv[i]? = some (some x) → averageGoal d.1.results = some average → average.le x = true

end Verif.Spec
