import Verif.Spec.SwarmOrder

/-!
# Specification vocabulary: which of several equally good solutions
-/

namespace Verif.Spec

variable {T : Type}

/-- `b` is the first of the best of `xs`, where `r x y` says that the value `x` is at least as good as `y`: nothing before it is as
good, and it is at least as good as everything after it. -/
def FirstBest (r : F64 → F64 → Prop) (xs : List (Solution T)) (b : Solution T) : Prop :=
  ∃ before after, xs = before ++ b :: after ∧ (∀ a ∈ before, ¬ r a.2 b.2) ∧ ∀ a ∈ after, r b.2 a.2

/-- `b` is the last of the worst of `xs`, where `r x y` says that the value `x` is at least as bad as `y`: it is at least as bad as
everything before it, and nothing after it is as bad. -/
def LastWorst (r : F64 → F64 → Prop) (xs : List (Solution T)) (b : Solution T) : Prop :=
  ∃ before after, xs = before ++ b :: after ∧ (∀ a ∈ before, r b.2 a.2) ∧ ∀ a ∈ after, ¬ r a.2 b.2

/-- How the genetic optimizer looks for the best: smaller is better, anything is as good as NaN. -/
def AsGood (x y : F64) : Prop := y.isNan = true ∨ x.le y = true

/-- How the genetic optimizer looks for the worst: greater is worse, anything is as bad as NaN. -/
def AsBad (x y : F64) : Prop := y.isNan = true ∨ y.le x = true

end Verif.Spec
