import Mathlib.Data.Real.Basic

/-!
# Specification vocabulary: statistics
-/

namespace Verif.Spec

variable {T γ : Type}

/-- The goal values of the successful results, in order. -/
def goals (rs : List (Option (T × γ))) : List γ := rs.filterMap (Option.map Prod.snd)

/-- The points of the successful results, in order. -/
def points (rs : List (Option (T × γ))) : List T := rs.filterMap (Option.map Prod.fst)

/-- The arithmetic mean. -/
noncomputable def mean (l : List ℝ) : ℝ := l.sum / l.length

/-- The unbiased sample variance. -/
noncomputable def sampleVariance (l : List ℝ) : ℝ := (l.map fun x => (x - mean l) ^ 2).sum / (l.length - 1)

/-- Coordinate `i` of the points. -/
def coords {α : Type} (i : Nat) (xs : List (List α)) : List α := xs.filterMap (·[i]?)

/-- What the runs have at iteration `i`. -/
def atIteration (i : Nat) (conv : List (List (Option (T × γ)))) : List (Option (T × γ)) := conv.filterMap (·[i]?)

/-- The number of runs whose solution is accepted. -/
def accepted (rs : List (Option (T × γ))) (pred : T × γ → Bool) : Nat :=
  rs.countP fun r => match r with
    | some s => pred s
    | none => false

/-- What can be done with a `CallCountData`. -/
inductive CountOp where
  | nextRun
  | increment
  | add (n : Nat)

/-- The amounts counted before the first `next_run`, and those of each run started with `next_run`. -/
def segments : List CountOp → List Nat × List (List Nat)
  | [] => ([], [])
  | .nextRun :: ops => ([], (segments ops).1 :: (segments ops).2)
  | .increment :: ops => (1 :: (segments ops).1, (segments ops).2)
  | .add n :: ops => (n :: (segments ops).1, (segments ops).2)

/-- The totals of the runs; calls before the first `next_run` make up a run of their own. -/
def totals (ops : List CountOp) : List Nat :=
  (if (segments ops).1 = [] then [] else [(segments ops).1.sum]) ++ (segments ops).2.map List.sum

end Verif.Spec
