import Verif.Model.Workers

/-!
# Specification vocabulary: many runs, one after another and merged
-/

namespace Verif.Workers

open Verif Stats

variable {σ T : Type}

/-- `ds` are the data of consecutive runs in one thread that starts in `s` and is then in `s'`. -/
inductive Consecutive (P : Program σ T) (s : σ) : List (Data T) → σ → Prop where
  | nil : Consecutive P s [] s
  | snoc {ds s' d s''} : Consecutive P s ds s' → P.Returns s' d s'' → Consecutive P s (ds ++ [d]) s''

/-- All data of the runs `ds` one after another: the results, the convergence tables and the numbers of calls, each in the order
of the runs. -/
structure Merged (ds : List (Data T)) (d : Data T) : Prop where
  results : d.1.results = ds.flatMap (fun d => d.1.results)
  convergence : d.1.convergence = ds.flatMap (fun d => d.1.convergence)
  calls : d.2 = ds.flatMap (fun d => d.2)

/-- The data of `order.length` threads merged in this order: each thread has done its `runCount` runs alone. -/
def MergedThreads (P : Program σ T) (order : List Nat) (d : Data T) : Prop :=
  ∃ ds : Nat → List (Data T), (∀ i ∈ order, (ds i).length = P.runCount ∧ ∃ s', Consecutive P (P.seed i) (ds i) s') ∧
    Merged (order.flatMap ds) d

/-- Nothing can happen any more. -/
def Stuck (P : Program σ T) (y : Sys σ T) : Prop := ∀ y', ¬ Step P y y'

/-- Each run ends and none panics. -/
def Program.Safe (P : Program σ T) : Prop := ∀ s, (∃ d s', P.Returns s d s') ∧ ¬ P.Panics s

end Verif.Workers
