import Verif.Spec.Scan
import Verif.Spec.Estimate

/-!
# Specification vocabulary: calling find_min again and again
-/

namespace Verif.Spec

open Verif

variable {σ T α : Type}

/-- How many of the returned solutions are good; `find_min` may return `None`. -/
def goodAnswers (good : Option (Solution T) → Bool) (rs : List (Option (Option (Solution T)))) : Nat :=
  rs.countP (fun r => match r with
    | some a => good a
    | none => false)

/-- A call of `find_min` returns something good. -/
def GoodRun (good : Option (Solution T) → Bool) (fuel : Nat) (o : GA.Opt σ T) (s : σ) : Prop :=
  ∃ a o' w', GA.findMin fuel o ⟨s, []⟩ = .ok ((a, o'), w') ∧ good a = true

/-- Exactly `k` of `n` calls of `find_min` on the same optimizer, one after the other, return something good. -/
def GoodRuns (good : Option (Solution T) → Bool) (n k fuel : Nat) (o : GA.Opt σ T) (s : σ) : Prop :=
  ∃ rs o' w', GA.run o (List.replicate n (.findMin fuel)) ⟨s, []⟩ = .ok ((rs, o'), w') ∧ goodAnswers good rs = k

/-- A call of `find_min` returns something good (swarm). -/
def GoodSwarmRun [FloatT α] (good : Option (Solution (List α)) → Bool) (fuel : Nat) (o : PSO.Opt σ α) (s : σ) : Prop :=
  ∃ a o' w', PSO.findMin fuel o ⟨s, []⟩ = .ok ((a, o'), w') ∧ good a = true

/-- Exactly `k` of `n` calls of `find_min` on the same optimizer, one after the other, return something good (swarm). -/
def GoodSwarmRuns [FloatT α] (good : Option (Solution (List α)) → Bool) (n k fuel : Nat) (o : PSO.Opt σ α) (s : σ) : Prop :=
  ∃ rs o' w', PSO.run o (List.replicate n (.findMin fuel)) ⟨s, []⟩ = .ok ((rs, o'), w') ∧ goodAnswers good rs = k

/-- The best of several returned solutions is at most `bound` if one of them is. -/
def atMost (bound : F64) : Option (Solution T) → Bool
  | some a => a.2.le bound
  | none => false

end Verif.Spec
