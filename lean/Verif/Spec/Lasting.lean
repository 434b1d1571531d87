import Verif.Spec.Genetic
import Verif.Spec.Shape

/-!
# Specification vocabulary: components with which a population does not die out
-/

namespace Verif.Spec

open Verif GA Swarm

variable {σ T : Type}

/-- A goal value that is neither NaN nor infinite is sure to come out at `x`. -/
def SurelyFinite (goal : T → M σ F64) (x : T) : Prop := Works (goal x) (fun v => v.isFinite = true)

/-- Components that never panic as long as the population has a member with a finite goal value, and that keep such a
member alive. `B` is where the individuals live, `L` what crossing and mutation make of them. -/
structure Lasting (B L : T → Prop) (c : Comps σ T) : Prop where
  goal : ∀ x, B x → Works (c.goal x) (fun _ => True)
  stop : ∀ s, Works (c.stop s) (fun _ => True)
  creator : Works c.creator (fun xs => (∀ x ∈ xs, B x) ∧ ∃ x ∈ xs, SurelyFinite c.goal x)
  pairing : ∀ p, p.individuals ≠ [] → Works (c.pairing p) (fun fams => ∀ fam ∈ fams, fam.length = 2 ∧
    ∀ i ∈ fam, i < p.individuals.length)
  cross : ∀ xs, xs.length = 2 → (∀ x ∈ xs, B x) → Works (c.cross xs) (fun ys => ∀ y ∈ ys, L y)
  mutation : ∀ x, L x → Works (c.mutation x) L
  preBirths : ∀ p xs, (∀ x ∈ xs, L x) →
    Works (M.foldL (fun xs f => f p xs) xs c.preBirths) (fun ys => ∀ y ∈ ys, B y)
  selections : ∀ p, (∀ i ∈ p.individuals, B i.chromosomes) →
    (∃ i ∈ p.individuals, i.alive = true ∧ i.fitness.isFinite = true) →
    Works (M.foldL (fun p f => f p) p c.selections) (fun p' => OnlyKills p p' ∧
      (∀ i ∈ p'.individuals, i.alive = true → i.fitness.isFinite = true) ∧ ∃ i ∈ p'.individuals, i.alive = true)
  loggers : ∀ l ∈ c.loggers, ∀ s, Works (l.start s) (fun _ => True) ∧ Works (l.resume s) (fun _ => True) ∧
    Works (l.nextIteration s) (fun _ => True) ∧ Works (l.finish s) (fun _ => True)

/-- The history does not call `next_iterations` before the first `find_min`. -/
def InOrder : Bool → List (Call σ T) → Point → Prop
  | b, [], .inNextIterations _ => b = true
  | _, [], _ => True
  | _, .findMin _ :: ks, pt => InOrder true ks pt
  | b, .nextIterations _ :: ks, pt => b = true ∧ InOrder b ks pt
  | b, _ :: ks, pt => InOrder b ks pt

end Verif.Spec
