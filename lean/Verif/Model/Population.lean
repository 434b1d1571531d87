import Verif.Model.Core
import Verif.Model.Num

/-!
# Individuals and populations: `optlib/src/genetic/mod.rs` lines 27-306
-/

namespace Verif

/-- `Individual<T>` (genetic/mod.rs:31-40) -/
structure Individual (T : Type) where
  chromosomes : T
  fitness : F64
  alive : Bool

namespace Individual
variable {T : Type}
/-- `kill` (genetic/mod.rs:79-81) -/
def kill (i : Individual T) : Individual T := { i with alive := false }
/-- The solution an individual stands for (genetic/mod.rs:296, 500). -/
def sol (i : Individual T) : Solution T := (i.chromosomes, i.fitness)
end Individual

/-- `Population<T>` (genetic/mod.rs:87-101), without the goal object, which is a
component here. -/
structure Population (T : Type) where
  individuals : List (Individual T)
  best : Option (Individual T)
  worst : Option (Individual T)
  iteration : Nat

namespace Population

variable {σ T : Type}

/-- `new` (genetic/mod.rs:146-154) and also the state after `reset` (157-162). -/
def empty : Population T := ⟨[], none, none, 0⟩

/-- `reset` (genetic/mod.rs:157-162) -/
def reset (_ : Population T) : Population T := empty

/-- `len` (genetic/mod.rs:218-220) -/
def len (p : Population T) : Nat := p.individuals.length

/-- `len_alive` (genetic/mod.rs:200-205) -/
def lenAlive (p : Population T) : Nat := (p.individuals.filter (·.alive)).length

/-- `get_best_solution` (genetic/mod.rs:294-299) and `get_iteration` (301-303) -/
def state (p : Population T) : AlgState T := ⟨p.best.map Individual.sol, p.iteration⟩

/-- `f64::partial_cmp`: `None` if an operand is NaN. -/
def _root_.Verif.Fl.partialCmp {f : Fmt} (x y : Fl f) : Option Ordering :=
  if x.isNan || y.isNan then none
  else if x.toInt < y.toInt then some .lt
  else if x.toInt = y.toInt then some .eq
  else some .gt

/-- `individuals_min_cmp` (genetic/mod.rs:225-242); the `unwrap` of line 240 is kept. -/
def minCmp (a b : Individual T) : M σ Ordering :=
  if a.fitness.isNan && b.fitness.isNan then pure .gt
  else if a.fitness.isNan then pure .gt
  else if b.fitness.isNan then pure .lt
  else M.unwrap (a.fitness.partialCmp b.fitness)

/-- `individuals_max_cmp` (genetic/mod.rs:247-264) -/
def maxCmp (a b : Individual T) : M σ Ordering :=
  if a.fitness.isNan && b.fitness.isNan then pure .lt
  else if a.fitness.isNan then pure .lt
  else if b.fitness.isNan then pure .gt
  else M.unwrap (a.fitness.partialCmp b.fitness)

/-- `Iterator::min_by`: keeps the running element unless it compares `Greater`. -/
def minByLoop {α : Type} (cmp : α → α → M σ Ordering) : α → List α → M σ α
  | x, [] => pure x
  | x, y :: ys => do
    match ← cmp x y with
    | .gt => minByLoop cmp y ys
    | _ => minByLoop cmp x ys

def minBy {α : Type} (cmp : α → α → M σ Ordering) : List α → M σ (Option α)
  | [] => pure none
  | x :: xs => do pure (some (← minByLoop cmp x xs))

/-- `Iterator::max_by`: keeps the running element only if it compares `Greater`. -/
def maxByLoop {α : Type} (cmp : α → α → M σ Ordering) : α → List α → M σ α
  | x, [] => pure x
  | x, y :: ys => do
    match ← cmp x y with
    | .gt => maxByLoop cmp x ys
    | _ => maxByLoop cmp y ys

def maxBy {α : Type} (cmp : α → α → M σ Ordering) : List α → M σ (Option α)
  | [] => pure none
  | x :: xs => do pure (some (← maxByLoop cmp x xs))

/-- `update_best_worst_individuals` (genetic/mod.rs:105-125): an empty
population leaves the old values in place. -/
def updateBestWorst (p : Population T) : M σ (Population T) := do
  let best ← minBy minCmp p.individuals
  let p := match best with
    | some i => { p with best := some i }
    | none => p
  let worst ← maxBy maxCmp p.individuals
  pure (match worst with
    | some i => { p with worst := some i }
    | none => p)

/-- `next_iteration` (genetic/mod.rs:267-269) -/
def nextIteration (p : Population T) : Population T := { p with iteration := p.iteration + 1 }

/-- `remove_dead` (genetic/mod.rs:271-273) -/
def removeDead (p : Population T) : Population T :=
  { p with individuals := p.individuals.filter (·.alive) }

/-- `get_agents` (genetic/mod.rs:132-139) -/
def getAgents (p : Population T) : List (Individual T) := p.individuals

end Population
end Verif
