import Verif.Model.Population

/-!
# Selection and pre-birth filters:
`genetic/selection/mod.rs`, `genetic/selection/vec_float.rs`, `genetic/pre_birth/vec_float.rs`

A `Selection<T>` is a function `Population T → M σ (Population T)`.
-/

namespace Verif.Selection

open Verif

variable {σ T : Type}

/-- `KillFitnessNaN` (selection/mod.rs:14-22) -/
def killFitnessNaN (p : Population T) : M σ (Population T) :=
  pure { p with individuals :=
    p.individuals.map (fun i => if !i.fitness.isFinite then i.kill else i) }

/-- The variables of `kill_worst` while its main loop runs. -/
structure KW where
  killList : List Nat
  bestIndex : Nat
  bestFitness : F64

/-- The search for the new best item of the kill list (selection/mod.rs:79-86):
`for m in 1..kill_list.len()`. -/
def findBest (p : Population T) (kl : List Nat) : List Nat → Nat → F64 → M σ (Nat × F64)
  | [], bi, bf => pure (bi, bf)
  | m :: ms, bi, bf => do
    let j ← M.index kl m
    let i ← M.index p.individuals j
    if i.fitness.lt bf then
      -- `best_index = m; best_fitness = population[kill_list[best_index]]...`
      findBest p kl ms m i.fitness
    else findBest p kl ms bi bf

/-- The body of the main loop of `kill_worst` for one `n` (selection/mod.rs:67-90). -/
def kwStep (p : Population T) (count : Nat) (s : KW) (n : Nat) : M σ KW := do
  let ind ← M.index p.individuals n
  if !ind.alive then
    pure s
  else if s.killList.length < count then
    let kl := s.killList ++ [n]
    if ind.fitness.lt s.bestFitness then
      -- only the index is updated here, not `best_fitness` (lines 71-74)
      pure { s with killList := kl, bestIndex := kl.length - 1 }
    else pure { s with killList := kl }
  else if s.bestFitness.lt ind.fitness then
    M.assert (decide (s.bestIndex < s.killList.length))  -- `kill_list[best_index] = n` bounds check
    let kl := s.killList.set s.bestIndex n
    let j0 ← M.index kl 0
    let i0 ← M.index p.individuals j0
    let (bi, bf) ← findBest p kl (List.range' 1 (kl.length - 1)) 0 i0.fitness
    pure ⟨kl, bi, bf⟩
  else pure s

/-- `population[n].kill()` -/
def killAt (p : Population T) (n : Nat) : M σ (Population T) := do
  let i ← M.index p.individuals n
  pure { p with individuals := p.individuals.set n i.kill }

/-- `kill_worst` (selection/mod.rs:57-96) -/
def killWorst (p : Population T) (count : Nat) : M σ (Population T) := do
  let i0 ← M.index p.individuals 0
  let s ← M.foldL (kwStep p count) ⟨[0], 0, i0.fitness⟩ (List.range' 1 (p.len - 1))
  M.foldL killAt p s.killList

/-- `LimitPopulation` (selection/mod.rs:46-53); the subtraction is guarded. -/
def limitPopulation (maxCount : Nat) (p : Population T) : M σ (Population T) :=
  let alive := p.lenAlive
  if maxCount < alive then killWorst p (alive - maxCount) else pure p

/-- `!chromo.is_finite() || *chromo < interval.0 || *chromo > interval.1`
(selection/vec_float.rs:36, pre_birth/vec_float.rs:37) -/
def geneBad {α : Type} [FloatT α] (x : α) (iv : α × α) : Bool :=
  !FloatT.isFinite x || FloatT.lt x iv.1 || FloatT.lt iv.2 x

/-- The inner loop over the zipped genes and intervals: is there a bad gene? -/
def anyBad {α : Type} [FloatT α] : List α → List (α × α) → Bool
  | x :: xs, iv :: ivs => geneBad x iv || anyBad xs ivs
  | _, _ => false

/-- `CheckChromoInterval` selection (selection/vec_float.rs:26-43) -/
def checkChromoInterval {α : Type} [FloatT α] (ivs : List (α × α)) (p : Population (List α)) :
    M σ (Population (List α)) := do
  let inds ← M.mapL (fun (i : Individual (List α)) => do
    M.assert (i.chromosomes.length == ivs.length)
    pure (if anyBad i.chromosomes ivs then i.kill else i)) p.individuals
  pure { p with individuals := inds }

/-- `check_chromo` (pre_birth/vec_float.rs:33-43) -/
def checkChromo {α : Type} [FloatT α] (ivs : List (α × α)) (c : List α) : M σ Bool := do
  M.assert (c.length == ivs.length)
  pure (!anyBad c ivs)

/-- `Vec::retain` with a closure that may panic. -/
def retain {β : Type} (keep : β → M σ Bool) : List β → M σ (List β)
  | [] => pure []
  | x :: xs => do
    let b ← keep x
    let r ← retain keep xs
    pure (if b then x :: r else r)

/-- `CheckChromoInterval` pre-birth filter (pre_birth/vec_float.rs:26-30) -/
def preBirthInterval {α : Type} [FloatT α] (ivs : List (α × α))
    (_ : Population (List α)) (cs : List (List α)) : M σ (List (List α)) :=
  retain (checkChromo ivs) cs

end Verif.Selection
