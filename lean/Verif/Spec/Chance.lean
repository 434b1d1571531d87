import Verif.Model.Population
import Verif.Model.Rng
import Mathlib.Data.Rat.Defs
import Mathlib.Algebra.Order.Field.Rat
import Mathlib.Algebra.BigOperators.Group.List.Basic

/-!
# Specification vocabulary: how likely an outcome is

Uniform draws of integers: all sequences of draws are equally likely, so the chance of an outcome is the share of the sequences that
lead to it.
-/

namespace Verif.Spec

/-- All sequences of draws, where the first draw is one of `0, …, n - 1` for the first entry `n` of the list, and so on. -/
def tapes : List Nat → List (List Nat)
  | [] => [[]]
  | n :: ns => (List.range n).flatMap (fun d => (tapes ns).map (fun t => d :: t))

open Classical in
/-- The share of the sequences of draws that have the property `P`. -/
noncomputable def chance (ns : List Nat) (P : List Nat → Prop) : ℚ :=
  ((tapes ns).countP (fun t => decide (P t)) : ℚ) / (tapes ns).length

/-- The number of individuals with a fitness less than `x` -/
def better {T : Type} (p : Population T) (x : F64) : Nat := p.individuals.countP (fun j => j.fitness.lt x)
/-- The number of individuals with a fitness equal to `x` -/
def tied {T : Type} (p : Population T) (x : F64) : Nat := p.individuals.countP (fun j => j.fitness.feq x)
/-- The number of individuals with a fitness greater than `x` -/
def worse {T : Type} (p : Population T) (x : F64) : Nat := p.individuals.countP (fun j => x.lt j.fitness)

/-- The chance of an individual with fitness `x` to win a tournament where the first of the participants is challenged `rounds` times. -/
def winShare {T : Type} (p : Population T) (rounds : Nat) (x : F64) : ℚ :=
  let n : ℚ := p.individuals.length
  if x.isNan then 1 / n
  else
    let notBetter : ℚ := n - better p x
    (notBetter ^ rounds + worse p x * ((notBetter ^ rounds - (notBetter - tied p x) ^ rounds) / tied p x)) / n ^ (rounds + 1)

/-- Walk over the numbers `0, …, w`: from `d` to `d - 1` with the chance `d / w`, to `d + 1` otherwise. The chance to be at 0 after
the given number of steps. -/
def walk (w : Nat) : Nat → Nat → ℚ
  | 0, d => if d = 0 then 1 else 0
  | k + 1, d => (d * walk w k (d - 1) + (w - d) * walk w k (d + 1)) / w

/-- A source of random numbers that reads the numbers of its draws from a tape: the draw with the number `k` of a float is `val lo hi k`. -/
def valued (val : {g : Fmt} → Fl g → Fl g → Nat → Fl g)
    (h : ∀ {g : Fmt} (lo hi : Fl g) k, lo.lt hi = true → lo.isFinite = true → hi.isFinite = true →
      lo.le (val lo hi k) = true ∧ (val lo hi k).lt hi = true) : Rng (List Nat) where
  nat := Rng.script.nat
  natIncl := Rng.script.natIncl
  fl lo hi s := (val lo hi (s.headD 0), s.tail)
  flIncl := Rng.script.flIncl
  nat_range := Rng.script.nat_range
  natIncl_range := Rng.script.natIncl_range
  fl_range lo hi s h1 h2 h3 := h lo hi (s.headD 0) h1 h2 h3
  flIncl_range := Rng.script.flIncl_range

/-- The rational number that a finite float stands for -/
def ratValue {f : Fmt} (x : Fl f) : ℚ := (x.toInt : ℚ) / (f.D : ℚ)

/-- The vector in which the genes of the mask are replaced by their mutants -/
def mutant {G : Type} (g : G → G) : List G → List Bool → List G
  | x :: xs, b :: bs => (if b then g x else x) :: mutant g xs bs
  | _, _ => []

end Verif.Spec
