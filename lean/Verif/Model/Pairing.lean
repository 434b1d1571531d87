import Verif.Model.Population
import Verif.Model.Rng

/-!
# Pairing: `optlib/src/genetic/pairing/mod.rs`
-/

namespace Verif.Pairing

open Verif

variable {σ T : Type}

/-- The construction `Uniform::new(0, population.len())` (lines 18 and 80) panics for
an empty population, even if nothing is drawn afterwards. -/
def uniformCheck (n : Nat) : M σ Unit := if 0 < n then pure () else M.fail .range

/-- `RandomPairing::get_pairs` (pairing/mod.rs:14-29) -/
def randomPairing (R : Rng σ) (p : Population T) : M σ (List (List Nat)) := do
  uniformCheck p.len
  M.replicate (p.len / 2) (do
    let first ← R.uniformNat 0 p.len
    let second ← R.uniformNat 0 p.len
    pure [first, second])

/-- `Tournament` (pairing/mod.rs:42-47) -/
structure Tournament where
  familiesCount : Nat
  partnersCount : Nat
  roundsCount : Nat

/-- `Tournament::new` (pairing/mod.rs:54-62) -/
def Tournament.new (familiesCount : Nat) : Tournament := ⟨familiesCount, 2, 1⟩
/-- `partners_count` (pairing/mod.rs:65-68) -/
def Tournament.withPartners (t : Tournament) (n : Nat) : Tournament := { t with partnersCount := n }
/-- `rounds_count` (pairing/mod.rs:71-74) -/
def Tournament.withRounds (t : Tournament) (n : Nat) : Tournament := { t with roundsCount := n }

/-- The rounds of one tournament (pairing/mod.rs:91-96) -/
def rounds (R : Rng σ) (p : Population T) : Nat → Nat → M σ Nat
  | 0, best => pure best
  | n + 1, best => do
    let challenger ← R.uniformNat 0 p.len
    let c ← M.index p.individuals challenger
    let b ← M.index p.individuals best
    rounds R p n (if c.fitness.lt b.fitness then challenger else best)

/-- `Tournament::get_pairs` (pairing/mod.rs:77-105) -/
def tournament (R : Rng σ) (t : Tournament) (p : Population T) : M σ (List (List Nat)) := do
  uniformCheck p.len
  M.replicate t.familiesCount
    (M.replicate t.partnersCount (do
      let first ← R.uniformNat 0 p.len
      rounds R p t.roundsCount first))

end Verif.Pairing
