import Verif.Model.Caught
import Verif.Spec.Trace

/-!
# Specification vocabulary: histories in which panics are caught
-/

namespace Verif.Spec.Caught

open Verif Caught

variable {σ T X α : Type}

/-- `m` returned `a` in some state of the world. -/
def Returned (m : KM σ α) (a : α) : Prop := ∃ s s', m s = (.ok a, s')

/-- A new optimizer and an empty trace. -/
def Fresh (new : X) (w : St σ T X) : Prop := w.mem = new ∧ w.trace = []

/-- The number of iterations completed. -/
def completed (evs : List (Ev T)) : Nat :=
  (evs.filter (fun | .generation .. => true | _ => false)).length

/-- What can be seen of an optimizer's memory: the agents, the best, the worst, the number of iterations. -/
structure Shown (T : Type) where
  agents : List (Solution T)
  best : Option (Solution T)
  worst : Option (Solution T)
  iteration : Nat

namespace GA

open Verif.Caught.GA

/-- `P` holds of the components at every time of the history `ks`. -/
def Always (P : Comps σ T → Prop) : Comps σ T → List (Call σ T) → Prop
  | c, [] => P c
  | c, k :: ks => P c ∧ Always P (after c k) ks

/-- What a selection can do through the public interface of a population, whether it returns or panics half-way: kill,
swap or overwrite individuals by copies of individuals it can see. The best, the worst and the generation number stay. -/
def LegalSelection (sel : KM (σ × Population T) Unit) : Prop :=
  ∀ s p r s' p', sel (s, p) = (r, s', p') →
    p'.best = p.best ∧ p'.worst = p.worst ∧ p'.iteration = p.iteration ∧
    ∀ j ∈ p'.individuals, j.sol ∈ p.individuals.map Individual.sol ∨
      p.best.map Individual.sol = some j.sol ∨ p.worst.map Individual.sol = some j.sol

/-- All selections are legal. -/
def Legal (c : Comps σ T) : Prop := ∀ sel ∈ c.selections, LegalSelection sel

/-- A selection that only kills, whether it returns or panics half-way (all selections of the library do). -/
def OnlyKillsSelection (sel : KM (σ × Population T) Unit) : Prop :=
  ∀ s p r s' p', sel (s, p) = (r, s', p') →
    p'.best = p.best ∧ p'.worst = p.worst ∧ p'.iteration = p.iteration ∧
    List.Forall₂ (fun i j : Individual T => j.sol = i.sol ∧ (j.alive = true → i.alive = true)) p.individuals p'.individuals

/-- What can be seen of a population. -/
def shown (p : Population T) : Shown T :=
  ⟨p.individuals.map Individual.sol, p.best.map Individual.sol, p.worst.map Individual.sol, p.iteration⟩

/-- Replay: each goal call adds an individual, a completed generation replaces everything, nothing else changes
anything. -/
def replay (s : Shown T) : Ev T → Shown T
  | .goal x v => { s with agents := s.agents ++ [(x, v)] }
  | .generation ags best worst i => ⟨ags, best, worst, i⟩
  | _ => s

end GA

namespace PSO

open Verif.Caught.PSO
open Verif.PSO (Swarm Particle)

/-- `P` holds of the components at every time of the history `ks`. -/
def Always (P : Comps σ α → Prop) : Comps σ α → List (Call σ α) → Prop
  | c, [] => P c
  | c, k :: ks => P c ∧ Always P (after c k) ks

/-- What can be seen of a swarm. -/
def shown (s : Swarm α) : Shown (List α) :=
  ⟨s.particles.map Particle.sol, s.best.map Particle.sol, s.worst.map Particle.sol, s.iteration⟩

/-- Replay of `next_iterations`: the goal calls after a completed iteration belong to the particles number 0, 1, 2, ...
in turn; a completed iteration replaces everything; nothing else changes anything. The second component is the number of
the particle whose turn it is. -/
def replay (s : Shown (List α) × Nat) : Ev (List α) → Shown (List α) × Nat
  | .goal x v => ({ s.1 with agents := s.1.agents.set s.2 (x, v) }, s.2 + 1)
  | .generation ags best worst i => (⟨ags, best, worst, i⟩, 0)
  | _ => s

/-- The events while `find_min` makes a new swarm. -/
def Initial : Ev (List α) → Prop
  | .created _ | .moved _ _ | .goal _ _ => True
  | _ => False

/-- Whose goal call it was: the goal calls after a completed iteration belong to the particles number 0, 1, 2, ... in turn.
The first component is the number of the particle whose turn it is, the second one the list of all calls so far. -/
def turns (s : Nat × List (Nat × Solution T)) : Ev T → Nat × List (Nat × Solution T)
  | .goal x v => (s.1 + 1, s.2 ++ [(s.1, (x, v))])
  | .generation .. => (0, s.2)
  | _ => s

/-- The goal calls of particle number `i` among the events of a call of `next_iterations`. -/
def callsOf (i : Nat) (evs : List (Ev T)) : List (Solution T) :=
  ((evs.foldl turns (0, [])).2.filter (fun a => a.1 == i)).map (·.2)

end PSO

end Verif.Spec.Caught
