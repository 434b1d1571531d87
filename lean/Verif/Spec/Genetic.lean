import Verif.Model.Genetic
import Verif.Spec.Selection

/-!
# Specification vocabulary: histories and generations of the genetic optimizer
-/

namespace Verif.Spec

open Verif GA

variable {σ T α : Type}

/-- `m` returned `a` in some state of the world. -/
def Returned (m : M σ α) (a : α) : Prop := ∃ s s', m s = .ok (a, s')

/-- The components after a public call: only setters change them. -/
def setComps (c : Comps σ T) : Call σ T → Comps σ T
  | .findMin _ => c
  | .nextIterations _ => c
  | .setLoggers ls => { c with loggers := ls }
  | .setPairing f => { c with pairing := f }
  | .setCross f => { c with cross := f }
  | .setMutation f => { c with mutation := f }
  | .setSelection fs => { c with selections := fs }
  | .setPreBirth fs => { c with preBirths := fs }
  | .setStopChecker f => { c with stop := f }

/-- `P` holds of the components at every time of the history `ks`. -/
def Always (P : Comps σ T → Prop) : Comps σ T → List (Call σ T) → Prop
  | c, [] => P c
  | c, k :: ks => P c ∧ Always P (setComps c k) ks

/-- What a selection can do through the public interface of a population (the fields are private): kill, swap or
overwrite individuals by copies of individuals it can see. The best, the worst and the generation number stay. -/
def LegalSelection (sel : Population T → M σ (Population T)) : Prop :=
  ∀ p s p' s', sel p s = .ok (p', s') →
    p'.best = p.best ∧ p'.worst = p.worst ∧ p'.iteration = p.iteration ∧
    ∀ j ∈ p'.individuals, j.sol ∈ p.individuals.map Individual.sol ∨
      p.best.map Individual.sol = some j.sol ∨ p.worst.map Individual.sol = some j.sol

/-- All selections are legal. -/
def Legal (c : Comps σ T) : Prop := ∀ sel ∈ c.selections, LegalSelection sel

/-- An optimizer as returned by `new` (loggers and other components may be set), and an empty trace. -/
def Fresh (o : Opt σ T) (w : World σ T) : Prop := o.pop = ⟨[], none, none, 0⟩ ∧ w.trace = []

/-- The pre-birth components, one after the other, turn `xs` into `ys`; `evs` are the recorded calls. -/
inductive PreBirths (p : Population T) :
    Nat → List (Population T → List T → M σ (List T)) → List T → List (Ev T) → List T → Prop
  | nil {i xs} : PreBirths p i [] xs [] xs
  | cons {i f fs xs ys evs zs} : Returned (f p xs) ys → PreBirths p (i + 1) fs ys evs zs →
      PreBirths p i (f :: fs) xs (.preBorn i xs ys :: evs) zs

/-- The selections, one after the other, turn the population `p` into `q`; `evs` are the recorded calls. -/
inductive Selections :
    Nat → List (Population T → M σ (Population T)) → Population T → List (Ev T) → Population T → Prop
  | nil {i p} : Selections i [] p [] p
  | cons {i f fs p p1 evs q} : Returned (f p) p1 → Selections (i + 1) fs p1 evs q →
      Selections i (f :: fs) p (.selected i (flagged p) (flagged p1) :: evs) q

/-- Newly born individuals: alive, with the goal values `vals`. -/
def newborn (born : List T) (vals : List F64) : List (Individual T) :=
  List.zipWith (fun x v => ⟨x, v, true⟩) born vals

/-- One generation, from the population `p` to `p'`, recorded as `evs`. -/
structure Generation (c : Comps σ T) (p : Population T) (evs : List (Ev T)) (p' : Population T) where
  families : List (List Nat)
  parents : List (List T)
  children : List (List T)
  mutants : List T
  preEvs : List (Ev T)
  born : List T
  vals : List F64
  selEvs : List (Ev T)
  /-- the population after the selections -/
  q : Population T
  /-- pairing chose the families -/
  pairing_ok : Returned (c.pairing p) families
  /-- the parents of a family are the individuals with the family's indices -/
  parents_ok : List.Forall₂ (List.Forall₂ (fun i x => (p.individuals.map Individual.chromosomes)[i]? = some x))
    families parents
  /-- each family was crossed -/
  cross_ok : List.Forall₂ (fun ps ks => Returned (c.cross ps) ks) parents children
  /-- every child was mutated -/
  mutation_ok : List.Forall₂ (fun x y => Returned (c.mutation x) y) children.flatten mutants
  /-- the pre-birth filters ran in registration order -/
  preBirth_ok : PreBirths p 0 c.preBirths mutants preEvs born
  /-- the goal was called on what was left -/
  goal_ok : List.Forall₂ (fun x v => Returned (c.goal x) v) born vals
  /-- they were appended and all selections ran in registration order -/
  select_ok : Selections 0 c.selections { p with individuals := p.individuals ++ newborn born vals } selEvs q
  /-- the dead were removed -/
  alive_ok : p'.individuals = q.individuals.filter (·.alive)
  /-- the generation number went up -/
  iteration_ok : p'.iteration = q.iteration + 1
  /-- in this order -/
  events_ok : evs =
    [.paired (agents p) families] ++
    List.zipWith Ev.crossed parents children ++
    List.zipWith Ev.mutated children.flatten mutants ++
    preEvs ++
    List.zipWith Ev.goal born vals ++
    selEvs ++
    [.generation (agents p') p'.state.best (p'.worst.map Individual.sol) p'.iteration]

end Verif.Spec
