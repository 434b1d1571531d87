import Verif.Model.Genetic
import Verif.Model.Swarm
import Verif.Model.Rng
import Verif.Spec.Private

/-!
# Specification vocabulary: computations that read a tape from its beginning

The tape with the numbers of the draws to come is the part `L` of the world.
-/

namespace Verif

open Spec

variable {ω σ β T α : Type}

/-- A computation looks at finitely many numbers of the tape, takes those it looks at away, and then returns or panics. The numbers are less than
`m`; `c` gives the outcome for each tape. -/
inductive Tree (m : Nat) (L : Lens ω (List Nat)) : (List Nat → Except Err (β × ω)) → Prop
  | ok {c : List Nat → Except Err (β × ω)} (b : β) (w : ω) (h : ∀ t, c t = .ok (b, L.set t w)) : Tree m L c
  | fail {c : List Nat → Except Err (β × ω)} (e : Err) (h : ∀ t, c t = .error e) : Tree m L c
  | draw {c : List Nat → Except Err (β × ω)} (h : ∀ k, k < m → Tree m L (fun t => c (k :: t))) : Tree m L c

/-- From every world -/
def Scans (m : Nat) (L : Lens ω (List Nat)) (a : M ω β) : Prop := ∀ w, Tree m L (fun t => a (L.set t w))

/-- The random numbers come from the tape. -/
structure Rng.OnTape (L : Lens ω (List Nat)) (R : Rng ω) : Prop where
  nat : ∀ lo hi w k, ∃ v, ∀ t, R.nat lo hi (L.set (k :: t) w) = (v, L.set t w)
  natIncl : ∀ lo hi w k, ∃ v, ∀ t, R.natIncl lo hi (L.set (k :: t) w) = (v, L.set t w)
  fl : ∀ {g : Fmt} (lo hi : Fl g) w k, ∃ v, ∀ t, R.fl lo hi (L.set (k :: t) w) = (v, L.set t w)
  flIncl : ∀ {g : Fmt} (lo hi : Fl g) w k, ∃ v, ∀ t, R.flIncl lo hi (L.set (k :: t) w) = (v, L.set t w)

/-- All callbacks of a logger -/
def Logger.Scans (m : Nat) (L : Lens ω (List Nat)) (l : Logger ω T) : Prop :=
  ∀ s, Verif.Scans m L (l.start s) ∧ Verif.Scans m L (l.resume s) ∧ Verif.Scans m L (l.nextIteration s) ∧ Verif.Scans m L (l.finish s)

/-- All components of a genetic optimizer take their random numbers from the tape. -/
structure GA.Scan (m : Nat) (L : Lens σ (List Nat)) (c : GA.Comps σ T) : Prop where
  goal : ∀ x, Scans m L (c.goal x)
  stop : ∀ s, Scans m L (c.stop s)
  creator : Scans m L c.creator
  pairing : ∀ p, Scans m L (c.pairing p)
  cross : ∀ xs, Scans m L (c.cross xs)
  mutation : ∀ x, Scans m L (c.mutation x)
  selections : ∀ f ∈ c.selections, ∀ p, Scans m L (f p)
  preBirths : ∀ f ∈ c.preBirths, ∀ p xs, Scans m L (f p xs)
  loggers : ∀ l ∈ c.loggers, l.Scans m L

/-- All components of a swarm take their random numbers from the tape. -/
structure PSO.Scan (m : Nat) (L : Lens σ (List Nat)) (c : PSO.Comps σ α) : Prop where
  goal : ∀ x, Scans m L (c.goal x)
  stop : ∀ s, Scans m L (c.stop s)
  coordInit : Scans m L c.coordInit
  velInit : Scans m L c.velInit
  velCalc : ∀ s p, Scans m L (c.velCalc s p)
  postVel : ∀ f ∈ c.postVel, ∀ x, Scans m L (f x)
  postMove : ∀ f ∈ c.postMove, ∀ x, Scans m L (f x)
  loggers : ∀ l ∈ c.loggers, l.Scans m L

end Verif
