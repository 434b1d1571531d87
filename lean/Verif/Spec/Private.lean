import Verif.Model.Genetic
import Verif.Model.Swarm
import Verif.Model.StopChecker

/-!
# Specification vocabulary: components with a private state

An object plugged into an optimizer keeps its fields to itself. In the model its fields are a part of the world,
given by a lens; the other components leave this part alone.
-/

namespace Verif

/-- One callback of a logger. -/
def Logger.on {σ T : Type} (l : Logger σ T) : LogKind → AlgState T → M σ Unit
  | .start => l.start
  | .resume => l.resume
  | .next => l.nextIteration
  | .finish => l.finish

namespace Spec

variable {σ τ T α : Type}

/-- `m` does not touch the part `L` of the world. -/
def Leaves (L : Lens σ τ) (m : M σ α) : Prop := ∀ s a s', m s = .ok (a, s') → L.get s' = L.get s

/-- A stop checker with state `t` was consulted with these states, gave these answers and has state `t'` now. -/
inductive Consulted (chk : AlgState T → M τ Bool) : τ → List (AlgState T × Bool) → τ → Prop
  | nil {t} : Consulted chk t [] t
  | cons {t t1 t' s b l} : chk s t = .ok (b, t1) → Consulted chk t1 l t' → Consulted chk t ((s, b) :: l) t'

/-- A logger with state `t` received these callbacks and has state `t'` now. -/
inductive Informed (l : Logger τ T) : τ → List (LogKind × AlgState T) → τ → Prop
  | nil {t} : Informed l t [] t
  | cons {t t1 t' k s ks} : l.on k s t = .ok ((), t1) → Informed l t1 ks t' → Informed l t ((k, s) :: ks) t'

/-- The callbacks logger number `i` received. -/
def callbacksOf (i : Nat) (tr : List (Ev T)) : List (LogKind × AlgState T) :=
  tr.filterMap (fun | .log j k s => if j = i then some (k, s) else none | _ => none)

end Spec

namespace GA

open Spec

variable {σ τ T : Type}

/-- All components but the goal, the stop checker and the loggers leave the part `L` of the world alone. -/
structure OperatorsLeave (L : Lens σ τ) (c : Comps σ T) : Prop where
  creator : Leaves L c.creator
  pairing : ∀ p, Leaves L (c.pairing p)
  cross : ∀ xs, Leaves L (c.cross xs)
  mutation : ∀ x, Leaves L (c.mutation x)
  selections : ∀ f ∈ c.selections, ∀ p, Leaves L (f p)
  preBirths : ∀ f ∈ c.preBirths, ∀ p xs, Leaves L (f p xs)

/-- The stop checker is an object with the fields `L`, and no other component touches these. -/
structure PrivateStop (L : Lens σ τ) (chk : AlgState T → M τ Bool) (c : Comps σ T) : Prop where
  stop_eq : c.stop = fun s => L.zoom (chk s)
  operators : OperatorsLeave L c
  goal : ∀ x, Leaves L (c.goal x)
  loggers : ∀ l ∈ c.loggers, ∀ k s, Leaves L (l.on k s)

/-- Logger number `i` is an object with the fields `L`, and no other component touches these. -/
structure PrivateLogger (L : Lens σ τ) (l : Logger τ T) (i : Nat) (c : Comps σ T) : Prop where
  logger_eq : c.loggers[i]? = some (l.zoom L)
  operators : OperatorsLeave L c
  goal : ∀ x, Leaves L (c.goal x)
  stop : ∀ s, Leaves L (c.stop s)
  loggers : ∀ j l', j ≠ i → c.loggers[j]? = some l' → ∀ k s, Leaves L (l'.on k s)

end GA

namespace PSO

open Spec

variable {σ τ α : Type}

/-- All components but the goal, the stop checker and the loggers leave the part `L` of the world alone. -/
structure OperatorsLeave (L : Lens σ τ) (c : Comps σ α) : Prop where
  coordInit : Leaves L c.coordInit
  velInit : Leaves L c.velInit
  velCalc : ∀ s p, Leaves L (c.velCalc s p)
  postVel : ∀ f ∈ c.postVel, ∀ x, Leaves L (f x)
  postMove : ∀ f ∈ c.postMove, ∀ x, Leaves L (f x)

/-- The stop checker is an object with the fields `L`, and no other component touches these. -/
structure PrivateStop (L : Lens σ τ) (chk : AlgState (List α) → M τ Bool) (c : Comps σ α) : Prop where
  stop_eq : c.stop = fun s => L.zoom (chk s)
  operators : OperatorsLeave L c
  goal : ∀ x, Leaves L (c.goal x)
  loggers : ∀ l ∈ c.loggers, ∀ k s, Leaves L (l.on k s)

/-- Logger number `i` is an object with the fields `L`, and no other component touches these. -/
structure PrivateLogger (L : Lens σ τ) (l : Logger τ (List α)) (i : Nat) (c : Comps σ α) : Prop where
  logger_eq : c.loggers[i]? = some (l.zoom L)
  operators : OperatorsLeave L c
  goal : ∀ x, Leaves L (c.goal x)
  stop : ∀ s, Leaves L (c.stop s)
  loggers : ∀ j l', j ≠ i → c.loggers[j]? = some l' → ∀ k s, Leaves L (l'.on k s)

end PSO
end Verif
