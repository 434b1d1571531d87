import Verif.Model.Swarm
import Verif.Spec.Genetic
import Verif.Spec.Trace

/-!
# Specification vocabulary: histories and turns of the particle swarm optimizer
-/

namespace Verif.Spec.Swarm

open Verif PSO

variable {σ α : Type}

/-- The components after a public call: only setters change them. -/
def setComps (c : Comps σ α) : Call σ α → Comps σ α
  | .findMin _ => c
  | .nextIterations _ => c
  | .setStopChecker f => { c with stop := f }
  | .setLoggers ls => { c with loggers := ls }
  | .setPostMoves fs => { c with postMove := fs }
  | .setPostVelocityCalc fs => { c with postVel := fs }

/-- `P` holds of the components at every time of the history `ks`. -/
def Always (P : Comps σ α → Prop) : Comps σ α → List (Call σ α) → Prop
  | c, [] => P c
  | c, k :: ks => P c ∧ Always P (setComps c k) ks

/-- An optimizer as returned by `new` (loggers and other components may be set), and an empty trace. -/
def Fresh (o : Opt σ α) (w : World σ (List α)) : Prop := o.swarm = ⟨[], none, none, 0⟩ ∧ w.trace = []

/-- The hooks, in registration order, turn `x` into `y`. -/
inductive Hooked : List (List α → M σ (List α)) → List α → List α → Prop
  | nil {x} : Hooked [] x x
  | cons {h hs x y z} : Returned (h x) y → Hooked hs y z → Hooked (h :: hs) x z

/-- One particle `p` of the swarm `s` is moved and becomes `p'`, recorded as `evs`. -/
structure Move [FloatT α] (c : Comps σ α) (s : Swarm α) (p : Particle α) (evs : List (Ev (List α)))
    (p' : Particle α) where
  raw : List α
  /-- the velocity calculator sees the swarm and the particle -/
  velocity_ok : Returned (c.velCalc s p) raw
  /-- its answer is corrected by the hooks -/
  corrected : Hooked c.postVel raw p'.velocity
  /-- the new coordinates are the sum, corrected by the other hooks -/
  moved : Hooked c.postMove (List.zipWith FloatT.add p.coordinates p'.velocity) p'.coordinates
  /-- the goal is called once, on the corrected coordinates -/
  goal_ok : Returned (c.goal p'.coordinates) p'.value
  best_ok : (p'.bestCoords, p'.bestValue) =
    if compareFloats p'.value p.bestValue = .lt then (p'.coordinates, p'.value) else (p.bestCoords, p.bestValue)
  worst_ok : (p'.worstCoords, p'.worstValue) =
    if compareFloats p'.value p.worstValue = .gt then (p'.coordinates, p'.value) else (p.worstCoords, p.worstValue)
  events_ok : evs = [.velocity raw p'.velocity,
    .moved (List.zipWith FloatT.add p.coordinates p'.velocity) p'.coordinates, .goal p'.coordinates p'.value]

/-- The particles with the numbers `ns` are moved one after the other. -/
inductive Moves [FloatT α] (c : Comps σ α) : List Nat → Swarm α → List (Ev (List α)) → Swarm α → Prop
  | nil {s} : Moves c [] s [] s
  | cons {n ns s p evs p' evs' s'} : s.particles[n]? = some p → (Nonempty (Move c s p evs p')) →
      Moves c ns { s with particles := s.particles.set n p' } evs' s' → Moves c (n :: ns) s (evs ++ evs') s'

end Verif.Spec.Swarm

namespace Verif.Spec

variable {T : Type}

/-- The goal calls since the last initialization, in order, with their results. -/
def goalsSince (tr : List (Ev T)) : List (Solution T) :=
  tr.foldl (fun l e => match e with
    | .created _ => []
    | .goal x v => l ++ [(x, v)]
    | _ => l) []

/-- The goal calls, in order, with their results. -/
def goalsOf (tr : List (Ev T)) : List (Solution T) :=
  tr.filterMap (fun | .goal x v => some (x, v) | _ => none)

end Verif.Spec
