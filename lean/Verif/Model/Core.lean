import Verif.Basic.Monad
import Verif.IEEE.Basic

/-!
# Common traits: `optlib/src/lib.rs`, `tools/logging/mod.rs`
-/

namespace Verif

/-- `Solution<T>` (lib.rs:13): a point and its goal value. -/
abbrev Solution (T : Type) := T × F64

/-- What a `StopChecker` or `Logger` can see of the algorithm through
`&dyn AlgorithmState<T>` (lib.rs:41-44). -/
structure AlgState (T : Type) where
  best : Option (Solution T)
  iteration : Nat

/-- `Logger<T>` (tools/logging/mod.rs:12-26) -/
structure Logger (σ T : Type) where
  start : AlgState T → M σ Unit
  resume : AlgState T → M σ Unit
  nextIteration : AlgState T → M σ Unit
  finish : AlgState T → M σ Unit

/-- The four callbacks of a logger. -/
inductive LogKind where
  | start | resume | next | finish
  deriving DecidableEq, Repr

/-- What an optimizer does that is observable from outside: a ghost trace of the
calls it makes to its components. -/
inductive Ev (T : Type) where
  /-- `goal.get(x)` returned `v` -/
  | goal (x : T) (v : F64)
  /-- `stop_checker.can_stop(state)` returned `b` -/
  | check (s : AlgState T) (b : Bool)
  /-- logger number `i` was called -/
  | log (i : Nat) (k : LogKind) (s : AlgState T)
  /-- genetic: `creator.create()` returned `xs`; swarm: the coordinates initializer returned `xs` -/
  | created (xs : List T)
  /-- genetic: `pairing.get_pairs` was called on a population with these agents and
  returned these index families -/
  | paired (agents : List (Solution T)) (families : List (List Nat))
  /-- genetic: `cross.cross(parents)` returned `children` -/
  | crossed (parents children : List T)
  /-- genetic: `mutation.mutation(x)` returned `y` -/
  | mutated (x y : T)
  /-- genetic: pre-birth number `i` turned the list `xs` into `ys` -/
  | preBorn (i : Nat) (xs ys : List T)
  /-- genetic: selection number `i` was run on the agents `xs` (with their alive
  flags) and left `ys` -/
  | selected (i : Nat) (xs ys : List (Solution T × Bool))
  /-- swarm: the velocity calculator returned `raw`, the correctors made it `v` -/
  | velocity (raw v : T)
  /-- swarm: the coordinates `raw` became `x` by the post-move hooks -/
  | moved (raw x : T)
  /-- (ghost) an iteration has just been completed, in which these are the agents, the
  best and the worst solution of the algorithm's state -/
  | generation (agents : List (Solution T)) (best worst : Option (Solution T)) (iteration : Nat)

/-- The user's world together with the trace. -/
structure World (σ T : Type) where
  user : σ
  trace : List (Ev T)

namespace World

variable {σ T α : Type}

/-- Run a component: it sees and changes only the user part. -/
def lift (m : M σ α) : M (World σ T) α := fun w =>
  match m w.user with
  | .ok (a, s') => .ok (a, { w with user := s' })
  | .error e => .error e

/-- Record an event. -/
def emit (e : Ev T) : M (World σ T) Unit := fun w =>
  .ok ((), { w with trace := w.trace ++ [e] })

theorem lift_eq_ok {m : M σ α} {w w' : World σ T} {a : α} :
    (lift m : M (World σ T) α) w = .ok (a, w') ↔
      m w.user = .ok (a, w'.user) ∧ w'.trace = w.trace := by
  unfold lift
  cases h : m w.user with
  | error e => simp
  | ok p =>
    obtain ⟨b, s⟩ := p
    cases w'
    simp only [Except.ok.injEq, Prod.mk.injEq, World.mk.injEq]
    constructor
    · rintro ⟨rfl, rfl, rfl⟩; exact ⟨⟨rfl, rfl⟩, rfl⟩
    · rintro ⟨⟨rfl, rfl⟩, rfl⟩; exact ⟨rfl, rfl, rfl⟩

theorem emit_eq_ok {e : Ev T} {w w' : World σ T} {u : Unit} :
    (emit e : M (World σ T) Unit) w = .ok (u, w') ↔
      w'.user = w.user ∧ w'.trace = w.trace ++ [e] := by
  unfold emit
  cases w'
  simp only [Except.ok.injEq, Prod.mk.injEq, World.mk.injEq, true_and]
  constructor
  · rintro ⟨rfl, rfl⟩; exact ⟨rfl, rfl⟩
  · rintro ⟨rfl, rfl⟩; exact ⟨rfl, rfl⟩

end World

/-- Call one callback of every logger, in registration order
(the `for logger in &mut self.loggers` loops). -/
def callLoggers {σ T : Type} (k : LogKind) (s : AlgState T) :
    Nat → List (Logger σ T) → M (World σ T) Unit
  | _, [] => pure ()
  | i, l :: ls => do
    World.lift (match k with
      | .start => l.start s
      | .resume => l.resume s
      | .next => l.nextIteration s
      | .finish => l.finish s)
    World.emit (.log i k s)
    callLoggers k s (i + 1) ls

end Verif
