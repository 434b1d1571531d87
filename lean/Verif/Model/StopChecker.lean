import Verif.Model.Core
import Verif.Model.Bits

/-!
# Stop checkers: `optlib/src/tools/stopchecker/mod.rs`

A `StopChecker<T>` object is a function `AlgState T → M σ Bool`.
-/

namespace Verif

/-- A component's private state `τ` inside the world `σ`. -/
structure Lens (σ τ : Type) where
  get : σ → τ
  set : τ → σ → σ
  get_set : ∀ t s, get (set t s) = t
  set_get : ∀ s, set (get s) s = s
  set_set : ∀ t t' s, set t (set t' s) = set t s

/-- Run a computation on a component's private state. -/
def Lens.zoom {σ τ α : Type} (L : Lens σ τ) (m : M τ α) : M σ α := fun s =>
  match m (L.get s) with
  | .ok (a, t) => .ok (a, L.set t s)
  | .error e => .error e

/-- The whole world. -/
def Lens.id (σ : Type) : Lens σ σ := ⟨fun s => s, fun t _ => t, fun _ _ => rfl, fun _ => rfl, fun _ _ _ => rfl⟩

/-- First component. -/
def Lens.fst (σ τ : Type) : Lens (σ × τ) σ :=
  ⟨Prod.fst, fun a p => (a, p.2), fun _ _ => rfl, fun _ => rfl, fun _ _ _ => rfl⟩

/-- Second component. -/
def Lens.snd (σ τ : Type) : Lens (σ × τ) τ :=
  ⟨Prod.snd, fun b p => (p.1, b), fun _ _ => rfl, fun _ => rfl, fun _ _ _ => rfl⟩

/-- A logger object whose fields are the part `L` of the world. -/
def Logger.zoom {σ τ T : Type} (L : Lens σ τ) (l : Logger τ T) : Logger σ T :=
  ⟨fun s => L.zoom (l.start s), fun s => L.zoom (l.resume s), fun s => L.zoom (l.nextIteration s),
    fun s => L.zoom (l.finish s)⟩

namespace Stop

variable {σ T : Type}

/-- `CompositeAny::can_stop` (stopchecker/mod.rs:26-36) -/
def any (checkers : List (AlgState T → M σ Bool)) (s : AlgState T) : M σ Bool :=
  match checkers with
  | [] => pure false
  | c :: cs => do
    if ← c s then pure true else any cs s

/-- `CompositeAll::can_stop` (stopchecker/mod.rs:51-61) -/
def all (checkers : List (AlgState T → M σ Bool)) (s : AlgState T) : M σ Bool :=
  match checkers with
  | [] => pure true
  | c :: cs => do
    if !(← c s) then pure false else all cs s

/-- `CompositeAny::new` (stopchecker/mod.rs:20-23) and `CompositeAll::new` (45-48):
the list of checkers must not be empty. -/
def compositeNew (checkers : List (AlgState T → M σ Bool)) :
    M σ (List (AlgState T → M σ Bool)) := do
  M.assert (checkers.length != 0)
  pure checkers

/-- `MaxIterations` (stopchecker/mod.rs:78-82) -/
def maxIterations (maxIter : Nat) (s : AlgState T) : M σ Bool :=
  pure (decide (maxIter ≤ s.iteration))

/-- `Threshold` (stopchecker/mod.rs:143-150) -/
def threshold (t : F64) (s : AlgState T) : M σ Bool :=
  pure (match s.best with
    | none => false
    | some (_, goal) => goal.le t)

/-- The fields of `GoalNotChange` (stopchecker/mod.rs:85-91) -/
structure GNC where
  maxIter : Nat
  delta : F64
  oldGoal : F64
  changeIter : Nat
  deriving DecidableEq

/-- `GoalNotChange::new` (stopchecker/mod.rs:101-108) -/
def GNC.new (maxIter : Nat) (delta : F64) : GNC := ⟨maxIter, delta, Fl.maxFinite, 0⟩

/-- `GoalNotChange::can_stop` (stopchecker/mod.rs:111-126) -/
def goalNotChange (p : Profile) (s : AlgState T) : M GNC Bool :=
  match s.best with
  | none => pure false
  | some (_, bestGoal) => do
    let c ← get
    let delta := (bestGoal.sub c.oldGoal).abs
    let c := if c.delta.lt delta then { c with oldGoal := bestGoal, changeIter := s.iteration } else c
    set c
    let d ← M.ofExcept (usizeSub p s.iteration c.changeIter)
    pure (decide (c.maxIter < d))

end Stop
end Verif
