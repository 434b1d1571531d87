import Verif.Model.Num
import Verif.Model.Rng

/-!
# Random initial points: `genetic/creation/vec_float.rs`, `tools/mod.rs`,
`particleswarm/initializing/mod.rs`
-/

namespace Verif.Creation

open Verif

variable {σ : Type}

/-- Draw one gene in an interval (creation/vec_float.rs:54-58, tools/mod.rs:31-32): the
bounds are converted to `f64`, sampled inclusively, and the sample converted back. -/
def drawGene (R : Rng σ) {f : Fmt} (iv : Fl f × Fl f) : M σ (Fl f) := do
  let x ← R.uniformFlIncl (iv.1.cast : F64) (iv.2.cast : F64)
  pure x.cast

/-- `RandomCreator` (creation/vec_float.rs:14-18) -/
structure RandomCreator (f : Fmt) where
  populationSize : Nat
  intervals : List (Fl f × Fl f)

/-- `RandomCreator::new` (creation/vec_float.rs:30-43) -/
def RandomCreator.new {f : Fmt} (size : Nat) (ivs : List (Fl f × Fl f)) :
    M σ (RandomCreator f) := do
  M.assert (decide (0 < size))
  M.assert (!ivs.isEmpty)
  M.assert (ivs.all (fun iv => iv.1.lt iv.2))
  pure ⟨size, ivs⟩

/-- `RandomCreator::create` (creation/vec_float.rs:46-66) -/
def RandomCreator.create (R : Rng σ) {f : Fmt} (c : RandomCreator f) : M σ (List (List (Fl f))) :=
  M.replicate c.populationSize (M.mapL (drawGene R) c.intervals)

/-- `RandomVectorCreator::create_vec` (tools/mod.rs:23-37) -/
def createVec (R : Rng σ) {f : Fmt} (ivs : List (Fl f × Fl f)) : M σ (List (Fl f)) := do
  M.assert (ivs.all (fun iv => iv.1.lt iv.2))
  M.mapL (drawGene R) ivs

/-- `RandomCoordinatesInitializer::get_coordinates` (initializing/mod.rs:30-36) and
`RandomVelocityInitializer::get_velocity` (60-66), which have the same text. -/
def randomInit (R : Rng σ) {f : Fmt} (ivs : List (Fl f × Fl f)) (count : Nat) :
    M σ (List (List (Fl f))) :=
  M.replicate count (createVec R ivs)

/-- `ZeroVelocityInitializer::get_velocity` (initializing/mod.rs:80-86) -/
def zeroInit {α : Type} [FloatT α] (dimension count : Nat) : M σ (List (List α)) :=
  M.replicate count (pure (List.replicate dimension FloatT.zero))

end Verif.Creation
