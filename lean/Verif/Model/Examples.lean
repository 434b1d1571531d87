import Verif.Model.Genetic
import Verif.Model.Selection
import Verif.Model.Pairing
import Verif.Model.Creation
import Verif.Model.Cross
import Verif.Model.Mutation
import Verif.Model.StopChecker
import Verif.Model.TestFunc
import Verif.Model.Logging
import Verif.Model.Swarm
import Verif.Model.Velocity
import Verif.Model.Hooks

/-!
# Example programs: `optlib/examples/*.rs`

The programs are modelled up to the logger that measures the time (`TimeLogger`, the last logger of each of them): it has a
field of its own and is attached to the optimizer in the theorems (`Opt.attach`).
-/

namespace Verif.Examples

open Verif

variable {σ : Type}

/-- What the programs get from the platform: the random number generator, overflow checks or not, the math library, the
standard output and the formatting of numbers. -/
structure Platform (σ : Type) where
  rng : Rng σ
  profile : Profile
  libm : FloatFn F32
  print : String → M σ Unit
  showGene : Nat → F32 → String
  showGoal : Nat → F64 → String

/-- `VerboseLogger::new(&mut stdout, 15)` -/
def Platform.verbose (P : Platform σ) : Logger σ (List F32) := Logging.verbose P.print P.showGene P.showGoal 15

/-- `ResultOnlyLogger::new(&mut stdout, 15)` -/
def Platform.resultOnly (P : Platform σ) : Logger σ (List F32) := Logging.resultOnly P.print P.showGene P.showGoal 15

/-- `vec![(minval, maxval); chromo_count]` -/
def box (minval maxval : F32) (dims : Nat) : List (F32 × F32) := List.replicate dims (minval, maxval)

/-- `-x` for a literal `x = n / d` of type `f32` -/
def minus (n d : Nat) : F32 := Fl.ofRat true n d

/-- A literal `n / d` of type `f32` -/
def plus (n d : Nat) : F32 := Fl.ofRat false n d

/-- Making an object with the fields `L`. -/
def makeAt {τ : Type} (L : Lens σ τ) (t : τ) : M σ Unit := fun s => .ok ((), L.set t s)

/-- `CompositeAny::new(vec![..])` -/
def anyOf {T : Type} (cs : List (AlgState T → M σ Bool)) : M σ (AlgState T → M σ Bool) := do
  let cs ← Stop.compositeNew cs
  pure (Stop.any cs)

/-- What the genetic programs have in common (genetic-schwefel.rs:46-123, genetic-paraboloid.rs:23-92,
genetic-rastrigin.rs:46-126, genetic-rosenbrock.rs:46-126, genetic-schwefel-iterative.rs:46-108): random creation in the
intervals, tournaments for `size / 2` pairs, FloatCrossExp for each gene, mutation of three bits, the pre-birth check,
KillFitnessNaN and LimitPopulation. (genetic-paraboloid.rs sets the number of partners to 2, which is the default.)
The constructors that contain assertions are called; the others only store their arguments. -/
def genetic (P : Platform σ) (goal : List F32 → M σ F64) (makeStop : M σ (AlgState (List F32) → M σ Bool)) (size : Nat)
    (intervals : List (F32 × F32)) (rounds : Nat) (mutationProbability : F64) (loggers : List (Logger σ (List F32))) :
    M σ (GA.Opt σ (List F32)) := do
  let creator ← Creation.RandomCreator.new size intervals
  let stop ← makeStop
  let o := GA.new goal stop
    (creator.create P.rng)
    (Pairing.tournament P.rng ((Pairing.Tournament.new (size / 2)).withRounds rounds))
    (Cross.vecCrossAllGenes (Cross.floatCrossExp P.profile P.rng P.libm.exp2))
    (Mutation.vec P.rng mutationProbability (Mutation.bitwise P.rng 3))
    [Selection.killFitnessNaN, Selection.limitPopulation size]
    [Selection.preBirthInterval intervals]
  pure { o with comps := { o.comps with loggers := loggers } }

/-- The optimizer of genetic-paraboloid.rs:14-92 -/
def geneticParaboloid (P : Platform σ) : M σ (GA.Opt σ (List F32)) :=
  genetic P (TestFunc.goalFromFunction TestFunc.paraboloidF64)
    (anyOf [Stop.threshold (Fl.ofRat false 1 1000000), Stop.maxIterations 3000]) 200
    (box (minus 100 1) (plus 100 1) 5) 2 (Fl.ofNat 15) [P.verbose, P.resultOnly]

/-- The optimizer of genetic-schwefel.rs:31-123 -/
def geneticSchwefel (P : Platform σ) : M σ (GA.Opt σ (List F32)) :=
  genetic P (TestFunc.goalFromFunction (@TestFunc.schwefelF64 _ P.libm))
    (anyOf [Stop.threshold (Fl.ofRat false 1 10000), Stop.maxIterations 3000]) 500
    (box (minus 500 1) (plus 500 1) 15) 5 (Fl.ofNat 15) [P.resultOnly]

/-- The optimizer of genetic-rastrigin.rs:31-126 -/
def geneticRastrigin (P : Platform σ) : M σ (GA.Opt σ (List F32)) :=
  genetic P (TestFunc.goalFromFunction (@TestFunc.rastriginF64 _ P.libm))
    (anyOf [Stop.threshold (Fl.ofRat false 1 10000), Stop.maxIterations 3000]) 20
    (box (minus 512 100) (plus 512 100) 30) 5 (Fl.ofNat 15) [P.resultOnly]

/-- The stop checker of genetic-rosenbrock.rs:83-99. `L` are the fields of its GoalNotChange. -/
def geneticRosenbrockStop (L : Lens σ Stop.GNC) (profile : Profile) : M σ (AlgState (List F32) → M σ Bool) := do
  makeAt L (Stop.GNC.new 3000 (Fl.ofRat false 1 1000000000))
  anyOf [fun s => L.zoom (Stop.goalNotChange profile s)]

/-- The optimizer of genetic-rosenbrock.rs:31-126 -/
def geneticRosenbrock (P : Platform σ) (L : Lens σ Stop.GNC) : M σ (GA.Opt σ (List F32)) :=
  genetic P (TestFunc.rosenbrockF64 P.profile) (geneticRosenbrockStop L P.profile) 600
    (box (minus 2 1) (plus 2 1) 3) 5 (Fl.ofNat 85) [P.verbose, P.resultOnly]

/-- The optimizer of genetic-schwefel-iterative.rs:31-108 -/
def geneticSchwefelIterative (P : Platform σ) : M σ (GA.Opt σ (List F32)) :=
  genetic P (TestFunc.goalFromFunction (@TestFunc.schwefelF64 _ P.libm)) (pure (Stop.maxIterations 100)) 500
    (box (minus 500 1) (plus 500 1) 15) 5 (Fl.ofNat 15) [P.resultOnly]

/-- The calls of genetic-schwefel-iterative.rs:111-114 -/
def iterativeCalls (fuel : Nat) : List (GA.Call σ (List F32)) :=
  [.findMin fuel, .setStopChecker (Stop.maxIterations 500), .nextIterations fuel]

/-! ## Particle swarm -/

/-- What the swarm programs have in common (particleswarm-paraboloid.rs:28-83, particleswarm-rastrigin.rs:30-74,
particleswarm-rosenbrock.rs:30-74, particleswarm-schwefel.rs:32-81, particleswarm-schwefel-iterative.rs:26-69): random
coordinates, zero velocities, CanonicalVelocityCalculator and MoveToBoundary. -/
def swarm (P : Platform σ) (goal : List F32 → M σ F64) (makeStop : M σ (AlgState (List F32) → M σ Bool)) (particles : Nat)
    (minval maxval : F32) (dims : Nat) (phiPersonal phiGlobal k : F32) (postVel : List (List F32 → M σ (List F32))) :
    M σ (PSO.Opt σ F32) := do
  let calculator ← Velocity.Canonical.new phiPersonal phiGlobal k
  let stop ← makeStop
  let o := PSO.new goal stop (Creation.randomInit P.rng (box minval maxval dims) particles)
    (Creation.zeroInit dims particles) (Velocity.canonical P.rng calculator)
  pure { o with comps := { o.comps with
    loggers := [P.verbose, P.resultOnly]
    postMove := [Hooks.moveToBoundary (box minval maxval dims)]
    postVel := postVel } }

/-- The stop checkers of particleswarm-paraboloid.rs:52-61 and of particleswarm-rastrigin.rs:43-53,
particleswarm-rosenbrock.rs:43-53, particleswarm-schwefel.rs:49-59. `L` are the fields of the GoalNotChange. -/
def swarmStop (L : Lens σ Stop.GNC) (delta : F64) (profile : Profile) : M σ (AlgState (List F32) → M σ Bool) := do
  makeAt L (Stop.GNC.new 150 delta)
  anyOf [Stop.threshold (Fl.ofRat false 1 1000000), fun s => L.zoom (Stop.goalNotChange profile s), Stop.maxIterations 3000]

/-- The optimizer of particleswarm-paraboloid.rs:15-83 -/
def swarmParaboloid (P : Platform σ) (L : Lens σ Stop.GNC) : M σ (PSO.Opt σ F32) :=
  swarm P (TestFunc.goalFromFunction TestFunc.paraboloidF64) (swarmStop L (Fl.ofRat false 1 10000000) P.profile) 80
    (minus 100 1) (plus 100 1) 5 (plus 2 1) (plus 6 1) (plus 2 10) [Hooks.maxVelocityAbs (plus 10 1)]

/-- The optimizer of particleswarm-rastrigin.rs:19-74 -/
def swarmRastrigin (P : Platform σ) (L : Lens σ Stop.GNC) : M σ (PSO.Opt σ F32) :=
  swarm P (TestFunc.goalFromFunction (@TestFunc.rastriginF64 _ P.libm)) (swarmStop L (Fl.ofRat false 1 100000000) P.profile) 500
    (minus 512 100) (plus 512 100) 3 (plus 2 1) (plus 5 1) (plus 2 10) []

/-- The optimizer of particleswarm-rosenbrock.rs:19-74 -/
def swarmRosenbrock (P : Platform σ) (L : Lens σ Stop.GNC) : M σ (PSO.Opt σ F32) :=
  swarm P (TestFunc.rosenbrockF64 P.profile) (swarmStop L (Fl.ofRat false 1 100000000) P.profile) 1000
    (minus 2 1) (plus 2 1) 3 (plus 1 1) (plus 8 1) (plus 2 10) []

/-- The optimizer of particleswarm-schwefel.rs:21-81 -/
def swarmSchwefel (P : Platform σ) (L : Lens σ Stop.GNC) : M σ (PSO.Opt σ F32) :=
  swarm P (TestFunc.goalFromFunction (@TestFunc.schwefelF64 _ P.libm)) (swarmStop L (Fl.ofRat false 1 100000000) P.profile) 100
    (minus 500 1) (plus 500 1) 3 (plus 32 10) (plus 1 1) (plus 9 10) [Hooks.maxVelocityAbs (plus 700 1)]

/-- The optimizer of particleswarm-schwefel-iterative.rs:15-69 -/
def swarmSchwefelIterative (P : Platform σ) : M σ (PSO.Opt σ F32) :=
  swarm P (TestFunc.goalFromFunction (@TestFunc.schwefelF64 _ P.libm)) (pure (Stop.maxIterations 50)) 100
    (minus 500 1) (plus 500 1) 3 (plus 32 10) (plus 1 1) (plus 9 10) [Hooks.maxVelocityAbs (plus 700 1)]

/-- The calls of particleswarm-schwefel-iterative.rs:71-74 -/
def swarmIterativeCalls (fuel : Nat) : List (PSO.Call σ F32) :=
  [.findMin fuel, .setStopChecker (Stop.maxIterations 150), .nextIterations fuel]

end Verif.Examples
