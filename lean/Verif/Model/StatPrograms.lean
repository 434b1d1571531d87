import Verif.Model.Examples
import Verif.Model.Workers
import Verif.Spec.Attach

/-!
# The statistics programs: `optlib/examples/*-statistics*.rs`

`create_optimizer` of the seven programs, one run in a worker thread, the parameters of `Workers.Program`, and the report that is
printed in the end. Printing itself is not modelled.
-/

namespace Verif.StatPrograms

open Verif Examples Stats Workers

variable {σ : Type}

/-- What `create_optimizer` of the five swarm programs have in common
(particleswarm-schwefel-statistics.rs:24-84, particleswarm-rosenbrock-statistics.rs:24-84,
particleswarm-schwefel-statistics-full.rs:22-93, particleswarm-schwefel-statistics-inertia.rs:22-80,
particleswarm-rastrigin-statistics-inertia.rs:24-82): random coordinates, zero velocities, MaxVelocityAbs. -/
def swarm (P : Platform σ) (goal : List F32 → M σ F64) (particles : Nat) (minval maxval : F32) (dims : Nat) (maxVelocity : F32)
    (makePostMoves : M σ (List (List F32 → M σ (List F32))))
    (makeVelocity : M σ (PSO.Swarm F32 → PSO.Particle F32 → M σ (List F32)))
    (makeStop : M σ (AlgState (List F32) → M σ Bool)) : M σ (PSO.Opt σ F32) := do
  let postMoves ← makePostMoves
  let velocity ← makeVelocity
  let stop ← makeStop
  let o := PSO.new goal stop (Creation.randomInit P.rng (box minval maxval dims) particles) (Creation.zeroInit dims particles)
    velocity
  pure { o with comps := { o.comps with postMove := postMoves, postVel := [Hooks.maxVelocityAbs maxVelocity] } }

/-- `vec![RandomTeleport::new(intervals, probability), MoveToBoundary::new(intervals)]`
(particleswarm-schwefel-statistics.rs:50-56) -/
def teleportAndBound (P : Platform σ) (intervals : List (F32 × F32)) (probability : F32) :
    M σ (List (List F32 → M σ (List F32))) := do
  let t ← Hooks.Teleport.new intervals probability
  pure [Hooks.teleport P.rng t, Hooks.moveToBoundary intervals]

/-- `CanonicalVelocityCalculator::new(..)` (particleswarm-schwefel-statistics.rs:59-60) -/
def canonical (P : Platform σ) (phiPersonal phiGlobal k : F32) : M σ (PSO.Swarm F32 → PSO.Particle F32 → M σ (List F32)) := do
  let c ← Velocity.Canonical.new phiPersonal phiGlobal k
  pure (Velocity.canonical P.rng c)

/-- `CompositeAny` of Threshold, a new GoalNotChange with the fields `L`, MaxIterations
(particleswarm-schwefel-statistics-full.rs:74-83) -/
def threeStops (L : Lens σ Stop.GNC) (profile : Profile) (threshold : F64) (changeMax : Nat) (delta : F64) (max : Nat) :
    M σ (AlgState (List F32) → M σ Bool) := do
  makeAt L (Stop.GNC.new changeMax delta)
  anyOf [Stop.threshold threshold, fun s => L.zoom (Stop.goalNotChange profile s), Stop.maxIterations max]

/-- `create_optimizer` of particleswarm-schwefel-statistics.rs:24-84 with the goal of lines 184-185 and dimension 3 -/
def swarmSchwefel (P : Platform σ) : M σ (PSO.Opt σ F32) :=
  swarm P (TestFunc.goalFromFunction (@TestFunc.schwefelF64 _ P.libm)) 30 (minus 500 1) (plus 500 1) 3 (plus 700 1)
    (teleportAndBound P (box (minus 500 1) (plus 500 1) 3) (plus 5 100)) (canonical P (plus 32 10) (plus 1 1) (plus 9 10))
    (anyOf [Stop.threshold (Fl.ofRat false 1 100000000), Stop.maxIterations 3000])

/-- `create_optimizer` of particleswarm-rosenbrock-statistics.rs:24-84 with the goal of lines 184-185 and dimension 3 -/
def swarmRosenbrock (P : Platform σ) (L : Lens σ Stop.GNC) : M σ (PSO.Opt σ F32) :=
  swarm P (TestFunc.rosenbrockF64 P.profile) 20 (minus 2 1) (plus 2 1) 3 (plus 2 1)
    (teleportAndBound P (box (minus 2 1) (plus 2 1) 3) (plus 0 1)) (canonical P (plus 34 10) (plus 1 1) (plus 9 10))
    (do
      makeAt L (Stop.GNC.new 500 (Fl.ofRat false 1 10000000000))
      anyOf [Stop.threshold (Fl.ofRat false 1 100000000), fun s => L.zoom (Stop.goalNotChange P.profile s)])

/-- `phi_t`, `xi` and the calculator of particleswarm-schwefel-statistics-full.rs:31-43 and 62-70 -/
def fullVelocity : Velocity.NegReinf F32 :=
  let phiT := FloatT.add (FloatT.add (FloatT.add (plus 32 10) (plus 0 1)) (plus 1 1)) (plus 0 1)
  let xi := FloatT.div (FloatT.mul (plus 2 1) (plus 9 10)) (FloatT.sub phiT (plus 2 1))
  ⟨plus 32 10, plus 0 1, plus 1 1, plus 0 1, plus 0 1, plus 0 1, xi⟩

/-- `create_optimizer` of particleswarm-schwefel-statistics-full.rs:22-93 with the goal of lines 193-194 and dimension 3 -/
def swarmSchwefelFull (P : Platform σ) (L : Lens σ Stop.GNC) : M σ (PSO.Opt σ F32) :=
  swarm P (TestFunc.goalFromFunction (@TestFunc.schwefelF64 _ P.libm)) 50 (minus 500 1) (plus 500 1) 3 (plus 700 1)
    (pure [Hooks.moveToBoundary (box (minus 500 1) (plus 500 1) 3)]) (pure (Velocity.negReinf P.rng fullVelocity))
    (threeStops L P.profile (Fl.ofRat false 1 1000000) 50 (Fl.ofRat false 1 100000000) 1000)

/-- `create_optimizer` of particleswarm-schwefel-statistics-inertia.rs:22-80 with the goal of lines 183-184 and dimension 3 -/
def swarmSchwefelInertia (P : Platform σ) (L : Lens σ Stop.GNC) : M σ (PSO.Opt σ F32) :=
  swarm P (TestFunc.goalFromFunction (@TestFunc.schwefelF64 _ P.libm)) 50 (minus 500 1) (plus 500 1) 3 (plus 700 1)
    (pure [Hooks.moveToBoundary (box (minus 500 1) (plus 500 1) 3)])
    (pure (Velocity.inertia P.rng (plus 22 10) (plus 6 10) (Velocity.constInertia (plus 85 100))))
    (threeStops L P.profile (Fl.ofRat false 1 1000000) 50 (Fl.ofRat false 1 100000000) 400)

/-- `create_optimizer` of particleswarm-rastrigin-statistics-inertia.rs:24-82 with the goal of lines 185-186 and dimension 3 -/
def swarmRastriginInertia (P : Platform σ) (L : Lens σ Stop.GNC) : M σ (PSO.Opt σ F32) :=
  swarm P (TestFunc.goalFromFunction (@TestFunc.rastriginF64 _ P.libm)) 50 (minus 512 100) (plus 512 100) 3 (plus 700 1)
    (pure [Hooks.moveToBoundary (box (minus 512 100) (plus 512 100) 3)])
    (pure (Velocity.inertia P.rng (plus 22 10) (plus 6 10) (Velocity.constInertia (plus 85 100))))
    (threeStops L P.profile (Fl.ofRat false 1 1000000) 50 (Fl.ofRat false 1 100000000) 400)

/-- `create_optimizer` of genetic-schwefel-statistics.rs:36-118 with the goal of lines 218-219 and dimension 3 -/
def geneticSchwefel (P : Platform σ) : M σ (GA.Opt σ (List F32)) :=
  genetic P (TestFunc.goalFromFunction (@TestFunc.schwefelF64 _ P.libm)) (anyOf [Stop.maxIterations 3000]) 100
    (box (minus 500 1) (plus 500 1) 3) 5 (Fl.ofNat 10) []

/-- `create_optimizer` of genetic-rosenbrock-statistics.rs:36-112 with the goal of lines 212-213 and dimension 3 -/
def geneticRosenbrock (P : Platform σ) (L : Lens σ Stop.GNC) : M σ (GA.Opt σ (List F32)) := do
  let creator ← Creation.RandomCreator.new 700 (box (minus 2 1) (plus 2 1) 3)
  makeAt L (Stop.GNC.new 2000 (Fl.ofRat false 1 10000000))
  let stop ← anyOf [Stop.threshold (Fl.ofRat false 1 1000000), fun s => L.zoom (Stop.goalNotChange P.profile s)]
  pure (GA.new (TestFunc.rosenbrockF64 P.profile) stop
    (creator.create P.rng)
    (Pairing.randomPairing P.rng)
    (Cross.vecCrossAllGenes (Cross.floatCrossExp P.profile P.rng P.libm.exp2))
    (Mutation.vec P.rng (Fl.ofNat 80) (Mutation.bitwise P.rng 3))
    [Selection.killFitnessNaN, Selection.limitPopulation 700]
    [Selection.preBirthInterval (box (minus 2 1) (plus 2 1) 3)])

/-- One turn of the loop in a worker of a swarm program (particleswarm-schwefel-statistics.rs:179-197): the goal is wrapped in a
`GoalCalcStatistics` with a new counter, the only logger is a `StatisticsLogger` with new statistics. `make` makes the optimizer
with the goal as it is. -/
def swarmJob (profile : Profile) (make : M σ (PSO.Opt σ F32)) (fuel : Nat) : M σ (Data (List F32)) := do
  let o ← make
  fun s => match PSO.findMin fuel ((o.counted profile).attach 0 (Stats.logger profile)) ⟨((s, CallCount.new), Statistics.new), []⟩ with
    | .ok (_, w) => .ok ((w.user.2, w.user.1.2), w.user.1.1)
    | .error e => .error e

/-- One turn of the loop in a worker of a genetic program (genetic-schwefel-statistics.rs:213-231) -/
def geneticJob (profile : Profile) (make : M σ (GA.Opt σ (List F32))) (fuel : Nat) : M σ (Data (List F32)) := do
  let o ← make
  fun s => match GA.findMin fuel ((o.counted profile).attach 0 (Stats.logger profile)) ⟨((s, CallCount.new), Statistics.new), []⟩ with
    | .ok (_, w) => .ok ((w.user.2, w.user.1.2), w.user.1.1)
    | .error e => .error e

/-- `main` up to the report (particleswarm-schwefel-statistics.rs:154-214): `total` is 1000, but 100 in
genetic-rosenbrock-statistics.rs:187. The number of processors is what `num_cpus::get()` returns. -/
def threads (total cpu : Nat) (job : Nat → M σ (Data (List F32))) (seed : Nat → σ) : Program σ (List F32) :=
  ⟨cpu, total / cpu, job, seed⟩

/-- `print_solution` and `print_convergence_statistics` (particleswarm-schwefel-statistics.rs:86-124): what they look up. -/
def lookups (d : Data (List F32)) : M σ (List (Option (Solution (List F32))) × List (Option F64)) := do
  let results ← M.mapL (fun n => M.index d.1.results n) (List.range d.1.runCount)
  let convergence ← averageConvergence d.1.convergence
  pure (results, convergence)

/-- `print_statistics` (particleswarm-schwefel-statistics.rs:126-152): the numbers printed, in order: run count, success rate,
average goal, standard deviation, average call count. -/
def report (profile : Profile) (valid delta : List F32) (d : Data (List F32)) : M σ (Nat × F64 × F64 × F64 × F64) := do
  let predicate ← predVec valid delta
  let rate ← M.unwrap (successRate d.1.results predicate)
  let average ← M.unwrap (averageGoal d.1.results)
  let deviation ← M.unwrap (stdDevGoal d.1.results)
  let calls ← M.ofExcept (CallCount.average profile d.2)
  let calls ← M.unwrap calls
  pure (d.1.runCount, rate, average, deviation, calls)

end Verif.StatPrograms
