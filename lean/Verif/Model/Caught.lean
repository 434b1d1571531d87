import Verif.Basic.Kept
import Verif.Model.Genetic
import Verif.Model.Swarm
import Verif.Model.Selection

/-!
# The optimizers when panics are caught

The same code as in `Model/Genetic.lean` and `Model/Swarm.lean`, but written on mutable state, so that the state which a
panic leaves behind is visible: the population or the swarm as it was at the moment of the panic, and whatever the
components had changed. A history goes on after a panic (`std::panic::catch_unwind` around each call).

Simplifications: cloning and dropping a user type does not panic; a panic while unwinding (abort) is not modelled.
-/

namespace Verif.Caught

open Verif

variable {σ T X α : Type}

/-- `Logger<T>` (tools/logging/mod.rs:12-26) -/
structure Logger (σ T : Type) where
  start : AlgState T → KM σ Unit
  resume : AlgState T → KM σ Unit
  nextIteration : AlgState T → KM σ Unit
  finish : AlgState T → KM σ Unit

/-- The user's world, the trace, and the memory of the optimizer: `self.population` (genetic/mod.rs:374) or `self.swarm`
(particleswarm/mod.rs:258). -/
structure St (σ T X : Type) where
  user : σ
  trace : List (Ev T)
  mem : X

/-- Run a component: it sees and changes only the user part. What it changed before it panics stays. -/
def lift (m : KM σ α) : KM (St σ T X) α := fun w => ((m w.user).1, { w with user := (m w.user).2 })

/-- Record an event. -/
def emit (e : Ev T) : KM (St σ T X) Unit := KM.modify (fun w => { w with trace := w.trace ++ [e] })

/-- Read the optimizer's memory. -/
def mem : KM (St σ T X) X := fun w => (.ok w.mem, w)

/-- Change the optimizer's memory. -/
def change (g : X → X) : KM (St σ T X) Unit := KM.modify (fun w => { w with mem := g w.mem })

/-- Call one callback of every logger, in registration order (the `for logger in &mut self.loggers` loops:
genetic/mod.rs:457-459, 489-491, 495-497, 515-517; particleswarm/mod.rs:331-333, 342-344, 383-385, 388-390). -/
def callLoggers (k : LogKind) (s : AlgState T) : Nat → List (Logger σ T) → KM (St σ T X) Unit
  | _, [] => pure ()
  | i, l :: ls => do
    lift (match k with
      | .start => l.start s
      | .resume => l.resume s
      | .next => l.nextIteration s
      | .finish => l.finish s)
    emit (.log i k s)
    callLoggers k s (i + 1) ls

/-! ## Genetic -/

namespace GA

/-- The trait objects of a `GeneticOptimizer` (genetic/mod.rs:365-375). A selection changes the population in place
(`kill(&mut self, &mut Population)`, genetic/mod.rs:344-348), so it is a transformer of the population, too. -/
structure Comps (σ T : Type) where
  goal : T → KM σ F64
  stop : AlgState T → KM σ Bool
  creator : KM σ (List T)
  pairing : Population T → KM σ (List (List Nat))
  cross : List T → KM σ (List T)
  mutation : T → KM σ T
  selections : List (KM (σ × Population T) Unit)
  preBirths : List (Population T → List T → KM σ (List T))
  loggers : List (Logger σ T)

/-- `Population::push` (genetic/mod.rs:165-174): the goal is called first. -/
def push (c : Comps σ T) (x : T) : KM (St σ T (Population T)) Unit := do
  let v ← lift (c.goal x)
  emit (.goal x v)
  change (fun p => { p with individuals := p.individuals ++ [⟨x, v, true⟩] })

/-- `Population::append` (genetic/mod.rs:178-182): one after the other. -/
def append (c : Comps σ T) (xs : List T) : KM (St σ T (Population T)) Unit := KM.forL (push c) xs

/-- One family of `run_pairing` (genetic/mod.rs:440-447) -/
def crossFamily (c : Comps σ T) (p : Population T) (family : List Nat) : KM (St σ T (Population T)) (List T) := do
  let parents ← KM.mapL (fun i => do
    let ind ← KM.index p.individuals i
    pure ind.chromosomes) family
  let children ← lift (c.cross parents)
  emit (.crossed parents children)
  pure children

/-- `run_pairing` (genetic/mod.rs:436-451); nothing in it changes the population. -/
def runPairing (c : Comps σ T) : KM (St σ T (Population T)) (List T) := do
  let p ← mem
  let families ← lift (c.pairing p)
  emit (.paired (Verif.GA.agents p) families)
  let kids ← KM.mapL (crossFamily c p) families
  pure kids.flatten

/-- Mutation (genetic/mod.rs:466-469) -/
def mutate (c : Comps σ T) (xs : List T) : KM (St σ T (Population T)) (List T) :=
  KM.mapL (fun x => do
    let y ← lift (c.mutation x)
    emit (.mutated x y)
    pure y) xs

/-- The pre-birth loop (genetic/mod.rs:472-474) -/
def preBirth (p : Population T) : Nat → List (Population T → List T → KM σ (List T)) → List T →
    KM (St σ T (Population T)) (List T)
  | _, [], xs => pure xs
  | i, f :: fs, xs => do
    let ys ← lift (f p xs)
    emit (.preBorn i xs ys)
    preBirth p (i + 1) fs ys

/-- Run a selection on the optimizer's own population (genetic/mod.rs:481): what it did before it panics stays. -/
def liftSelection (f : KM (σ × Population T) Unit) : KM (St σ T (Population T)) Unit := fun w =>
  ((f (w.user, w.mem)).1, { w with user := (f (w.user, w.mem)).2.1, mem := (f (w.user, w.mem)).2.2 })

/-- The selection loop (genetic/mod.rs:480-482) -/
def select : Nat → List (KM (σ × Population T) Unit) → KM (St σ T (Population T)) Unit
  | _, [] => pure ()
  | i, f :: fs => do
    let p ← mem
    liftSelection f
    let p' ← mem
    emit (.selected i (Verif.GA.flagged p) (Verif.GA.flagged p'))
    select (i + 1) fs

/-- `update_best_worst_individuals` (genetic/mod.rs:105-125). The comparisons cannot panic
(`Population.updateBestWorst_run`), so nothing is lost by running the pure function. -/
def updateBestWorst : KM (St σ T (Population T)) Unit := fun w =>
  match (w.mem.updateBestWorst : M Unit (Population T)) () with
  | .ok (p, _) => (.ok (), { w with mem := p })
  | .error e => (.error e, w)

/-- One turn of the `while` loop (genetic/mod.rs:462-492) -/
def step (c : Comps σ T) : KM (St σ T (Population T)) Unit := do
  let children ← runPairing c
  let mutants ← mutate c children
  let p ← mem
  let born ← preBirth p 0 c.preBirths mutants
  append c born
  select 0 c.selections
  change Population.removeDead
  updateBestWorst
  change Population.nextIteration
  let p ← mem
  emit (.generation (Verif.GA.agents p) p.state.best (p.worst.map Individual.sol) p.iteration)
  callLoggers .next p.state 0 c.loggers

/-- The `while !can_stop` loop (genetic/mod.rs:461-493), on fuel. -/
def loop (c : Comps σ T) : Nat → KM (St σ T (Population T)) Unit
  | 0 => KM.fail .fuel
  | fuel + 1 => do
    let p ← mem
    let b ← lift (c.stop p.state)
    emit (.check p.state b)
    if b then pure ()
    else do
      step c
      loop c fuel

/-- `next_iterations` (genetic/mod.rs:456-503) -/
def nextIterations (fuel : Nat) (c : Comps σ T) : KM (St σ T (Population T)) (Option (Solution T)) := do
  let p ← mem
  callLoggers .resume p.state 0 c.loggers
  loop c fuel
  let p ← mem
  callLoggers .finish p.state 0 c.loggers
  let p ← mem
  pure (match p.best with
    | none => none
    | some i => some (i.chromosomes, i.fitness))

/-- `find_min` (genetic/mod.rs:508-520): the population is reset before the creator is called. -/
def findMin (fuel : Nat) (c : Comps σ T) : KM (St σ T (Population T)) (Option (Solution T)) := do
  change Population.reset
  let start ← lift c.creator
  emit (.created start)
  append c start
  let p ← mem
  callLoggers .start p.state 0 c.loggers
  nextIterations fuel c

/-- A selection that changes nothing before it panics. `KillFitnessNaN` and `LimitPopulation` (selection/mod.rs:14-22,
46-53) never panic (C12, C15); `kill_worst` (selection/mod.rs:57-96) can only panic before it kills. -/
def ofSelection (sel : Population T → M σ (Population T)) : KM (σ × Population T) Unit := fun w =>
  match sel w.2 w.1 with
  | .ok (p, s) => (.ok (), s, p)
  | .error e => (.error e, w)

/-- The loop of the `CheckChromoInterval` selection (selection/vec_float.rs:28-41), in place: when the assertion of line
29 fails, the individuals before have been dealt with. -/
def checkLoop [FloatT α] (ivs : List (α × α)) : List (Individual (List α)) → Except Err Unit × List (Individual (List α))
  | [] => (.ok (), [])
  | i :: is =>
    if i.chromosomes.length == ivs.length then
      let r := checkLoop ivs is
      (r.1, (if Selection.anyBad i.chromosomes ivs then i.kill else i) :: r.2)
    else (.error .assert, i :: is)

/-- `CheckChromoInterval` (selection/vec_float.rs:26-43), in place. -/
def checkChromoInterval [FloatT α] (ivs : List (α × α)) : KM (σ × Population (List α)) Unit := fun w =>
  ((checkLoop ivs w.2.individuals).1, w.1, { w.2 with individuals := (checkLoop ivs w.2.individuals).2 })

/-- The public methods of `GeneticOptimizer`. -/
inductive Call (σ T : Type) where
  | findMin (fuel : Nat)
  | nextIterations (fuel : Nat)
  /-- genetic/mod.rs:402-404 -/
  | setLoggers (ls : List (Logger σ T))
  /-- genetic/mod.rs:407-409 -/
  | setPairing (f : Population T → KM σ (List (List Nat)))
  /-- genetic/mod.rs:412-414 -/
  | setCross (f : List T → KM σ (List T))
  /-- genetic/mod.rs:417-419 -/
  | setMutation (f : T → KM σ T)
  /-- genetic/mod.rs:422-424 -/
  | setSelection (fs : List (KM (σ × Population T) Unit))
  /-- genetic/mod.rs:427-429 -/
  | setPreBirth (fs : List (Population T → List T → KM σ (List T)))
  /-- genetic/mod.rs:432-434 -/
  | setStopChecker (f : AlgState T → KM σ Bool)

/-- The components after a public call. -/
def after (c : Comps σ T) : Call σ T → Comps σ T
  | .findMin _ => c
  | .nextIterations _ => c
  | .setLoggers ls => { c with loggers := ls }
  | .setPairing f => { c with pairing := f }
  | .setCross f => { c with cross := f }
  | .setMutation f => { c with mutation := f }
  | .setSelection fs => { c with selections := fs }
  | .setPreBirth fs => { c with preBirths := fs }
  | .setStopChecker f => { c with stop := f }

/-- Execute one public method: `some r` for the two run methods. -/
def exec (c : Comps σ T) : Call σ T → KM (St σ T (Population T)) (Verif.GA.Ret T)
  | .findMin fuel => do let r ← findMin fuel c; pure (some r)
  | .nextIterations fuel => do let r ← nextIterations fuel c; pure (some r)
  | _ => pure none

/-- A history in which the caller catches every panic and goes on: what each call did (returned or panicked), the
components and the state at the end. -/
def runCaught (c : Comps σ T) : List (Call σ T) → St σ T (Population T) →
    List (Except Err (Verif.GA.Ret T)) × Comps σ T × St σ T (Population T)
  | [], w => ([], c, w)
  | k :: ks, w =>
    let r := runCaught (after c k) ks (exec c k w).2
    ((exec c k w).1 :: r.1, r.2)

end GA

/-! ## Swarm -/

namespace PSO

open Verif.PSO (Swarm Particle agents)

/-- The trait objects of a `ParticleSwarmOptimizer` (particleswarm/mod.rs:249-259) -/
structure Comps (σ α : Type) where
  goal : List α → KM σ F64
  stop : AlgState (List α) → KM σ Bool
  coordInit : KM σ (List (List α))
  velInit : KM σ (List (List α))
  velCalc : Swarm α → Particle α → KM σ (List α)
  postVel : List (List α → KM σ (List α))
  postMove : List (List α → KM σ (List α))
  loggers : List (Logger σ (List α))

/-- Apply hooks one after the other (particleswarm/mod.rs:306-308, 354-356, 369-371). -/
def hooks (hs : List (List α → KM σ (List α))) (x : List α) : KM σ (List α) := KM.foldL (fun x h => h x) x hs

/-- `renew_swarm` (particleswarm/mod.rs:300-324): the old swarm is only dropped at the end. -/
def renewSwarm (c : Comps σ α) : KM (St σ (List α) (Swarm α)) Unit := do
  let coordinates ← lift c.coordInit
  emit (.created coordinates)
  let velocity ← lift c.velInit
  KM.assert (coordinates.length == velocity.length)
  let coordinates ← KM.mapL (fun raw => do
    let x ← lift (hooks c.postMove raw)
    emit (.moved raw x)
    pure x) coordinates
  let particles ← KM.mapL (fun (cs : List α × List α) => do
    let v ← lift (c.goal cs.1)
    emit (.goal cs.1 v)
    pure (Particle.new cs.1 cs.2 v)) (coordinates.zip velocity)
  change Swarm.reset
  change (fun s => s.replaceParticles particles)

/-- The body of the loop over the particles (particleswarm/mod.rs:347-377): the velocity is stored (line 358) before the
hooks and the goal are called, the coordinates after (line 376). -/
def moveParticle [FloatT α] (c : Comps σ α) (n : Nat) : KM (St σ (List α) (Swarm α)) Unit := do
  let s ← mem
  let p ← KM.index s.particles n
  let raw ← lift (c.velCalc s p)
  let v ← lift (hooks c.postVel raw)
  emit (.velocity raw v)
  change (fun s => { s with particles := s.particles.set n (p.setVelocity v) })
  let raw := List.zipWith FloatT.add p.coordinates v
  let x ← lift (hooks c.postMove raw)
  emit (.moved raw x)
  let value ← lift (c.goal x)
  emit (.goal x value)
  change (fun s => { s with particles := s.particles.set n ((p.setVelocity v).moveTo x value) })

/-- One turn of the `while` loop (particleswarm/mod.rs:347-385) -/
def step [FloatT α] (c : Comps σ α) : KM (St σ (List α) (Swarm α)) Unit := do
  let s ← mem
  KM.forL (moveParticle c) (List.range s.particles.length)
  change Swarm.updateBest
  change Swarm.updateWorst
  change Swarm.nextIteration
  let s ← mem
  emit (.generation (agents s) s.state.best (s.worst.map Particle.sol) s.iteration)
  callLoggers .next s.state 0 c.loggers

/-- The `while !can_stop` loop (particleswarm/mod.rs:346-386), on fuel. -/
def loop [FloatT α] (c : Comps σ α) : Nat → KM (St σ (List α) (Swarm α)) Unit
  | 0 => KM.fail .fuel
  | fuel + 1 => do
    let s ← mem
    let b ← lift (c.stop s.state)
    emit (.check s.state b)
    if b then pure ()
    else do
      step c
      loop c fuel

/-- `next_iterations` (particleswarm/mod.rs:341-396) -/
def nextIterations [FloatT α] (fuel : Nat) (c : Comps σ α) :
    KM (St σ (List α) (Swarm α)) (Option (Solution (List α))) := do
  let s ← mem
  callLoggers .resume s.state 0 c.loggers
  loop c fuel
  let s ← mem
  callLoggers .finish s.state 0 c.loggers
  let s ← mem
  pure (match s.best with
    | none => none
    | some p => some (p.coordinates, p.value))

/-- `find_min` (particleswarm/mod.rs:328-336) -/
def findMin [FloatT α] (fuel : Nat) (c : Comps σ α) :
    KM (St σ (List α) (Swarm α)) (Option (Solution (List α))) := do
  renewSwarm c
  let s ← mem
  callLoggers .start s.state 0 c.loggers
  nextIterations fuel c

/-- The public methods of `ParticleSwarmOptimizer`. -/
inductive Call (σ α : Type) where
  | findMin (fuel : Nat)
  | nextIterations (fuel : Nat)
  /-- particleswarm/mod.rs:284-286 -/
  | setStopChecker (f : AlgState (List α) → KM σ Bool)
  /-- particleswarm/mod.rs:288-290 -/
  | setLoggers (ls : List (Logger σ (List α)))
  /-- particleswarm/mod.rs:292-294 -/
  | setPostMoves (fs : List (List α → KM σ (List α)))
  /-- particleswarm/mod.rs:296-298 -/
  | setPostVelocityCalc (fs : List (List α → KM σ (List α)))

/-- The components after a public call. -/
def after (c : Comps σ α) : Call σ α → Comps σ α
  | .findMin _ => c
  | .nextIterations _ => c
  | .setStopChecker f => { c with stop := f }
  | .setLoggers ls => { c with loggers := ls }
  | .setPostMoves fs => { c with postMove := fs }
  | .setPostVelocityCalc fs => { c with postVel := fs }

/-- Execute one public method: `some r` for the two run methods. -/
def exec [FloatT α] (c : Comps σ α) : Call σ α → KM (St σ (List α) (Swarm α)) (Verif.PSO.Ret α)
  | .findMin fuel => do let r ← findMin fuel c; pure (some r)
  | .nextIterations fuel => do let r ← nextIterations fuel c; pure (some r)
  | _ => pure none

/-- A history in which the caller catches every panic and goes on. -/
def runCaught [FloatT α] (c : Comps σ α) : List (Call σ α) → St σ (List α) (Swarm α) →
    List (Except Err (Verif.PSO.Ret α)) × Comps σ α × St σ (List α) (Swarm α)
  | [], w => ([], c, w)
  | k :: ks, w =>
    let r := runCaught (after c k) ks (exec c k w).2
    ((exec c k w).1 :: r.1, r.2)

end PSO

end Verif.Caught
