import Verif.Model.Core
import Verif.Model.Num
import Verif.Model.Population

/-!
# The particle swarm optimizer: `optlib/src/particleswarm/mod.rs`

`min_by`/`max_by` are those of `Model/Population.lean`, here with a comparator that
cannot panic (`Cmp` below).
-/

namespace Verif.PSO

open Verif

variable {σ α : Type}

/-- `Particle<T>` (particleswarm/mod.rs:54-75). `Clone` (77-86) copies every field and is the identity here. -/
structure Particle (α : Type) where
  coordinates : List α
  velocity : List α
  value : F64
  bestCoords : List α
  bestValue : F64
  worstCoords : List α
  worstValue : F64

/-- `compare_floats` (particleswarm/mod.rs:426-442) -/
def compareFloats (x y : F64) : Ordering :=
  if !x.isFinite && !y.isFinite then .eq
  else if x.isFinite && !y.isFinite then .lt
  else if !x.isFinite && y.isFinite then .gt
  else if y.lt x then .gt
  else if x.lt y then .lt
  else .eq

namespace Particle

/-- `Particle::new` (particleswarm/mod.rs:100-112) -/
def new (coordinates velocity : List α) (value : F64) : Particle α :=
  ⟨coordinates, velocity, value, coordinates, value, coordinates, value⟩

/-- `set_velocity` (particleswarm/mod.rs:114-116) -/
def setVelocity (p : Particle α) (v : List α) : Particle α := { p with velocity := v }

/-- `move_to` (particleswarm/mod.rs:118-131) -/
def moveTo (p : Particle α) (coords : List α) (value : F64) : Particle α :=
  let p := { p with coordinates := coords, value := value }
  let p := if compareFloats value p.bestValue == .lt
    then { p with bestCoords := coords, bestValue := value } else p
  if compareFloats value p.worstValue == .gt
    then { p with worstCoords := coords, worstValue := value } else p

/-- The solution a particle stands for (`Agent`, particleswarm/mod.rs:88-96). -/
def sol (p : Particle α) : Solution (List α) := (p.coordinates, p.value)

end Particle

/-- `Swarm<T>` (particleswarm/mod.rs:137-147) -/
structure Swarm (α : Type) where
  particles : List (Particle α)
  best : Option (Particle α)
  worst : Option (Particle α)
  iteration : Nat

/-- `Iterator::min_by(..)` with `compare_floats` on the values: the running element
is replaced only if it compares `Greater`. -/
def minLoop : Particle α → List (Particle α) → Particle α
  | x, [] => x
  | x, y :: ys => if compareFloats x.value y.value == .gt then minLoop y ys else minLoop x ys

/-- `Iterator::max_by(..)`: the running element is kept only if it compares `Greater`. -/
def maxLoop : Particle α → List (Particle α) → Particle α
  | x, [] => x
  | x, y :: ys => if compareFloats x.value y.value == .gt then maxLoop x ys else maxLoop y ys

/-- `find_best_particle` (particleswarm/mod.rs:216-226) -/
def findBest : List (Particle α) → Option (Particle α)
  | [] => none
  | p :: ps => some (minLoop p ps)

/-- `find_worst_particle` (particleswarm/mod.rs:228-238) -/
def findWorst : List (Particle α) → Option (Particle α)
  | [] => none
  | p :: ps => some (maxLoop p ps)

namespace Swarm

/-- `Swarm::new` (particleswarm/mod.rs:150-157) -/
def empty : Swarm α := ⟨[], none, none, 0⟩

/-- `reset` (particleswarm/mod.rs:165-170) -/
def reset (_ : Swarm α) : Swarm α := empty

/-- `next_iteration` (particleswarm/mod.rs:172-174) -/
def nextIteration (s : Swarm α) : Swarm α := { s with iteration := s.iteration + 1 }

/-- `replace_particles` (particleswarm/mod.rs:176-180) -/
def replaceParticles (s : Swarm α) (ps : List (Particle α)) : Swarm α :=
  { s with particles := ps, best := findBest ps, worst := findWorst ps }

/-- `update_best_particle` (particleswarm/mod.rs:182-197) -/
def updateBest (s : Swarm α) : Swarm α :=
  match findBest s.particles with
  | none => s
  | some nb => match s.best with
    | none => { s with best := some nb }
    | some ob => if compareFloats nb.value ob.value == .lt then { s with best := some nb } else s

/-- `update_worst_particle` (particleswarm/mod.rs:199-214) -/
def updateWorst (s : Swarm α) : Swarm α :=
  match findWorst s.particles with
  | none => s
  | some nw => match s.worst with
    | none => { s with worst := some nw }
    | some ow => if compareFloats nw.value ow.value == .gt then { s with worst := some nw } else s

/-- `AlgorithmState` (particleswarm/mod.rs:399-410) -/
def state (s : Swarm α) : AlgState (List α) := ⟨s.best.map Particle.sol, s.iteration⟩

/-- `get_current_best_particle` (particleswarm/mod.rs:240-242) -/
def currentBest (s : Swarm α) : Option (Particle α) := findBest s.particles

/-- `get_current_worst_particle` (particleswarm/mod.rs:244-246) -/
def currentWorst (s : Swarm α) : Option (Particle α) := findWorst s.particles

end Swarm

/-- The trait objects of a `ParticleSwarmOptimizer` (particleswarm/mod.rs:249-259) -/
structure Comps (σ α : Type) where
  goal : List α → M σ F64
  stop : AlgState (List α) → M σ Bool
  coordInit : M σ (List (List α))
  velInit : M σ (List (List α))
  velCalc : Swarm α → Particle α → M σ (List α)
  postVel : List (List α → M σ (List α))
  postMove : List (List α → M σ (List α))
  loggers : List (Logger σ (List α))

/-- `ParticleSwarmOptimizer` (particleswarm/mod.rs:249-259) -/
structure Opt (σ α : Type) where
  comps : Comps σ α
  swarm : Swarm α

/-- `ParticleSwarmOptimizer::new` (particleswarm/mod.rs:262-282) -/
def new (goal : List α → M σ F64) (stop : AlgState (List α) → M σ Bool)
    (coordInit velInit : M σ (List (List α)))
    (velCalc : Swarm α → Particle α → M σ (List α)) : Opt σ α :=
  ⟨⟨goal, stop, coordInit, velInit, velCalc, [], [], []⟩, Swarm.empty⟩

/-- Apply hooks one after the other (particleswarm/mod.rs:306-308, 354-356, 369-371). -/
def hooks (hs : List (List α → M σ (List α))) (x : List α) : M σ (List α) :=
  M.foldL (fun x h => h x) x hs

/-- The agents of a swarm with their goal values. -/
def agents (s : Swarm α) : List (Solution (List α)) := s.particles.map Particle.sol

/-- `renew_swarm` (particleswarm/mod.rs:300-324) -/
def renewSwarm (c : Comps σ α) (s : Swarm α) : M (World σ (List α)) (Swarm α) := do
  let coordinates ← World.lift c.coordInit
  World.emit (.created coordinates)
  let velocity ← World.lift c.velInit
  M.assert (coordinates.length == velocity.length)
  let coordinates ← M.mapL (fun raw => do
    let x ← World.lift (hooks c.postMove raw)
    World.emit (.moved raw x)
    pure x) coordinates
  let particles ← M.mapL (fun (cs : List α × List α) => do
    let v ← World.lift (c.goal cs.1)
    World.emit (.goal cs.1 v)
    pure (Particle.new cs.1 cs.2 v)) (coordinates.zip velocity)
  pure (s.reset.replaceParticles particles)

/-- The body of the loop over the particles (particleswarm/mod.rs:347-377) -/
def moveParticle [FloatT α] (c : Comps σ α) (s : Swarm α) (n : Nat) :
    M (World σ (List α)) (Swarm α) := do
  let p ← M.index s.particles n
  let raw ← World.lift (c.velCalc s p)
  let v ← World.lift (hooks c.postVel raw)
  World.emit (.velocity raw v)
  let p := p.setVelocity v
  let raw := List.zipWith FloatT.add p.coordinates p.velocity
  let x ← World.lift (hooks c.postMove raw)
  World.emit (.moved raw x)
  let value ← World.lift (c.goal x)
  World.emit (.goal x value)
  pure { s with particles := s.particles.set n (p.moveTo x value) }

/-- One turn of the `while` loop (particleswarm/mod.rs:347-385) -/
def step [FloatT α] (c : Comps σ α) (s : Swarm α) : M (World σ (List α)) (Swarm α) := do
  let s ← M.foldL (moveParticle c) s (List.range s.particles.length)
  let s := s.updateBest.updateWorst.nextIteration
  World.emit (.generation (agents s) s.state.best (s.worst.map Particle.sol) s.iteration)
  callLoggers .next s.state 0 c.loggers
  pure s

/-- The `while !can_stop` loop (particleswarm/mod.rs:346-386), on fuel. -/
def loop [FloatT α] (c : Comps σ α) : Nat → Swarm α → M (World σ (List α)) (Swarm α)
  | 0, _ => M.fail .fuel
  | fuel + 1, s => do
    let b ← World.lift (c.stop s.state)
    World.emit (.check s.state b)
    if b then pure s
    else do
      let s ← step c s
      loop c fuel s

/-- `next_iterations` (particleswarm/mod.rs:341-396) -/
def nextIterations [FloatT α] (fuel : Nat) (o : Opt σ α) :
    M (World σ (List α)) (Option (Solution (List α)) × Opt σ α) := do
  callLoggers .resume o.swarm.state 0 o.comps.loggers
  let s ← loop o.comps fuel o.swarm
  callLoggers .finish s.state 0 o.comps.loggers
  pure (match s.best with
    | none => none
    | some p => some (p.coordinates, p.value), { o with swarm := s })

/-- `find_min` (particleswarm/mod.rs:328-336) -/
def findMin [FloatT α] (fuel : Nat) (o : Opt σ α) :
    M (World σ (List α)) (Option (Solution (List α)) × Opt σ α) := do
  let s ← renewSwarm o.comps o.swarm
  callLoggers .start s.state 0 o.comps.loggers
  nextIterations fuel { o with swarm := s }

/-- The public methods of `ParticleSwarmOptimizer`. -/
inductive Call (σ α : Type) where
  | findMin (fuel : Nat)
  | nextIterations (fuel : Nat)
  /-- particleswarm/mod.rs:284-286 -/
  | setStopChecker (f : AlgState (List α) → M σ Bool)
  /-- particleswarm/mod.rs:288-290 -/
  | setLoggers (ls : List (Logger σ (List α)))
  /-- particleswarm/mod.rs:292-294 -/
  | setPostMoves (fs : List (List α → M σ (List α)))
  /-- particleswarm/mod.rs:296-298 -/
  | setPostVelocityCalc (fs : List (List α → M σ (List α)))

/-- What a call returns: `some r` for the two run methods. -/
abbrev Ret (α : Type) := Option (Option (Solution (List α)))

/-- Execute one public method. -/
def call [FloatT α] (o : Opt σ α) : Call σ α → M (World σ (List α)) (Ret α × Opt σ α)
  | .findMin fuel => do let (r, o) ← findMin fuel o; pure (some r, o)
  | .nextIterations fuel => do let (r, o) ← nextIterations fuel o; pure (some r, o)
  | .setStopChecker f => pure (none, { o with comps := { o.comps with stop := f } })
  | .setLoggers ls => pure (none, { o with comps := { o.comps with loggers := ls } })
  | .setPostMoves fs => pure (none, { o with comps := { o.comps with postMove := fs } })
  | .setPostVelocityCalc fs => pure (none, { o with comps := { o.comps with postVel := fs } })

/-- A history: any sequence of public calls; returns the results in order. -/
def run [FloatT α] (o : Opt σ α) :
    List (Call σ α) → M (World σ (List α)) (List (Ret α) × Opt σ α)
  | [] => pure ([], o)
  | k :: ks => do
    let (r, o) ← call o k
    let (rs, o) ← run o ks
    pure (r :: rs, o)

/-! Partial executions: the states an optimizer passes through while a call is still running. -/

/-- `n` turns of the `while` loop (particleswarm/mod.rs:346-386), the stop checker having answered `false` before each
of them; fails if it answers `true` earlier. -/
def turns [FloatT α] (c : Comps σ α) : Nat → Swarm α → M (World σ (List α)) (Swarm α)
  | 0, s => pure s
  | n + 1, s => do
    let b ← World.lift (c.stop s.state)
    World.emit (.check s.state b)
    if b then M.fail .fuel
    else do
      let s ← step c s
      turns c n s

/-- A point of an execution: after all calls have returned, or at the head of the loop after `n` turns inside one more
call. -/
inductive Point where
  | done
  | inFindMin (n : Nat)
  | inNextIterations (n : Nat)

/-- `find_min` up to the head of the loop, before the first turn (particleswarm/mod.rs:329-334 and 342-344). -/
def findMinHead (o : Opt σ α) : M (World σ (List α)) (Opt σ α) := do
  let s ← renewSwarm o.comps o.swarm
  callLoggers .start s.state 0 o.comps.loggers
  callLoggers .resume s.state 0 o.comps.loggers
  pure { o with swarm := s }

/-- Run a history up to a point and return the optimizer as it is there. -/
def runTo [FloatT α] (o : Opt σ α) (ks : List (Call σ α)) (pt : Point) : M (World σ (List α)) (Opt σ α) := do
  let (_, o) ← run o ks
  match pt with
  | .done => pure o
  | .inFindMin n => do
    let o ← findMinHead o
    let s ← turns o.comps n o.swarm
    pure { o with swarm := s }
  | .inNextIterations n => do
    callLoggers .resume o.swarm.state 0 o.comps.loggers
    let s ← turns o.comps n o.swarm
    pure { o with swarm := s }

end Verif.PSO
