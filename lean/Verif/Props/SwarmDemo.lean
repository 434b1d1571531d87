import Verif.Model.Swarm
import Verif.Model.Velocity
import Verif.Model.Hooks
import Verif.Model.Creation
import Verif.Model.StopChecker
import Verif.Model.TestFunc
import Verif.Model.Logging

/-!
# A concrete particle swarm optimizer

Used beside the theorems about histories to show that their hypotheses are met by real executions: it is built from
the library's components and runs in the kernel.
-/

namespace Verif.Props.SwarmDemo

open Verif

/-- The interval [0, 10]. -/
def ivs : List (F64 × F64) := [(Fl.zero, Fl.ofNat 10)]

/-- Three particles on the one-dimensional paraboloid, two iterations. -/
def opt : PSO.Opt (List Nat) F64 :=
  let o := PSO.new (fun x => pure (TestFunc.paraboloid x)) (Stop.maxIterations 2)
    (Creation.randomInit Rng.script ivs 3)
    (Creation.zeroInit 1 3)
    (Velocity.classic Rng.script Fl.one Fl.one)
  { o with comps := { o.comps with
      loggers := [Logging.silent, Logging.silent]
      postVel := [Hooks.maxVelocityDimensions [Fl.ofNat 4]]
      postMove := [Hooks.moveToBoundary ivs] } }

def script : List Nat := [0, 1, 1, 0, 3, 1, 4, 1, 5, 9, 2, 6, 5, 3, 5, 8, 9, 7, 9, 3, 2, 3, 8, 4, 6]

def world : World (List Nat) (List F64) := ⟨script, []⟩

/-- Two iterations pass, three particles are there and something was found. -/
theorem runs : M.okAnd (PSO.findMin 3 opt world) (fun r _ =>
    r.2.swarm.iteration == 2 && r.2.swarm.particles.length == 3 && r.1.isSome) = true := by decide +kernel

/-- `next_iterations` for two more after a first run. -/
def calls : List (PSO.Call (List Nat) F64) :=
  [.findMin 3, .setStopChecker (Stop.maxIterations 4), .nextIterations 3]

theorem runs_on : M.okAnd (PSO.run opt calls world) (fun r _ =>
    r.2.swarm.iteration == 4 && r.2.swarm.particles.length == 3) = true := by decide +kernel

end Verif.Props.SwarmDemo
