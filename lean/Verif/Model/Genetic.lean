import Verif.Model.Population

/-!
# The genetic optimizer: `optlib/src/genetic/mod.rs` lines 305-521
-/

namespace Verif.GA

open Verif

variable {σ T : Type}

/-- The trait objects of a `GeneticOptimizer` (genetic/mod.rs:365-375). The goal
object sits in `Population` in Rust (line 89). -/
structure Comps (σ T : Type) where
  goal : T → M σ F64
  stop : AlgState T → M σ Bool
  creator : M σ (List T)
  pairing : Population T → M σ (List (List Nat))
  cross : List T → M σ (List T)
  mutation : T → M σ T
  selections : List (Population T → M σ (Population T))
  preBirths : List (Population T → List T → M σ (List T))
  loggers : List (Logger σ T)

/-- `GeneticOptimizer` (genetic/mod.rs:365-375) -/
structure Opt (σ T : Type) where
  comps : Comps σ T
  pop : Population T

/-- `GeneticOptimizer::new` (genetic/mod.rs:379-400); no loggers at first. -/
def new (goal : T → M σ F64) (stop : AlgState T → M σ Bool) (creator : M σ (List T))
    (pairing : Population T → M σ (List (List Nat))) (cross : List T → M σ (List T))
    (mutation : T → M σ T) (selections : List (Population T → M σ (Population T)))
    (preBirths : List (Population T → List T → M σ (List T))) : Opt σ T :=
  ⟨⟨goal, stop, creator, pairing, cross, mutation, selections, preBirths, []⟩, Population.empty⟩

/-- The agents of a population with their goal values. -/
def agents (p : Population T) : List (Solution T) := p.individuals.map Individual.sol

/-- The agents with their alive flags. -/
def flagged (p : Population T) : List (Solution T × Bool) :=
  p.individuals.map (fun i => (i.sol, i.alive))

/-- `Population::push` (genetic/mod.rs:165-174) -/
def push (c : Comps σ T) (p : Population T) (x : T) : M (World σ T) (Population T) := do
  let v ← World.lift (c.goal x)
  World.emit (.goal x v)
  pure { p with individuals := p.individuals ++ [⟨x, v, true⟩] }

/-- `Population::append` (genetic/mod.rs:178-182) -/
def append (c : Comps σ T) (p : Population T) (xs : List T) : M (World σ T) (Population T) :=
  M.foldL (push c) p xs

/-- One family of `run_pairing` (genetic/mod.rs:440-447) -/
def crossFamily (c : Comps σ T) (p : Population T) (family : List Nat) :
    M (World σ T) (List T) := do
  let parents ← M.mapL (fun i => do
    let ind ← M.index p.individuals i
    pure ind.chromosomes) family
  let children ← World.lift (c.cross parents)
  World.emit (.crossed parents children)
  pure children

/-- `run_pairing` (genetic/mod.rs:436-451) -/
def runPairing (c : Comps σ T) (p : Population T) : M (World σ T) (List T) := do
  let families ← World.lift (c.pairing p)
  World.emit (.paired (agents p) families)
  let kids ← M.mapL (crossFamily c p) families
  pure kids.flatten

/-- `children_chromo_list.iter_mut().map(|chromo| self.mutation.mutation(chromo))`
(genetic/mod.rs:466-469) -/
def mutate (c : Comps σ T) (xs : List T) : M (World σ T) (List T) :=
  M.mapL (fun x => do
    let y ← World.lift (c.mutation x)
    World.emit (.mutated x y)
    pure y) xs

/-- The pre-birth loop (genetic/mod.rs:472-474) -/
def preBirth (p : Population T) : Nat → List (Population T → List T → M σ (List T)) → List T →
    M (World σ T) (List T)
  | _, [], xs => pure xs
  | i, f :: fs, xs => do
    let ys ← World.lift (f p xs)
    World.emit (.preBorn i xs ys)
    preBirth p (i + 1) fs ys

/-- The selection loop (genetic/mod.rs:480-482) -/
def select : Nat → List (Population T → M σ (Population T)) → Population T →
    M (World σ T) (Population T)
  | _, [], p => pure p
  | i, f :: fs, p => do
    let p' ← World.lift (f p)
    World.emit (.selected i (flagged p) (flagged p'))
    select (i + 1) fs p'

/-- One turn of the `while` loop (genetic/mod.rs:462-492) -/
def step (c : Comps σ T) (p : Population T) : M (World σ T) (Population T) := do
  let children ← runPairing c p
  let mutants ← mutate c children
  let born ← preBirth p 0 c.preBirths mutants
  let p ← append c p born
  let p ← select 0 c.selections p
  let p := p.removeDead
  let p ← p.updateBestWorst
  let p := p.nextIteration
  World.emit (.generation (agents p) p.state.best (p.worst.map Individual.sol) p.iteration)
  callLoggers .next p.state 0 c.loggers
  pure p

/-- The `while !can_stop` loop (genetic/mod.rs:461-493), on fuel. -/
def loop (c : Comps σ T) : Nat → Population T → M (World σ T) (Population T)
  | 0, _ => M.fail .fuel
  | fuel + 1, p => do
    let b ← World.lift (c.stop p.state)
    World.emit (.check p.state b)
    if b then pure p
    else do
      let p ← step c p
      loop c fuel p

/-- `next_iterations` (genetic/mod.rs:456-503) -/
def nextIterations (fuel : Nat) (o : Opt σ T) :
    M (World σ T) (Option (Solution T) × Opt σ T) := do
  callLoggers .resume o.pop.state 0 o.comps.loggers
  let p ← loop o.comps fuel o.pop
  callLoggers .finish p.state 0 o.comps.loggers
  pure (match p.best with
    | none => none
    | some i => some (i.chromosomes, i.fitness), { o with pop := p })

/-- `find_min` (genetic/mod.rs:508-520) -/
def findMin (fuel : Nat) (o : Opt σ T) : M (World σ T) (Option (Solution T) × Opt σ T) := do
  let p := o.pop.reset
  let start ← World.lift o.comps.creator
  World.emit (.created start)
  let p ← append o.comps p start
  callLoggers .start p.state 0 o.comps.loggers
  nextIterations fuel { o with pop := p }

/-- The public methods of `GeneticOptimizer`. -/
inductive Call (σ T : Type) where
  | findMin (fuel : Nat)
  | nextIterations (fuel : Nat)
  /-- genetic/mod.rs:402-404 -/
  | setLoggers (ls : List (Logger σ T))
  /-- genetic/mod.rs:407-409 -/
  | setPairing (f : Population T → M σ (List (List Nat)))
  /-- genetic/mod.rs:412-414 -/
  | setCross (f : List T → M σ (List T))
  /-- genetic/mod.rs:417-419 -/
  | setMutation (f : T → M σ T)
  /-- genetic/mod.rs:422-424 -/
  | setSelection (fs : List (Population T → M σ (Population T)))
  /-- genetic/mod.rs:427-429 -/
  | setPreBirth (fs : List (Population T → List T → M σ (List T)))
  /-- genetic/mod.rs:432-434 -/
  | setStopChecker (f : AlgState T → M σ Bool)

/-- What a call returns: `some r` for the two run methods. -/
abbrev Ret (T : Type) := Option (Option (Solution T))

/-- Execute one public method. -/
def call (o : Opt σ T) : Call σ T → M (World σ T) (Ret T × Opt σ T)
  | .findMin fuel => do let (r, o) ← findMin fuel o; pure (some r, o)
  | .nextIterations fuel => do let (r, o) ← nextIterations fuel o; pure (some r, o)
  | .setLoggers ls => pure (none, { o with comps := { o.comps with loggers := ls } })
  | .setPairing f => pure (none, { o with comps := { o.comps with pairing := f } })
  | .setCross f => pure (none, { o with comps := { o.comps with cross := f } })
  | .setMutation f => pure (none, { o with comps := { o.comps with mutation := f } })
  | .setSelection fs => pure (none, { o with comps := { o.comps with selections := fs } })
  | .setPreBirth fs => pure (none, { o with comps := { o.comps with preBirths := fs } })
  | .setStopChecker f => pure (none, { o with comps := { o.comps with stop := f } })

/-- A history: any sequence of public calls; returns the results in order. -/
def run (o : Opt σ T) : List (Call σ T) → M (World σ T) (List (Ret T) × Opt σ T)
  | [] => pure ([], o)
  | k :: ks => do
    let (r, o) ← call o k
    let (rs, o) ← run o ks
    pure (r :: rs, o)

/-! Partial executions: the states an optimizer passes through while a call is still running. -/

/-- `n` turns of the `while` loop (genetic/mod.rs:461-493), the stop checker having answered `false` before each
of them; fails if it answers `true` earlier. -/
def turns (c : Comps σ T) : Nat → Population T → M (World σ T) (Population T)
  | 0, p => pure p
  | n + 1, p => do
    let b ← World.lift (c.stop p.state)
    World.emit (.check p.state b)
    if b then M.fail .fuel
    else do
      let p ← step c p
      turns c n p

/-- A point of an execution: after all calls have returned, or at the head of the loop after `n` turns inside one more
call. -/
inductive Point where
  | done
  | inFindMin (n : Nat)
  | inNextIterations (n : Nat)

/-- `find_min` up to the head of the loop, before the first turn (genetic/mod.rs:509-517 and 457-459). -/
def findMinHead (o : Opt σ T) : M (World σ T) (Opt σ T) := do
  let p := o.pop.reset
  let start ← World.lift o.comps.creator
  World.emit (.created start)
  let p ← append o.comps p start
  callLoggers .start p.state 0 o.comps.loggers
  callLoggers .resume p.state 0 o.comps.loggers
  pure { o with pop := p }

/-- Run a history up to a point and return the optimizer as it is there. -/
def runTo (o : Opt σ T) (ks : List (Call σ T)) (pt : Point) : M (World σ T) (Opt σ T) := do
  let (_, o) ← run o ks
  match pt with
  | .done => pure o
  | .inFindMin n => do
    let o ← findMinHead o
    let p ← turns o.comps n o.pop
    pure { o with pop := p }
  | .inNextIterations n => do
    callLoggers .resume o.pop.state 0 o.comps.loggers
    let p ← turns o.comps n o.pop
    pure { o with pop := p }

end Verif.GA
