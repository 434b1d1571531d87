import Verif.Spec.Private
import Verif.Spec.Trace
import Verif.Model.Statistics

/-!
# Specification vocabulary: attaching an object to an optimizer

An optimizer whose components live in the world `σ` is given one more object with fields `τ` of its own. The components
it had before cannot see these fields.
-/

namespace Verif

variable {σ T α : Type}

/-- A call of one of the two run methods. -/
inductive RunCall where
  | findMin (fuel : Nat)
  | nextIterations (fuel : Nat)

/-- The trace without the calls of loggers. -/
def withoutLogs (tr : List (Ev T)) : List (Ev T) := tr.filter (fun | .log _ _ _ => false | _ => true)

/-- A logger none of whose callbacks fails in the order in which an optimizer calls them. The four conditions hold of its
fields before `start`, before `resume`, while iterations are done, and after `finish`. -/
structure NeverFails {τ : Type} (l : Logger τ T) (I0 I1 I2 I3 : τ → Prop) : Prop where
  start : ∀ s t, I0 t → ∃ t', l.start s t = .ok ((), t') ∧ I1 t'
  resume : ∀ s t, I1 t → ∃ t', l.resume s t = .ok ((), t') ∧ I2 t'
  next : ∀ s t, I2 t → ∃ t', l.nextIteration s t = .ok ((), t') ∧ I2 t'
  finish : ∀ s t, I2 t → ∃ t', l.finish s t = .ok ((), t') ∧ I3 t'
  again : ∀ t, I3 t → I0 t ∧ I1 t

/-- The counters after `n` more calls: the last one grows; a first one is created by a call if there was none. -/
def countUp (c : Stats.CallCount) (n : Nat) : Stats.CallCount :=
  match n, c.getLast? with
  | 0, _ => c
  | n + 1, none => [n + 1]
  | n + 1, some m => c.dropLast ++ [m + (n + 1)]

namespace GA

/-- The call, for the genetic optimizer. -/
def runCall : RunCall → Call σ T
  | .findMin fuel => .findMin fuel
  | .nextIterations fuel => .nextIterations fuel

/-- The same components in a world in which there is something else as well. -/
def Comps.beside (τ : Type) (c : Comps σ T) : Comps (σ × τ) T where
  goal x := (Lens.fst σ τ).zoom (c.goal x)
  stop s := (Lens.fst σ τ).zoom (c.stop s)
  creator := (Lens.fst σ τ).zoom c.creator
  pairing p := (Lens.fst σ τ).zoom (c.pairing p)
  cross xs := (Lens.fst σ τ).zoom (c.cross xs)
  mutation x := (Lens.fst σ τ).zoom (c.mutation x)
  selections := c.selections.map (fun f p => (Lens.fst σ τ).zoom (f p))
  preBirths := c.preBirths.map (fun f p xs => (Lens.fst σ τ).zoom (f p xs))
  loggers := c.loggers.map (Logger.zoom (Lens.fst σ τ))

/-- The same optimizer with one more logger, at position `i` of the list of loggers. -/
def Opt.attach {τ : Type} (o : Opt σ T) (i : Nat) (l : Logger τ T) : Opt (σ × τ) T :=
  let c := o.comps.beside τ
  ⟨{ c with loggers := c.loggers.take i ++ l.zoom (Lens.snd σ τ) :: c.loggers.drop i }, o.pop⟩

/-- The same optimizer with its goal wrapped in a `GoalCalcStatistics`. -/
def Opt.counted (o : Opt σ T) (p : Profile) : Opt (σ × Stats.CallCount) T :=
  let c := o.comps.beside Stats.CallCount
  ⟨{ c with goal := Stats.goalCalc p (Lens.snd σ Stats.CallCount) c.goal }, o.pop⟩

end GA

namespace PSO

/-- The call, for the swarm optimizer. -/
def runCall : RunCall → Call σ α
  | .findMin fuel => .findMin fuel
  | .nextIterations fuel => .nextIterations fuel

/-- The same components in a world in which there is something else as well. -/
def Comps.beside (τ : Type) (c : Comps σ α) : Comps (σ × τ) α where
  goal x := (Lens.fst σ τ).zoom (c.goal x)
  stop s := (Lens.fst σ τ).zoom (c.stop s)
  coordInit := (Lens.fst σ τ).zoom c.coordInit
  velInit := (Lens.fst σ τ).zoom c.velInit
  velCalc s p := (Lens.fst σ τ).zoom (c.velCalc s p)
  postVel := c.postVel.map (fun f x => (Lens.fst σ τ).zoom (f x))
  postMove := c.postMove.map (fun f x => (Lens.fst σ τ).zoom (f x))
  loggers := c.loggers.map (Logger.zoom (Lens.fst σ τ))

/-- The same optimizer with one more logger, at position `i` of the list of loggers. -/
def Opt.attach {τ : Type} (o : Opt σ α) (i : Nat) (l : Logger τ (List α)) : Opt (σ × τ) α :=
  let c := o.comps.beside τ
  ⟨{ c with loggers := c.loggers.take i ++ l.zoom (Lens.snd σ τ) :: c.loggers.drop i }, o.swarm⟩

/-- The same optimizer with its goal wrapped in a `GoalCalcStatistics`. -/
def Opt.counted (o : Opt σ α) (p : Profile) : Opt (σ × Stats.CallCount) α :=
  let c := o.comps.beside Stats.CallCount
  ⟨{ c with goal := Stats.goalCalc p (Lens.snd σ Stats.CallCount) c.goal }, o.swarm⟩

end PSO
end Verif
