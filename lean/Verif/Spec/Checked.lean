import Verif.Spec.Private

/-!
# Specification vocabulary: a stop checker compiled with and without overflow checks
-/

namespace Verif.Spec

open Stop

variable {σ τ T : Type}

/-- A stop checker that contains at most one `GoalNotChange`, the one with the fields `L`, as a function of the build profile. -/
inductive HasGNC (L : Lens σ GNC) : (Profile → AlgState T → M σ Bool) → Prop
  | object : HasGNC L (fun p s => L.zoom (goalNotChange p s))
  | other (c : AlgState T → M σ Bool) : (∀ s, Leaves L (c s)) → HasGNC L (fun _ => c)
  | any (cs : List (Profile → AlgState T → M σ Bool)) : (∀ c ∈ cs, HasGNC L c) → HasGNC L (fun p => any (cs.map (· p)))
  | all (cs : List (Profile → AlgState T → M σ Bool)) : (∀ c ∈ cs, HasGNC L c) → HasGNC L (fun p => all (cs.map (· p)))

/-- A stop checker put together from any number of `GoalNotChange` objects, new or used, and anything else, as a function of the
build profile. -/
inductive Compiled : (Profile → AlgState T → M σ Bool) → Prop
  | object (L : Lens σ GNC) : Compiled (fun p s => L.zoom (goalNotChange p s))
  | other (c : AlgState T → M σ Bool) : Compiled (fun _ => c)
  | any (cs : List (Profile → AlgState T → M σ Bool)) : (∀ c ∈ cs, Compiled c) → Compiled (fun p => any (cs.map (· p)))
  | all (cs : List (Profile → AlgState T → M σ Bool)) : (∀ c ∈ cs, Compiled c) → Compiled (fun p => all (cs.map (· p)))

end Verif.Spec

namespace Verif.GA

open Spec

variable {σ τ T : Type}

/-- No component but the stop checker touches the part `L` of the world. -/
structure StopOwns (L : Lens σ τ) (c : Comps σ T) : Prop where
  operators : OperatorsLeave L c
  goal : ∀ x, Leaves L (c.goal x)
  loggers : ∀ l ∈ c.loggers, ∀ k s, Leaves L (l.on k s)

/-- The optimizer with another stop checker. -/
def Opt.withStop (o : Opt σ T) (stop : AlgState T → M σ Bool) : Opt σ T := { o with comps := { o.comps with stop := stop } }

/-- What can be seen of a call: the value it returns or the panic, the population and the world afterwards. -/
def seen (r : Except Err ((Option (Solution T) × Opt σ T) × World σ T)) :
    Except Err ((Option (Solution T) × Population T) × World σ T) :=
  r.map fun x => ((x.1.1, x.1.2.pop), x.2)

end Verif.GA

namespace Verif.PSO

open Spec

variable {σ τ α : Type}

/-- No component but the stop checker touches the part `L` of the world. -/
structure StopOwns (L : Lens σ τ) (c : Comps σ α) : Prop where
  operators : OperatorsLeave L c
  goal : ∀ x, Leaves L (c.goal x)
  loggers : ∀ l ∈ c.loggers, ∀ k s, Leaves L (l.on k s)

/-- The optimizer with another stop checker. -/
def Opt.withStop (o : Opt σ α) (stop : AlgState (List α) → M σ Bool) : Opt σ α :=
  { o with comps := { o.comps with stop := stop } }

/-- What can be seen of a call: the value it returns or the panic, the swarm and the world afterwards. -/
def seen (r : Except Err ((Option (Solution (List α)) × Opt σ α) × World σ (List α))) :
    Except Err ((Option (Solution (List α)) × Swarm α) × World σ (List α)) :=
  r.map fun x => ((x.1.1, x.1.2.swarm), x.2)

end Verif.PSO
