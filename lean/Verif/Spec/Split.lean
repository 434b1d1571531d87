import Verif.Spec.Attach

/-!
# Specification vocabulary: a run in parts

A user may stop a run early, look at the result, replace the stop checker and let the optimizer go on with
`next_iterations`.
-/

namespace Verif

variable {σ τ T α : Type}

/-- One callback of all loggers, in the order of the list. -/
def everyone (k : LogKind) (s : AlgState T) : List (Logger τ T) → M τ Unit
  | [] => pure ()
  | l :: ls => do l.on k s; everyone k s ls

/-- Loggers none of whose callbacks fails in the order in which an optimizer calls them. The four conditions hold of their
fields before `start`, before `resume`, while iterations are done, and after `finish`. -/
structure AllNeverFail (ls : List (Logger τ T)) (I0 I1 I2 I3 : τ → Prop) : Prop where
  start : ∀ s t, I0 t → ∃ t', everyone .start s ls t = .ok ((), t') ∧ I1 t'
  resume : ∀ s t, I1 t → ∃ t', everyone .resume s ls t = .ok ((), t') ∧ I2 t'
  next : ∀ s t, I2 t → ∃ t', everyone .next s ls t = .ok ((), t') ∧ I2 t'
  finish : ∀ s t, I2 t → ∃ t', everyone .finish s ls t = .ok ((), t') ∧ I3 t'
  again : ∀ t, I3 t → I1 t

/-- What is done to find the minimum: the trace without the calls of loggers and of the stop checker. -/
def work (tr : List (Ev T)) : List (Ev T) := tr.filter (fun | .log _ _ _ => false | .check _ _ => false | _ => true)

/-- A stop checker without fields of its own: its answer depends only on the best solution and the iteration number. -/
def stopWhen (P : AlgState T → Bool) (s : AlgState T) : M σ Bool := pure (P s)

/-- Two histories of calls end alike: both fail with the same error, or both return; then the last value returned, the
agents and what has been done are the same, and so is everything but the fields of the loggers. -/
def EndsAlike {O C : Type} (agents : O → C) {V : Type} :
    Except Err ((List V × O) × World (σ × τ) T) → Except Err ((List V × O) × World (σ × τ) T) → Prop
  | .ok ((rs, o), w), .ok ((rs', o'), w') =>
    rs.getLast? = rs'.getLast? ∧ agents o = agents o' ∧ w.user.1 = w'.user.1 ∧ work w.trace = work w'.trace
  | .error e, .error e' => e = e'
  | _, _ => False

namespace GA

/-- The optimizer with these loggers, which have fields of their own. -/
def Opt.watched (o : Opt σ T) (ls : List (Logger τ T)) : Opt (σ × τ) T :=
  ⟨{ o.comps.beside τ with loggers := ls.map (Logger.zoom (Lens.snd σ τ)) }, o.pop⟩

/-- `find_min` with the first stop checker, then `next_iterations` with each of the others. -/
def inParts (fuel : Nat) (P : AlgState T → Bool) (Ps : List (AlgState T → Bool)) : List (Call σ T) :=
  [.setStopChecker (stopWhen P), .findMin fuel] ++
    Ps.flatMap fun P => [.setStopChecker (stopWhen P), .nextIterations fuel]

end GA

namespace PSO

/-- The optimizer with these loggers, which have fields of their own. -/
def Opt.watched (o : Opt σ α) (ls : List (Logger τ (List α))) : Opt (σ × τ) α :=
  ⟨{ o.comps.beside τ with loggers := ls.map (Logger.zoom (Lens.snd σ τ)) }, o.swarm⟩

/-- `find_min` with the first stop checker, then `next_iterations` with each of the others. -/
def inParts (fuel : Nat) (P : AlgState (List α) → Bool) (Ps : List (AlgState (List α) → Bool)) : List (Call σ α) :=
  [.setStopChecker (stopWhen P), .findMin fuel] ++
    Ps.flatMap fun P => [.setStopChecker (stopWhen P), .nextIterations fuel]

end PSO
end Verif

namespace Verif

/-- A stop checker that, asked again about the same state of the algorithm, gives the same answer and does not change any
more. -/
def AsksAgain {σ T : Type} (stop : AlgState T → M σ Bool) : Prop :=
  ∀ s u b u', stop s u = .ok (b, u') → stop s u' = .ok (b, u')

/-- The checker `d` does not disturb the checker `c`: what `c` answers without changing anything, it answers also after
`d`. -/
def Undisturbed {σ T : Type} (c d : AlgState T → M σ Bool) : Prop :=
  ∀ s u b b' u', c s u = .ok (b, u) → d s u = .ok (b', u') → c s u' = .ok (b, u')

end Verif
