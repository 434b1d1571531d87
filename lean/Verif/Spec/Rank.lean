import Verif.Model.Genetic
import Verif.Model.Swarm
import Mathlib.Data.Option.Basic

/-!
# Specification vocabulary: two optimizers whose goal values are ordered in the same way

`Q v v'` says that the second optimizer has the value `v'` where the first one has `v`, and `H x y` that it has the
point `y` where the first one has `x`.
-/

namespace Verif.Spec.Rank

open Verif

variable {σ T U W V α β : Type}

/-- The values of the two sides are ordered in the same way, and are finite or NaN together. -/
structure SameOrder (Q : F64 → F64 → Prop) : Prop where
  finite : ∀ v v', Q v v' → v'.isFinite = v.isFinite
  nan : ∀ v v', Q v v' → v'.isNan = v.isNan
  lt : ∀ v v' u u', Q v v' → Q u u' → v'.lt u' = v.lt u

/-- Two goal functions rank the points in the same way. -/
def RankAlike (f f' : T → F64) : Prop :=
  (∀ x, (f' x).isFinite = (f x).isFinite) ∧ (∀ x, (f' x).isNan = (f x).isNan) ∧ ∀ x y, (f' x).lt (f' y) = (f x).lt (f y)

/-- Both panic in the same way, or both return and have `Q` for what they return and `R` for the states they end in. -/
def Outcome (R : W → V → Prop) (Q : α → β → Prop) : Except Err (α × W) → Except Err (β × V) → Prop
  | .error e, .error e' => e = e'
  | .ok (a, w), .ok (b, v) => Q a b ∧ R w v
  | _, _ => False

/-- Started alike, the two computations end alike. -/
def Alike (R : W → V → Prop) (Q : α → β → Prop) (m : M W α) (m' : M V β) : Prop := ∀ w v, R w v → Outcome R Q (m w) (m' v)

section

variable (H : T → U → Prop) (Q : F64 → F64 → Prop)

/-- Solutions -/
def Sol (a : Solution T) (b : Solution U) : Prop := H a.1 b.1 ∧ Q a.2 b.2

/-- What stop checkers and loggers see -/
def State (s : AlgState T) (s' : AlgState U) : Prop := Option.Rel (Sol H Q) s.best s'.best ∧ s.iteration = s'.iteration

/-- Individuals -/
def Ind (i : Individual T) (j : Individual U) : Prop :=
  H i.chromosomes j.chromosomes ∧ Q i.fitness j.fitness ∧ i.alive = j.alive

/-- Populations -/
structure Pop (p : Population T) (p' : Population U) : Prop where
  individuals : List.Forall₂ (Ind H Q) p.individuals p'.individuals
  best : Option.Rel (Ind H Q) p.best p'.best
  worst : Option.Rel (Ind H Q) p.worst p'.worst
  iteration : p.iteration = p'.iteration

/-- Events: the same things happen, to corresponding points with corresponding values, and `K` for the velocities. -/
inductive Event (K : T → U → Prop) : Ev T → Ev U → Prop
  | goal {x y v v'} : H x y → Q v v' → Event K (.goal x v) (.goal y v')
  | check {s s'} (b) : State H Q s s' → Event K (.check s b) (.check s' b)
  | log {s s'} (i k) : State H Q s s' → Event K (.log i k s) (.log i k s')
  | created {xs ys} : List.Forall₂ H xs ys → Event K (.created xs) (.created ys)
  | paired {as bs} (fs) : List.Forall₂ (Sol H Q) as bs → Event K (.paired as fs) (.paired bs fs)
  | crossed {ps ps' cs cs'} : List.Forall₂ H ps ps' → List.Forall₂ H cs cs' → Event K (.crossed ps cs) (.crossed ps' cs')
  | mutated {x x' y y'} : H x x' → H y y' → Event K (.mutated x y) (.mutated x' y')
  | preBorn {xs xs' ys ys'} (i) : List.Forall₂ H xs xs' → List.Forall₂ H ys ys' → Event K (.preBorn i xs ys) (.preBorn i xs' ys')
  | selected {as as' bs bs'} (i) : List.Forall₂ (fun a b => Sol H Q a.1 b.1 ∧ a.2 = b.2) as as' →
    List.Forall₂ (fun a b => Sol H Q a.1 b.1 ∧ a.2 = b.2) bs bs' → Event K (.selected i as bs) (.selected i as' bs')
  | velocity {raw raw' v v'} : K raw raw' → K v v' → Event K (.velocity raw v) (.velocity raw' v')
  | moved {raw raw' x x'} : H raw raw' → H x x' → Event K (.moved raw x) (.moved raw' x')
  | generation {as as' b b' w w'} (i) : List.Forall₂ (Sol H Q) as as' → Option.Rel (Sol H Q) b b' →
    Option.Rel (Sol H Q) w w' → Event K (.generation as b w i) (.generation as' b' w' i)

/-- Worlds: all that the components have of their own is the same. -/
def WorldsV (K : T → U → Prop) (w : World σ T) (w' : World σ U) : Prop :=
  w.user = w'.user ∧ List.Forall₂ (Event H Q K) w.trace w'.trace

/-- The same, with one relation for points and velocities -/
abbrev Worlds : World σ T → World σ U → Prop := WorldsV H Q H

/-- Loggers that do not show the difference -/
structure Loggers (l : Logger σ T) (l' : Logger σ U) : Prop where
  start : ∀ s s', State H Q s s' → l.start s = l'.start s'
  resume : ∀ s s', State H Q s s' → l.resume s = l'.resume s'
  next : ∀ s s', State H Q s s' → l.nextIteration s = l'.nextIteration s'
  finish : ∀ s s', State H Q s s' → l.finish s = l'.finish s'

/-- A stop checker and another one that gives the same answer on the other side -/
def Stops (f : AlgState T → M σ Bool) (f' : AlgState U → M σ Bool) : Prop := ∀ s s', State H Q s s' → f s = f' s'

/-- Pairing methods that pair the same individuals -/
def Pairings (f : Population T → M σ (List (List Nat))) (f' : Population U → M σ (List (List Nat))) : Prop :=
  ∀ p p', Pop H Q p p' → f p = f' p'

/-- Selections that kill the same individuals -/
def Selections (f : Population T → M σ (Population T)) (f' : Population U → M σ (Population U)) : Prop :=
  ∀ p p', Pop H Q p p' → Alike Eq (Pop H Q) (f p) (f' p')

/-- Pre-birth filters that keep the same children -/
def PreBirths (f : Population T → List T → M σ (List T)) (f' : Population U → List U → M σ (List U)) : Prop :=
  ∀ p p' xs ys, Pop H Q p p' → List.Forall₂ H xs ys → Alike Eq (List.Forall₂ H) (f p xs) (f' p' ys)

/-- The components of two genetic optimizers -/
structure Genetic (c : GA.Comps σ T) (c' : GA.Comps σ U) : Prop where
  goal : ∀ x y, H x y → Alike Eq Q (c.goal x) (c'.goal y)
  stop : Stops H Q c.stop c'.stop
  creator : Alike Eq (List.Forall₂ H) c.creator c'.creator
  pairing : Pairings H Q c.pairing c'.pairing
  cross : ∀ xs ys, List.Forall₂ H xs ys → Alike Eq (List.Forall₂ H) (c.cross xs) (c'.cross ys)
  mutation : ∀ x y, H x y → Alike Eq H (c.mutation x) (c'.mutation y)
  selections : List.Forall₂ (Selections H Q) c.selections c'.selections
  preBirths : List.Forall₂ (PreBirths H Q) c.preBirths c'.preBirths
  loggers : List.Forall₂ (Loggers H Q) c.loggers c'.loggers

/-- Two genetic optimizers -/
def GeneticOpt (o : GA.Opt σ T) (o' : GA.Opt σ U) : Prop := Genetic H Q o.comps o'.comps ∧ Pop H Q o.pop o'.pop

/-- Two calls of the same method of a genetic optimizer -/
inductive GeneticCall : GA.Call σ T → GA.Call σ U → Prop
  | findMin (fuel) : GeneticCall (.findMin fuel) (.findMin fuel)
  | nextIterations (fuel) : GeneticCall (.nextIterations fuel) (.nextIterations fuel)
  | setLoggers {ls ls'} : List.Forall₂ (Loggers H Q) ls ls' → GeneticCall (.setLoggers ls) (.setLoggers ls')
  | setPairing {f f'} : Pairings H Q f f' → GeneticCall (.setPairing f) (.setPairing f')
  | setCross {f f'} : (∀ xs ys, List.Forall₂ H xs ys → Alike Eq (List.Forall₂ H) (f xs) (f' ys)) →
    GeneticCall (.setCross f) (.setCross f')
  | setMutation {f f'} : (∀ x y, H x y → Alike Eq H (f x) (f' y)) → GeneticCall (.setMutation f) (.setMutation f')
  | setSelection {fs fs'} : List.Forall₂ (Selections H Q) fs fs' → GeneticCall (.setSelection fs) (.setSelection fs')
  | setPreBirth {fs fs'} : List.Forall₂ (PreBirths H Q) fs fs' → GeneticCall (.setPreBirth fs) (.setPreBirth fs')
  | setStopChecker {f f'} : Stops H Q f f' → GeneticCall (.setStopChecker f) (.setStopChecker f')

/-- What two calls return -/
abbrev Returned : GA.Ret T → GA.Ret U → Prop := Option.Rel (Option.Rel (Sol H Q))

end

/-! ## Swarms -/

section

variable (H K : List α → List β → Prop) (Q : F64 → F64 → Prop)

/-- Particles: `H` for positions, `K` for velocities -/
structure Part (p : PSO.Particle α) (p' : PSO.Particle β) : Prop where
  coordinates : H p.coordinates p'.coordinates
  velocity : K p.velocity p'.velocity
  value : Q p.value p'.value
  bestCoords : H p.bestCoords p'.bestCoords
  bestValue : Q p.bestValue p'.bestValue
  worstCoords : H p.worstCoords p'.worstCoords
  worstValue : Q p.worstValue p'.worstValue

/-- Swarms -/
structure Swarms (s : PSO.Swarm α) (s' : PSO.Swarm β) : Prop where
  particles : List.Forall₂ (Part H K Q) s.particles s'.particles
  best : Option.Rel (Part H K Q) s.best s'.best
  worst : Option.Rel (Part H K Q) s.worst s'.worst
  iteration : s.iteration = s'.iteration

/-- Corresponding positions and velocities have corresponding sums. -/
def Moves [FloatT α] [FloatT β] : Prop :=
  ∀ x x' v v', H x x' → K v v' → H (List.zipWith FloatT.add x v) (List.zipWith FloatT.add x' v')

/-- Velocity calculators that give corresponding velocities -/
def Calcs (f : PSO.Swarm α → PSO.Particle α → M σ (List α)) (f' : PSO.Swarm β → PSO.Particle β → M σ (List β)) : Prop :=
  ∀ s s' p p', Swarms H K Q s s' → Part H K Q p p' → Alike Eq K (f s p) (f' s' p')

/-- Hooks that, one after the other, make corresponding points of corresponding ones -/
def Hooks (fs : List (List α → M σ (List α))) (fs' : List (List β → M σ (List β))) : Prop :=
  ∀ x x', H x x' → Alike Eq H (PSO.hooks fs x) (PSO.hooks fs' x')

/-- The components of two swarm optimizers -/
structure Swarm (c : PSO.Comps σ α) (c' : PSO.Comps σ β) : Prop where
  goal : ∀ x x', H x x' → Alike Eq Q (c.goal x) (c'.goal x')
  stop : Stops H Q c.stop c'.stop
  coordInit : Alike Eq (List.Forall₂ H) c.coordInit c'.coordInit
  velInit : Alike Eq (List.Forall₂ K) c.velInit c'.velInit
  velCalc : Calcs H K Q c.velCalc c'.velCalc
  postVel : Hooks K c.postVel c'.postVel
  postMove : Hooks H c.postMove c'.postMove
  loggers : List.Forall₂ (Loggers H Q) c.loggers c'.loggers

/-- Two swarm optimizers -/
def SwarmOpt (o : PSO.Opt σ α) (o' : PSO.Opt σ β) : Prop := Swarm H K Q o.comps o'.comps ∧ Swarms H K Q o.swarm o'.swarm

/-- Two calls of the same method of a swarm optimizer -/
inductive SwarmCall : PSO.Call σ α → PSO.Call σ β → Prop
  | findMin (fuel) : SwarmCall (.findMin fuel) (.findMin fuel)
  | nextIterations (fuel) : SwarmCall (.nextIterations fuel) (.nextIterations fuel)
  | setStopChecker {f f'} : Stops H Q f f' → SwarmCall (.setStopChecker f) (.setStopChecker f')
  | setLoggers {ls ls'} : List.Forall₂ (Loggers H Q) ls ls' → SwarmCall (.setLoggers ls) (.setLoggers ls')
  | setPostMoves {fs fs'} : Hooks H fs fs' → SwarmCall (.setPostMoves fs) (.setPostMoves fs')
  | setPostVelocityCalc {fs fs'} : Hooks K fs fs' → SwarmCall (.setPostVelocityCalc fs) (.setPostVelocityCalc fs')

end

end Verif.Spec.Rank
