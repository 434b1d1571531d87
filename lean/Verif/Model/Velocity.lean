import Verif.Model.Swarm
import Verif.Model.Rng

/-!
# Velocity calculators: `optlib/src/particleswarm/velocitycalc/mod.rs`
-/

namespace Verif.Velocity

open Verif PSO

variable {σ α : Type} [FloatT α]

/-- One draw `T::from(Uniform::new_inclusive(0.0, 1.0).sample(rng)).unwrap()`; `g` is
the float type of the literals (`f32` or `f64`). -/
def draw01 (R : Rng σ) (g : Fmt) : M σ α := do
  let x ← R.uniformFlIncl (Fl.zero : Fl g) (Fl.one : Fl g)
  pure (FloatT.ofFl x)

/-- `phi * r * (target - x)` -/
def pull (phi r target x : α) : α := FloatT.mul (FloatT.mul phi r) (FloatT.sub target x)

/-- `ClassicVelocityCalculator::calc_new_velocity` (velocitycalc/mod.rs:35-57) -/
def classic (R : Rng σ) (phiP phiG : α) (s : Swarm α) (p : Particle α) : M σ (List α) := do
  let g ← M.unwrap s.best
  M.mapL (fun i => do
    let rP : α ← draw01 R Fmt.f32
    let rG : α ← draw01 R Fmt.f32
    let v ← M.index p.velocity i
    let b ← M.index p.bestCoords i
    let x ← M.index p.coordinates i
    let gb ← M.index g.coordinates i
    pure (FloatT.add (FloatT.add v (pull phiP rP b x)) (pull phiG rG gb x)))
    (List.range p.coordinates.length)

/-- `CanonicalVelocityCalculator` (velocitycalc/mod.rs:71-77) -/
structure Canonical (α : Type) where
  phiP : α
  phiG : α
  xi : α

/-- `CanonicalVelocityCalculator::new` (velocitycalc/mod.rs:80-93) -/
def Canonical.new (phiP phiG alpha : α) : M σ (Canonical α) := do
  M.assert (FloatT.lt (FloatT.lit 4 1) (FloatT.add phiP phiG))
  M.assert (FloatT.lt FloatT.zero alpha)
  M.assert (FloatT.lt alpha FloatT.one)
  let phi := FloatT.add phiG phiP
  pure ⟨phiP, phiG,
    FloatT.div (FloatT.mul (FloatT.lit 2 1) alpha) (FloatT.sub phi (FloatT.lit 2 1))⟩

/-- `CanonicalVelocityCalculator::calc_new_velocity` (velocitycalc/mod.rs:96-121) -/
def canonical (R : Rng σ) (c : Canonical α) (s : Swarm α) (p : Particle α) : M σ (List α) := do
  let g ← M.unwrap s.best
  M.mapL (fun i => do
    let rP : α ← draw01 R Fmt.f32
    let rG : α ← draw01 R Fmt.f32
    let v ← M.index p.velocity i
    let b ← M.index p.bestCoords i
    let x ← M.index p.coordinates i
    let gb ← M.index g.coordinates i
    pure (FloatT.mul c.xi
      (FloatT.add (FloatT.add v (pull c.phiP rP b x)) (pull c.phiG rG gb x))))
    (List.range p.coordinates.length)

/-- `NegativeReinforcement` (velocitycalc/mod.rs:143-155) -/
structure NegReinf (α : Type) where
  phiBestPersonal : α
  phiBestCurrent : α
  phiBestGlobal : α
  phiWorstPersonal : α
  phiWorstCurrent : α
  phiWorstGlobal : α
  xi : α

/-- `NegativeReinforcement::calc_new_velocity` (velocitycalc/mod.rs:179-236) -/
def negReinf (R : Rng σ) (c : NegReinf α) (s : Swarm α) (p : Particle α) : M σ (List α) := do
  let bg ← M.unwrap s.best
  let bc ← M.unwrap s.currentBest
  let wg ← M.unwrap s.worst
  let wc ← M.unwrap s.currentWorst
  M.mapL (fun i => do
    let rBestGlobal : α ← draw01 R Fmt.f64
    let rBestCurrent : α ← draw01 R Fmt.f64
    let rBestPersonal : α ← draw01 R Fmt.f64
    let rWorstGlobal : α ← draw01 R Fmt.f64
    let rWorstCurrent : α ← draw01 R Fmt.f64
    let rWorstPersonal : α ← draw01 R Fmt.f64
    let bp ← M.index p.bestCoords i
    let x ← M.index p.coordinates i
    let bcx ← M.index bc.coordinates i
    let bgx ← M.index bg.coordinates i
    let wp ← M.index p.worstCoords i
    let wcx ← M.index wc.coordinates i
    let wgx ← M.index wg.coordinates i
    let v ← M.index p.velocity i
    pure (FloatT.mul c.xi
      (FloatT.sub (FloatT.sub (FloatT.sub
        (FloatT.add (FloatT.add (FloatT.add v (pull c.phiBestPersonal rBestPersonal bp x))
          (pull c.phiBestCurrent rBestCurrent bcx x)) (pull c.phiBestGlobal rBestGlobal bgx x))
        (pull c.phiWorstPersonal rWorstPersonal wp x))
        (pull c.phiWorstCurrent rWorstCurrent wcx x))
        (pull c.phiWorstGlobal rWorstGlobal wgx x))))
    (List.range p.coordinates.length)

/-- `ConstInertia::get` (velocitycalc/mod.rs:255-259) -/
def constInertia (w : α) (_iteration : Nat) : M σ α := pure w

/-- `LinearInertia::get` (velocitycalc/mod.rs:278-283) -/
def linearInertia (wMin wMax : α) (tMax : Nat) (iteration : Nat) : α :=
  FloatT.sub wMax (FloatT.div (FloatT.mul (FloatT.sub wMax wMin) (FloatT.ofNat iteration))
    (FloatT.ofNat tMax))

/-- `InertiaVelocityCalculator::calc_new_velocity` (velocitycalc/mod.rs:314-337) -/
def inertia (R : Rng σ) (phiP phiG : α) (inertiaGet : Nat → M σ α) (s : Swarm α)
    (p : Particle α) : M σ (List α) := do
  let g ← M.unwrap s.best
  let w ← inertiaGet s.iteration
  M.mapL (fun i => do
    let rP : α ← draw01 R Fmt.f32
    let rG : α ← draw01 R Fmt.f32
    let v ← M.index p.velocity i
    let b ← M.index p.bestCoords i
    let x ← M.index p.coordinates i
    let gb ← M.index g.coordinates i
    pure (FloatT.add (FloatT.add (FloatT.mul w v) (pull phiP rP b x)) (pull phiG rG gb x)))
    (List.range p.coordinates.length)

end Verif.Velocity
