import Verif.Props.Velocity
import Verif.Props.Ties

/-!
# C45: the current best and worst of the swarm
-/

namespace Verif.PSO

open Verif Spec Verif.Props

variable {σ α : Type} [FloatT α]

theorem maxLoop_last : ∀ (ps : List (Particle α)) (x : Particle α),
    LastWorst (fun x y => NotWorse y x) ((x :: ps).map Particle.sol) (maxLoop x ps).sol := by
  intro ps
  induction ps with
  | nil => intro x; exact ⟨[], [], rfl, by simp, by simp⟩
  | cons y ys ih =>
    intro x
    rw [maxLoop]
    by_cases hc : compareFloats x.value y.value = .gt
    · have hc' : (compareFloats x.value y.value == .gt) = true := by simpa using hc
      rw [hc', if_pos rfl]
      have hx := (maxLoop_spec ys x).2 x (by simp)
      have hn := compare_gt.1 hc
      exact (ih x).win (notWorse_trans ((notWorse_total y.value x.value).resolve_right hn) hx) hn
    · have hc' : (compareFloats x.value y.value == .gt) = false := by simpa using hc
      rw [hc']
      simp only [Bool.false_eq_true, if_false]
      exact (ih y).lose (notWorse_trans ((C38_meaning _ _).1.1 hc) ((maxLoop_spec ys y).2 y (by simp)))

theorem findWorst_last {ps : List (Particle α)} {b : Particle α} (h : findWorst ps = some b) :
    LastWorst (fun x y => NotWorse y x) (ps.map Particle.sol) b.sol := by
  cases ps with
  | nil => cases h
  | cons p ps => cases h; exact maxLoop_last ps p

end Verif.PSO

namespace Verif.Props

open Verif Spec PSO Velocity

variable {σ α : Type} [FloatT α]

/-- C45: what NegativeReinforcement takes for the current best and worst. The former is where the first of the best particles
is now, the latter is where the last of the worst particles is now, in the order of the particles; a particle that has a value that is
not finite is as bad as can be. -/
theorem C45_negative_current (R : Rng σ) (c : NegReinf α) (sw : PSO.Swarm α) (p : Particle α) (s s' : σ) (r : List α)
    (h : negReinf R c sw p s = .ok (r, s')) :
    ∃ bg bc wg wc, sw.best = some bg ∧ FirstBest NotWorse (sw.particles.map fun q => (q.coordinates, q.value)) bc ∧
      sw.worst = some wg ∧ LastWorst (fun x y => NotWorse y x) (sw.particles.map fun q => (q.coordinates, q.value)) wc ∧
      r.length = p.coordinates.length ∧
      ∃ us : List F64, Drawn R s us s' ∧ us.length = 6 * p.coordinates.length ∧
      ∀ i (h : i < r.length), ∃ rbG rbC rbP rwG rwC rwP v pb cb gb pw cw gw x,
        factor us (6 * i) = some rbG ∧ factor us (6 * i + 1) = some rbC ∧ factor us (6 * i + 2) = some rbP ∧
        factor us (6 * i + 3) = some rwG ∧ factor us (6 * i + 4) = some rwC ∧ factor us (6 * i + 5) = some rwP ∧
        p.velocity[i]? = some v ∧ p.bestCoords[i]? = some pb ∧ bc.1[i]? = some cb ∧
        bg.coordinates[i]? = some gb ∧ p.worstCoords[i]? = some pw ∧ wc.1[i]? = some cw ∧
        wg.coordinates[i]? = some gw ∧ p.coordinates[i]? = some x ∧
        r[i] = negativeFormula c.xi c.phiBestPersonal c.phiBestCurrent c.phiBestGlobal c.phiWorstPersonal
          c.phiWorstCurrent c.phiWorstGlobal rbP rbC rbG rwP rwC rwG v pb cb gb pw cw gw x := by
  obtain ⟨bg, bc, wg, wc, h1, h2, h3, h4, h5⟩ := C45_negative R c sw p s s' r h
  exact ⟨bg, bc.sol, wg, wc.sol, h1, findBest_first h2, h3, findWorst_last h4, h5⟩

end Verif.Props
