import Verif.Proofs.Restless
import Verif.Props.Settle

/-!
# C122: over flat ground a swarm does not come to rest
-/

namespace Verif.Props

open Verif Spec Velocity PSO

theorem drawVariance_nonneg {g : Fmt} (u : Nat → Fl g) (m : Nat) : 0 ≤ drawVariance u m := by
  unfold drawVariance
  exact div_nonneg (Finset.sum_nonneg fun _ _ => sq_nonneg _) (Nat.cast_nonneg m)

/-- Two springs cannot both be relaxed. -/
theorem two_springs (P G b g x : ℝ) : (P * G) ^ 2 / (P ^ 2 + G ^ 2) * (b - g) ^ 2 ≤ (P * (b - x)) ^ 2 + (G * (g - x)) ^ 2 := by
  rcases (add_nonneg (sq_nonneg P) (sq_nonneg G)).eq_or_lt with h | h
  · rw [← h, div_zero, zero_mul]
    positivity
  · rw [div_mul_eq_mul_div, div_le_iff₀ h]
    nlinarith [sq_nonneg (P * (P * (b - x)) + G * (G * (g - x)))]

section

variable {R : Rng (List Nat)} {u : Nat → F32} (hR : UnitDraws R Fmt.f32 u) (m : Nat) (hm : 0 < m) (c : F64) (d : Nat)
  (points velocities : List (List ℝ)) (hs : Start d points velocities)

include hR hm hs in
/-- All calculators at once -/
theorem shaken (vc : Swarm ℝ → Particle ℝ → M (List Nat) (List ℝ)) (phiP phiG a : ℝ)
    (hvc : ∀ s p best, s.best = some best → ∃ b, vc s p = M.mapL (fun i => do
      let rP : ℝ ← draw01 R Fmt.f32
      let rG : ℝ ← draw01 R Fmt.f32
      let v ← M.index p.velocity i
      let pb ← M.index p.bestCoords i
      let x ← M.index p.coordinates i
      let gb ← M.index best.coordinates i
      pure (a * (b * v + phiP * rP * (pb - x) + phiG * rG * (gb - x)))) (List.range p.coordinates.length))
    (t fuel n j : Nat) (ht : t ≠ 0) (hf : t < fuel) (hn : n < points.length) (hj : j < d) :
    SquareSpeed (List.replicate (t * (points.length * (d * 2))) m) (flatSwarm c points velocities vc t) fuel n j
      (a ^ 2 * drawVariance u m * ((phiP * phiG) ^ 2 / (phiP ^ 2 + phiG ^ 2) * (entry points n j - entry points 0 j) ^ 2)) := by
  refine find_square (K := fun n j => a ^ 2 * drawVariance u m *
    ((phiP * phiG) ^ 2 / (phiP ^ 2 + phiG ^ 2) * (entry points n j - entry points 0 j) ^ 2)) hm hs ?_ ht hf hn hj
  intro s k p hk hb hp
  have hB : (points.getD k []).length = d := by
    rw [getD_below hk]
    exact hs.point _ (List.getElem_mem _)
  obtain ⟨b, hvc⟩ := hvc s p _ hb
  obtain ⟨V, h1, h2, h3⟩ := mean_of_pulls hR m hm s p (starter c points velocities 0) (by rw [hp.vel, hp.coords])
    (by rw [hp.best, hp.coords]; exact hB) (by rw [hp.coords]; exact first_length c d points velocities hs) phiP phiG a b
  rw [hp.coords] at h1 h2 h3
  rw [hvc, hp.coords]
  refine ⟨V, h1, h2, fun j hj => le_trans ?_ (h3 j hj).2⟩
  rw [hp.best]
  exact mul_le_mul_of_nonneg_left (two_springs phiP phiG (entry points k j) (entry points 0 j) (p.coordinates.getD j 0))
    (mul_nonneg (sq_nonneg a) (drawVariance_nonneg u m))

include hR hm hs in
/-- C122 (exact arithmetic), ClassicVelocityCalculator: after each iteration the mean square of the velocity of a particle is at least the variance of
the draws times (phi_p phi_g)^2 / (phi_p^2 + phi_g^2) times the square of the distance of its start from that of the first particle. -/
theorem C122_classic (phiP phiG : ℝ) (t fuel n j : Nat) (ht : t ≠ 0) (hf : t < fuel) (hn : n < points.length) (hj : j < d) :
    SquareSpeed (List.replicate (t * (points.length * (d * 2))) m) (flatSwarm c points velocities (classic R phiP phiG) t) fuel n j
      (drawVariance u m * ((phiP * phiG) ^ 2 / (phiP ^ 2 + phiG ^ 2) * (entry points n j - entry points 0 j) ^ 2)) := by
  have := shaken hR m hm c d points velocities hs (classic R phiP phiG) phiP phiG 1 (by
    intro s p best hb
    refine ⟨1, ?_⟩
    unfold classic
    rw [hb]
    simp only [one_mul]
    rfl) t fuel n j ht hf hn hj
  rwa [one_pow, one_mul] at this

include hR hm hs in
/-- C122 (exact arithmetic), CanonicalVelocityCalculator: the same times xi^2 -/
theorem C122_canonical (cv : Canonical ℝ) (t fuel n j : Nat) (ht : t ≠ 0) (hf : t < fuel) (hn : n < points.length) (hj : j < d) :
    SquareSpeed (List.replicate (t * (points.length * (d * 2))) m) (flatSwarm c points velocities (canonical R cv) t) fuel n j
      (cv.xi ^ 2 * drawVariance u m *
        ((cv.phiP * cv.phiG) ^ 2 / (cv.phiP ^ 2 + cv.phiG ^ 2) * (entry points n j - entry points 0 j) ^ 2)) :=
  shaken hR m hm c d points velocities hs (canonical R cv) cv.phiP cv.phiG cv.xi (by
    intro s p best hb
    refine ⟨1, ?_⟩
    unfold canonical
    rw [hb]
    simp only [one_mul]
    rfl) t fuel n j ht hf hn hj

include hR hm hs in
/-- C122 (exact arithmetic), InertiaVelocityCalculator: the same as for ClassicVelocityCalculator, whatever the weights of the iterations are -/
theorem C122_inertia (phiP phiG : ℝ) (weight : Nat → ℝ) (t fuel n j : Nat) (ht : t ≠ 0) (hf : t < fuel) (hn : n < points.length) (hj : j < d) :
    SquareSpeed (List.replicate (t * (points.length * (d * 2))) m)
      (flatSwarm c points velocities (inertia R phiP phiG (fun i => pure (weight i))) t) fuel n j
      (drawVariance u m * ((phiP * phiG) ^ 2 / (phiP ^ 2 + phiG ^ 2) * (entry points n j - entry points 0 j) ^ 2)) := by
  have := shaken hR m hm c d points velocities hs (inertia R phiP phiG (fun i => pure (weight i))) phiP phiG 1 (by
    intro s p best hb
    refine ⟨weight s.iteration, ?_⟩
    unfold inertia
    rw [hb]
    simp only [one_mul]
    rfl) t fuel n j ht hf hn hj
  rwa [one_pow, one_mul] at this

end

/-- Two particles at rest, at 0 and at 1, with the inertia 1/2: the mean place of the second one tends to 1/2, see C121, but the mean square of its
velocity stays at least 1/8. -/
example (t fuel : Nat) (ht : t ≠ 0) (hf : t < fuel) : SquareSpeed (List.replicate (t * 4) 2)
    (flatSwarm Fl.zero [[0], [1]] [[0], [0]] (inertia endDraws 1 1 (fun _ => pure (1 / 2))) t) fuel 1 0 (1 / 8) := by
  have := C122_inertia (ends_unit Fmt.f32) 2 (by norm_num) Fl.zero 1 _ _ two_start 1 1 (fun _ => 1 / 2) t fuel 1 0 ht hf (by simp) (by norm_num)
  have hv : drawVariance (fun k => if k = 0 then (Fl.zero : F32) else Fl.one) 2 = 1 / 4 := by
    unfold drawVariance
    rw [ends_mean, Finset.sum_range_succ, Finset.sum_range_one]
    have h0 : value (Fl.zero : F32) = 0 := by simp [value]
    have h1 : value (Fl.one : F32) = 1 := by
      have : (Fmt.f32.D : ℝ) ≠ 0 := by
        have := Fmt.f32.D_pos
        positivity
      unfold value
      rw [Fl.toInt_one]
      push_cast
      exact div_self this
    show ((value (Fl.zero : F32) - 1 / 2) ^ 2 + (value (Fl.one : F32) - 1 / 2) ^ 2) / ((2 : Nat) : ℝ) = 1 / 4
    rw [h0, h1]
    norm_num
  have e : (1 / 4 : ℝ) * ((1 * 1) ^ 2 / (1 ^ 2 + 1 ^ 2) * (entry [[0], [1]] 1 0 - entry [[0], [1]] 0 0) ^ 2) = 1 / 8 := by
    simp [entry]
    norm_num
  rw [hv, e] at this
  exact this

end Verif.Props
