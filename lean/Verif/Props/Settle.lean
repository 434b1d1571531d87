import Verif.Proofs.Settle
import Verif.Props.Drift
import Verif.Props.Dynamics

/-!
# C121: whether a swarm over flat ground settles on average
-/

namespace Verif.Props

open Verif Spec Velocity PSO Filter Topology
open Verif.Dynamics

section

variable {R : Rng (List Nat)} {u : Nat → F32} (hR : UnitDraws R Fmt.f32 u) (m : Nat) (hm : 0 < m) (c : F64) (d : Nat)
  (points velocities : List (List ℝ)) (hs : Start d points velocities)

include hR in
theorem drawMean_le (hm : 0 < m) : drawMean u m ≤ 1 := by
  have h : ∀ k, value (u k) ≤ 1 := by
    intro k
    refine (C45_factors_exact R [k] [] [u k] (.cons (hR k []) .nil) 0 (value (u k)) ?_).2
    rfl
  unfold drawMean
  rw [div_le_one (by exact_mod_cast hm)]
  refine (Finset.sum_le_sum fun k _ => h k).trans ?_
  simp

include hR hm in
/-- The common text of the calculators with two random numbers -/
theorem mean_of_pulls (s : Swarm ℝ) (p best : Particle ℝ) (hv : p.velocity.length = p.coordinates.length)
    (hpb : p.bestCoords.length = p.coordinates.length) (hgb : best.coordinates.length = p.coordinates.length) (phiP phiG a b : ℝ) :
    ∃ V, Uses (M.mapL (fun i => do
      let rP : ℝ ← draw01 R Fmt.f32
      let rG : ℝ ← draw01 R Fmt.f32
      let v ← M.index p.velocity i
      let pb ← M.index p.bestCoords i
      let x ← M.index p.coordinates i
      let gb ← M.index best.coordinates i
      pure (a * (b * v + phiP * rP * (pb - x) + phiG * rG * (gb - x)))) (List.range p.coordinates.length))
        (List.replicate (p.coordinates.length * 2) m) V ∧ (∀ t, (V t).length = p.coordinates.length) ∧
      ∀ j < p.coordinates.length, realMean (List.replicate (p.coordinates.length * 2) m) (fun t => (V t).getD j 0) =
        a * (b * p.velocity.getD j 0 + phiP * drawMean u m * (p.bestCoords.getD j 0 - p.coordinates.getD j 0) +
          phiG * drawMean u m * (best.coordinates.getD j 0 - p.coordinates.getD j 0)) ∧
        a ^ 2 * drawVariance u m * ((phiP * (p.bestCoords.getD j 0 - p.coordinates.getD j 0)) ^ 2 +
          (phiG * (best.coordinates.getD j 0 - p.coordinates.getD j 0)) ^ 2) ≤
            realMean (List.replicate (p.coordinates.length * 2) m) (fun t => (V t).getD j 0 ^ 2) := by
  have hp : 0 < (List.replicate 2 m).prod := by rw [List.prod_replicate]; exact Nat.pow_pos hm
  obtain ⟨V, h1, h2, -, h4⟩ := uses_mapL (f := fun i => do
      let rP : ℝ ← draw01 R Fmt.f32
      let rG : ℝ ← draw01 R Fmt.f32
      let v ← M.index p.velocity i
      let pb ← M.index p.bestCoords i
      let x ← M.index p.coordinates i
      let gb ← M.index best.coordinates i
      pure (a * (b * v + phiP * rP * (pb - x) + phiG * rG * (gb - x))))
    (v := fun i t => a * (b * p.velocity.getD i 0) + (List.zipWith (fun a k => a * value (u k))
      [a * phiP * (p.bestCoords.getD i 0 - p.coordinates.getD i 0), a * phiG * (best.coordinates.getD i 0 - p.coordinates.getD i 0)] t).sum)
    hp (List.range p.coordinates.length) (by
      intro i hi ds rest hd
      rw [List.mem_range] at hi
      cases hd with
      | @cons d1 _ ds _ _ hd =>
        cases hd with
        | @cons d2 _ ds _ _ hd =>
          cases hd
          refine M.bind_eq_ok.2 ⟨_, d2 :: rest, uses_draw01 hR f32_unit.1 Fl.isFinite_one Fl.isFinite_zero _ _, ?_⟩
          refine M.bind_eq_ok.2 ⟨_, rest, uses_draw01 hR f32_unit.1 Fl.isFinite_one Fl.isFinite_zero _ _, ?_⟩
          refine M.bind_eq_ok.2 ⟨_, _, index_getD (by omega) _, ?_⟩
          refine M.bind_eq_ok.2 ⟨_, _, index_getD (by omega) _, ?_⟩
          refine M.bind_eq_ok.2 ⟨_, _, index_getD (by omega) _, ?_⟩
          refine M.bind_eq_ok.2 ⟨_, _, index_getD (by omega) _, ?_⟩
          refine M.pure_eq_ok.2 ⟨?_, rfl⟩
          simp only [List.zipWith_cons_cons, List.zipWith_nil_left, List.sum_cons, List.sum_nil]
          ring)
  rw [List.length_range, List.flatten_replicate_replicate] at h1 h4
  refine ⟨V, h1, fun t => by rw [h2, List.length_range], ?_⟩
  intro j hj
  constructor
  · refine (h4 (fun x => x) j j (by simp [hj])).trans ((realMean_linear u m hm _ _).trans ?_)
    simp only [List.sum_cons, List.sum_nil]
    ring
  · refine le_trans ?_ (le_of_eq ((h4 (fun x => x ^ 2) j j (by simp [hj])).trans (realMean_square u m hm _ _)).symm)
    refine le_trans (le_of_eq ?_) (le_add_of_nonneg_left (sq_nonneg _))
    simp only [List.map_cons, List.map_nil, List.sum_cons, List.sum_nil]
    ring

include hs in
theorem first_length : (starter c points velocities 0).coordinates.length = d := by
  have h0 : 0 < points.length := List.length_pos_iff.2 hs.some
  show (points.getD 0 []).length = d
  rw [getD_below h0]
  exact hs.point _ (List.getElem_mem _)

include hR hm hs in
/-- Both calculators at once -/
theorem pulled_path (vc : Swarm ℝ → Particle ℝ → M (List Nat) (List ℝ)) (phiP phiG a b : ℝ) (hne : phiP + phiG ≠ 0)
    (hvc : ∀ s p best, s.best = some best → vc s p = M.mapL (fun i => do
      let rP : ℝ ← draw01 R Fmt.f32
      let rG : ℝ ← draw01 R Fmt.f32
      let v ← M.index p.velocity i
      let pb ← M.index p.bestCoords i
      let x ← M.index p.coordinates i
      let gb ← M.index best.coordinates i
      pure (a * (b * v + phiP * rP * (pb - x) + phiG * rG * (gb - x)))) (List.range p.coordinates.length)) : ∃ μ : Nat → Nat → Nat → ℝ,
    MeanPath m (points.length * (d * 2)) d c points velocities vc μ ∧
    ∀ n j, ∃ v : Nat → ℝ, Orbit (a * b) (a * (phiP + phiG) * drawMean u m)
      ((phiP * entry points n j + phiG * entry points 0 j) / (phiP + phiG)) (fun t => μ t n j) v ∧
      v 0 = entry velocities n j ∧ μ 0 n j = entry points n j := by
  refine ⟨_, find_mean (w := a * b) (phi := a * (phiP + phiG) * drawMean u m)
    (tgt := fun n j => (phiP * entry points n j + phiG * entry points 0 j) / (phiP + phiG)) hm hs ?_, ?_⟩
  · intro s k p hk hb hp
    have hB : (points.getD k []).length = d := by
      rw [getD_below hk]
      exact hs.point _ (List.getElem_mem _)
    obtain ⟨V, h1, h2, h3⟩ := mean_of_pulls hR m hm s p (starter c points velocities 0) (by rw [hp.vel, hp.coords])
      (by rw [hp.best, hp.coords]; exact hB) (by rw [hp.coords]; exact first_length c d points velocities hs) phiP phiG a b
    rw [hp.coords] at h1 h2 h3
    rw [hvc s p _ hb, hp.coords]
    refine ⟨V, h1, h2, fun j hj => (h3 j hj).1.trans ?_⟩
    rw [hp.best]
    show a * (b * p.velocity.getD j 0 + phiP * drawMean u m * (entry points k j - p.coordinates.getD j 0) +
      phiG * drawMean u m * (entry points 0 j - p.coordinates.getD j 0)) = _
    field_simp
    ring
  · intro n j
    exact ⟨_, turn_orbit _ _ _ _, rfl, rfl⟩

include hR hm hs in
/-- C121 (exact arithmetic), CanonicalVelocityCalculator with any accepted parameters: on average each particle converges to the mean of its
start and the start of the first particle, weighted with phi_p and phi_g. -/
theorem C121_canonical (hr : 0 < drawMean u m) (phiP phiG alpha : ℝ) (cv : Canonical ℝ) {σ : Type} (w w' : σ)
    (hc : Canonical.new phiP phiG alpha w = .ok (cv, w')) : ∃ μ : Nat → Nat → Nat → ℝ,
    MeanPath m (points.length * (d * 2)) d c points velocities (canonical R cv) μ ∧
    ∀ n < points.length, ∀ j < d,
      Tendsto (fun t => μ t n j) atTop (𝓝 ((phiP * entry points n j + phiG * entry points 0 j) / (phiP + phiG))) := by
  obtain ⟨h4, ha0, ha1, hxi, hx0, hxa⟩ := C47_exact phiP phiG alpha w w' cv hc
  have hP : cv.phiP = phiP ∧ cv.phiG = phiG := by
    unfold Canonical.new at hc
    obtain ⟨_, _, _, hc⟩ := M.bind_eq_ok.1 hc
    obtain ⟨_, _, _, hc⟩ := M.bind_eq_ok.1 hc
    obtain ⟨_, _, _, hc⟩ := M.bind_eq_ok.1 hc
    obtain ⟨rfl, -⟩ := M.pure_eq_ok.1 hc
    exact ⟨rfl, rfl⟩
  obtain ⟨μ, h1, h2⟩ := pulled_path hR m hm c d points velocities hs (canonical R cv) phiP phiG cv.xi 1 (by linarith) (by
    intro s p best hb
    unfold canonical
    rw [hb, hP.1, hP.2]
    simp only [one_mul]
    rfl)
  refine ⟨μ, h1, fun n _ j _ => ?_⟩
  obtain ⟨v, ho, -, -⟩ := h2 n j
  have hr1 := drawMean_le hR m hm
  have e : cv.xi * (phiP + phiG) = 2 * alpha + 2 * cv.xi := by
    rw [hxi]
    have : phiP + phiG - 2 ≠ 0 := by linarith
    field_simp
    ring
  rw [mul_one] at ho
  refine (ho.settles hx0.le (by linarith) (mul_pos (mul_pos hx0 (by linarith)) hr) ?_).1
  rw [e]
  nlinarith

include hR hm hs in
theorem inertia_path (wt phiP phiG : ℝ) (hne : phiP + phiG ≠ 0) : ∃ μ : Nat → Nat → Nat → ℝ,
    MeanPath m (points.length * (d * 2)) d c points velocities (inertia R phiP phiG (constInertia wt)) μ ∧
    ∀ n j, ∃ v : Nat → ℝ, Orbit wt ((phiP + phiG) * drawMean u m) ((phiP * entry points n j + phiG * entry points 0 j) / (phiP + phiG))
      (fun t => μ t n j) v ∧ v 0 = entry velocities n j ∧ μ 0 n j = entry points n j := by
  obtain ⟨μ, h1, h2⟩ := pulled_path hR m hm c d points velocities hs (inertia R phiP phiG (constInertia wt)) phiP phiG 1 wt hne (by
    intro s p best hb
    unfold inertia
    rw [hb]
    simp only [one_mul]
    rfl)
  simp only [one_mul] at h2
  exact ⟨μ, h1, h2⟩

include hR hm hs in
/-- C121 (exact arithmetic), InertiaVelocityCalculator with ConstInertia below 1: the same as long as the mean pull is below `2 (1 + w)`. -/
theorem C121_inertia (wt phiP phiG : ℝ) (hw0 : 0 ≤ wt) (hw1 : wt < 1) (hphi : 0 < (phiP + phiG) * drawMean u m)
    (hphi2 : (phiP + phiG) * drawMean u m < 2 * (1 + wt)) : ∃ μ : Nat → Nat → Nat → ℝ,
    MeanPath m (points.length * (d * 2)) d c points velocities (inertia R phiP phiG (constInertia wt)) μ ∧
    ∀ n < points.length, ∀ j < d,
      Tendsto (fun t => μ t n j) atTop (𝓝 ((phiP * entry points n j + phiG * entry points 0 j) / (phiP + phiG))) := by
  obtain ⟨μ, h1, h2⟩ := inertia_path hR m hm c d points velocities hs wt phiP phiG (by
    rintro h; rw [h, zero_mul] at hphi; exact lt_irrefl _ hphi)
  refine ⟨μ, h1, fun n _ j _ => ?_⟩
  obtain ⟨v, ho, -, -⟩ := h2 n j
  exact (ho.settles hw0 hw1 hphi hphi2).1

include hR hm hs in
/-- C121 (exact arithmetic), the same calculator pulled harder: if the particles start at rest, then the mean place of each of them runs away
geometrically, unless it starts on the weighted mean. -/
theorem C121_inertia_escapes (wt phiP phiG : ℝ) (hw0 : 0 ≤ wt) (hphi : 2 * (1 + wt) < (phiP + phiG) * drawMean u m)
    (hrest : ∀ n j, entry velocities n j = 0) : ∃ μ : Nat → Nat → Nat → ℝ,
    MeanPath m (points.length * (d * 2)) d c points velocities (inertia R phiP phiG (constInertia wt)) μ ∧
    1 < (phiP + phiG) * drawMean u m - 1 - 2 * wt ∧ ∀ n < points.length, ∀ j < d, ∀ t,
      ((phiP + phiG) * drawMean u m - 1 - 2 * wt) ^ t *
          |entry points n j - (phiP * entry points n j + phiG * entry points 0 j) / (phiP + phiG)| ≤
        |μ t n j - (phiP * entry points n j + phiG * entry points 0 j) / (phiP + phiG)| := by
  obtain ⟨μ, h1, h2⟩ := inertia_path hR m hm c d points velocities hs wt phiP phiG (by
    rintro h; rw [h, zero_mul] at hphi; linarith)
  refine ⟨μ, h1, by linarith, fun n _ j _ t => ?_⟩
  obtain ⟨v, ho, hv, hx⟩ := h2 n j
  have := ho.escapes hw0 hphi (by rw [hv, hrest]) t
  rw [hx] at this
  exact this

include hR hm hs in
/-- C121 (exact arithmetic), ClassicVelocityCalculator below the mean pull 4: the mean place of a particle stays within a bound and does not
converge to anything, unless the particle starts at rest on the weighted mean. -/
theorem C121_classic (phiP phiG : ℝ) (hphi : 0 < (phiP + phiG) * drawMean u m) (hphi2 : (phiP + phiG) * drawMean u m < 4) :
    ∃ μ : Nat → Nat → Nat → ℝ, MeanPath m (points.length * (d * 2)) d c points velocities (classic R phiP phiG) μ ∧
    ∀ n < points.length, ∀ j < d, (∃ bound, ∀ t, |μ t n j| ≤ bound) ∧ ((∃ L, Tendsto (fun t => μ t n j) atTop (𝓝 L)) →
      entry points n j = (phiP * entry points n j + phiG * entry points 0 j) / (phiP + phiG) ∧ entry velocities n j = 0) := by
  have hv' : classic R phiP phiG = inertia R phiP phiG (constInertia 1) := by
    funext S p s; exact (C45_inertia_one_exact R phiP phiG S p s).symm
  rw [hv']
  obtain ⟨μ, h1, h2⟩ := inertia_path hR m hm c d points velocities hs 1 phiP phiG (by
    rintro h; rw [h, zero_mul] at hphi; exact lt_irrefl _ hphi)
  refine ⟨μ, h1, fun n _ j _ => ?_⟩
  obtain ⟨v, ho, hv, hx⟩ := h2 n j
  obtain ⟨⟨b, hb⟩, h3⟩ := ho.circles hphi hphi2
  refine ⟨⟨b + |(phiP * entry points n j + phiG * entry points 0 j) / (phiP + phiG)|, fun t => ?_⟩, fun h => ?_⟩
  · have := abs_sub_abs_le_abs_sub (μ t n j) ((phiP * entry points n j + phiG * entry points 0 j) / (phiP + phiG))
    linarith [hb t]
  · obtain ⟨e1, e2⟩ := h3 h
    rw [hx] at e1
    rw [hv] at e2
    exact ⟨e1, e2⟩

end

theorem ends_mean : drawMean (fun k => if k = 0 then (Fl.zero : F32) else Fl.one) 2 = 1 / 2 := by
  unfold drawMean
  have h0 : value (Fl.zero : F32) = 0 := by simp [value]
  have h1 : value (Fl.one : F32) = 1 := by
    have : (Fmt.f32.D : ℝ) ≠ 0 := by
      have := Fmt.f32.D_pos
      positivity
    unfold value
    rw [Fl.toInt_one]
    push_cast
    exact div_self this
  rw [Finset.sum_range_succ, Finset.sum_range_one]
  show (value (Fl.zero : F32) + value (Fl.one : F32)) / ((2 : Nat) : ℝ) = 1 / 2
  rw [h0, h1]
  norm_num

theorem two_start : Start 1 [[0], [1]] [[0], [0]] :=
  ⟨by simp, rfl, by simp, by simp⟩

/-- Two particles at rest, at 0 and at 1, with the inertia 1/2: the mean place of the second one tends to 1/2. -/
example : ∃ μ : Nat → Nat → Nat → ℝ,
    MeanPath 2 4 1 Fl.zero [[0], [1]] [[0], [0]] (inertia endDraws 1 1 (constInertia (1 / 2))) μ ∧
    Tendsto (fun t => μ t 1 0) atTop (𝓝 (1 / 2)) := by
  obtain ⟨μ, h1, h2⟩ := C121_inertia (ends_unit Fmt.f32) 2 (by norm_num) Fl.zero 1 _ _ two_start (1 / 2) 1 1 (by norm_num) (by norm_num)
    (by rw [ends_mean]; norm_num) (by rw [ends_mean]; norm_num)
  refine ⟨μ, h1, ?_⟩
  have := h2 1 (by simp) 0 (by norm_num)
  have e : ((1 : ℝ) * entry [[0], [1]] 1 0 + 1 * entry [[0], [1]] 0 0) / (1 + 1) = 1 / 2 := by
    simp [entry]
    norm_num
  rwa [e] at this

/-- The same with the parameters 4 and 4 instead of 1 and 1: the mean place of the second one is at least `2 ^ t / 2` away from 1/2. -/
example : ∃ μ : Nat → Nat → Nat → ℝ,
    MeanPath 2 4 1 Fl.zero [[0], [1]] [[0], [0]] (inertia endDraws 4 4 (constInertia (1 / 2))) μ ∧
    ∀ t, 2 ^ t * (1 / 2) ≤ |μ t 1 0 - 1 / 2| := by
  obtain ⟨μ, h1, -, h2⟩ := C121_inertia_escapes (ends_unit Fmt.f32) 2 (by norm_num) Fl.zero 1 _ _ two_start (1 / 2) 4 4 (by norm_num)
    (by rw [ends_mean]; norm_num) (by
      intro n j
      match n with
      | 0 => match j with
        | 0 => simp [entry]
        | _ + 1 => simp [entry]
      | 1 => match j with
        | 0 => simp [entry]
        | _ + 1 => simp [entry]
      | _ + 2 => simp [entry])
  refine ⟨μ, h1, fun t => ?_⟩
  have := h2 1 (by simp) 0 (by norm_num) t
  rw [ends_mean] at this
  have e : ((4 : ℝ) * entry [[0], [1]] 1 0 + 4 * entry [[0], [1]] 0 0) / (4 + 4) = 1 / 2 := by
    simp [entry]
    norm_num
  rw [e] at this
  have e2 : entry [[0], [1]] 1 0 = 1 := by simp [entry]
  rw [e2] at this
  norm_num at this ⊢
  exact this

end Verif.Props
