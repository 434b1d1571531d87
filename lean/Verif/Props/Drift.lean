import Verif.Proofs.Drift
import Mathlib.Algebra.BigOperators.Intervals

/-!
# C120: where a particle is drawn on average
-/

namespace Verif.Props

open Verif Spec Velocity PSO

theorem meanVector_mapL {g : Fmt} (u : Nat → Fl g) (m : Nat) (hm : 0 < m) (n d : Nat) (f : Nat → M (List Nat) ℝ) (c : Nat → ℝ) (as : Nat → List ℝ)
    (hl : ∀ i, (as i).length = n)
    (h : ∀ i < d, Uses (f i) (List.replicate n m) (fun t => c i + (List.zipWith (fun a k => a * value (u k)) (as i) t).sum)) :
    MeanVector (List.replicate (d * n) m) (M.mapL f (List.range d)) ((List.range d).map fun i => c i + (as i).sum * drawMean u m) ∧
    VarianceVector (List.replicate (d * n) m) (M.mapL f (List.range d))
      ((List.range d).map fun i => ((as i).map (· ^ 2)).sum * drawVariance u m) := by
  have hp : 0 < (List.replicate n m).prod := by rw [List.prod_replicate]; exact Nat.pow_pos hm
  obtain ⟨V, h1, h2, -, h4⟩ := uses_mapL hp (List.range d) (fun i hi => h i (List.mem_range.1 hi))
  rw [List.length_range, List.flatten_replicate_replicate] at h1 h4
  have hmean : ∀ j i, (List.range d)[j]? = some i →
      realMean (List.replicate (d * n) m) (fun t => (V t).getD j 0) = c i + (as i).sum * drawMean u m := by
    intro j i hi
    rw [h4 (fun x => x) j i hi]
    have := realMean_linear u m hm (as i) (c i)
    rwa [hl] at this
  refine ⟨⟨V, fun draws hd => ⟨(h1.whole (mem_tapes.1 hd) _).2 rfl, by simp [h2]⟩, ?_⟩,
    ⟨V, fun draws hd => ⟨(h1.whole (mem_tapes.1 hd) _).2 rfl, by simp [h2]⟩, ?_⟩⟩
  · intro j x hx
    rw [List.getElem?_map, Option.map_eq_some_iff] at hx
    obtain ⟨i, hi, rfl⟩ := hx
    exact hmean j i hi
  · intro j x hx
    rw [List.getElem?_map, Option.map_eq_some_iff] at hx
    obtain ⟨i, hi, rfl⟩ := hx
    rw [hmean j i hi, h4 (fun x => (x - (c i + (as i).sum * drawMean u m)) ^ 2) j i hi]
    have := realMean_square u m hm (as i) (c i - (c i + (as i).sum * drawMean u m))
    rw [hl] at this
    refine Eq.trans (realMean_congr fun t _ => ?_) (this.trans ?_)
    · ring
    · ring

theorem index_getD {σ : Type} {l : List ℝ} {i : Nat} (h : i < l.length) (s : σ) : M.index l i s = .ok (l.getD i 0, s) := by
  have := List.getElem?_eq_getElem h
  refine M.index_eq_ok.2 ⟨?_, rfl⟩
  rw [List.getD_eq_getElem?_getD, this]
  rfl

theorem f32_unit : (Fl.zero : F32).le Fl.one = true ∧ (Fl.zero : F64).le Fl.one = true := by decide +kernel

section

variable {R : Rng (List Nat)} {u : Nat → F32} (hR : UnitDraws R Fmt.f32 u) (m : Nat) (hm : 0 < m) (s : Swarm ℝ) (p best : Particle ℝ)
  (hb : s.best = some best) (hv : p.velocity.length = p.coordinates.length) (hpb : p.bestCoords.length = p.coordinates.length)
  (hgb : best.coordinates.length = p.coordinates.length)

include hR hm hv hpb hgb in
/-- The common text of the calculators with two random numbers -/
theorem two_terms (phiP phiG a b : ℝ) : MeanVector (List.replicate (p.coordinates.length * 2) m)
    (M.mapL (fun i => do
      let rP : ℝ ← draw01 R Fmt.f32
      let rG : ℝ ← draw01 R Fmt.f32
      let v ← M.index p.velocity i
      let pb ← M.index p.bestCoords i
      let x ← M.index p.coordinates i
      let gb ← M.index best.coordinates i
      pure (a * (b * v + phiP * rP * (pb - x) + phiG * rG * (gb - x)))) (List.range p.coordinates.length))
    ((List.range p.coordinates.length).map fun i => a * (b * p.velocity.getD i 0 +
      phiP * drawMean u m * (p.bestCoords.getD i 0 - p.coordinates.getD i 0) +
      phiG * drawMean u m * (best.coordinates.getD i 0 - p.coordinates.getD i 0))) ∧
    VarianceVector (List.replicate (p.coordinates.length * 2) m)
    (M.mapL (fun i => do
      let rP : ℝ ← draw01 R Fmt.f32
      let rG : ℝ ← draw01 R Fmt.f32
      let v ← M.index p.velocity i
      let pb ← M.index p.bestCoords i
      let x ← M.index p.coordinates i
      let gb ← M.index best.coordinates i
      pure (a * (b * v + phiP * rP * (pb - x) + phiG * rG * (gb - x)))) (List.range p.coordinates.length))
    ((List.range p.coordinates.length).map fun i => a ^ 2 * drawVariance u m *
      ((phiP * (p.bestCoords.getD i 0 - p.coordinates.getD i 0)) ^ 2 + (phiG * (best.coordinates.getD i 0 - p.coordinates.getD i 0)) ^ 2)) := by
  have := meanVector_mapL u m hm 2 p.coordinates.length (fun i => do
      let rP : ℝ ← draw01 R Fmt.f32
      let rG : ℝ ← draw01 R Fmt.f32
      let v ← M.index p.velocity i
      let pb ← M.index p.bestCoords i
      let x ← M.index p.coordinates i
      let gb ← M.index best.coordinates i
      pure (a * (b * v + phiP * rP * (pb - x) + phiG * rG * (gb - x))))
    (fun i => a * (b * p.velocity.getD i 0))
    (fun i => [a * phiP * (p.bestCoords.getD i 0 - p.coordinates.getD i 0), a * phiG * (best.coordinates.getD i 0 - p.coordinates.getD i 0)])
    (fun _ => rfl) (by
      intro i hi ds rest hd
      cases hd with
      | @cons d1 _ ds _ _ hd =>
        cases hd with
        | @cons d2 _ ds _ _ hd =>
          cases hd
          refine M.bind_eq_ok.2 ⟨_, d2 :: rest, uses_draw01 hR f32_unit.1 Fl.isFinite_one Fl.isFinite_zero _ _, ?_⟩
          refine M.bind_eq_ok.2 ⟨_, rest, uses_draw01 hR f32_unit.1 Fl.isFinite_one Fl.isFinite_zero _ _, ?_⟩
          refine M.bind_eq_ok.2 ⟨_, _, index_getD (by omega) _, ?_⟩
          refine M.bind_eq_ok.2 ⟨_, _, index_getD (by omega) _, ?_⟩
          refine M.bind_eq_ok.2 ⟨_, _, index_getD (by omega) _, ?_⟩
          refine M.bind_eq_ok.2 ⟨_, _, index_getD (by omega) _, ?_⟩
          refine M.pure_eq_ok.2 ⟨?_, rfl⟩
          simp only [List.zipWith_cons_cons, List.zipWith_nil_left, List.sum_cons, List.sum_nil]
          ring)
  refine ⟨Eq.mp (congrArg (MeanVector _ _) (List.map_congr_left fun i _ => ?_)) this.1,
    Eq.mp (congrArg (VarianceVector _ _) (List.map_congr_left fun i _ => ?_)) this.2⟩
  · simp only [List.sum_cons, List.sum_nil]
    ring
  · simp only [List.map_cons, List.map_nil, List.sum_cons, List.sum_nil]
    ring

include hR hm hb hv hpb hgb in
/-- C120 (exact arithmetic): the mean and the variance of the new velocity of ClassicVelocityCalculator -/
theorem C120_classic (phiP phiG : ℝ) : MeanVector (List.replicate (p.coordinates.length * 2) m) (classic R phiP phiG s p)
    ((List.range p.coordinates.length).map fun i => p.velocity.getD i 0 +
      phiP * drawMean u m * (p.bestCoords.getD i 0 - p.coordinates.getD i 0) +
      phiG * drawMean u m * (best.coordinates.getD i 0 - p.coordinates.getD i 0)) ∧
    VarianceVector (List.replicate (p.coordinates.length * 2) m) (classic R phiP phiG s p)
    ((List.range p.coordinates.length).map fun i => drawVariance u m *
      ((phiP * (p.bestCoords.getD i 0 - p.coordinates.getD i 0)) ^ 2 + (phiG * (best.coordinates.getD i 0 - p.coordinates.getD i 0)) ^ 2)) := by
  have h := two_terms hR m hm p best hv hpb hgb phiP phiG 1 1
  simp only [one_mul, one_pow] at h
  unfold classic
  rw [hb]
  exact h

include hR hm hb hv hpb hgb in
/-- C120 (exact arithmetic): the mean and the variance of the new velocity of CanonicalVelocityCalculator -/
theorem C120_canonical (c : Canonical ℝ) : MeanVector (List.replicate (p.coordinates.length * 2) m) (canonical R c s p)
    ((List.range p.coordinates.length).map fun i => c.xi * (p.velocity.getD i 0 +
      c.phiP * drawMean u m * (p.bestCoords.getD i 0 - p.coordinates.getD i 0) +
      c.phiG * drawMean u m * (best.coordinates.getD i 0 - p.coordinates.getD i 0))) ∧
    VarianceVector (List.replicate (p.coordinates.length * 2) m) (canonical R c s p)
    ((List.range p.coordinates.length).map fun i => c.xi ^ 2 * drawVariance u m *
      ((c.phiP * (p.bestCoords.getD i 0 - p.coordinates.getD i 0)) ^ 2 + (c.phiG * (best.coordinates.getD i 0 - p.coordinates.getD i 0)) ^ 2)) := by
  have h := two_terms hR m hm p best hv hpb hgb c.phiP c.phiG c.xi 1
  simp only [one_mul, one_pow] at h
  unfold canonical
  rw [hb]
  exact h

include hR hm hb hv hpb hgb in
/-- C120 (exact arithmetic): the mean and the variance of the new velocity of InertiaVelocityCalculator, whose inertia has the value `w` in this iteration -/
theorem C120_inertia (phiP phiG w : ℝ) (get : Nat → M (List Nat) ℝ) (hw : get s.iteration = pure w) :
    MeanVector (List.replicate (p.coordinates.length * 2) m) (inertia R phiP phiG get s p)
    ((List.range p.coordinates.length).map fun i => w * p.velocity.getD i 0 +
      phiP * drawMean u m * (p.bestCoords.getD i 0 - p.coordinates.getD i 0) +
      phiG * drawMean u m * (best.coordinates.getD i 0 - p.coordinates.getD i 0)) ∧
    VarianceVector (List.replicate (p.coordinates.length * 2) m) (inertia R phiP phiG get s p)
    ((List.range p.coordinates.length).map fun i => drawVariance u m *
      ((phiP * (p.bestCoords.getD i 0 - p.coordinates.getD i 0)) ^ 2 + (phiG * (best.coordinates.getD i 0 - p.coordinates.getD i 0)) ^ 2)) := by
  have h := two_terms hR m hm p best hv hpb hgb phiP phiG 1 w
  simp only [one_mul, one_pow] at h
  unfold inertia
  rw [hb, hw]
  exact h

end

/-- C120 (exact arithmetic): the mean and the variance of the new velocity of NegativeReinforcement: drawn to the three best points, pushed away from the
three worst ones -/
theorem C120_negative {R : Rng (List Nat)} {u : Nat → F64} (hR : UnitDraws R Fmt.f64 u) (m : Nat) (hm : 0 < m) (c : NegReinf ℝ) (s : Swarm ℝ)
    (p bg bc wg wc : Particle ℝ) (h1 : s.best = some bg) (h2 : s.currentBest = some bc) (h3 : s.worst = some wg) (h4 : s.currentWorst = some wc)
    (hv : p.velocity.length = p.coordinates.length) (hpb : p.bestCoords.length = p.coordinates.length)
    (hpw : p.worstCoords.length = p.coordinates.length) (hbg : bg.coordinates.length = p.coordinates.length)
    (hbc : bc.coordinates.length = p.coordinates.length) (hwg : wg.coordinates.length = p.coordinates.length)
    (hwc : wc.coordinates.length = p.coordinates.length) :
    MeanVector (List.replicate (p.coordinates.length * 6) m) (negReinf R c s p)
    ((List.range p.coordinates.length).map fun i =>
      let x := p.coordinates.getD i 0
      c.xi * (p.velocity.getD i 0 + drawMean u m *
        (c.phiBestPersonal * (p.bestCoords.getD i 0 - x) + c.phiBestCurrent * (bc.coordinates.getD i 0 - x) +
          c.phiBestGlobal * (bg.coordinates.getD i 0 - x) -
        (c.phiWorstPersonal * (p.worstCoords.getD i 0 - x) + c.phiWorstCurrent * (wc.coordinates.getD i 0 - x) +
          c.phiWorstGlobal * (wg.coordinates.getD i 0 - x))))) ∧
    VarianceVector (List.replicate (p.coordinates.length * 6) m) (negReinf R c s p)
    ((List.range p.coordinates.length).map fun i =>
      let x := p.coordinates.getD i 0
      c.xi ^ 2 * drawVariance u m *
        ((c.phiBestPersonal * (p.bestCoords.getD i 0 - x)) ^ 2 + (c.phiBestCurrent * (bc.coordinates.getD i 0 - x)) ^ 2 +
          (c.phiBestGlobal * (bg.coordinates.getD i 0 - x)) ^ 2 +
        ((c.phiWorstPersonal * (p.worstCoords.getD i 0 - x)) ^ 2 + (c.phiWorstCurrent * (wc.coordinates.getD i 0 - x)) ^ 2 +
          (c.phiWorstGlobal * (wg.coordinates.getD i 0 - x)) ^ 2))) := by
  unfold negReinf
  rw [h1, h2, h3, h4]
  have := meanVector_mapL u m hm 6 p.coordinates.length (fun i => do
      let rBestGlobal : ℝ ← draw01 R Fmt.f64
      let rBestCurrent : ℝ ← draw01 R Fmt.f64
      let rBestPersonal : ℝ ← draw01 R Fmt.f64
      let rWorstGlobal : ℝ ← draw01 R Fmt.f64
      let rWorstCurrent : ℝ ← draw01 R Fmt.f64
      let rWorstPersonal : ℝ ← draw01 R Fmt.f64
      let bp ← M.index p.bestCoords i
      let x ← M.index p.coordinates i
      let bcx ← M.index bc.coordinates i
      let bgx ← M.index bg.coordinates i
      let wp ← M.index p.worstCoords i
      let wcx ← M.index wc.coordinates i
      let wgx ← M.index wg.coordinates i
      let v ← M.index p.velocity i
      pure (c.xi * (v + c.phiBestPersonal * rBestPersonal * (bp - x) + c.phiBestCurrent * rBestCurrent * (bcx - x) +
        c.phiBestGlobal * rBestGlobal * (bgx - x) - c.phiWorstPersonal * rWorstPersonal * (wp - x) -
        c.phiWorstCurrent * rWorstCurrent * (wcx - x) - c.phiWorstGlobal * rWorstGlobal * (wgx - x))))
    (fun i => c.xi * p.velocity.getD i 0)
    (fun i => let x := p.coordinates.getD i 0
      [c.xi * c.phiBestGlobal * (bg.coordinates.getD i 0 - x), c.xi * c.phiBestCurrent * (bc.coordinates.getD i 0 - x),
       c.xi * c.phiBestPersonal * (p.bestCoords.getD i 0 - x), -(c.xi * c.phiWorstGlobal * (wg.coordinates.getD i 0 - x)),
       -(c.xi * c.phiWorstCurrent * (wc.coordinates.getD i 0 - x)), -(c.xi * c.phiWorstPersonal * (p.worstCoords.getD i 0 - x))])
    (fun _ => rfl) (by
      intro i hi ds rest hd
      obtain ⟨d1, d2, d3, d4, d5, d6, rfl⟩ : ∃ d1 d2 d3 d4 d5 d6, ds = [d1, d2, d3, d4, d5, d6] := by
        have := hd.length_eq
        match ds, this with
        | [d1, d2, d3, d4, d5, d6], _ => exact ⟨_, _, _, _, _, _, rfl⟩
      have hdraw := fun k rest => uses_draw01 hR f32_unit.2 Fl.isFinite_one Fl.isFinite_zero k rest
      refine M.bind_eq_ok.2 ⟨_, _, hdraw _ _, ?_⟩
      refine M.bind_eq_ok.2 ⟨_, _, hdraw _ _, ?_⟩
      refine M.bind_eq_ok.2 ⟨_, _, hdraw _ _, ?_⟩
      refine M.bind_eq_ok.2 ⟨_, _, hdraw _ _, ?_⟩
      refine M.bind_eq_ok.2 ⟨_, _, hdraw _ _, ?_⟩
      refine M.bind_eq_ok.2 ⟨_, _, hdraw _ _, ?_⟩
      iterate 8 refine M.bind_eq_ok.2 ⟨_, _, index_getD (by omega) _, ?_⟩
      refine M.pure_eq_ok.2 ⟨?_, rfl⟩
      simp only [List.zipWith_cons_cons, List.zipWith_nil_left, List.sum_cons, List.sum_nil]
      ring)
  refine ⟨Eq.mp (congrArg (MeanVector _ _) (List.map_congr_left fun i _ => ?_)) this.1,
    Eq.mp (congrArg (VarianceVector _ _) (List.map_congr_left fun i _ => ?_)) this.2⟩
  · simp only [List.sum_cons, List.sum_nil]
    ring
  · simp only [List.map_cons, List.map_nil, List.sum_cons, List.sum_nil]
    ring

/-- C120: if the draws are evenly spread from 0 to 1, up to `δ`, then their mean is 1/2, up to `δ`. -/
theorem C120_half {g : Fmt} (u : Nat → Fl g) (m : Nat) (hm : 1 < m) (δ : ℝ)
    (he : ∀ k < m, |value (u k) - k / (m - 1 : ℝ)| ≤ δ) : |drawMean u m - 1 / 2| ≤ δ := by
  have hm1 : (1 : ℝ) < m := by exact_mod_cast hm
  have hs : (∑ k ∈ Finset.range m, (k : ℝ) / (m - 1 : ℝ)) = m / 2 := by
    rw [← Finset.sum_div]
    have h := Finset.sum_range_id_mul_two m
    have h2 := congrArg (Nat.cast : ℕ → ℝ) h
    rw [Nat.cast_mul, Nat.cast_sum, Nat.cast_mul, Nat.cast_sub hm.le] at h2
    push_cast at h2
    rw [div_eq_div_iff (by linarith) (by norm_num)]
    exact h2
  have e : drawMean u m - 1 / 2 = (∑ k ∈ Finset.range m, (value (u k) - k / (m - 1 : ℝ))) / m := by
    rw [Finset.sum_sub_distrib, hs, sub_div]
    unfold drawMean
    field_simp
  rw [e, abs_div, abs_of_pos (show (0 : ℝ) < m by linarith), div_le_iff₀ (by linarith)]
  refine (Finset.abs_sum_le_sum_abs _ _).trans ((Finset.sum_le_sum fun k hk => he k (Finset.mem_range.1 hk)).trans ?_)
  rw [Finset.sum_const, Finset.card_range, nsmul_eq_mul, mul_comm]

/-- C120: draws that are spread evenly from 0 to 1 without rounding have a variance of a little more than 1/12. -/
theorem C120_twelfth {g : Fmt} (u : Nat → Fl g) (m : Nat) (hm : 1 < m) (he : ∀ k < m, value (u k) = k / (m - 1 : ℝ)) :
    drawMean u m = 1 / 2 ∧ drawVariance u m = (m + 1) / (12 * (m - 1)) := by
  have hm1 : (1 : ℝ) < m := by exact_mod_cast hm
  have h2 : drawMean u m = 1 / 2 := by
    have := C120_half u m hm 0 (fun k hk => by rw [he k hk]; simp)
    have := abs_eq_zero.1 (le_antisymm this (abs_nonneg _))
    linarith
  refine ⟨h2, ?_⟩
  have h := drawVariance_eq u m (by omega)
  rw [h2] at h
  have hs : ∀ n : Nat, (∑ k ∈ Finset.range n, (k : ℝ) ^ 2) = (n - 1) * n * (2 * n - 1) / 6 := by
    intro n
    induction n with
    | zero => simp
    | succ n ih => rw [Finset.sum_range_succ, ih]; push_cast; ring
  have e : (∑ k ∈ Finset.range m, value (u k) ^ 2) = (m : ℝ) * (2 * m - 1) / (6 * (m - 1)) := by
    rw [Finset.sum_congr rfl (g := fun k : Nat => (k : ℝ) ^ 2 / (m - 1 : ℝ) ^ 2) (fun k hk => by rw [he k (Finset.mem_range.1 hk), div_pow]),
      ← Finset.sum_div, hs]
    have : (m - 1 : ℝ) ≠ 0 := by linarith
    field_simp
  rw [e] at h
  have : (m - 1 : ℝ) ≠ 0 := by linarith
  have hm0 : (m : ℝ) ≠ 0 := by linarith
  have h3 : drawVariance u m = (m : ℝ) * (2 * m - 1) / (6 * (m - 1)) / m - (1 / 2) ^ 2 := by linarith
  rw [h3]
  field_simp
  ring

/-- A source of random numbers that draws only the bounds -/
def endDraws : Rng (List Nat) where
  nat := Rng.script.nat
  natIncl := Rng.script.natIncl
  fl := Rng.script.fl
  flIncl lo hi s := (if s.headD 0 = 0 then lo else hi, s.tail)
  nat_range := Rng.script.nat_range
  natIncl_range := Rng.script.natIncl_range
  fl_range := Rng.script.fl_range
  flIncl_range lo hi s h h1 h2 := by
    dsimp only
    split
    · exact ⟨Fl.le_iff.2 ⟨Fl.isNan_of_isFinite h1, Fl.isNan_of_isFinite h1, _root_.le_refl _⟩, h⟩
    · exact ⟨h, Fl.le_iff.2 ⟨Fl.isNan_of_isFinite h2, Fl.isNan_of_isFinite h2, _root_.le_refl _⟩⟩

theorem ends_unit (g : Fmt) : UnitDraws endDraws g (fun k => if k = 0 then Fl.zero else Fl.one) := fun _ _ => rfl

/-- A particle at 0 with the velocity 1, its own best point 2 and the best point 4 of the swarm: the mean of the new velocity is
1 + (2 - 0) / 2 + (4 - 0) / 2. -/
example (s : Swarm ℝ) (x : F64) (hs : s.best = some ⟨[4], [0], x, [4], x, [4], x⟩) :
    MeanVector [2, 2] (classic endDraws 1 1 s ⟨[0], [1], x, [2], x, [0], x⟩) [4] := by
  have h := (C120_classic (ends_unit Fmt.f32) 2 (by norm_num) s ⟨[0], [1], x, [2], x, [0], x⟩ _ hs rfl rfl rfl 1 1).1
  have e : drawMean (fun k => if k = 0 then (Fl.zero : F32) else Fl.one) 2 = 1 / 2 := by
    unfold drawMean
    have h0 : value (Fl.zero : F32) = 0 := by simp [value]
    have h1 : value (Fl.one : F32) = 1 := by
      have : (Fmt.f32.D : ℝ) ≠ 0 := by
        have := Fmt.f32.D_pos
        positivity
      unfold value
      rw [Fl.toInt_one]
      push_cast
      exact div_self this
    rw [Finset.sum_range_succ, Finset.sum_range_one]
    show (value (Fl.zero : F32) + value (Fl.one : F32)) / ((2 : Nat) : ℝ) = 1 / 2
    rw [h0, h1]
    norm_num
  rw [e] at h
  have e2 : (1 : ℝ) + 1 * (1 / 2) * (2 - 0) + 1 * (1 / 2) * (4 - 0) = 4 := by norm_num
  rw [← e2]
  exact h

end Verif.Props
