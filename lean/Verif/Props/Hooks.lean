import Verif.Model.Hooks
import Verif.Spec.Intervals
import Verif.Spec.Speed
import Verif.IEEE.Algebra

/-!
# C42, C43, C44: the other hooks of the swarm
-/

namespace Verif.Props

open Verif Spec

variable {σ : Type} {f : Fmt}

/-! ## C42 -/

/-- C42: the constructor accepts exactly the probabilities from 0 to 1 (so not NaN) with intervals that are ordered and
finite. -/
theorem C42_constructor (ivs : List (Fl f × Fl f)) (p : F32) (s : σ) :
    ((Fl.zero.le p = true ∧ p.le Fl.one = true) →
      (∀ iv ∈ ivs, iv.1.le iv.2 = true ∧ iv.1.isFinite = true ∧ iv.2.isFinite = true) →
      Hooks.Teleport.new ivs p s = .ok (⟨ivs, p⟩, s)) ∧
    (¬ (Fl.zero.le p = true ∧ p.le Fl.one = true) → Hooks.Teleport.new ivs p s = .error .assert) ∧
    ((Fl.zero.le p = true ∧ p.le Fl.one = true) →
      (∃ iv ∈ ivs, ¬ (iv.1.le iv.2 = true ∧ iv.1.isFinite = true ∧ iv.2.isFinite = true)) →
      Hooks.Teleport.new ivs p s = .error .range) := by
  unfold Hooks.Teleport.new
  refine ⟨?_, ?_, ?_⟩
  · rintro ⟨h1, h2⟩ h3
    refine M.bind_eq_ok.2 ⟨(), s, M.assert_eq_ok.2 ⟨h1, rfl⟩, M.bind_eq_ok.2 ⟨(), s, M.assert_eq_ok.2 ⟨h2, rfl⟩, ?_⟩⟩
    have : (ivs.all fun iv => iv.1.le iv.2 && iv.1.isFinite && iv.2.isFinite) = true := by
      rw [List.all_eq_true]
      intro iv hiv
      obtain ⟨a, b, c⟩ := h3 iv hiv
      simp [a, b, c]
    rw [if_pos this]; rfl
  · intro h
    by_cases h1 : (Fl.zero : F32).le p = true
    · rw [M.bind_eq_error]; right
      refine ⟨(), s, M.assert_eq_ok.2 ⟨h1, rfl⟩, ?_⟩
      rw [M.bind_eq_error]; left
      have h2 : p.le Fl.one = false := by
        rw [← Bool.not_eq_true]; exact fun h2 => h ⟨h1, h2⟩
      simp [M.assert, h2, M.fail]
    · rw [M.bind_eq_error]; left
      rw [Bool.not_eq_true] at h1
      simp [M.assert, h1, M.fail]
  · rintro ⟨h1, h2⟩ ⟨iv, hiv, h3⟩
    rw [M.bind_eq_error]; right
    refine ⟨(), s, M.assert_eq_ok.2 ⟨h1, rfl⟩, ?_⟩
    rw [M.bind_eq_error]; right
    refine ⟨(), s, M.assert_eq_ok.2 ⟨h2, rfl⟩, ?_⟩
    have : (ivs.all fun iv => iv.1.le iv.2 && iv.1.isFinite && iv.2.isFinite) = false := by
      rw [← Bool.not_eq_true, List.all_eq_true]
      intro h
      have := h iv hiv
      simp only [Bool.and_eq_true] at this
      exact h3 ⟨this.1.1, this.1.2, this.2⟩
    rw [this]; rfl

/-- C42: a NaN probability is rejected. -/
theorem C42_nan (ivs : List (Fl f × Fl f)) (p : F32) (hp : p.isNan = true) (s : σ) :
    Hooks.Teleport.new ivs p s = .error .assert := by
  refine (C42_constructor ivs p s).2.1 ?_
  rintro ⟨h, -⟩
  rw [(Fl.le_iff.1 h).2.1] at hp
  cases hp

theorem teleport_ok {R : Rng σ} {t : Hooks.Teleport f} {xs ys : List (Fl f)} {s s' : σ}
    (h : Hooks.teleport R t xs s = .ok (ys, s')) : xs.length = t.intervals.length ∧
      ∃ rnd, Fl.zero.le rnd = true ∧ rnd.lt Fl.one = true ∧
      ((rnd.lt t.probability = true ∧ InBox t.intervals ys) ∨ (rnd.lt t.probability = false ∧ ys = xs)) := by
  unfold Hooks.teleport at h
  obtain ⟨u, s1, h1, h⟩ := M.bind_eq_ok.1 h
  obtain ⟨ha, rfl⟩ := M.assert_eq_ok.1 h1
  obtain ⟨rnd, s2, h2, h⟩ := M.bind_eq_ok.1 h
  obtain ⟨g1, g2, -, -⟩ := R.uniformFl_ok h2
  refine ⟨by simpa using ha, rnd, g1, g2, ?_⟩
  cases hl : rnd.lt t.probability with
  | true =>
    rw [hl] at h
    simp only [↓reduceIte] at h
    left
    refine ⟨rfl, M.mapL_forall₂ (R := InInterval) ?_ h⟩
    intro iv _ s x s' hx
    obtain ⟨a, b, c, d⟩ := R.uniformFlIncl_ok hx
    exact ⟨Fl.isFinite_of_between c d a b, a, b⟩
  | false =>
    rw [hl] at h
    simp only [Bool.false_eq_true, ↓reduceIte] at h
    exact .inr ⟨rfl, (M.pure_eq_ok.1 h).1.symm⟩

/-- C42: either all coordinates stay as they are or all are replaced by values inside the intervals. -/
theorem C42_all_or_nothing (R : Rng σ) (t : Hooks.Teleport f) (xs ys : List (Fl f)) (s s' : σ)
    (h : Hooks.teleport R t xs s = .ok (ys, s')) : ys.length = xs.length ∧ (ys = xs ∨ InBox t.intervals ys) := by
  obtain ⟨hl, rnd, -, -, ⟨-, hb⟩ | ⟨-, rfl⟩⟩ := teleport_ok h
  · exact ⟨by rw [hl]; exact hb.length_eq.symm, .inr hb⟩
  · exact ⟨rfl, .inl rfl⟩

/-- C42: with probability 0 the particle is never moved. -/
theorem C42_never (R : Rng σ) (t : Hooks.Teleport f) (hp : t.probability.feq Fl.zero = true) (xs ys : List (Fl f))
    (s s' : σ) (h : Hooks.teleport R t xs s = .ok (ys, s')) : ys = xs := by
  obtain ⟨-, rnd, h1, -, ⟨h2, -⟩ | ⟨-, rfl⟩⟩ := teleport_ok h
  · have a := Fl.le_iff.1 h1
    have b := Fl.lt_iff.1 h2
    have c := Fl.feq_iff.1 hp
    omega
  · rfl

/-- C42: with probability 1 it always is. -/
theorem C42_always (R : Rng σ) (t : Hooks.Teleport f) (hp : t.probability.feq Fl.one = true) (xs ys : List (Fl f))
    (s s' : σ) (h : Hooks.teleport R t xs s = .ok (ys, s')) : InBox t.intervals ys := by
  obtain ⟨-, rnd, -, h1, ⟨-, h2⟩ | ⟨h2, -⟩⟩ := teleport_ok h
  · exact h2
  · have a := Fl.lt_iff.1 h1
    have c := Fl.feq_iff.1 hp
    have b : rnd.lt t.probability = true := Fl.lt_iff.2 ⟨a.1, c.1, by omega⟩
    rw [b] at h2; cases h2

/-- C42: for every state of the random source the hook works on a point of the right dimension, and panics on any other. -/
theorem C42_total (R : Rng σ) (ivs : List (Fl f × Fl f)) (p : F32) (t : Hooks.Teleport f) (s0 s0' : σ)
    (ht : Hooks.Teleport.new ivs p s0 = .ok (t, s0')) (xs : List (Fl f)) (s : σ) :
    (xs.length = ivs.length → ∃ ys s', Hooks.teleport R t xs s = .ok (ys, s')) ∧
    (xs.length ≠ ivs.length → Hooks.teleport R t xs s = .error .assert) := by
  unfold Hooks.Teleport.new at ht
  obtain ⟨u, s1, h1, ht⟩ := M.bind_eq_ok.1 ht
  obtain ⟨u', s2, h2, ht⟩ := M.bind_eq_ok.1 ht
  split at ht
  · next hall =>
    obtain ⟨rfl, rfl⟩ := M.pure_eq_ok.1 ht
    unfold Hooks.teleport
    constructor
    · intro hl
      obtain ⟨rnd, s3, h3, -, -⟩ := R.uniformFl_tot (lo := (Fl.zero : F32)) (hi := Fl.one) (by decide)
        Fl.isFinite_zero Fl.isFinite_one s
      suffices hs : ∃ ys s', (if rnd.lt p = true then M.mapL (fun iv => R.uniformFlIncl iv.1 iv.2) ivs
          else pure xs : M σ (List (Fl f))) s3 = .ok (ys, s') by
        obtain ⟨ys, s', hs⟩ := hs
        exact ⟨ys, s', M.bind_eq_ok.2 ⟨(), s, M.assert_eq_ok.2 ⟨by simpa using hl, rfl⟩, M.bind_eq_ok.2 ⟨rnd, s3, h3, hs⟩⟩⟩
      split
      · obtain ⟨ys, s', hy, -⟩ := M.mapL_tot (f := fun iv : Fl f × Fl f => R.uniformFlIncl iv.1 iv.2)
          (R := fun _ _ => True) ivs s3 (by
            intro iv hiv s
            have := List.all_eq_true.1 hall iv hiv
            simp only [Bool.and_eq_true] at this
            obtain ⟨x, s', hx, -⟩ := R.uniformFlIncl_tot this.1.1 this.1.2 this.2 s
            exact ⟨x, s', hx, trivial⟩)
        exact ⟨ys, s', hy⟩
      · exact ⟨xs, s3, rfl⟩
    · intro hl
      rw [M.bind_eq_error]; left
      simp [M.assert, hl, M.fail]
  · simp [M.fail] at ht

/-- Probability 1 and 0, on one point and one script. -/
example : M.okAnd (Hooks.teleport Rng.script ⟨[((Fl.zero : F64), Fl.ofNat 10), (Fl.ofNat 1, Fl.ofNat 2)], Fl.one⟩
    [Fl.nan, Fl.ofNat 7] [0, 1, 0]) (fun ys _ => ys == [Fl.ofNat 10, Fl.ofNat 1]) = true := by decide +kernel

example : M.okAnd (Hooks.teleport Rng.script ⟨[((Fl.zero : F64), Fl.ofNat 10), (Fl.ofNat 1, Fl.ofNat 2)], Fl.zero⟩
    [Fl.ofNat 3, Fl.ofNat 7] [0, 1, 0]) (fun ys _ => ys == [Fl.ofNat 3, Fl.ofNat 7]) = true := by decide +kernel

/-! ## C43 -/

theorem limit_else {v m : Fl f} (hc : v.abs.le m = false) (hv : v.isNan = false) (hm : m.isNan = false) :
    Hooks.limitDim v m = Fl.mk' v.sgn m.idx := by
  unfold Hooks.limitDim
  simp only [FloatT.le, FloatT.abs, hc, Bool.false_eq_true, ↓reduceIte, FloatT.mul, FloatT.signum]
  unfold Fl.signum
  rw [hv]
  simp only [Bool.false_eq_true, ↓reduceIte]
  rw [Fl.mul_sone _ _ (by rw [Fl.isNan_abs]; exact hm), Fl.sgn_abs, Fl.idx_abs]
  simp

/-- C43: one component. It is kept if it is within the limit; otherwise it becomes the limit with the sign of the component, so
`|result| <= |max|` and the sign is kept; a NaN component (or a NaN limit) gives NaN. -/
theorem C43_component (v m : Fl f) :
    (v.abs.le m = true → Hooks.limitDim v m = v) ∧
    (v.isNan = false → m.isNan = false → (Hooks.limitDim v m).abs.le m.abs = true ∧
      (Hooks.limitDim v m).sgn = v.sgn ∧ (v.abs.le m = false → (Hooks.limitDim v m).abs = m.abs)) ∧
    (v.isNan = true ∨ m.isNan = true → (Hooks.limitDim v m).isNan = true) := by
  refine ⟨?_, ?_, ?_⟩
  · intro h; unfold Hooks.limitDim; simp [FloatT.le, FloatT.abs, h]
  · intro hv hm
    cases hc : v.abs.le m with
    | true =>
      have e : Hooks.limitDim v m = v := by unfold Hooks.limitDim; simp [FloatT.le, FloatT.abs, hc]
      rw [e]
      refine ⟨?_, rfl, by simp⟩
      have := Fl.le_iff.1 hc
      rw [Fl.le_iff, Fl.isNan_abs, Fl.isNan_abs, Fl.toInt_abs, Fl.toInt_abs]
      rw [Fl.toInt_abs] at this
      exact ⟨hv, hm, by omega⟩
    | false =>
      rw [limit_else hc hv hm]
      have e : (Fl.mk' v.sgn m.idx).abs = m.abs := by
        unfold Fl.abs; rw [Fl.idx_mk' _ m.idx_lt]
      rw [e]
      exact ⟨Fl.le_refl (by rw [Fl.isNan_abs]; exact hm), Fl.sgn_mk' _ m.idx_lt, fun _ => rfl⟩
  · intro h
    have hc : v.abs.le m = false := by
      rw [← Bool.not_eq_true, Fl.le_iff, Fl.isNan_abs]
      rintro ⟨h1, h2, -⟩
      rcases h with h | h
      · rw [h1] at h; cases h
      · rw [h2] at h; cases h
    unfold Hooks.limitDim
    simp only [FloatT.le, FloatT.abs, hc, Bool.false_eq_true, ↓reduceIte, FloatT.mul, FloatT.signum]
    rcases h with h | h
    · rw [Fl.isNan_mul_right _ _ (by unfold Fl.signum; rw [h]; exact Fl.isNan_nan)]; exact Fl.isNan_nan
    · rw [Fl.isNan_mul_left _ _ (by rw [Fl.isNan_abs]; exact h)]; exact Fl.isNan_nan

/-- C43: the hook panics exactly when the lengths differ; otherwise it returns one component for each component. -/
theorem C43_hook (vMax v : List (Fl f)) (s : σ) :
    (v.length ≠ vMax.length → Hooks.maxVelocityDimensions vMax v s = .error .assert) ∧
    (v.length = vMax.length → ∃ r, Hooks.maxVelocityDimensions vMax v s = .ok (r, s) ∧ r.length = v.length ∧
      ∀ i (h1 : i < r.length) (h2 : i < v.length) (h3 : i < vMax.length),
        (v[i].abs.le vMax[i] = true → r[i] = v[i]) ∧
        (v[i].isNan = false → vMax[i].isNan = false → r[i].abs.le vMax[i].abs = true ∧ r[i].sgn = v[i].sgn ∧
          (v[i].abs.le vMax[i] = false → r[i].abs = vMax[i].abs)) ∧
        (v[i].isNan = true ∨ vMax[i].isNan = true → r[i].isNan = true)) := by
  constructor
  · intro h
    unfold Hooks.maxVelocityDimensions
    rw [M.bind_eq_error]; left
    simp [M.assert, h, M.fail]
  · intro h
    refine ⟨_, M.bind_eq_ok.2 ⟨(), s, M.assert_eq_ok.2 ⟨by simpa using h, rfl⟩, rfl⟩, by simp [h], ?_⟩
    intro i h1 h2 h3
    rw [List.getElem_zipWith]
    exact C43_component v[i] vMax[i]

/-- Too fast, fast enough, infinitely fast, NaN. -/
example : M.okAnd (Hooks.maxVelocityDimensions (σ := Unit) (List.replicate 5 (Fl.ofNat 10 : F32))
    [Fl.ofInt (-15), Fl.ofNat 5, Fl.inf true, Fl.nan, Fl.ofNat 11] ())
    (fun ys _ => ys == [Fl.ofInt (-10), Fl.ofNat 5, Fl.ofInt (-10), Fl.nan, Fl.ofNat 10]) = true := by decide +kernel

/-! ## C44 -/

theorem foldl_sq (v : List ℝ) (a : ℝ) :
    v.foldl (fun acc vi => FloatT.add acc (FloatT.mul vi vi)) a = a + (v.map (fun x => x ^ 2)).sum := by
  induction v generalizing a with
  | nil => simp
  | cons x v ih =>
    rw [List.foldl_cons, ih, List.map_cons, List.sum_cons]
    simp only [FloatT.add, FloatT.mul]; ring

theorem velocityAbs_real (v : List ℝ) : Hooks.velocityAbs v = length₂ v := by
  unfold Hooks.velocityAbs length₂
  rw [foldl_sq]
  simp only [FloatT.sqrt, FloatT.zero, zero_add]

theorem length_scale (v : List ℝ) (c : ℝ) (hc : 0 ≤ c) : length₂ (v.map (c * ·)) = c * length₂ v := by
  unfold length₂
  have : ((v.map (c * ·)).map (fun x => x ^ 2)).sum = c ^ 2 * (v.map (fun x => x ^ 2)).sum := by
    induction v with
    | nil => simp
    | cons x v ih => simp only [List.map_cons, List.sum_cons] at ih ⊢; rw [ih]; ring
  rw [this, Real.sqrt_mul (by positivity), Real.sqrt_sq hc]

/-- C44, exact arithmetic: the result is the velocity times a factor from 0 to 1 and its length is the smaller of the length and
the limit; a non-zero limit keeps the direction. -/
theorem C44_exact (m : ℝ) (hm : 0 ≤ m) (v : List ℝ) (s : σ) :
    ∃ r c, Hooks.maxVelocityAbs m v s = .ok (r, s) ∧ r = v.map (c * ·) ∧ 0 ≤ c ∧ c ≤ 1 ∧ (0 < m → 0 < c) ∧
      length₂ r = min (length₂ v) m := by
  unfold Hooks.maxVelocityAbs
  rw [velocityAbs_real]
  simp only [FloatT.lt, FloatT.mul, FloatT.div]
  by_cases h : m < length₂ v
  · have hpos : 0 < length₂ v := lt_of_le_of_lt hm h
    refine ⟨v.map ((m / length₂ v) * ·), m / length₂ v, ?_, rfl, by positivity, (div_le_one hpos).2 h.le,
      fun h => by positivity, ?_⟩
    · rw [if_pos (by simpa using h)]
      simp only [M.pure_run]
      congr 2
      apply List.map_congr_left
      intro x _
      ring
    · rw [length_scale _ _ (by positivity), min_eq_right h.le, div_mul_cancel₀ _ hpos.ne']
  · refine ⟨v, 1, ?_, by simp, by norm_num, le_rfl, fun _ => by norm_num, by rw [min_eq_left (not_lt.1 h)]⟩
    rw [if_neg (by simpa using h)]; rfl

example : (0 : ℝ) < 2 ∧ length₂ [3, 4] = 5 := by
  refine ⟨by norm_num, ?_⟩
  unfold length₂
  rw [show ([3, 4] : List ℝ).map (fun x => x ^ 2) = [9, 16] by norm_num]
  rw [show ([9, 16] : List ℝ).sum = 5 ^ 2 by norm_num]
  exact Real.sqrt_sq (by norm_num)

/-- C44, floats: the hook never panics and keeps the dimension; a velocity whose computed length is not above the limit is
returned unchanged (also when the length or the limit is NaN). -/
theorem C44_total (m : Fl f) (v : List (Fl f)) (s : σ) :
    ∃ r, Hooks.maxVelocityAbs m v s = .ok (r, s) ∧ r.length = v.length ∧
      (m.lt (Hooks.velocityAbs v) = false → r = v) ∧
      (m.lt (Hooks.velocityAbs v) = true → r = v.map (fun x => (x.mul m).div (Hooks.velocityAbs v))) := by
  unfold Hooks.maxVelocityAbs
  simp only [FloatT.lt, FloatT.mul, FloatT.div]
  cases h : m.lt (Hooks.velocityAbs v) with
  | true => exact ⟨_, rfl, by simp, by simp, by simp⟩
  | false => exact ⟨v, rfl, rfl, by simp, by simp⟩

/-- C44, floats: a computed length that is infinite turns every component into zero or NaN. -/
theorem C44_overflow (m : Fl f) (v r : List (Fl f)) (s s' : σ) (h : Hooks.maxVelocityAbs m v s = .ok (r, s'))
    (hi : (Hooks.velocityAbs v).isInf = true) (hm : m.isFinite = true) :
    ∀ x ∈ r, x.isNan = true ∨ x.isZero = true := by
  obtain ⟨r', h1, -, -, h2⟩ := C44_total m v s
  rw [h] at h1; cases h1
  have hn : (Hooks.velocityAbs v).isNan = false := by rw [Fl.not_isNan_iff, Fl.isInf_iff.1 hi]
  have hs : (Hooks.velocityAbs v).sgn = false := by
    by_contra hc
    rw [Bool.not_eq_false] at hc
    unfold Hooks.velocityAbs at hc hi
    simp only [FloatT.sqrt] at hc hi
    unfold Fl.sqrt at hc hi
    split_ifs at hc hi with c1 c2 c3 c4
    · rw [Fl.isInf_iff] at hi
      have := Fl.isNan_nan (f := f)
      rw [Fl.isNan_iff] at this; omega
    · rw [Fl.isInf_iff] at hi
      rw [Fl.isZero_iff] at c2
      have := f.infIdx_pos; omega
    · rw [Fl.isInf_iff] at hi
      have := Fl.isNan_nan (f := f)
      rw [Fl.isNan_iff] at this; omega
    · exact c3 hc
    · rw [Fl.sgn_round] at hc; cases hc
  have hlt : m.lt (Hooks.velocityAbs v) = true := by
    rw [Fl.lt_iff]
    refine ⟨Fl.isNan_of_isFinite hm, hn, ?_⟩
    have h1 := Fl.isFinite_iff_toInt.1 hm
    have h2 : (Hooks.velocityAbs v).toInt = f.mag f.infIdx := by
      unfold Fl.toInt; rw [hs, Fl.isInf_iff.1 hi]; rfl
    omega
  intro x hx
  rw [h2 hlt] at hx
  obtain ⟨y, -, rfl⟩ := List.mem_map.1 hx
  exact Fl.div_inf _ _ hi

/-- The length of (2e200, 1) overflows in `f64`; the large component becomes NaN or 0. -/
example : (Hooks.velocityAbs [(Fl.ofNat (2 * 10 ^ 200) : F64), Fl.one]).isInf = true ∧
    M.okAnd (Hooks.maxVelocityAbs (σ := Unit) (Fl.ofNat 3 : F64) [Fl.ofNat (2 * 10 ^ 200), Fl.one] ())
      (fun r _ => r == [Fl.zero, Fl.zero]) = true ∧
    M.okAnd (Hooks.maxVelocityAbs (σ := Unit) (Fl.ofNat (10 ^ 120) : F64) [Fl.ofNat (2 * 10 ^ 200), Fl.one] ())
      (fun r _ => r == [Fl.nan, Fl.zero]) = true := by decide +kernel

end Verif.Props
