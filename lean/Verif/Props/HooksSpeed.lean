import Verif.Props.Hooks
import Verif.IEEE.Error

/-!
# C44: rounding in MaxVelocityAbs
-/

namespace Verif.Fmt

variable (f : Fmt)

theorem rnd_abs (q : ℝ) : |(f.rnd q : ℝ)| = f.rnd |q| := by
  rcases le_total 0 q with h | h
  · rw [abs_of_nonneg h, abs_of_nonneg (by exact_mod_cast f.rnd_nonneg h)]
  · rw [abs_of_nonpos h, abs_of_nonpos (by exact_mod_cast f.rnd_nonpos h), f.rnd_neg]
    push_cast; rfl

/-- Rounding at most doubles. -/
theorem rnd_le_double {q : ℝ} (h : 0 ≤ q) : (f.rnd q : ℝ) ≤ 2 * q := by
  rcases le_or_gt ((2 : ℝ) ^ f.mw) q with hq | hq
  · have := f.rnd_le_rel hq
    have h2 : (1 : ℝ) / 2 ^ (f.mw + 1) ≤ 1 := by
      rw [div_le_one (by positivity)]
      exact one_le_pow₀ (by norm_num)
    nlinarith
  · rcases lt_or_ge q (1 / 2) with h1 | h1
    · have h0 : f.mag 0 = 0 := f.mag_zero
      have h01 : f.mag (0 + 1) = 1 := by rw [f.mag_small]; exact Nat.one_le_two_pow
      have hi : f.ridx q = 0 := by
        unfold ridx
        have hfl : ⌊2 * q⌋₊ = 0 := Nat.floor_eq_zero.2 (by linarith)
        rw [hfl, roundIdx_eq]
        have : f.floorIdx (0 / 2) = 0 := by
          apply f.floorIdx_unique
          · simp
          · rw [h01]; decide
        simp only [roundRaw, this]
        rw [h01, h0, if_pos (by decide)]
        simp
      rw [f.rnd_of_nonneg h, hi, h0]
      simp; linarith
    · -- between 1/2 and 2^mw the gap is 1
      obtain ⟨g1, g2⟩ := f.floorIdx_spec ⌊q⌋₊
      have hk : ⌊q⌋₊ < 2 ^ f.mw := (Nat.floor_lt h).2 (by exact_mod_cast hq)
      have e1 : f.mag ⌊q⌋₊ = ⌊q⌋₊ := f.mag_small (by rw [pow_succ]; omega)
      have e2 : f.mag (⌊q⌋₊ + 1) = ⌊q⌋₊ + 1 := f.mag_small (by rw [pow_succ]; omega)
      have := f.rnd_le_half (q := q) (k := ⌊q⌋₊) (by rw [e1]; exact Nat.floor_le h)
        (by rw [e2]; push_cast; exact Nat.lt_floor_add_one q)
      rw [e1, e2] at this
      push_cast at this
      linarith

end Verif.Fmt

namespace Verif.Props

open Verif Spec

variable {σ : Type} {f : Fmt}

/-- The computed sum of squares. -/
abbrev sumSq (a : Fl f) (v : List (Fl f)) : Fl f := v.foldl (fun acc vi => acc.add (vi.mul vi)) a

theorem sumSq_finite : ∀ {v : List (Fl f)} {a : Fl f}, (sumSq a v).isFinite = true →
    a.isFinite = true ∧ ∀ x ∈ v, x.isFinite = true := by
  intro v
  induction v with
  | nil => intro a h; exact ⟨h, by simp⟩
  | cons y v ih =>
    intro a h
    obtain ⟨h1, h2⟩ := ih (a := a.add (y.mul y)) h
    obtain ⟨h3, h4⟩ := Fl.finite_of_add h1
    refine ⟨h3, ?_⟩
    intro x hx
    rcases List.mem_cons.1 hx with rfl | hx
    · exact (Fl.finite_of_mul h4).1
    · exact h2 x hx

theorem sq_nonneg' {x : Fl f} (h : x.isFinite = true) : 0 ≤ (x.mul x).toInt := by
  rw [(Fl.mul_rounds h h).2]
  exact f.rnd_nonneg (div_nonneg (mul_self_nonneg _) (by positivity))

theorem sumSq_ge : ∀ {v : List (Fl f)} {a : Fl f}, (sumSq a v).isFinite = true → 0 ≤ a.toInt →
    a.toInt ≤ (sumSq a v).toInt ∧ ∀ x ∈ v, (x.mul x).toInt ≤ (sumSq a v).toInt := by
  intro v
  induction v with
  | nil => intro a _ _; exact ⟨le_rfl, by simp⟩
  | cons y v ih =>
    intro a h h0
    obtain ⟨h1, h2⟩ := sumSq_finite (a := a.add (y.mul y)) h
    obtain ⟨ha, hy2⟩ := Fl.finite_of_add h1
    obtain ⟨hy, -⟩ := Fl.finite_of_mul hy2
    have hs := sq_nonneg' hy
    have hr := Fl.add_rounds ha hy2
    have e1 := Fl.le_iff.1 (hr.ge (Fl.isNan_of_isFinite ha) (by
      have : (0 : ℝ) ≤ (y.mul y).toInt := by exact_mod_cast hs
      linarith))
    have e2 := Fl.le_iff.1 (hr.ge (Fl.isNan_of_isFinite hy2) (by
      have : (0 : ℝ) ≤ a.toInt := by exact_mod_cast h0
      linarith))
    obtain ⟨g1, g2⟩ := ih (a := a.add (y.mul y)) h (by omega)
    refine ⟨le_trans e1.2.2 g1, ?_⟩
    intro x hx
    rcases List.mem_cons.1 hx with rfl | hx
    · exact le_trans e2.2.2 g1
    · exact g2 x hx

theorem velocityAbs_fl (v : List (Fl f)) : Hooks.velocityAbs v = (sumSq Fl.zero v).sqrt := rfl

theorem abs_le_of_rnd {z : Fl f} (hz : z.isNan = false) : (f.rnd |(z.toInt : ℝ)| : ℝ) = |(z.toInt : ℝ)| := by
  rw [← f.rnd_abs, Fl.rnd_toInt hz]

/-- The facts about one rescaled component. `a`, `M`, `N` are the absolute values of the component, the limit and the computed length
in units; `P` is the absolute value of the computed product. -/
theorem rescale (m : Fl f) (v : List (Fl f)) (hm : 0 ≤ m.toInt) (hlt : m.lt (Hooks.velocityAbs v) = true)
    (hn : (Hooks.velocityAbs v).isFinite = true) (x : Fl f) (hx : x ∈ v) :
    x.isFinite = true ∧ m.isFinite = true ∧ (x.mul m).isFinite = true ∧ 0 < (Hooks.velocityAbs v).toInt := by
  have hS := Fl.finite_of_sqrt (velocityAbs_fl v ▸ hn)
  obtain ⟨-, hfin⟩ := sumSq_finite hS
  obtain ⟨hS0, hsq⟩ := sumSq_ge hS (by simp)
  rw [Fl.toInt_zero] at hS0
  have hx' := hfin x hx
  have hl := Fl.lt_iff.1 hlt
  have hmf : m.isFinite = true := by
    rw [Fl.isFinite_iff_toInt] at hn ⊢; omega
  refine ⟨hx', hmf, ?_, by omega⟩
  have hr := Fl.sqrt_rounds hS hS0
  rw [← velocityAbs_fl] at hr
  have hD : (0 : ℝ) < f.D := by exact_mod_cast f.D_pos
  have hMR : (0 : ℝ) ≤ m.toInt := by exact_mod_cast hm
  have hSR : (0 : ℝ) ≤ (sumSq Fl.zero v).toInt := by exact_mod_cast hS0
  have hM : (m.toInt : ℝ) ≤ Real.sqrt ((sumSq Fl.zero v).toInt * f.D) := by
    by_contra hc
    have := Fl.le_iff.1 (hr.le hl.1 (le_of_lt (not_le.1 hc)))
    omega
  have key : (f.rnd |(x.toInt : ℝ) * m.toInt / f.D| : ℝ) ≤ (sumSq Fl.zero v).toInt := by
    rw [abs_div, abs_mul, abs_of_nonneg hMR, abs_of_pos hD]
    rcases le_or_gt |(x.toInt : ℝ)| (Real.sqrt ((sumSq Fl.zero v).toInt * f.D)) with h | h
    · rw [show ((sumSq Fl.zero v).toInt : ℝ) = (f.rnd ((sumSq Fl.zero v).toInt : ℝ) : ℝ) by
        rw [Fl.rnd_toInt (Fl.isNan_of_isFinite hS)]]
      have : |(x.toInt : ℝ)| * m.toInt / f.D ≤ (sumSq Fl.zero v).toInt := by
        rw [div_le_iff₀ hD]
        calc |(x.toInt : ℝ)| * m.toInt ≤ Real.sqrt ((sumSq Fl.zero v).toInt * f.D) *
              Real.sqrt ((sumSq Fl.zero v).toInt * f.D) := mul_le_mul h hM hMR (Real.sqrt_nonneg _)
          _ = _ := Real.mul_self_sqrt (by positivity)
      exact_mod_cast f.rnd_mono this
    · have h1 : (f.rnd (Real.sqrt ((sumSq Fl.zero v).toInt * f.D)) : ℝ) ≤ |(x.toInt : ℝ)| := by
        rw [← abs_le_of_rnd (Fl.isNan_of_isFinite hx')]
        exact_mod_cast f.rnd_mono h.le
      have h2 : (m.toInt : ℝ) ≤ |(x.toInt : ℝ)| := by
        refine le_trans ?_ h1
        rw [← hr.2]
        exact_mod_cast hl.2.2.le
      have h3 : |(x.toInt : ℝ)| * m.toInt / f.D ≤ (x.toInt : ℝ) * x.toInt / f.D := by
        rw [div_le_div_iff_of_pos_right hD, ← abs_mul_abs_self (x.toInt : ℝ)]
        exact mul_le_mul_of_nonneg_left h2 (abs_nonneg _)
      have h4 := f.rnd_mono h3
      rw [← (Fl.mul_rounds hx' hx').2] at h4
      have := hsq x hx
      exact_mod_cast le_trans h4 this
  have hp := Fl.mul_rounds hx' hmf
  rw [Fl.isFinite_iff_toInt, hp.2]
  rw [← f.rnd_abs] at key
  have h5 := Fl.isFinite_iff_toInt.1 hS
  have h6 : |f.rnd ((x.toInt : ℝ) * m.toInt / f.D)| ≤ (sumSq Fl.zero v).toInt := by exact_mod_cast key
  rw [Int.abs_eq_natAbs] at h6
  omega

/-- C44, floats: when the computed length is finite and above the limit (which is not negative), no component becomes NaN or changes
its sign, none becomes more than twice as large, and a component moves away from zero only if its product with the limit
underflows. -/
theorem C44_shrinks (m : Fl f) (v r : List (Fl f)) (s s' : σ) (h : Hooks.maxVelocityAbs m v s = .ok (r, s'))
    (hm : Fl.zero.le m = true) (hlt : m.lt (Hooks.velocityAbs v) = true)
    (hn : (Hooks.velocityAbs v).isFinite = true) (i : Nat) (h1 : i < r.length) (h2 : i < v.length) :
    r[i].isNan = false ∧ (0 ≤ value v[i] → 0 ≤ value r[i]) ∧ (value v[i] ≤ 0 → value r[i] ≤ 0) ∧
    |value r[i]| ≤ 2 * |value v[i]| ∧
    (minNormal f ≤ |value v[i] * value m| → |value r[i]| ≤ |value v[i]|) := by
  obtain ⟨r', e1, -, -, e2⟩ := C44_total m v s
  rw [h] at e1; cases e1
  have e3 := e2 hlt
  subst e3
  rw [List.getElem_map]
  set x := v[i] with hxd
  have hm0 : 0 ≤ m.toInt := by have := Fl.le_iff.1 hm; simpa using this.2.2
  obtain ⟨hx, hmf, hpf, hN⟩ := rescale m v hm0 hlt hn x (List.getElem_mem _)
  have hl := Fl.lt_iff.1 hlt
  have hq := Fl.mul_rounds hx hmf
  have hr := Fl.div_rounds hpf hn (by omega)
  set N := Hooks.velocityAbs v with hNd
  have hD : (0 : ℝ) < f.D := by exact_mod_cast f.D_pos
  have hMR : (0 : ℝ) ≤ m.toInt := by exact_mod_cast hm0
  have hNR : (0 : ℝ) < N.toInt := by exact_mod_cast hN
  have hMN : (m.toInt : ℝ) ≤ N.toInt * (1 - 1 / 2 ^ (f.mw + 1)) := by
    have a1 : m.toInt = f.mag m.idx := by have := Fl.natAbs_toInt m; omega
    have a2 : N.toInt = f.mag N.idx := by have := Fl.natAbs_toInt N; omega
    have a3 : m.idx < N.idx := f.mag_lt_mag.1 (by omega)
    rw [a1, a2]
    exact_mod_cast f.mag_lt_rel a3
  have hu : (0 : ℝ) < 1 / 2 ^ (f.mw + 1) := by positivity
  -- absolute values in units
  have hP : |((x.mul m).toInt : ℝ)| = f.rnd (|(x.toInt : ℝ)| * m.toInt / f.D) := by
    rw [hq.2, f.rnd_abs, abs_div, abs_mul, abs_of_nonneg hMR, abs_of_pos hD]
  have hR : |(((x.mul m).div N).toInt : ℝ)| = f.rnd (|((x.mul m).toInt : ℝ)| * f.D / N.toInt) := by
    rw [hr.2, f.rnd_abs, abs_div, abs_mul, abs_of_pos hD, abs_of_pos hNR]
  have hval : ∀ y : Fl f, |value y| = |(y.toInt : ℝ)| / f.D := by
    intro y; unfold value; rw [abs_div, abs_of_pos hD]
  refine ⟨hr.1, ?_, ?_, ?_, ?_⟩
  · intro hv
    unfold value at hv ⊢
    have hv' : (0 : ℝ) ≤ x.toInt := by
      by_contra hc
      exact absurd hv (not_le.2 (div_neg_of_neg_of_pos (not_le.1 hc) hD))
    have hp0 : 0 ≤ (x.mul m).toInt := by rw [hq.2]; exact f.rnd_nonneg (by positivity)
    have hp0R : (0 : ℝ) ≤ (x.mul m).toInt := by exact_mod_cast hp0
    have : 0 ≤ ((x.mul m).div N).toInt := by rw [hr.2]; exact f.rnd_nonneg (by positivity)
    have : (0 : ℝ) ≤ ((x.mul m).div N).toInt := by exact_mod_cast this
    positivity
  · intro hv
    unfold value at hv ⊢
    have hv' : (x.toInt : ℝ) ≤ 0 := by
      by_contra hc
      exact absurd hv (not_le.2 (div_pos (not_le.1 hc) hD))
    have hp0 : (x.mul m).toInt ≤ 0 := by
      rw [hq.2]
      exact f.rnd_nonpos (div_nonpos_of_nonpos_of_nonneg (mul_nonpos_of_nonpos_of_nonneg hv' hMR) hD.le)
    have hp0R : ((x.mul m).toInt : ℝ) ≤ 0 := by exact_mod_cast hp0
    have : ((x.mul m).div N).toInt ≤ 0 := by
      rw [hr.2]
      exact f.rnd_nonpos (div_nonpos_of_nonpos_of_nonneg (mul_nonpos_of_nonpos_of_nonneg hp0R hD.le) hNR.le)
    have : (((x.mul m).div N).toInt : ℝ) ≤ 0 := by exact_mod_cast this
    exact div_nonpos_of_nonpos_of_nonneg this hD.le
  · have hp2 := f.rnd_le_double (q := |(x.toInt : ℝ)| * m.toInt / f.D) (by positivity)
    rw [← hP] at hp2
    have b1 : |((x.mul m).toInt : ℝ)| * f.D / N.toInt ≤ 2 * |(x.toInt : ℝ)| := by
      rw [div_le_iff₀ hNR]
      have : |((x.mul m).toInt : ℝ)| * f.D ≤ 2 * (|(x.toInt : ℝ)| * m.toInt) := by
        calc _ ≤ 2 * (|(x.toInt : ℝ)| * m.toInt / f.D) * f.D := mul_le_mul_of_nonneg_right hp2 hD.le
          _ = _ := by field_simp
      have c : (m.toInt : ℝ) ≤ N.toInt := by exact_mod_cast hl.2.2.le
      nlinarith [abs_nonneg (x.toInt : ℝ)]
    have b2 : f.rnd (|((x.mul m).toInt : ℝ)| * f.D / N.toInt) ≤ 2 * x.abs.toInt := by
      have hxn : (2 : ℝ) * (x.abs.toInt : ℝ) = 2 * |(x.toInt : ℝ)| := by
        rw [Fl.toInt_abs, ← Int.cast_abs, Int.abs_eq_natAbs]
      by_cases hfin : (f.rnd (|((x.mul m).toInt : ℝ)| * f.D / N.toInt)).natAbs < f.mag f.infIdx
      · exact f.rnd_le_two_mul (x := x.abs) (by rw [Fl.isNan_abs]; exact Fl.isNan_of_isFinite hx) hfin
          (by rw [hxn]; exact b1)
      · -- the quotient cannot overflow unless twice the component does
        have c0 : f.rnd (|((x.mul m).toInt : ℝ)| * f.D / N.toInt) ≤ f.rnd (2 * |(x.toInt : ℝ)|) := f.rnd_mono b1
        obtain ⟨j, hj⟩ := f.mag_double x.idx
        have c1 : (2 : ℝ) * |(x.toInt : ℝ)| = (f.mag j : ℝ) := by
          rw [hj]
          have := Fl.natAbs_toInt x
          rw [← Int.cast_abs, Int.abs_eq_natAbs, this]; push_cast; ring
        rcases Nat.lt_or_ge f.infIdx j with c2 | c2
        · have d1 : f.rnd (|((x.mul m).toInt : ℝ)| * f.D / N.toInt) ≤ f.mag f.infIdx := by
            rw [f.rnd_of_nonneg (by positivity)]
            exact_mod_cast f.mag_le_mag.2 (f.ridx_le_inf _)
          have d2 := f.mag_lt_mag.2 c2
          rw [hj] at d2
          rw [Fl.toInt_abs, Fl.natAbs_toInt]
          omega
        · rw [c1, f.rnd_mag c2, hj] at c0
          rw [Fl.toInt_abs, Fl.natAbs_toInt]
          push_cast at c0 ⊢
          exact c0
    rw [hval, hval, hR, ← mul_div_assoc]
    refine div_le_div_of_nonneg_right ?_ hD.le
    have b3 : ((f.rnd (|((x.mul m).toInt : ℝ)| * f.D / N.toInt) : ℤ) : ℝ) ≤ ((2 * x.abs.toInt : ℤ) : ℝ) := by
      exact_mod_cast b2
    refine le_trans b3 (le_of_eq ?_)
    rw [Fl.toInt_abs, ← Int.cast_abs, Int.abs_eq_natAbs]; push_cast; ring
  · intro hbig
    have hb : (2 : ℝ) ^ f.mw ≤ |(x.toInt : ℝ)| * m.toInt / f.D := by
      unfold minNormal value at hbig
      rw [abs_mul, abs_div, abs_div, abs_of_pos hD, abs_of_nonneg hMR, div_le_iff₀ hD] at hbig
      calc _ ≤ _ := hbig
        _ = _ := by field_simp
    have hp := f.rnd_le_rel hb
    rw [← hP] at hp
    rw [hval, hval, hR]
    refine div_le_div_of_nonneg_right ?_ hD.le
    have b1 : |((x.mul m).toInt : ℝ)| * f.D / N.toInt ≤ |(x.toInt : ℝ)| := by
      rw [div_le_iff₀ hNR]
      have hxa := abs_nonneg (x.toInt : ℝ)
      calc |((x.mul m).toInt : ℝ)| * f.D ≤ |(x.toInt : ℝ)| * m.toInt / f.D * (1 + 1 / 2 ^ (f.mw + 1)) * f.D :=
            mul_le_mul_of_nonneg_right hp hD.le
        _ = |(x.toInt : ℝ)| * (m.toInt * (1 + 1 / 2 ^ (f.mw + 1))) := by field_simp
        _ ≤ |(x.toInt : ℝ)| * N.toInt := by
            refine mul_le_mul_of_nonneg_left ?_ hxa
            generalize (1 : ℝ) / 2 ^ (f.mw + 1) = u at hMN hu
            calc (m.toInt : ℝ) * (1 + u) ≤ N.toInt * (1 - u) * (1 + u) :=
                  mul_le_mul_of_nonneg_right hMN (by linarith)
              _ = N.toInt - N.toInt * u ^ 2 := by ring
              _ ≤ N.toInt := by
                  have : (0 : ℝ) ≤ N.toInt * u ^ 2 := by positivity
                  linarith
    rw [← abs_le_of_rnd (Fl.isNan_of_isFinite hx)]
    exact_mod_cast f.rnd_mono b1

/-- The hypotheses are met by an ordinary velocity, and the product is far from underflow. -/
example : M.okAnd (Hooks.maxVelocityAbs (σ := Unit) (Fl.ofNat 10 : F32) [Fl.ofNat 15, Fl.ofInt (-15)] ()) (fun r _ =>
      r.length == 2 && r.all Fl.isFinite) = true ∧
    (Fl.zero : F32).le (Fl.ofNat 10) = true ∧
    (Fl.ofNat 10 : F32).lt (Hooks.velocityAbs [(Fl.ofNat 15 : F32), Fl.ofInt (-15)]) = true ∧
    (Hooks.velocityAbs [(Fl.ofNat 15 : F32), Fl.ofInt (-15)]).isFinite = true := by decide +kernel

/-- C44: the restriction on underflow is needed. The component 1.5 * 2^-600 of a velocity of length 2^-475 becomes 2^-599 when the limit is
the float below that length. -/
theorem C44_underflow : ∃ (m : F64) (v r : List F64), Hooks.maxVelocityAbs (σ := Unit) m v () = .ok (r, ()) ∧
    Fl.zero.le m = true ∧ m.lt (Hooks.velocityAbs v) = true ∧ (Hooks.velocityAbs v).isFinite = true ∧
    ∃ a b, v[0]? = some a ∧ r[0]? = some b ∧ a.abs.lt b.abs = true := by
  refine ⟨Fl.mk' false (548 * 2 ^ 52 - 1), [Fl.mk' false (423 * 2 ^ 52 + 2 ^ 51), Fl.mk' false (548 * 2 ^ 52)],
    [Fl.mk' false (424 * 2 ^ 52), Fl.mk' false (548 * 2 ^ 52 - 1)], ?_, ?_, ?_, ?_,
    Fl.mk' false (423 * 2 ^ 52 + 2 ^ 51), Fl.mk' false (424 * 2 ^ 52), rfl, rfl, ?_⟩ <;> decide +kernel

end Verif.Props
