import Verif.Props.Velocity

/-!
# C46, C47: the inertia weight and the constriction factor
-/

set_option linter.unusedSectionVars false

namespace Verif.Fl

variable {f : Fmt}

theorem toInt_abs_le {x : Fl f} (h : x.isNan = false) : x.toInt.natAbs ≤ f.mag f.infIdx := by
  rw [natAbs_toInt]; exact f.mag_le_mag.2 (not_isNan_iff.1 h)

theorem toInt_inf' {x : Fl f} (h : x.isInf = true) : x.toInt.natAbs = f.mag f.infIdx := by
  rw [natAbs_toInt, isInf_iff.1 h]

theorem isFinite_or_inf {x : Fl f} (h : x.isNan = false) : x.isFinite = true ∨ x.isInf = true := by
  cases hi : x.isInf with
  | true => exact .inr rfl
  | false => exact .inl (finite_of_not h hi)

theorem toInt_inf (s : Bool) : (inf s : Fl f).toInt = if s then -(f.mag f.infIdx : ℤ) else f.mag f.infIdx := by
  unfold toInt; rw [sgn_inf, idx_inf]

/-- Division by a positive finite number keeps the order. -/
theorem div_mono {a b t : Fl f} (h : a.le b = true) (ht : t.isFinite = true) (h0 : 0 < t.toInt) :
    (a.div t).le (b.div t) = true := by
  obtain ⟨ha, hb, hab⟩ := le_iff.1 h
  have htn := isNan_of_isFinite ht
  have hti := isInf_of_isFinite ht
  have hts := sgn_of_toInt_pos h0
  have hM := f.mag_pos.2 f.infIdx_pos
  have key : ∀ x : Fl f, x.isInf = true → x.isNan = false → x.div t = inf x.sgn := by
    intro x hx hxn
    unfold div
    simp [hxn, htn, hx, hti, hts]
  rcases isFinite_or_inf ha with haf | hai <;> rcases isFinite_or_inf hb with hbf | hbi
  · refine (div_rounds haf ht h0.ne').mono (div_rounds hbf ht h0.ne') ?_
    have h1 : (0 : ℝ) < t.toInt := by exact_mod_cast h0
    have h2 : (a.toInt : ℝ) ≤ b.toInt := by exact_mod_cast hab
    have hD : (0 : ℝ) ≤ f.D := by positivity
    gcongr
  · have hr := div_rounds haf ht h0.ne'
    have hbs : b.sgn = false := by
      by_contra hc
      have hs : b.sgn = true := by simpa using hc
      have h1 := toInt_nonpos_of_sgn hs
      have h2 := toInt_inf' hbi
      have h3 := isFinite_iff_toInt.1 haf
      omega
    rw [key b hbi hb, le_iff, toInt_inf, hbs]
    have := toInt_abs_le hr.1
    refine ⟨hr.1, isNan_inf _, ?_⟩
    simp only [Bool.false_eq_true, ↓reduceIte]; omega
  · have hr := div_rounds hbf ht h0.ne'
    have has : a.sgn = true := by
      by_contra hc
      have hs : a.sgn = false := by simpa using hc
      have h1 := toInt_nonneg_of_sgn hs
      have h2 := toInt_inf' hai
      have h3 := isFinite_iff_toInt.1 hbf
      omega
    rw [key a hai ha, le_iff, toInt_inf, has]
    have := toInt_abs_le hr.1
    refine ⟨isNan_inf _, hr.1, ?_⟩
    simp only [↓reduceIte]; omega
  · rw [key a hai ha, key b hbi hb, le_iff, toInt_inf, toInt_inf]
    refine ⟨isNan_inf _, isNan_inf _, ?_⟩
    cases has : a.sgn <;> cases hbs : b.sgn <;> simp only [Bool.false_eq_true, ↓reduceIte] <;> try omega
    have h1 := toInt_nonneg_of_sgn has
    have h2 := toInt_nonpos_of_sgn hbs
    have h3 := toInt_inf' hai
    have h4 := toInt_inf' hbi
    omega

theorem sub_inf {w x : Fl f} (hw : w.isFinite = true) (hx : x.isInf = true) (hn : x.isNan = false) : w.sub x = x.neg := by
  unfold sub add
  simp [isNan_of_isFinite hw, isInf_of_isFinite hw, isNan_neg, isInf_neg, hx, hn]

theorem sub_notNan {w x : Fl f} (hw : w.isFinite = true) (hn : x.isNan = false) : (w.sub x).isNan = false := by
  rcases isFinite_or_inf hn with h | h
  · exact (sub_rounds hw h).1
  · rw [sub_inf hw h hn, isNan_neg, hn]

/-- Subtraction from a finite number reverses the order. -/
theorem sub_anti {w a b : Fl f} (hw : w.isFinite = true) (h : a.le b = true) : (w.sub b).le (w.sub a) = true := by
  obtain ⟨ha, hb, hab⟩ := le_iff.1 h
  have na := sub_notNan hw ha
  have nb := sub_notNan hw hb
  have la := toInt_abs_le na
  have lb := toInt_abs_le nb
  rcases isFinite_or_inf ha with haf | hai <;> rcases isFinite_or_inf hb with hbf | hbi
  · refine (sub_rounds hw hbf).mono (sub_rounds hw haf) ?_
    have h2 : (a.toInt : ℝ) ≤ b.toInt := by exact_mod_cast hab
    linarith
  · rw [le_iff]
    refine ⟨nb, na, ?_⟩
    rw [sub_inf hw hbi hb, toInt_neg]
    have h2 := toInt_inf' hbi
    have h3 := isFinite_iff_toInt.1 haf
    omega
  · rw [le_iff]
    refine ⟨nb, na, ?_⟩
    rw [sub_inf hw hai ha, toInt_neg]
    have h2 := toInt_inf' hai
    have h3 := isFinite_iff_toInt.1 hbf
    omega
  · rw [le_iff]
    refine ⟨nb, na, ?_⟩
    rw [sub_inf hw hai ha, sub_inf hw hbi hb, toInt_neg, toInt_neg]
    omega

theorem ofNat_mono {m n : Nat} (h : m ≤ n) : (ofNat m : Fl f).le (ofNat n) = true := by
  refine (ofNat_rounds m).mono (ofNat_rounds n) ?_
  have : (m : ℝ) ≤ n := by exact_mod_cast h
  gcongr

theorem ofNat_nonneg (n : Nat) : 0 ≤ (ofNat n : Fl f).toInt := by
  rw [(ofNat_rounds n).2]; exact f.rnd_nonneg (by positivity)

theorem ofNat_pos {n : Nat} (h : 0 < n) : 0 < (ofNat n : Fl f).toInt := by
  have h1 := (ofNat_exact (f := f) (n := 1) (by have := two_le_pow (f := f); omega) (lt_pow_bias (by omega))).1
  have h2 := (le_iff.1 (ofNat_mono (f := f) h)).2.2
  have := f.D_pos
  push_cast at h1
  change (ofNat 1 : Fl f).toInt ≤ _ at h2
  omega

/-- Every `usize` is finite in `f32` and `f64`: in general if `2^64` is below the largest number. -/
theorem ofNat_finite {n : Nat} (h : n < 2 ^ 64) (hf : 64 ≤ f.bias) : (ofNat n : Fl f).isFinite = true := by
  have hr := ofNat_rounds (f := f) n
  rw [isFinite_of_rounds hr]
  have hlt : 1 * 2 ^ (64 + (f.bias + f.mw - 1)) < f.mag f.infIdx := by
    rw [f.mag_inf_eq]
    have hD : f.D = 2 ^ (f.bias + f.mw - 1) := rfl
    rw [hD, one_mul, ← pow_add]
    exact Nat.pow_lt_pow_right (by omega) (by omega)
  have he := f.rnd_short (v := 1) (e := 64 + (f.bias + f.mw - 1)) (by have := two_le_pow (f := f); omega) hlt.le
  have h1 : (n : ℝ) * f.D ≤ ((1 * 2 ^ (64 + (f.bias + f.mw - 1)) : ℕ) : ℝ) := by
    have hD : f.D = 2 ^ (f.bias + f.mw - 1) := rfl
    have : n * f.D ≤ 1 * 2 ^ (64 + (f.bias + f.mw - 1)) := by
      rw [one_mul, pow_add, hD]; exact Nat.mul_le_mul_right _ h.le
    exact_mod_cast this
  have h2 := f.rnd_mono h1
  rw [he] at h2
  have h3 : 0 ≤ f.rnd ((n : ℝ) * f.D) := f.rnd_nonneg (by positivity)
  omega

end Verif.Fl

namespace Verif.Props

open Verif Spec PSO Velocity

variable {σ : Type}

/-! ## C46 LinearInertia -/

/-- C46 in exact arithmetic: from `wMax` at the start down to `wMin` at `tMax`, between the two up to there, strictly falling,
below `wMin` afterwards. -/
theorem C46_exact (wMin wMax : ℝ) (h : wMin ≤ wMax) (tMax : Nat) (ht : 0 < tMax) :
    linearInertia wMin wMax tMax 0 = wMax ∧ linearInertia wMin wMax tMax tMax = wMin ∧
      (∀ i, i ≤ tMax → wMin ≤ linearInertia wMin wMax tMax i ∧ linearInertia wMin wMax tMax i ≤ wMax) ∧
      (∀ i j, i ≤ j → linearInertia wMin wMax tMax j ≤ linearInertia wMin wMax tMax i) ∧
      (wMin < wMax → ∀ i j, i < j → linearInertia wMin wMax tMax j < linearInertia wMin wMax tMax i) ∧
      (wMin < wMax → ∀ i, tMax < i → linearInertia wMin wMax tMax i < wMin) := by
  have ht' : (0 : ℝ) < tMax := by exact_mod_cast ht
  have e : ∀ i, linearInertia wMin wMax tMax i = wMax - (wMax - wMin) * (i : ℝ) / (tMax : ℝ) := fun i => rfl
  have hd : 0 ≤ wMax - wMin := by linarith
  have emax : linearInertia wMin wMax tMax tMax = wMin := by rw [e, mul_div_assoc, div_self ht'.ne']; ring
  have anti : ∀ i j, i ≤ j → linearInertia wMin wMax tMax j ≤ linearInertia wMin wMax tMax i := by
    intro i j hij
    have : (i : ℝ) ≤ j := by exact_mod_cast hij
    rw [e, e]
    gcongr
  have e0 : linearInertia wMin wMax tMax 0 = wMax := by rw [e]; simp
  have santi : wMin < wMax → ∀ i j, i < j → linearInertia wMin wMax tMax j < linearInertia wMin wMax tMax i := by
    intro hlt i j hij
    have : (i : ℝ) < j := by exact_mod_cast hij
    have hd' : 0 < wMax - wMin := by linarith
    rw [e, e]
    gcongr
  refine ⟨e0, emax, ?_, anti, santi, ?_⟩
  · intro i hi
    exact ⟨emax.symm.le.trans (anti i tMax hi), (anti 0 i (Nat.zero_le i)).trans e0.le⟩
  · intro hlt i hi
    exact (santi hlt tMax i hi).trans_le emax.le

variable {f : Fmt}

/-- The side conditions of the float theorems: finite weights whose difference does not overflow. -/
structure GoodWeights (wMin wMax : Fl f) : Prop where
  le : wMin.le wMax = true
  min : wMin.isFinite = true
  max : wMax.isFinite = true
  diff : (wMax.sub wMin).isFinite = true

theorem GoodWeights.diff_nonneg {wMin wMax : Fl f} (h : GoodWeights wMin wMax) : 0 ≤ (wMax.sub wMin).toInt := by
  rw [(Fl.sub_rounds h.max h.min).2]
  refine f.rnd_nonneg ?_
  have : (wMin.toInt : ℝ) ≤ wMax.toInt := by exact_mod_cast (Fl.le_iff.1 h.le).2.2
  linarith

/-- C46 with rounding and overflow: the weight is `wMax` at the start and it never increases with the number of the iteration;
so it never exceeds `wMax`, and it is never NaN. -/
theorem C46_never_increases (wMin wMax : Fl f) (h : GoodWeights wMin wMax) (tMax : Nat) (ht : 0 < tMax)
    (htf : (Fl.ofNat tMax : Fl f).isFinite = true) (i j : Nat) (hij : i ≤ j) (hjf : (Fl.ofNat j : Fl f).isFinite = true) :
    (linearInertia wMin wMax tMax j).le (linearInertia wMin wMax tMax i) = true := by
  have hif : (Fl.ofNat i : Fl f).isFinite = true :=
    Fl.isFinite_of_between Fl.isFinite_zero hjf
      (Fl.le_iff.2 ⟨Fl.isNan_zero, (Fl.ofNat_rounds i).1, by rw [Fl.toInt_zero]; exact Fl.ofNat_nonneg i⟩)
      (Fl.ofNat_mono hij)
  refine Fl.sub_anti h.max (Fl.div_mono ?_ htf (Fl.ofNat_pos ht))
  refine (Fl.mul_rounds h.diff hif).mono (Fl.mul_rounds h.diff hjf) ?_
  have h1 : (0 : ℝ) ≤ (wMax.sub wMin).toInt := by exact_mod_cast h.diff_nonneg
  have h2 : ((Fl.ofNat i : Fl f).toInt : ℝ) ≤ (Fl.ofNat j : Fl f).toInt := by
    exact_mod_cast (Fl.le_iff.1 (Fl.ofNat_mono hij)).2.2
  have hD : (0 : ℝ) ≤ f.D := by positivity
  exact div_le_div_of_nonneg_right (mul_le_mul_of_nonneg_left h2 h1) hD

/-- C46: the first weight is `w_max`. -/
theorem C46_start (wMin wMax : Fl f) (h : GoodWeights wMin wMax) (tMax : Nat) (ht : 0 < tMax)
    (htf : (Fl.ofNat tMax : Fl f).isFinite = true) : (linearInertia wMin wMax tMax 0).feq wMax = true := by
  have h0 := Fl.ofNat_exact (f := f) (n := 0) (by positivity) (by positivity)
  have hm := Fl.mul_rounds h.diff h0.2
  rw [h0.1] at hm
  simp only [Nat.cast_zero, zero_mul, Int.cast_zero, mul_zero, zero_div] at hm
  have em : ((wMax.sub wMin).mul (Fl.ofNat 0)).toInt = 0 := by rw [hm.2, f.rnd_zero]
  have fm : ((wMax.sub wMin).mul (Fl.ofNat 0)).isFinite = true := by
    rw [Fl.isFinite_iff_toInt, em]; exact f.mag_pos.2 f.infIdx_pos
  have hd := Fl.div_rounds fm htf (Fl.ofNat_pos ht).ne'
  rw [em] at hd
  simp only [Int.cast_zero, zero_mul, zero_div] at hd
  have ed : (((wMax.sub wMin).mul (Fl.ofNat 0)).div (Fl.ofNat tMax)).toInt = 0 := by rw [hd.2, f.rnd_zero]
  have fd : (((wMax.sub wMin).mul (Fl.ofNat 0)).div (Fl.ofNat tMax)).isFinite = true := by
    rw [Fl.isFinite_iff_toInt, ed]; exact f.mag_pos.2 f.infIdx_pos
  have hs := Fl.sub_rounds h.max fd
  rw [ed] at hs
  simp only [Int.cast_zero, sub_zero] at hs
  rw [Fl.feq_iff]
  exact ⟨hs.1, Fl.isNan_of_isFinite h.max, by
    show (wMax.sub (((wMax.sub wMin).mul (Fl.ofNat 0)).div (Fl.ofNat tMax))).toInt = _
    rw [hs.2, Fl.rnd_toInt (Fl.isNan_of_isFinite h.max)]⟩

/-- C46: no weight is above `w_max`. -/
theorem C46_at_most_max (wMin wMax : Fl f) (h : GoodWeights wMin wMax) (tMax : Nat) (ht : 0 < tMax)
    (htf : (Fl.ofNat tMax : Fl f).isFinite = true) (i : Nat) (hif : (Fl.ofNat i : Fl f).isFinite = true) :
    (linearInertia wMin wMax tMax i).le wMax = true := by
  have h1 := C46_never_increases wMin wMax h tMax ht htf 0 i (Nat.zero_le i) hif
  have h2 := C46_start wMin wMax h tMax ht htf
  obtain ⟨a1, a2, a3⟩ := Fl.le_iff.1 h1
  obtain ⟨b1, b2, b3⟩ := Fl.feq_iff.1 h2
  exact Fl.le_iff.2 ⟨a1, b2, by omega⟩

/-- All iteration numbers and limits of `usize` are covered for `f32` and `f64`. -/
theorem C46_usize (n : Nat) (h : n < 2 ^ 64) :
    (Fl.ofNat n : F32).isFinite = true ∧ (Fl.ofNat n : F64).isFinite = true :=
  ⟨Fl.ofNat_finite h (by decide), Fl.ofNat_finite h (by decide)⟩

/-- C46, the lower end is only kept in exact arithmetic: with `f64` weights 0.1 and 0.4 the weight at iteration `t_max = 1` is
below 0.1, and with weights 0 and 0.1 it is negative at `t_max = 3`. -/
theorem C46_undershoots :
    (GoodWeights (Fl.ofRat false 1 10 : F64) (Fl.ofRat false 4 10) ∧
      (linearInertia (Fl.ofRat false 1 10 : F64) (Fl.ofRat false 4 10) 1 1).lt (Fl.ofRat false 1 10) = true) ∧
    (GoodWeights (Fl.zero : F64) (Fl.ofRat false 1 10) ∧
      (linearInertia (Fl.zero : F64) (Fl.ofRat false 1 10) 3 3).lt Fl.zero = true) := by
  refine ⟨⟨⟨?_, ?_, ?_, ?_⟩, ?_⟩, ⟨⟨?_, ?_, ?_, ?_⟩, ?_⟩⟩ <;> decide +kernel

/-- C46: `t_max = 0` gives NaN at iteration 0 and minus infinity at every later one (if the weights differ). -/
theorem C46_zero_limit (wMin wMax : Fl f) (h : GoodWeights wMin wMax) :
    (linearInertia wMin wMax 0 0).isNan = true ∧
      (wMin.lt wMax = true → ∀ i, 0 < i → (Fl.ofNat i : Fl f).isFinite = true →
        linearInertia wMin wMax 0 i = Fl.inf true) := by
  have h0 := Fl.ofNat_exact (f := f) (n := 0) (by positivity) (by positivity)
  have hz : (Fl.ofNat 0 : Fl f).isZero = true := by
    rw [Fl.isZero_iff]; apply Fl.toInt_eq_zero.1; rw [h0.1]; simp
  have hn := Fl.isNan_of_isFinite h0.2
  have hi := Fl.isInf_of_isFinite h0.2
  constructor
  · have hm := Fl.mul_rounds h.diff h0.2
    rw [h0.1] at hm
    simp only [Nat.cast_zero, zero_mul, Int.cast_zero, mul_zero, zero_div] at hm
    have em : ((wMax.sub wMin).mul (Fl.ofNat 0)).toInt = 0 := by rw [hm.2, f.rnd_zero]
    have mz : ((wMax.sub wMin).mul (Fl.ofNat 0)).isZero = true := by
      rw [Fl.isZero_iff]; exact Fl.toInt_eq_zero.1 em
    have fm : ((wMax.sub wMin).mul (Fl.ofNat 0)).isFinite = true := by
      rw [Fl.isFinite_iff_toInt, em]; exact f.mag_pos.2 f.infIdx_pos
    have ed : ((wMax.sub wMin).mul (Fl.ofNat 0)).div (Fl.ofNat 0) = Fl.nan := by
      conv_lhs => unfold Fl.div
      simp [Fl.isNan_of_isFinite fm, Fl.isInf_of_isFinite fm, hn, hi, hz, mz]
    show (wMax.sub (((wMax.sub wMin).mul (Fl.ofNat 0)).div (Fl.ofNat 0))).isNan = true
    rw [ed]
    unfold Fl.sub
    rw [Fl.isNan_add_right _ _ (by rw [Fl.isNan_neg]; exact Fl.isNan_nan)]
    exact Fl.isNan_nan
  · intro hlt i hpos hif
    have hm := Fl.mul_rounds h.diff hif
    have hone : f.rnd ((1 : ℕ) : ℝ) = 1 := by
      have h2 := Fl.two_le_pow (f := f)
      have := f.rnd_mag (k := 1) f.infIdx_pos
      rw [f.mag_small (by omega)] at this
      exact this
    have hd1 : 1 ≤ (wMax.sub wMin).toInt := by
      rw [(Fl.sub_rounds h.max h.min).2, ← hone]
      refine f.rnd_mono ?_
      have : wMin.toInt + 1 ≤ wMax.toInt := (Fl.lt_iff.1 hlt).2.2
      have : (wMin.toInt : ℝ) + 1 ≤ wMax.toInt := by exact_mod_cast this
      push_cast; linarith
    have hi1 : (f.D : ℝ) ≤ (Fl.ofNat i : Fl f).toInt := by
      have h1 := (Fl.ofNat_exact (f := f) (n := 1) (by have := Fl.two_le_pow (f := f); omega) (Fl.lt_pow_bias (by omega))).1
      have h2 := (Fl.le_iff.1 (Fl.ofNat_mono (f := f) hpos)).2.2
      change (Fl.ofNat 1 : Fl f).toInt ≤ _ at h2
      rw [h1] at h2
      push_cast at h2
      rw [one_mul] at h2
      exact_mod_cast h2
    have hD : (0 : ℝ) < f.D := by exact_mod_cast f.D_pos
    have hm1 : 1 ≤ ((wMax.sub wMin).mul (Fl.ofNat i)).toInt := by
      rw [hm.2, ← hone]
      refine f.rnd_mono ?_
      rw [le_div_iff₀ hD]
      have : (1 : ℝ) ≤ (wMax.sub wMin).toInt := by exact_mod_cast hd1
      push_cast
      exact mul_le_mul this hi1 hD.le (by linarith)
    have hmz : ((wMax.sub wMin).mul (Fl.ofNat i)).isZero = false := by
      by_contra hc
      have : ((wMax.sub wMin).mul (Fl.ofNat i)).isZero = true := by simpa using hc
      rw [Fl.isZero_iff] at this
      have := Fl.toInt_eq_zero.2 this
      omega
    have hs := Fl.sgn_of_toInt_pos (lt_of_lt_of_le one_pos hm1)
    have hz0 : (Fl.ofNat 0 : Fl f).sgn = false := by
      unfold Fl.ofNat; rw [Fl.sgn_round]
    have ed : ((wMax.sub wMin).mul (Fl.ofNat i)).div (Fl.ofNat 0) = Fl.inf false := by
      conv_lhs => unfold Fl.div
      simp only [hm.1, hn, Bool.or_self, Bool.false_eq_true, ↓reduceIte, hi, hz, hmz, hs, hz0, bne_self_eq_false]
      split <;> rfl
    show wMax.sub (((wMax.sub wMin).mul (Fl.ofNat i)).div (Fl.ofNat 0)) = _
    rw [ed, Fl.sub_inf h.max (by rw [Fl.isInf_iff, Fl.idx_inf]) (Fl.isNan_inf _)]
    exact Fl.ext' (by rw [Fl.sgn_neg, Fl.sgn_inf, Fl.sgn_inf]; rfl) (by rw [Fl.idx_neg, Fl.idx_inf, Fl.idx_inf])

/-! ## C47 CanonicalVelocityCalculator::new -/

theorem four_le_pow : 4 ≤ 2 ^ (f.mw + 1) := by
  have := f.hmw
  have : 2 ^ 2 ≤ 2 ^ (f.mw + 1) := Nat.pow_le_pow_right (by omega) (by omega)
  omega

/-- The literals 2.0 and 4.0 are exact in every format that has them. -/
theorem lit_exact (hf : 2 ≤ f.bias) {n : Nat} (hn : n ≤ 4) :
    (FloatT.lit n 1 : Fl f).isFinite = true ∧ (FloatT.lit n 1 : Fl f).toInt = n * f.D := by
  have hr := Fl.ofRat_rounds (f := Fmt.f64) false n 1 (by omega)
  have h53 : n ≤ 2 ^ (Fmt.f64.mw + 1) := le_trans hn four_le_pow
  have hb : n < 2 ^ (Fmt.f64.bias + 1) := by
    have : 2 ^ 3 ≤ 2 ^ (Fmt.f64.bias + 1) := Nat.pow_le_pow_right (by omega) (by decide)
    omega
  have h64 := Fl.ofNat_exact (f := Fmt.f64) h53 hb
  have hr' := Fl.ofNat_rounds (f := Fmt.f64) n
  simp only [Bool.false_eq_true, ↓reduceIte, Nat.cast_one, div_one] at hr
  have e : (Fl.ofRat false n 1 : F64).toInt = n * Fmt.f64.D := by rw [hr.2, ← hr'.2, h64.1]
  have hfin : (Fl.ofRat false n 1 : F64).isFinite = true := by
    rw [Fl.isFinite_iff_toInt, e, ← h64.1]; exact Fl.isFinite_iff_toInt.1 h64.2
  have hc := Fl.cast_rounds (g := f) hfin
  have hbf : n < 2 ^ (f.bias + 1) := by
    have : 2 ^ 3 ≤ 2 ^ (f.bias + 1) := Nat.pow_le_pow_right (by omega) (by omega)
    omega
  have hgf := Fl.ofNat_exact (f := f) (le_trans hn four_le_pow) hbf
  have hgr := Fl.ofNat_rounds (f := f) n
  have hD : (0 : ℝ) < (Fmt.f64.D : ℝ) := by exact_mod_cast Fmt.f64.D_pos
  have eq : ((Fl.ofRat false n 1 : F64).toInt : ℝ) * f.D / Fmt.f64.D = (n : ℝ) * f.D := by
    rw [e]; push_cast; field_simp
  rw [eq] at hc
  have ec : ((Fl.ofRat false n 1 : F64).cast : Fl f).toInt = n * f.D := by rw [hc.2, ← hgr.2, hgf.1]
  refine ⟨?_, ec⟩
  show ((Fl.ofRat false n 1 : F64).cast : Fl f).isFinite = true
  rw [Fl.isFinite_iff_toInt, ec, ← hgf.1]
  exact Fl.isFinite_iff_toInt.1 hgf.2

/-- C47: the constructor accepts exactly the parameters whose (computed) sum is above 4 and whose alpha is strictly between 0 and 1
(NaN parameters are rejected), and otherwise fails an assertion.  `2 ≤ f.bias` only says that the format has the number 4. -/
theorem C47_accepts (hf : 2 ≤ f.bias) (phiP phiG alpha : Fl f) (s : σ) :
    (((phiP.add phiG).isNan = false ∧ 4 < value (phiP.add phiG) ∧ alpha.isNan = false ∧ 0 < value alpha ∧ value alpha < 1) →
      ∃ c, Canonical.new phiP phiG alpha s = .ok (c, s) ∧ c.phiP = phiP ∧ c.phiG = phiG) ∧
    (¬((phiP.add phiG).isNan = false ∧ 4 < value (phiP.add phiG) ∧ alpha.isNan = false ∧ 0 < value alpha ∧ value alpha < 1) →
      Canonical.new phiP phiG alpha s = .error .assert) := by
  obtain ⟨l1, l2⟩ := lit_exact hf (n := 4) (by omega)
  have hD : (0 : ℝ) < f.D := by exact_mod_cast f.D_pos
  have hlt : ((phiP.add phiG).isNan = false ∧ 4 < value (phiP.add phiG)) ↔
      (FloatT.lit 4 1 : Fl f).lt (phiP.add phiG) = true := by
    rw [Fl.lt_iff, l2, value, lt_div_iff₀ hD]
    constructor
    · rintro ⟨h1, h2⟩
      exact ⟨Fl.isNan_of_isFinite l1, h1, by exact_mod_cast h2⟩
    · rintro ⟨-, h1, h2⟩
      exact ⟨h1, by exact_mod_cast h2⟩
  have h0 : (alpha.isNan = false ∧ 0 < value alpha) ↔ (Fl.zero : Fl f).lt alpha = true := by
    rw [Fl.lt_iff, Fl.toInt_zero, value, lt_div_iff₀ hD, zero_mul]
    constructor
    · rintro ⟨h1, h2⟩
      exact ⟨Fl.isNan_zero, h1, by exact_mod_cast h2⟩
    · rintro ⟨-, h1, h2⟩
      exact ⟨h1, by exact_mod_cast h2⟩
  have h1' : (alpha.isNan = false ∧ value alpha < 1) ↔ alpha.lt (Fl.one : Fl f) = true := by
    rw [Fl.lt_iff, Fl.toInt_one, value, div_lt_one hD]
    constructor
    · rintro ⟨h1, h2⟩
      exact ⟨h1, Fl.isNan_one, by exact_mod_cast h2⟩
    · rintro ⟨h1, -, h2⟩
      exact ⟨h1, by exact_mod_cast h2⟩
  have key : ((phiP.add phiG).isNan = false ∧ 4 < value (phiP.add phiG) ∧ alpha.isNan = false ∧ 0 < value alpha ∧ value alpha < 1)
      ↔ ((FloatT.lit 4 1 : Fl f).lt (phiP.add phiG) = true ∧ (Fl.zero : Fl f).lt alpha = true ∧ alpha.lt (Fl.one : Fl f) = true) := by
    rw [← hlt, ← h0, ← h1']
    exact ⟨fun h => ⟨⟨h.1, h.2.1⟩, ⟨h.2.2.1, h.2.2.2.1⟩, h.2.2.1, h.2.2.2.2⟩,
      fun h => ⟨h.1.1, h.1.2, h.2.1.1, h.2.1.2, h.2.2.2⟩⟩
  rw [key]
  constructor
  · rintro ⟨a, b, c⟩
    refine ⟨_, M.bind_eq_ok.2 ⟨(), s, M.assert_eq_ok.2 ⟨a, rfl⟩, M.bind_eq_ok.2 ⟨(), s, M.assert_eq_ok.2 ⟨b, rfl⟩,
      M.bind_eq_ok.2 ⟨(), s, M.assert_eq_ok.2 ⟨c, rfl⟩, rfl⟩⟩⟩, rfl, rfl⟩
  · intro hn
    unfold Canonical.new
    rw [M.bind_eq_error]
    cases a : (FloatT.lit 4 1 : Fl f).lt (phiP.add phiG) with
    | false =>
      left
      show M.assert ((FloatT.lit 4 1 : Fl f).lt (phiP.add phiG)) s = _
      rw [a]; rfl
    | true =>
      right
      refine ⟨(), s, M.assert_eq_ok.2 ⟨a, rfl⟩, ?_⟩
      rw [M.bind_eq_error]
      cases b : (Fl.zero : Fl f).lt alpha with
      | false =>
        left
        show M.assert ((Fl.zero : Fl f).lt alpha) s = _
        rw [b]; rfl
      | true =>
        right
        refine ⟨(), s, M.assert_eq_ok.2 ⟨b, rfl⟩, ?_⟩
        rw [M.bind_eq_error]
        cases c : alpha.lt (Fl.one : Fl f) with
        | false =>
          left
          show M.assert (alpha.lt (Fl.one : Fl f)) s = _
          rw [c]; rfl
        | true => exact absurd ⟨a, b, c⟩ hn

/-- C47: the constriction factor of a constructed calculator is between 0 and alpha, so below 1, rounding and overflow of the
sum of the coefficients included. -/
theorem C47_factor (hf : 2 ≤ f.bias) (phiP phiG alpha : Fl f) (s s' : σ) (c : Canonical (Fl f))
    (h : Canonical.new phiP phiG alpha s = .ok (c, s')) :
    Fl.zero.le c.xi = true ∧ c.xi.le alpha = true ∧ c.xi.lt Fl.one = true := by
  unfold Canonical.new at h
  obtain ⟨_, s1, h1, h⟩ := M.bind_eq_ok.1 h
  obtain ⟨_, s2, h2, h⟩ := M.bind_eq_ok.1 h
  obtain ⟨_, s3, h3, h⟩ := M.bind_eq_ok.1 h
  obtain ⟨rfl, -⟩ := M.pure_eq_ok.1 h
  have h1 : (FloatT.lit 4 1 : Fl f).lt (phiP.add phiG) = true := (M.assert_eq_ok.1 h1).1
  have h2 : (Fl.zero : Fl f).lt alpha = true := (M.assert_eq_ok.1 h2).1
  have h3 : alpha.lt (Fl.one : Fl f) = true := (M.assert_eq_ok.1 h3).1
  obtain ⟨l1, l2⟩ := lit_exact hf (n := 4) (by omega)
  obtain ⟨t1, t2⟩ := lit_exact hf (n := 2) (by omega)
  obtain ⟨-, hpn, hp4⟩ := Fl.lt_iff.1 h1
  obtain ⟨-, han, ha0⟩ := Fl.lt_iff.1 h2
  obtain ⟨-, -, ha1⟩ := Fl.lt_iff.1 h3
  rw [l2] at hp4
  rw [Fl.toInt_zero] at ha0
  rw [Fl.toInt_one] at ha1
  have hD : (0 : ℝ) < f.D := by exact_mod_cast f.D_pos
  have haf : alpha.isFinite = true := Fl.isFinite_of_between Fl.isFinite_zero Fl.isFinite_one (Fl.le_of_lt h2) (Fl.le_of_lt h3)
  dsimp only
  generalize (FloatT.lit 2 1 : Fl f) = two at *
  show Fl.zero.le ((two.mul alpha).div ((phiG.add phiP).sub two)) = true ∧
    ((two.mul alpha).div ((phiG.add phiP).sub two)).le alpha = true ∧
    ((two.mul alpha).div ((phiG.add phiP).sub two)).lt Fl.one = true
  rw [Fl.add_comm' phiG phiP]
  generalize phiP.add phiG = phi at *
  -- the product 2 * alpha
  have hm := Fl.mul_rounds t1 haf
  have hmq : (two.toInt : ℝ) * alpha.toInt / f.D = 2 * alpha.toInt := by
    rw [t2]; push_cast; field_simp
  rw [hmq] at hm
  have haR0 : (0 : ℝ) < alpha.toInt := by exact_mod_cast ha0
  have haR1 : (alpha.toInt : ℝ) < f.D := by exact_mod_cast ha1
  have hmlt : f.rnd (2 * (alpha.toInt : ℝ)) ≤ 2 * f.D := by
    have := f.rnd_mono (p := 2 * (alpha.toInt : ℝ)) (q := (two.toInt : ℝ)) (by rw [t2]; push_cast; linarith)
    rw [Fl.rnd_toInt (Fl.isNan_of_isFinite t1), t2] at this
    exact this
  have hmnn : 0 ≤ f.rnd (2 * (alpha.toInt : ℝ)) := f.rnd_nonneg (by linarith)
  have htwo : two.toInt.natAbs < f.mag f.infIdx := Fl.isFinite_iff_toInt.1 t1
  rw [t2] at htwo
  have hmfin : (f.rnd (2 * (alpha.toInt : ℝ))).natAbs < f.mag f.infIdx := by
    have : ((2 : ℕ) * f.D : ℤ).natAbs = 2 * f.D := by omega
    omega
  have hm2 : (two.mul alpha).toInt = 2 * alpha.toInt := by
    rw [hm.2]
    exact le_antisymm (f.rnd_le_two_mul han hmfin le_rfl) (f.two_mul_le_rnd han hmfin le_rfl)
  have hmf : (two.mul alpha).isFinite = true := by rw [Fl.isFinite_iff_toInt, hm.2]; exact hmfin
  have hle : Fl.zero.le ((two.mul alpha).div (phi.sub two)) = true ∧ ((two.mul alpha).div (phi.sub two)).le alpha = true := by
    rcases Fl.isFinite_or_inf hpn with hpf | hpi
    · have hs := Fl.sub_rounds hpf t1
      have hpR : ((4 : ℕ) * f.D : ℝ) < phi.toInt := by exact_mod_cast hp4
      have hge : two.toInt ≤ (phi.sub two).toInt := by
        rw [hs.2, ← Fl.rnd_toInt (Fl.isNan_of_isFinite t1)]
        refine f.rnd_mono ?_
        rw [Fl.rnd_toInt (Fl.isNan_of_isFinite t1), t2]; push_cast at hpR ⊢; linarith
      have hleq : (phi.sub two).toInt ≤ phi.toInt := by
        rw [hs.2, ← Fl.rnd_toInt hpn]
        refine f.rnd_mono ?_
        rw [Fl.rnd_toInt hpn, t2]; push_cast; linarith
      have hDp : (0 : ℤ) < f.D := by exact_mod_cast f.D_pos
      have hsf : (phi.sub two).isFinite = true := by
        have := Fl.isFinite_iff_toInt.1 hpf
        rw [Fl.isFinite_iff_toInt]
        rw [t2] at hge
        push_cast at hge
        omega
      have hgeR : 2 * (f.D : ℝ) ≤ (phi.sub two).toInt := by
        rw [t2] at hge
        have : ((2 : ℕ) * f.D : ℝ) ≤ (phi.sub two).toInt := by exact_mod_cast hge
        exact_mod_cast this
      have hne : (phi.sub two).toInt ≠ 0 := by
        intro e; rw [e] at hgeR; push_cast at hgeR; linarith
      have hd := Fl.div_rounds hmf hsf hne
      rw [hm2] at hd
      refine ⟨hd.ge Fl.isNan_zero ?_, hd.le han ?_⟩
      · rw [Fl.toInt_zero]; push_cast
        have : (0 : ℝ) < (phi.sub two).toInt := by linarith
        exact div_nonneg (mul_nonneg (by linarith) hD.le) this.le
      · have : (0 : ℝ) < (phi.sub two).toInt := by linarith
        rw [div_le_iff₀ this]; push_cast
        nlinarith
    · have hse : phi.sub two = phi := by
        unfold Fl.sub Fl.add
        simp [hpn, Fl.isNan_neg, Fl.isInf_neg, Fl.isNan_of_isFinite t1, Fl.isInf_of_isFinite t1, hpi]
      rw [hse]
      have hdz : (two.mul alpha).div phi = Fl.mk' ((two.mul alpha).sgn != phi.sgn) 0 := by
        conv_lhs => unfold Fl.div
        simp [hm.1, hpn, Fl.isInf_of_isFinite hmf, hpi]
      have hz : ((two.mul alpha).div phi).idx = 0 := by rw [hdz, Fl.idx_mk' _ (Nat.two_pow_pos _)]
      have hzi := Fl.toInt_eq_zero.2 hz
      have hzn : ((two.mul alpha).div phi).isNan = false := by rw [Fl.not_isNan_iff, hz]; exact Nat.zero_le _
      refine ⟨Fl.le_iff.2 ⟨Fl.isNan_zero, hzn, by rw [hzi, Fl.toInt_zero]⟩, Fl.le_iff.2 ⟨hzn, han, by rw [hzi]; omega⟩⟩
  exact ⟨hle.1, hle.2, Fl.lt_of_le_of_lt hle.2 h3⟩

/-- C47 in exact arithmetic: the factor is the documented `2 alpha / (phi_p + phi_g - 2)`, strictly between 0 and alpha. -/
theorem C47_exact (phiP phiG alpha : ℝ) (s s' : σ) (c : Canonical ℝ)
    (h : Canonical.new phiP phiG alpha s = .ok (c, s')) :
    4 < phiP + phiG ∧ 0 < alpha ∧ alpha < 1 ∧ c.xi = 2 * alpha / (phiP + phiG - 2) ∧ 0 < c.xi ∧ c.xi < alpha := by
  unfold Canonical.new at h
  obtain ⟨_, s1, h1, h⟩ := M.bind_eq_ok.1 h
  obtain ⟨_, s2, h2, h⟩ := M.bind_eq_ok.1 h
  obtain ⟨_, s3, h3, h⟩ := M.bind_eq_ok.1 h
  obtain ⟨rfl, -⟩ := M.pure_eq_ok.1 h
  have h1 := (M.assert_eq_ok.1 h1).1
  have h2 := (M.assert_eq_ok.1 h2).1
  have h3 := (M.assert_eq_ok.1 h3).1
  simp only [FloatT.lt, FloatT.lit, FloatT.add, FloatT.zero, FloatT.one, decide_eq_true_eq, Nat.cast_one, div_one] at h1 h2 h3
  push_cast at h1
  have e : (FloatT.div (FloatT.mul (FloatT.lit 2 1) alpha) (FloatT.sub (FloatT.add phiG phiP) (FloatT.lit 2 1)) : ℝ) =
      2 * alpha / (phiP + phiG - 2) := by
    simp only [FloatT.lit, FloatT.add, FloatT.mul, FloatT.div, FloatT.sub, Nat.cast_one, div_one]
    push_cast; rw [add_comm]
  refine ⟨h1, h2, h3, e, ?_, ?_⟩
  · rw [e]; apply div_pos <;> linarith
  · rw [e, div_lt_iff₀ (by linarith)]; nlinarith

/-- The values of the pso examples are accepted: phi_p = phi_g = 3.2, alpha = 0.9. -/
example : M.okAnd (Canonical.new (Fl.ofRat false 32 10 : F64) (Fl.ofRat false 32 10) (Fl.ofRat false 9 10) ())
    (fun c _ => Fl.zero.lt c.xi) = true ∧ 2 ≤ Fmt.f64.bias ∧ 2 ≤ Fmt.f32.bias := by decide +kernel

/-- The weights 0.4 and 0.9 over 1000 iterations meet the hypotheses. -/
example : GoodWeights (Fl.ofRat false 4 10 : F64) (Fl.ofRat false 9 10) ∧ (Fl.ofNat 1000 : F64).isFinite = true := by
  refine ⟨⟨?_, ?_, ?_, ?_⟩, ?_⟩ <;> decide +kernel

end Verif.Props
