import Verif.Props.TrigError

/-!
# C63, C64: sine and cosine as accurate as the format allows exist; the documented points
-/

namespace Verif.Props

open Verif Spec TestFunc

variable {f : Fmt}

theorem exists_near {q : ℝ} (hq : |q| ≤ 1) : ∃ r : Fl f, Fl.Within 1 r ∧ |value r - q| ≤ 2 * roundoff f := by
  have hD := Fl.D_posR (f := f)
  have hp : (0 : ℝ) < 2 ^ (f.mw + 1) := by positivity
  have hpos : ∀ q : ℝ, 0 ≤ q → q ≤ 1 → ∃ r : Fl f, Fl.Within 1 r ∧ |value r - q| ≤ 2 * roundoff f := by
    intro q h0 h1
    obtain ⟨m, hm⟩ : ∃ m, m = ⌊q * 2 ^ (f.mw + 1)⌋₊ := ⟨_, rfl⟩
    have m1 : (m : ℝ) ≤ q * 2 ^ (f.mw + 1) := hm ▸ Nat.floor_le (by positivity)
    have m2 : q * 2 ^ (f.mw + 1) < m + 1 := hm ▸ Nat.lt_floor_add_one _
    have hr := Fl.ofRat_rounds (f := f) false m (2 ^ (f.mw + 1)) (by positivity)
    rw [if_neg (by decide)] at hr
    push_cast at hr
    have hle : (m : ℝ) * f.D / 2 ^ (f.mw + 1) ≤ f.D := by
      rw [div_le_iff₀ hp, mul_comm (f.D : ℝ)]
      refine mul_le_mul_of_nonneg_right (m1.trans ?_) hD.le
      exact mul_le_of_le_one_left hp.le h1
    have hin : Fl.Within 1 (Fl.ofRat false m (2 ^ (f.mw + 1)) : Fl f) := by
      unfold Fl.Within
      rw [Fl.isFinite_of_rounds hr, hr.2]
      have a := f.rnd_mono hle
      have b := f.rnd_nonneg (by positivity : 0 ≤ (m : ℝ) * f.D / 2 ^ (f.mw + 1))
      have c := Fl.rnd_toInt (f := f) (Fl.isNan_of_isFinite Fl.isFinite_one)
      rw [Fl.toInt_one] at c
      push_cast at c
      rw [c] at a
      have d := Fl.isFinite_iff_toInt.1 (Fl.isFinite_one (f := f))
      rw [Fl.toInt_one] at d
      omega
    have hfin := hin.1
    refine ⟨_, hin, ?_⟩
    have e1 := f.rnd_err ((Fl.isFinite_of_rounds hr).1 hfin)
    rw [← hr.2] at e1
    have hu : roundoff f * 2 ^ (f.mw + 1) = 1 := by unfold roundoff; field_simp
    have hDu : 1 / 2 ≤ f.D * roundoff f := by
      have : (2 : ℝ) ^ f.mw ≤ f.D := by
        have h : 2 ^ f.mw ≤ f.D := by
          unfold Fmt.D
          exact Nat.pow_le_pow_right (by omega) (by
            have h2 : 2 ^ 1 ≤ 2 ^ (f.ew - 1) := Nat.pow_le_pow_right (by omega) (by have := f.hew; omega)
            unfold Fmt.bias; omega)
        exact_mod_cast h
      unfold roundoff
      rw [mul_one_div, div_le_div_iff₀ (by norm_num) hp, pow_succ]
      linarith
    have e2 : |((Fl.ofRat false m (2 ^ (f.mw + 1)) : Fl f).toInt : ℝ) - m * f.D / 2 ^ (f.mw + 1)| ≤ f.D * roundoff f := by
      rcases e1 with h | h
      · exact h.trans hDu
      · refine h.trans ?_
        rw [abs_of_nonneg (by positivity)]
        exact mul_le_mul_of_nonneg_right hle (Fl.roundoff_pos).le
    have e3 : |(m : ℝ) / 2 ^ (f.mw + 1) - q| ≤ roundoff f := by
      rw [abs_le]
      have : (m : ℝ) / 2 ^ (f.mw + 1) = m * roundoff f := by unfold roundoff; ring
      rw [this]
      have hup := Fl.roundoff_pos (f := f)
      have a1 := mul_le_mul_of_nonneg_right m1 hup.le
      have a2 := mul_le_mul_of_nonneg_right m2.le hup.le
      have a3 : q * 2 ^ (f.mw + 1) * roundoff f = q := by rw [mul_assoc, mul_comm (2 ^ (f.mw + 1)), hu, mul_one]
      rw [a3] at a1 a2
      constructor <;> linarith
    unfold value
    generalize ((Fl.ofRat false m (2 ^ (f.mw + 1)) : Fl f).toInt : ℝ) = t at e2 ⊢
    have e4 : |t / f.D - m / 2 ^ (f.mw + 1)| ≤ roundoff f := by
      rw [show t / f.D - (m : ℝ) / 2 ^ (f.mw + 1) = (t - m * f.D / 2 ^ (f.mw + 1)) / f.D by field_simp, abs_div, abs_of_pos hD,
        div_le_iff₀ hD]
      linarith
    have := abs_sub_le (t / f.D) ((m : ℝ) / 2 ^ (f.mw + 1)) q
    linarith
  rcases le_total 0 q with h | h
  · exact hpos q h (by rwa [abs_of_nonneg h] at hq)
  · obtain ⟨r, h1, h2⟩ := hpos (-q) (by linarith) (by rwa [abs_of_nonpos h] at hq)
    refine ⟨r.neg, h1.neg, ?_⟩
    rw [Fl.value_neg, show -value r - q = -(value r - -q) by ring, abs_neg]
    exact h2

/-- The assumptions on the platform can be met in every format, with an error of two units of roundoff. -/
theorem accurate_exists : ∃ F : FloatFn (Fl f), SinCos F ∧ AccurateTrig (2 * roundoff f) F :=
  ⟨⟨id, fun x _ => x, fun a => (exists_near (f := f) (Real.abs_sin_le_one (value a))).choose,
      fun a => (exists_near (f := f) (Real.abs_cos_le_one (value a))).choose⟩,
    fun a _ => ⟨(exists_near (f := f) (Real.abs_sin_le_one (value a))).choose_spec.1,
      (exists_near (f := f) (Real.abs_cos_le_one (value a))).choose_spec.1⟩,
    fun a _ => ⟨(exists_near (f := f) (Real.abs_sin_le_one (value a))).choose_spec.2,
      (exists_near (f := f) (Real.abs_cos_le_one (value a))).choose_spec.2⟩⟩

/-- The hypotheses of `C63_error` and `C64_error` are met: such a platform, and an ordinary point in `f32`. -/
example : ∃ F : FloatFn F32, AccurateTrig (2 * roundoff .f32) F ∧
    (@schwefelF64 _ F [(Fl.ofNat 420 : F32), Fl.ofNat 7]).isFinite = true ∧
    (@rastriginF64 _ F [(Fl.ofNat 420 : F32), Fl.ofNat 7]).isFinite = true ∧
    ((([(Fl.ofNat 420 : F32), Fl.ofNat 7].length : ℕ) : ℝ) + 10) * roundoff .f32 ≤ 1 / 20 := by
  obtain ⟨F, h1, h2⟩ := accurate_exists (f := Fmt.f32)
  have hm : Moderate [(Fl.ofNat 420 : F32), Fl.ofNat 7] := by
    have : ∀ a ∈ [(Fl.ofNat 420 : F32), Fl.ofNat 7], Fl.Within (2 ^ 20) a := by decide +kernel
    exact ⟨by decide, this⟩
  refine ⟨F, h2, (C72_schwefel (.inl rfl) F h1 _ hm).1, (C72_rastrigin (.inl rfl) F h1 _ hm).1, ?_⟩
  unfold roundoff
  norm_num [Fmt.f32]

/-! ## Rastrigin at the origin -/

/-- `x` is the integer `v`. -/
def IsInt (v : ℤ) (x : Fl f) : Prop := x.isFinite = true ∧ x.toInt = v * f.D

theorem rounds_int (hf : f = Fmt.f32 ∨ f = Fmt.f64) {v : ℤ} (hv : v.natAbs ≤ 2 ^ 24) {x : Fl f}
    (h : Fl.Rounds (((v * f.D : ℤ)) : ℝ) x) : IsInt v x := by
  have hr := rep_small hf v.natAbs hv
  have h1 : f.rnd (((v * f.D : ℤ)) : ℝ) = v * f.D := by
    have h2 := hr.rnd
    rcases Int.natAbs_eq v with hv' | hv' <;> generalize v.natAbs = n at hv' h2 <;> subst hv'
    · push_cast at h2 ⊢
      exact h2
    · push_cast at h2 ⊢
      rw [neg_mul, f.rnd_neg, h2, neg_mul]
  refine ⟨(h.within hr ?_).1, by rw [h.2, h1]⟩
  push_cast
  rw [abs_mul, abs_of_nonneg (by positivity : (0 : ℝ) ≤ f.D), Nat.cast_natAbs]
  push_cast
  rfl

theorem IsInt.add (hf : f = Fmt.f32 ∨ f = Fmt.f64) {v w : ℤ} {x y : Fl f} (hx : IsInt v x) (hy : IsInt w y)
    (h : (v + w).natAbs ≤ 2 ^ 24) : IsInt (v + w) (x.add y) := by
  refine rounds_int hf h ?_
  have := Fl.add_rounds hx.1 hy.1
  rw [hx.2, hy.2] at this
  rwa [show (((v + w) * f.D : ℤ) : ℝ) = ((v * f.D : ℤ) : ℝ) + ((w * f.D : ℤ) : ℝ) by push_cast; ring]

theorem IsInt.neg {v : ℤ} {x : Fl f} (hx : IsInt v x) : IsInt (-v) x.neg :=
  ⟨by rw [Fl.isFinite_neg]; exact hx.1, by rw [Fl.toInt_neg, hx.2, neg_mul]⟩

theorem IsInt.mul (hf : f = Fmt.f32 ∨ f = Fmt.f64) {v w : ℤ} {x y : Fl f} (hx : IsInt v x) (hy : IsInt w y)
    (h : (v * w).natAbs ≤ 2 ^ 24) : IsInt (v * w) (x.mul y) := by
  refine rounds_int hf h ?_
  have := Fl.mul_rounds hx.1 hy.1
  have hD := Fl.D_posR (f := f)
  rw [hx.2, hy.2] at this
  rwa [show (((v * w) * f.D : ℤ) : ℝ) = ((v * f.D : ℤ) : ℝ) * ((w * f.D : ℤ) : ℝ) / f.D by push_cast; field_simp]

/-- C63: at the origin the computed value is exactly zero, if the platform's cosine of a zero is 1 (as IEEE recommends) and there are at
most `2 ^ 20` coordinates. -/
theorem C63_zero_at (hf : f = Fmt.f32 ∨ f = Fmt.f64) (F : FloatFn (Fl f)) (hF : ∀ a : Fl f, a.isZero = true → F.cos a = Fl.one)
    (x : List (Fl f)) (hx : ∀ a ∈ x, a.isZero = true) (hl : x.length ≤ 2 ^ 20) : (rastriginF64 x).feq Fl.zero = true := by
  have z0 : ∀ a : Fl f, a.isZero = true → IsInt 0 a := by
    intro a h
    have h1 := Fl.isZero_iff.1 h
    refine ⟨?_, by rw [Fl.toInt_eq_zero.2 h1, zero_mul]⟩
    rw [Fl.isFinite_iff, h1]
    exact f.infIdx_pos
  have key : ∀ (ten k : Fl f), IsInt 10 ten → k.isFinite = true → Fl.IsZ (Fl.add (Fl.mul ten (Fl.ofNat x.length))
      (x.foldl (fun acc a => (acc.add (Fl.mul a a)).add (Fl.neg (Fl.mul ten (F.cos (Fl.mul k a))))) Fl.zero)) := by
    intro ten k hten hk
    have fold : ∀ (l : List (Fl f)), (∀ a ∈ l, a.isZero = true) → ∀ (m : Nat) (acc : Fl f), m + l.length ≤ 2 ^ 20 → IsInt (-(10 * m)) acc →
        IsInt (-(10 * (m + l.length : ℕ)))
          (l.foldl (fun acc a => (acc.add (Fl.mul a a)).add (Fl.neg (Fl.mul ten (F.cos (Fl.mul k a))))) acc) := by
      intro l
      induction l with
      | nil => intro _ m acc _ h; simpa using h
      | cons a l ih =>
        intro hl m acc hm h
        rw [List.length_cons] at hm
        have ha := z0 a (hl a (by simp))
        have h1 : IsInt (-(10 * m) + 0 * 0) (acc.add (Fl.mul a a)) := h.add hf (ha.mul hf ha (by simp)) (by omega)
        have hz : Fl.IsZ (Fl.mul k a) := Fl.IsZ.mul_right hk ⟨ha.1, by rw [ha.2]; simp⟩
        have hz' : (Fl.mul k a).isZero = true := Fl.isZero_iff.2 (Fl.toInt_eq_zero.1 hz.2)
        have hone : IsInt 1 (Fl.one : Fl f) := ⟨Fl.isFinite_one, by rw [Fl.toInt_one]; simp⟩
        have h2 : IsInt (-(10 * 1)) (Fl.neg (Fl.mul ten (F.cos (Fl.mul k a)))) := by
          rw [hF _ hz']
          exact (hten.mul hf hone (by simp)).neg
        have h3 := h1.add hf h2 (by omega)
        have := ih (fun b hb => hl b (by simp [hb])) (m + 1) _ (by omega)
          (by rw [show (-(10 * ((m + 1 : ℕ) : ℤ))) = -(10 * m) + 0 * 0 + -(10 * 1) by push_cast; ring]; exact h3)
        rw [List.foldl_cons, List.length_cons, show m + (l.length + 1) = m + 1 + l.length by omega]
        exact this
    have hs := fold x hx 0 Fl.zero (by omega) ⟨Fl.isFinite_zero, by rw [Fl.zero_toInt]; simp⟩
    have hn : IsInt x.length (Fl.ofNat x.length : Fl f) := by
      refine rounds_int hf (by omega) ?_
      have := Fl.ofNat_rounds (f := f) x.length
      push_cast at this ⊢
      exact this
    have h1 := (hten.mul hf hn (by omega)).add hf hs (by omega)
    refine ⟨h1.1, ?_⟩
    rw [h1.2]
    simp
  have hten : IsInt 10 (FloatT.lit 10 1 : Fl f) := by
    unfold IsInt
    rcases hf with rfl | rfl <;> decide +kernel
  have hkf : (Fl.mul (Fl.ofNat 2) (FloatT.lit 314159265358979 100000000000000) : Fl f).isFinite = true := by
    rcases hf with rfl | rfl <;> decide +kernel
  have e : ∀ ten P : Fl f, FloatT.add (FloatT.mul ten (FloatT.ofNat x.length)) (x.foldl (fun acc xi =>
      FloatT.sub (FloatT.add acc (FloatT.mul xi xi))
        (FloatT.mul ten (FloatFn.cos (FloatT.mul (FloatT.mul (FloatT.ofNat 2) P) xi)))) FloatT.zero) =
      Fl.add (Fl.mul ten (Fl.ofNat x.length)) (x.foldl (fun acc a => (acc.add (Fl.mul a a)).add
        (Fl.neg (Fl.mul ten (F.cos (Fl.mul (Fl.mul (Fl.ofNat 2) P) a))))) Fl.zero) := fun _ _ => rfl
  have hz := key _ _ hten hkf
  rw [← e] at hz
  exact (hz.cast).feq

/-! ## Schwefel at the documented point -/

theorem schwefel_lipschitz {a b : ℝ} (ha : 100 ≤ a) (hb : 100 ≤ b) (hb' : b ≤ 500) :
    |a * Real.sin (Real.sqrt |a|) - b * Real.sin (Real.sqrt |b|)| ≤ 26 * |a - b| := by
  rw [abs_of_nonneg (by linarith : 0 ≤ a), abs_of_nonneg (by linarith : 0 ≤ b)]
  have ha10 : 10 ≤ Real.sqrt a := Real.le_sqrt_of_sq_le (by linarith)
  have hb10 : 10 ≤ Real.sqrt b := Real.le_sqrt_of_sq_le (by linarith)
  have h1 : |Real.sqrt a - Real.sqrt b| * 20 ≤ |a - b| := by
    have e : a - b = (Real.sqrt a - Real.sqrt b) * (Real.sqrt a + Real.sqrt b) := by
      have := Real.sq_sqrt (by linarith : 0 ≤ a)
      have := Real.sq_sqrt (by linarith : 0 ≤ b)
      nlinarith
    rw [e, abs_mul]
    refine mul_le_mul_of_nonneg_left ?_ (abs_nonneg _)
    rw [abs_of_nonneg (by linarith)]
    linarith
  have h2 := Real.abs_sin_sub_sin_le (Real.sqrt a) (Real.sqrt b)
  have e : a * Real.sin (Real.sqrt a) - b * Real.sin (Real.sqrt b) =
      (a - b) * Real.sin (Real.sqrt a) + b * (Real.sin (Real.sqrt a) - Real.sin (Real.sqrt b)) := by ring
  rw [e]
  refine (abs_add_le _ _).trans ?_
  rw [abs_mul, abs_mul, abs_of_nonneg (by linarith : 0 ≤ b)]
  have h3 : |a - b| * |Real.sin (Real.sqrt a)| ≤ |a - b| := mul_le_of_le_one_right (abs_nonneg _) (Real.abs_sin_le_one _)
  have h4 : b * |Real.sin (Real.sqrt a) - Real.sin (Real.sqrt b)| ≤ 500 * |Real.sqrt a - Real.sqrt b| :=
    mul_le_mul hb' h2 (abs_nonneg _) (by norm_num)
  linarith

theorem lit_min : (FloatT.lit 4209687 10000 : F64).isFinite = true ∧
    |value (FloatT.lit 4209687 10000 : F64) - 4209687 / 10000| ≤ 1 / 10 ^ 12 := by
  have h : (FloatT.lit 4209687 10000 : F64).isFinite = true ∧
      |(FloatT.lit 4209687 10000 : F64).toInt * 10000 - 4209687 * Fmt.f64.D| * 10 ^ 8 ≤ Fmt.f64.D := by decide +kernel
  refine ⟨h.1, ?_⟩
  have hD := Fl.D_posR (f := Fmt.f64)
  unfold value
  generalize (FloatT.lit 4209687 10000 : F64).toInt = m at h
  obtain ⟨-, h⟩ := h
  generalize Fmt.f64.D = D at hD h ⊢
  have h' : |(m : ℝ) * 10000 - 4209687 * D| * 10 ^ 8 ≤ D := by exact_mod_cast h
  have e : (m : ℝ) / D - 4209687 / 10000 = (m * 10000 - 4209687 * D) / (10000 * D) := by field_simp
  rw [e, abs_div, abs_of_pos (by positivity : (0 : ℝ) < 10000 * D), div_le_iff₀ (by positivity)]
  norm_num at h' ⊢
  linarith

theorem lt_iff_of (r : F64) (hr : r.isFinite = true) (h : |value r| < 9 / 100000) : r.abs.lt (FloatT.lit 1 10000) = true := by
  have hl : (FloatT.lit 1 10000 : F64).isNan = false ∧ 9 * Fmt.f64.D ≤ (FloatT.lit 1 10000 : F64).toInt * 100000 := by decide +kernel
  have hD := Fl.D_posR (f := Fmt.f64)
  rw [Fl.lt_iff]
  refine ⟨Fl.isNan_of_isFinite (by rw [Fl.isFinite_abs]; exact hr), hl.1, ?_⟩
  obtain ⟨-, hl⟩ := hl
  rw [← Fl.value_abs] at h
  unfold value at h
  generalize (FloatT.lit 1 10000 : F64).toInt = m at hl ⊢
  rw [div_lt_div_iff₀ hD (by norm_num)] at h
  have h' : r.abs.toInt * 100000 < 9 * Fmt.f64.D := by exact_mod_cast h
  omega

/-- C64: the assertion of the documentation's example, `schwefel(&vec![420.9687; 4]).abs() < 1e-4` in f64, holds with every sine that
keeps its range and is accurate to eight digits. -/
theorem C64_doc (F : FloatFn F64) (hS : SinCos F) {ε : ℝ} (hF : AccurateTrig ε F) (hε : ε ≤ 1 / 10 ^ 8) :
    (schwefelF64 (List.replicate 4 (FloatT.lit 4209687 10000 : F64))).abs.lt (FloatT.lit 1 10000) = true := by
  obtain ⟨hmf, hm⟩ := lit_min
  have hw : Fl.Within (2 ^ 20) (FloatT.lit 4209687 10000 : F64) := by decide +kernel
  generalize (FloatT.lit 4209687 10000 : F64) = a at hmf hm hw ⊢
  have hmod : Moderate (List.replicate 4 a) :=
    ⟨by rw [List.length_replicate]; norm_num, fun b hb => by rw [List.eq_of_mem_replicate hb]; exact hw⟩
  have hfin := (C72_schwefel (.inr rfl) F hS _ hmod).1
  have hu : roundoff Fmt.f64 ≤ 1 / 10 ^ 15 := by
    unfold roundoff
    norm_num [Fmt.f64]
  have hup := Fl.roundoff_pos (f := Fmt.f64)
  have hτ : tiny Fmt.f64 ≤ 1 / 10 ^ 15 := by
    have : (10 : ℕ) ^ 15 ≤ 2 * Fmt.f64.D := by decide +kernel
    unfold tiny
    have h' : (10 : ℝ) ^ 15 ≤ 2 * (Fmt.f64.D : ℝ) := by exact_mod_cast this
    exact one_div_le_one_div_of_le (by positivity) h'
  have hτp := Fl.tiny_pos (f := Fmt.f64)
  have h := C64_error (.inr rfl) F hF (List.replicate 4 a) hfin (by rw [List.length_replicate]; push_cast; linarith)
  have hc := lt_iff_of (schwefelF64 (List.replicate 4 a)) hfin
  generalize schwefelF64 (List.replicate 4 a) = r at h hfin hc ⊢
  rw [List.length_replicate] at h
  simp only [List.map_replicate, List.sum_replicate, nsmul_eq_mul] at h
  obtain ⟨g1, g2⟩ := abs_le.1 hm
  have a0 : 420 ≤ value a := by norm_num at g1 g2 ⊢; linarith
  have a1 : value a ≤ 422 := by norm_num at g1 g2 ⊢; linarith
  rw [abs_of_nonneg (by linarith : 0 ≤ value a)] at h
  have hl := schwefel_lipschitz (by linarith : 100 ≤ value a) (by norm_num : (100 : ℝ) ≤ 4209687 / 10000) (by norm_num)
  rw [abs_of_nonneg (by linarith : 0 ≤ value a), abs_of_nonneg (by norm_num : (0 : ℝ) ≤ 4209687 / 10000)] at hl
  have hmin := Trig.sin_at_min
  have hmax := (C64_at_min 1).1
  rw [C64_exact, List.replicate_one, List.map_singleton, List.sum_singleton,
    abs_of_nonneg (by norm_num : (0 : ℝ) ≤ 4209687 / 10000)] at hmax
  have hsq : Real.sqrt (value a) ≤ 21 := by rw [Real.sqrt_le_left (by norm_num)]; linarith
  have hsq0 := Real.sqrt_nonneg (value a)
  have hε0 : 0 ≤ ε := (abs_nonneg _).trans (hF Fl.zero Fl.isFinite_zero).1
  generalize value a * Real.sin (Real.sqrt (value a)) = A at h hl
  generalize 4209687 / 10000 * Real.sin (Real.sqrt (4209687 / 10000)) = B at hl hmin hmax
  obtain ⟨l1, l2⟩ := abs_le.1 hl
  apply hc
  have t1 : roundoff Fmt.f64 * Real.sqrt (value a) ≤ 1 / 10 ^ 15 * 21 := mul_le_mul hu hsq hsq0 (by positivity)
  have t2 : value a * (ε + roundoff Fmt.f64 * Real.sqrt (value a) + tiny Fmt.f64) ≤ 422 * (1 / 10 ^ 8 + 1 / 10 ^ 15 * 21 + 1 / 10 ^ 15) :=
    mul_le_mul a1 (by linarith) (by positivity) (by norm_num)
  have t3 : 6 / 5 * (((4 : ℕ) : ℝ) + 3) * roundoff Fmt.f64 * (419 * ((4 : ℕ) : ℝ) + ((4 : ℕ) : ℝ) * value a) ≤
      6 / 5 * (((4 : ℕ) : ℝ) + 3) * (1 / 10 ^ 15) * (419 * ((4 : ℕ) : ℝ) + ((4 : ℕ) : ℝ) * 422) := by
    push_cast
    gcongr
  rw [abs_le] at h
  push_cast at h t3
  norm_num at *
  rw [abs_lt]
  constructor <;> linarith

end Verif.Props
