import Verif.Spec.Trig
import Verif.Props.RosenbrockError
import Mathlib.Analysis.SpecialFunctions.Trigonometric.Bounds

/-!
# C63, C64: the rounding error of the Rastrigin and the Schwefel function

The platform's sine and cosine are arbitrary up to an accuracy `ε`.
-/

namespace Verif.Fl

variable {f : Fmt}

/-- The root of a finite number is finite. -/
theorem sqrt_finite {x : Fl f} (hx : x.isFinite = true) (h0 : 0 ≤ x.toInt) : x.sqrt.isFinite = true := by
  have hr := sqrt_rounds hx h0
  rw [isFinite_of_rounds hr]
  have hD := D_posR (f := f)
  have hX : (0 : ℝ) ≤ x.toInt := by exact_mod_cast h0
  have key : ∀ y : Fl f, y.isFinite = true → Real.sqrt ((x.toInt : ℝ) * f.D) ≤ y.toInt →
      (f.rnd (Real.sqrt ((x.toInt : ℝ) * f.D))).natAbs < f.mag f.infIdx := by
    intro y hy h
    have h1 := f.rnd_mono h
    rw [rnd_toInt (isNan_of_isFinite hy)] at h1
    have h2 := f.rnd_nonneg (Real.sqrt_nonneg ((x.toInt : ℝ) * f.D))
    have h3 := isFinite_iff_toInt.1 hy
    omega
  rcases le_total (f.D : ℝ) x.toInt with h | h
  · refine key x hx ?_
    rw [Real.sqrt_le_left hX]
    nlinarith
  · have e : (one : Fl f).toInt = f.D := toInt_one
    refine key one isFinite_one ?_
    rw [e, Real.sqrt_le_left (by exact_mod_cast hD.le)]
    push_cast
    nlinarith

theorem value_neg (x : Fl f) : Spec.value x.neg = -Spec.value x := by
  unfold Spec.value; rw [toInt_neg]; push_cast; ring

theorem value_abs (x : Fl f) : Spec.value x.abs = |Spec.value x| := by
  have hD := D_posR (f := f)
  unfold Spec.value
  rw [toInt_abs, abs_div, abs_of_pos hD, ← Int.cast_abs, ← Int.natCast_natAbs]

end Verif.Fl

namespace Verif.Props

open Verif Spec TestFunc

variable {f : Fmt}

/-! ## Schwefel -/

/-- `x sin √|x|` in two roundings and a sine. -/
theorem schwefel_term (F : FloatFn (Fl f)) {ε : ℝ} (hF : AccurateTrig ε F) (hu1 : roundoff f ≤ 1 / 100) {x : Fl f}
    (h : (Fl.mul x (F.sin (Fl.sqrt (Fl.abs x)))).isFinite = true) :
    |value (Fl.mul x (F.sin (Fl.sqrt (Fl.abs x)))) - value x * Real.sin (Real.sqrt |value x|)| ≤
      roundoff f * |value x| + 101 / 100 * (|value x| * (ε + roundoff f * Real.sqrt |value x| + tiny f)) + tiny f := by
  have hu := Fl.roundoff_pos (f := f)
  have hτ := Fl.tiny_pos (f := f)
  have hx := (Fl.finite_of_mul h).1
  have h0 : 0 ≤ x.abs.toInt := by rw [Fl.toInt_abs]; omega
  have hs := Fl.sqrt_finite (by rw [Fl.isFinite_abs]; exact hx) h0
  have e1 := Fl.sqrt_near hs h0
  rw [Fl.value_abs] at e1
  have e2 := (hF _ hs).1
  have e3 := Fl.mul_near h
  generalize value (F.sin (Fl.sqrt (Fl.abs x))) = S at e2 e3
  generalize value (Fl.sqrt (Fl.abs x)) = R at e1 e2
  have e4 := Real.abs_sin_sub_sin_le R (Real.sqrt |value x|)
  have e5 : |S - Real.sin (Real.sqrt |value x|)| ≤ ε + roundoff f * Real.sqrt |value x| + tiny f := by
    have := abs_sub_le S (Real.sin R) (Real.sin (Real.sqrt |value x|))
    linarith
  set η := ε + roundoff f * Real.sqrt |value x| + tiny f
  have hη : 0 ≤ η := (abs_nonneg _).trans e5
  have e6 : |S| ≤ 1 + η := by
    have := abs_add_le (S - Real.sin (Real.sqrt |value x|)) (Real.sin (Real.sqrt |value x|))
    rw [sub_add_cancel] at this
    have := Real.abs_sin_le_one (Real.sqrt |value x|)
    linarith
  have hX := abs_nonneg (value x)
  have e7 : |value x * S| ≤ |value x| * (1 + η) := by rw [abs_mul]; exact mul_le_mul_of_nonneg_left e6 hX
  have e8 : |value x * S - value x * Real.sin (Real.sqrt |value x|)| ≤ |value x| * η := by
    rw [← mul_sub, abs_mul]; exact mul_le_mul_of_nonneg_left e5 hX
  have := abs_sub_le (value (Fl.mul x (F.sin (Fl.sqrt (Fl.abs x))))) (value x * S) (value x * Real.sin (Real.sqrt |value x|))
  have e9 : |value x * S| * roundoff f ≤ |value x| * (1 + η) * roundoff f := mul_le_mul_of_nonneg_right e7 hu.le
  have e10 : roundoff f * (|value x| * η) ≤ 1 / 100 * (|value x| * η) := mul_le_mul_of_nonneg_right hu1 (by positivity)
  nlinarith

theorem schwefel_lit (hf : f = Fmt.f32 ∨ f = Fmt.f64) :
    |value (FloatT.lit 4189829 10000 : Fl f) - 4189829 / 10000| ≤ 419 * roundoff f := by
  have h : |(FloatT.lit 4189829 10000 : Fl f).toInt * 10000 - 4189829 * f.D| * 2 ^ (f.mw + 1) ≤ 4190000 * f.D := by
    rcases hf with rfl | rfl <;> decide +kernel
  have hD := Fl.D_posR (f := f)
  unfold value roundoff
  generalize (FloatT.lit 4189829 10000 : Fl f).toInt = m at h
  have h' : |(m : ℝ) * 10000 - 4189829 * f.D| * 2 ^ (f.mw + 1) ≤ 4190000 * f.D := by exact_mod_cast h
  have e : (m : ℝ) / f.D - 4189829 / 10000 = (m * 10000 - 4189829 * f.D) / (10000 * f.D) := by field_simp
  rw [e, abs_div, abs_of_pos (by positivity : (0 : ℝ) < 10000 * f.D), div_le_iff₀ (by positivity)]
  have hp : (0 : ℝ) < 2 ^ (f.mw + 1) := by positivity
  rw [← mul_le_mul_iff_of_pos_right hp]
  calc _ ≤ _ := h'
    _ = _ := by field_simp; ring

/-- The constant in front and the sum behind, with the roundings of the product and of the subtraction. -/
theorem est_schwefel {u n τ c A B r X W V : ℝ} (hu : 0 ≤ u) (hn : 0 ≤ n) (hk : (n + 10) * u ≤ 1 / 20) (hτ : 0 ≤ τ)
    (hc : |c - 4189829 / 10000| ≤ 419 * u) (hA : |A - c * n| ≤ |c * n| * u + τ) (hX : 0 ≤ X) (hW : 0 ≤ W) (hV : |V| ≤ X)
    (hB : |B - V| ≤ 11 / 10 * (n * u) * (X + (u * X + 101 / 100 * W + n * τ)) + (u * X + 101 / 100 * W + n * τ))
    (hr : |r - (A - B)| ≤ |A - B| * u) :
    |r - (4189829 / 10000 * n - V)| ≤ 6 / 5 * (n + 3) * u * (419 * n + X) + 11 / 10 * W + 11 / 10 * ((n + 1) * τ) := by
  have hu1 : u ≤ 1 / 200 := by nlinarith
  have hnu : n * u ≤ 1 / 20 := by nlinarith
  have hnu0 : 0 ≤ n * u := by positivity
  have huX : 0 ≤ u * X := by positivity
  have hnτ : 0 ≤ n * τ := by positivity
  -- the constant
  have a1 : |c * n - 4189829 / 10000 * n| ≤ 419 * u * n := by
    rw [← sub_mul, abs_mul, abs_of_nonneg hn]; exact mul_le_mul_of_nonneg_right hc hn
  have a2 : |c * n| ≤ 4189829 / 10000 * n + 419 * u * n := by
    have := abs_add_le (c * n - 4189829 / 10000 * n) (4189829 / 10000 * n)
    rw [sub_add_cancel, abs_of_nonneg (by positivity : 0 ≤ 4189829 / 10000 * n)] at this
    linarith
  have a3 : |c * n| * u ≤ (4189829 / 10000 * n + 419 * u * n) * u := mul_le_mul_of_nonneg_right a2 hu
  have a4 : |A - 4189829 / 10000 * n| ≤ 421 * (2 * (n * u)) + τ := by
    have := abs_sub_le A (c * n) (4189829 / 10000 * n)
    have : u * (n * u) ≤ 1 / 200 * (n * u) := mul_le_mul_of_nonneg_right hu1 hnu0
    nlinarith
  -- the sum
  have b1 : |B - V| ≤ 11 / 10 * (n * (u * X)) + 1055 / 1000 * (u * X + 101 / 100 * W + n * τ) := by
    have : n * u * (u * X + 101 / 100 * W + n * τ) ≤ 1 / 20 * (u * X + 101 / 100 * W + n * τ) :=
      mul_le_mul_of_nonneg_right hnu (by positivity)
    nlinarith
  -- both
  have c1 : |A - B| ≤ 4189829 / 10000 * n + X + (|A - 4189829 / 10000 * n| + |B - V|) := by
    have h1 := abs_add_three (A - 4189829 / 10000 * n) (V - B) (4189829 / 10000 * n - V)
    rw [show A - 4189829 / 10000 * n + (V - B) + (4189829 / 10000 * n - V) = A - B by ring, abs_sub_comm V B] at h1
    have h2 := abs_sub (4189829 / 10000 * n) V
    rw [abs_of_nonneg (by positivity : 0 ≤ 4189829 / 10000 * n)] at h2
    linarith
  have c2 : |A - B| * u ≤ (4189829 / 10000 * n + X) * u + 1 / 200 * (|A - 4189829 / 10000 * n| + |B - V|) := by
    have h1 := mul_le_mul_of_nonneg_right c1 hu
    have h2 : u * (|A - 4189829 / 10000 * n| + |B - V|) ≤ 1 / 200 * (|A - 4189829 / 10000 * n| + |B - V|) :=
      mul_le_mul_of_nonneg_right hu1 (by positivity)
    nlinarith
  have c3 : |r - (4189829 / 10000 * n - V)| ≤ |r - (A - B)| + (|A - 4189829 / 10000 * n| + |B - V|) := by
    have h1 := abs_add_three (r - (A - B)) (A - 4189829 / 10000 * n) (V - B)
    rw [show r - (A - B) + (A - 4189829 / 10000 * n) + (V - B) = r - (4189829 / 10000 * n - V) by ring, abs_sub_comm V B] at h1
    linarith
  have : 0 ≤ n * (u * X) := by positivity
  have : 0 ≤ n * (n * u) := by positivity
  nlinarith

theorem foldl_map_add (l : List (Fl f)) (g : Fl f → Fl f) : ∀ z : Fl f,
    l.foldl (fun acc x => Fl.add acc (g x)) z = (l.map g).foldl Fl.add z := by
  induction l with
  | nil => intro z; rfl
  | cons a l ih => intro z; exact ih _

/-- C64: a finite value of the Schwefel function differs from the exact sum of `418.9829 - x sin √|x|` at the point by at most
`6/5 (n + 3) u (419 n + Σ|x|) + 11/10 Σ |x| (ε + u √|x| + t) + 11/10 (n + 1) t`, where the platform's sine is off by at most `ε`, `u` is the
unit roundoff and `t` half the smallest positive number. -/
theorem C64_error (hf : f = Fmt.f32 ∨ f = Fmt.f64) (F : FloatFn (Fl f)) {ε : ℝ} (hF : AccurateTrig ε F) (x : List (Fl f))
    (hr : (schwefelF64 x).isFinite = true) (hfew : ((x.length : ℝ) + 10) * roundoff f ≤ 1 / 20) :
    |value (schwefelF64 x) - (x.map fun a => 4189829 / 10000 - value a * Real.sin (Real.sqrt |value a|)).sum| ≤
      6 / 5 * (x.length + 3) * roundoff f * (419 * x.length + (x.map fun a => |value a|).sum) +
      11 / 10 * (x.map fun a => |value a| * (ε + roundoff f * Real.sqrt |value a| + tiny f)).sum +
      11 / 10 * ((x.length + 1) * tiny f) := by
  have he : Fmt.Embeds f .f64 := by rcases hf with rfl | rfl; exacts [Fmt.embeds_f32, Fmt.embeds_refl _]
  have hu := Fl.roundoff_pos (f := f)
  have hτ := Fl.tiny_pos (f := f)
  have hn0 : (0 : ℝ) ≤ x.length := Nat.cast_nonneg _
  have hu1 : roundoff f ≤ 1 / 100 := by nlinarith
  have hvf : (schwefel x).isFinite = true := by
    by_contra hc
    rw [Bool.not_eq_true] at hc
    unfold schwefelF64 at hr
    rw [Fl.isFinite_cast_inf (g := .f64) hc] at hr
    cases hr
  unfold schwefelF64
  rw [value_cast he hvf]
  have e : schwefel x = Fl.sub (Fl.mul (FloatT.lit 4189829 10000) (Fl.ofNat x.length))
      ((x.map fun a => Fl.mul a (F.sin (Fl.sqrt (Fl.abs a)))).foldl Fl.add Fl.zero) := by
    unfold schwefel
    exact congrArg (FloatT.sub (FloatT.mul (FloatT.lit 4189829 10000) (FloatT.ofNat x.length))) (foldl_map_add x _ _)
  rw [e] at hvf ⊢
  have hlit := schwefel_lit hf
  generalize (FloatT.lit 4189829 10000 : Fl f) = c at hvf hlit ⊢
  obtain ⟨hA, hB⟩ := Fl.finite_of_sub hvf
  have hnv := Fl.value_ofNat (f := f) (few_le (by linarith)) (Fl.finite_of_mul hA).2
  have eA := Fl.mul_near hA
  rw [hnv] at eA
  have hterms := (Fl.foldl_add_finite hB).2
  have hT : ∀ a ∈ x, |value (Fl.mul a (F.sin (Fl.sqrt (Fl.abs a)))) - value a * Real.sin (Real.sqrt |value a|)| ≤
      roundoff f * |value a| + 101 / 100 * (|value a| * (ε + roundoff f * Real.sqrt |value a| + tiny f)) + tiny f :=
    fun a ha => schwefel_term F hF hu1 (hterms _ (List.mem_map.2 ⟨a, ha, rfl⟩))
  have eB := Fl.sum_near x _ _ _ Fl.value_zero hB (by nlinarith) hT
  rw [sum_lin x (fun a => |value a|)] at eB
  have eS := Fl.sub_err hvf hA hB
  have hX : 0 ≤ (x.map fun a => |value a|).sum := Fl.sum_nonneg_map _ _ fun a _ => abs_nonneg _
  have hε : 0 ≤ ε := (abs_nonneg _).trans (hF Fl.zero Fl.isFinite_zero).1
  have hW : 0 ≤ (x.map fun a => |value a| * (ε + roundoff f * Real.sqrt |value a| + tiny f)).sum :=
    Fl.sum_nonneg_map _ _ fun a _ => by positivity
  have hle : (x.map fun a => |value a * Real.sin (Real.sqrt |value a|)|).sum ≤ (x.map fun a => |value a|).sum :=
    sum_le_map fun a _ => by
      rw [abs_mul]
      exact mul_le_of_le_one_right (abs_nonneg _) (Real.abs_sin_le_one _)
  have hV : |(x.map fun a => value a * Real.sin (Real.sqrt |value a|)).sum| ≤ (x.map fun a => |value a|).sum := by
    refine le_trans ?_ hle
    have := Fl.sum_abs_sub_le x (fun a => value a * Real.sin (Real.sqrt |value a|)) (fun _ => 0)
    simpa using this
  have eE : (x.map fun a => 4189829 / 10000 - value a * Real.sin (Real.sqrt |value a|)).sum =
      4189829 / 10000 * x.length - (x.map fun a => value a * Real.sin (Real.sqrt |value a|)).sum := by
    clear * -
    induction x with
    | nil => simp
    | cons a x ih => simp only [List.map_cons, List.sum_cons, ih, List.length_cons]; push_cast; ring
  rw [eE]
  refine est_schwefel hu.le hn0 hfew hτ.le hlit eA hX hW hV (eB.trans ?_) eS
  have : 11 / 10 * (x.length * roundoff f) * ((x.map fun a => |value a * Real.sin (Real.sqrt |value a|)|).sum) ≤
      11 / 10 * (x.length * roundoff f) * (x.map fun a => |value a|).sum := mul_le_mul_of_nonneg_left hle (by positivity)
  nlinarith

/-- C64: so in the box [-500, 500]^n the computed value is never below zero by more than that. -/
theorem C64_error_min (hf : f = Fmt.f32 ∨ f = Fmt.f64) (F : FloatFn (Fl f)) {ε : ℝ} (hF : AccurateTrig ε F) (x : List (Fl f))
    (hbox : ∀ a ∈ x, -500 ≤ value a ∧ value a ≤ 500)
    (hr : (schwefelF64 x).isFinite = true) (hfew : ((x.length : ℝ) + 10) * roundoff f ≤ 1 / 20) :
    -(6 / 5 * (x.length + 3) * roundoff f * (919 * x.length) + 11 / 10 * (500 * x.length * (ε + 23 * roundoff f + tiny f)) +
      11 / 10 * ((x.length + 1) * tiny f)) ≤ value (schwefelF64 x) := by
  have h := C64_error hf F hF x hr hfew
  have hE := C64_nonneg (x.map value) (by intro a ha; obtain ⟨b, hb, rfl⟩ := List.mem_map.1 ha; exact hbox b hb)
  rw [C64_exact, List.map_map] at hE
  have hu := Fl.roundoff_pos (f := f)
  have hτ := Fl.tiny_pos (f := f)
  have hn0 : (0 : ℝ) ≤ x.length := Nat.cast_nonneg _
  have hε : 0 ≤ ε := (abs_nonneg _).trans (hF Fl.zero Fl.isFinite_zero).1
  have habs : ∀ a ∈ x, |value a| ≤ 500 := fun a ha => abs_le.2 (hbox a ha)
  have h1 : (x.map fun a => |value a|).sum ≤ 500 * x.length := by
    have := sum_le_map (l := x) (g := fun a => |value a|) (h := fun _ => (500 : ℝ)) habs
    rw [Fl.sum_const_map] at this
    linarith
  have h2 : (x.map fun a => |value a| * (ε + roundoff f * Real.sqrt |value a| + tiny f)).sum ≤
      500 * x.length * (ε + 23 * roundoff f + tiny f) := by
    have := sum_le_map (l := x) (g := fun a => |value a| * (ε + roundoff f * Real.sqrt |value a| + tiny f))
      (h := fun _ => 500 * (ε + 23 * roundoff f + tiny f)) fun a ha => by
        have h3 : Real.sqrt |value a| ≤ 23 := by
          rw [Real.sqrt_le_left (by norm_num)]
          have := habs a ha; linarith
        have h4 : roundoff f * Real.sqrt |value a| ≤ 23 * roundoff f := by nlinarith
        exact mul_le_mul (habs a ha) (by linarith) (by positivity) (by norm_num)
    rw [Fl.sum_const_map] at this
    linarith
  have h3 : 6 / 5 * (x.length + 3) * roundoff f * (419 * x.length + (x.map fun a => |value a|).sum) ≤
      6 / 5 * (x.length + 3) * roundoff f * (919 * x.length) := mul_le_mul_of_nonneg_left (by linarith) (by positivity)
  have h4 := (abs_le.1 h).1
  have h5 : (List.map ((fun a => 4189829 / 10000 - a * Real.sin (Real.sqrt |a|)) ∘ value) x).sum =
    (x.map fun a => 4189829 / 10000 - value a * Real.sin (Real.sqrt |value a|)).sum := rfl
  linarith

/-! ## Rastrigin -/

/-- `10 cos (k x)` for a constant `k` near `2 P`. -/
theorem rastrigin_term (F : FloatFn (Fl f)) {ε : ℝ} (hF : AccurateTrig ε F) (hu1 : roundoff f ≤ 1 / 100) {k ten x : Fl f}
    (hten : value ten = 10) (hk : |value k - 2 * (314159265358979 / 100000000000000)| ≤ 7 * roundoff f)
    (hkx : (Fl.mul k x).isFinite = true) (h : (Fl.mul ten (F.cos (Fl.mul k x))).isFinite = true) :
    |value (Fl.neg (Fl.mul ten (F.cos (Fl.mul k x)))) - -(10 * Real.cos (2 * (314159265358979 / 100000000000000) * value x))| ≤
      101 / 10 * (ε + 14 * roundoff f * |value x| + tiny f) + 10 * roundoff f + tiny f := by
  have hu := Fl.roundoff_pos (f := f)
  have hτ := Fl.tiny_pos (f := f)
  have e1 := Fl.mul_near hkx
  have e2 := (hF _ hkx).2
  have e3 := Fl.mul_near h
  rw [hten] at e3
  rw [Fl.value_neg]
  generalize value (F.cos (Fl.mul k x)) = C at e2 e3
  generalize value (Fl.mul k x) = w at e1 e2
  generalize value (Fl.mul ten (F.cos (Fl.mul k x))) = m at e3 ⊢
  generalize value k = K at e1 hk
  have hP' : (314159265358979 / 100000000000000 : ℝ) ≤ 315 / 100 := by norm_num
  have hP0 : (0 : ℝ) ≤ 314159265358979 / 100000000000000 := by norm_num
  generalize (314159265358979 / 100000000000000 : ℝ) = P at hP' hP0 hk ⊢
  generalize value x = X at e1 ⊢
  have hX := abs_nonneg X
  have hK : |K| ≤ 64 / 10 := by
    have := abs_add_le (K - 2 * P) (2 * P)
    rw [sub_add_cancel, abs_of_nonneg (by linarith : (0 : ℝ) ≤ 2 * P)] at this
    linarith
  have e4 : |K * X| * roundoff f ≤ 64 / 10 * |X| * roundoff f := by
    rw [abs_mul]; exact mul_le_mul_of_nonneg_right (mul_le_mul_of_nonneg_right hK hX) hu.le
  have e5 : |K * X - 2 * P * X| ≤ 7 * roundoff f * |X| := by
    rw [← sub_mul, abs_mul]; exact mul_le_mul_of_nonneg_right hk hX
  have e6 : |w - 2 * P * X| ≤ 14 * roundoff f * |X| + tiny f := by
    have := abs_sub_le w (K * X) (2 * P * X)
    have : 0 ≤ |X| * roundoff f := by positivity
    nlinarith
  have e7 := Real.abs_cos_sub_cos_le w (2 * P * X)
  have e8 : |C - Real.cos (2 * P * X)| ≤ ε + 14 * roundoff f * |X| + tiny f := by
    have := abs_sub_le C (Real.cos w) (Real.cos (2 * P * X))
    linarith
  generalize ε + 14 * roundoff f * |X| + tiny f = η at e8 ⊢
  have hη : 0 ≤ η := (abs_nonneg _).trans e8
  have e9 : |10 * C| ≤ 10 * (1 + η) := by
    rw [abs_mul, abs_of_pos (by norm_num : (0 : ℝ) < 10)]
    have := abs_add_le (C - Real.cos (2 * P * X)) (Real.cos (2 * P * X))
    rw [sub_add_cancel] at this
    have := Real.abs_cos_le_one (2 * P * X)
    linarith
  have e10 : |10 * C - 10 * Real.cos (2 * P * X)| ≤ 10 * η := by
    rw [← mul_sub, abs_mul, abs_of_pos (by norm_num : (0 : ℝ) < 10)]; linarith
  have e11 : |10 * C| * roundoff f ≤ 10 * (1 + η) * roundoff f := mul_le_mul_of_nonneg_right e9 hu.le
  have e12 : roundoff f * η ≤ 1 / 100 * η := mul_le_mul_of_nonneg_right hu1 hη
  have e13 := abs_sub_le m (10 * C) (10 * Real.cos (2 * P * X))
  rw [show -m - -(10 * Real.cos (2 * P * X)) = -(m - 10 * Real.cos (2 * P * X)) by ring, abs_neg]
  nlinarith

theorem rastrigin_lit (hf : f = Fmt.f32 ∨ f = Fmt.f64) :
    |value (Fl.mul (Fl.ofNat 2) (FloatT.lit 314159265358979 100000000000000) : Fl f) - 2 * (314159265358979 / 100000000000000)| ≤
      7 * roundoff f := by
  have h : |(Fl.mul (Fl.ofNat 2) (FloatT.lit 314159265358979 100000000000000) : Fl f).toInt * 100000000000000 -
      628318530717958 * f.D| * 2 ^ (f.mw + 1) ≤ 700000000000000 * f.D := by
    rcases hf with rfl | rfl <;> decide +kernel
  have hD := Fl.D_posR (f := f)
  unfold value roundoff
  generalize (Fl.mul (Fl.ofNat 2) (FloatT.lit 314159265358979 100000000000000) : Fl f).toInt = m at h
  have h' : |(m : ℝ) * 100000000000000 - 628318530717958 * f.D| * 2 ^ (f.mw + 1) ≤ 700000000000000 * f.D := by exact_mod_cast h
  have e : (m : ℝ) / f.D - 2 * (314159265358979 / 100000000000000) =
      (m * 100000000000000 - 628318530717958 * f.D) / (100000000000000 * f.D) := by field_simp; ring
  rw [e, abs_div, abs_of_pos (by positivity : (0 : ℝ) < 100000000000000 * f.D), div_le_iff₀ (by positivity)]
  have hp : (0 : ℝ) < 2 ^ (f.mw + 1) := by positivity
  rw [← mul_le_mul_iff_of_pos_right hp]
  calc _ ≤ _ := h'
    _ = _ := by field_simp; ring

/-- The constant in front and the sum behind, with the roundings of the product and of the addition. `S` is the sum of `x^2 + 10`. -/
theorem est_rastrigin {u n τ A B r S W V D : ℝ} (hu : 0 ≤ u) (hn : 0 ≤ n) (hk : (n + 10) * u ≤ 1 / 20) (hτ : 0 ≤ τ)
    (hA : |A - 10 * n| ≤ 10 * n * u + τ) (hS : 10 * n ≤ S) (hW : 0 ≤ W) (hV : |V| ≤ S)
    (hD : D = u * S + 101 / 10 * W + 2 * (n * τ))
    (hB : |B - V| ≤ 11 / 10 * (2 * n * u) * (S + D) + D)
    (hr : |r - (A + B)| ≤ |A + B| * u) :
    |r - (10 * n + V)| ≤ 9 / 4 * (n + 2) * u * S + 23 / 2 * W + 5 / 2 * ((n + 1) * τ) := by
  have hu1 : u ≤ 1 / 200 := by nlinarith
  have hnu : 2 * n * u ≤ 1 / 10 := by nlinarith
  have hnu0 : 0 ≤ n * u := by positivity
  have hS0 : 0 ≤ S := by linarith
  have huS : 0 ≤ u * S := by positivity
  have hnτ : 0 ≤ n * τ := by positivity
  have hD0 : 0 ≤ D := by rw [hD]; positivity
  have hDle : 11 / 10 * (2 * n * u) * D ≤ 11 / 100 * D := mul_le_mul_of_nonneg_right (by linarith) hD0
  have b1 : |B - V| ≤ 11 / 5 * (n * (u * S)) + 111 / 100 * D := by nlinarith
  have huA : 10 * n * u ≤ u * S := by nlinarith
  have c1 : |A + B| ≤ 2 * S + (|A - 10 * n| + |B - V|) := by
    have h1 := abs_add_three (A - 10 * n) (B - V) (10 * n + V)
    rw [show A - 10 * n + (B - V) + (10 * n + V) = A + B by ring] at h1
    have h2 := abs_add_le (10 * n) V
    rw [abs_of_nonneg (by positivity : 0 ≤ 10 * n)] at h2
    linarith
  have c2 : |A + B| * u ≤ 2 * S * u + 1 / 200 * (|A - 10 * n| + |B - V|) := by
    have h1 := mul_le_mul_of_nonneg_right c1 hu
    have h2 : u * (|A - 10 * n| + |B - V|) ≤ 1 / 200 * (|A - 10 * n| + |B - V|) :=
      mul_le_mul_of_nonneg_right hu1 (by positivity)
    nlinarith
  have c3 : |r - (10 * n + V)| ≤ |r - (A + B)| + (|A - 10 * n| + |B - V|) := by
    have h1 := abs_add_three (r - (A + B)) (A - 10 * n) (B - V)
    rw [show r - (A + B) + (A - 10 * n) + (B - V) = r - (10 * n + V) by ring] at h1
    linarith
  have : 0 ≤ n * (u * S) := by positivity
  nlinarith

theorem Fl.value_mul_abs {y z : Fl f} : |value y * value z| = |(y.toInt : ℝ) * z.toInt / f.D| / f.D := by
  have hD := Fl.D_posR (f := f)
  unfold value
  rw [show (y.toInt : ℝ) / f.D * (z.toInt / f.D) = (y.toInt : ℝ) * z.toInt / f.D / f.D by ring, abs_div _ (f.D : ℝ), abs_of_pos hD]

/-- A product is finite if one that is not smaller in size is. -/
theorem Fl.mul_finite_of_le {x y z w : Fl f} (hx : x.isFinite = true) (hy : y.isFinite = true)
    (h : |value x * value y| ≤ |value z * value w|) (hzw : (Fl.mul z w).isFinite = true) : (Fl.mul x y).isFinite = true := by
  have hD := Fl.D_posR (f := f)
  obtain ⟨hz, hw⟩ := Fl.finite_of_mul hzw
  rw [Fl.value_mul_abs, Fl.value_mul_abs, div_le_div_iff_of_pos_right hD] at h
  rw [Fl.isFinite_of_rounds (Fl.mul_rounds hx hy)]
  rw [Fl.isFinite_of_rounds (Fl.mul_rounds hz hw)] at hzw
  have key : ∀ q : ℝ, (f.rnd q).natAbs = (f.rnd |q|).natAbs := by
    intro q
    rcases abs_choice q with h | h <;> rw [h]
    rw [f.rnd_neg, Int.natAbs_neg]
  rw [key] at hzw ⊢
  have h1 := f.rnd_mono h
  have h2 := f.rnd_nonneg (abs_nonneg ((x.toInt : ℝ) * y.toInt / f.D))
  omega

/-- The argument of the cosine is finite if the square is. -/
theorem rastrigin_arg (hf : f = Fmt.f32 ∨ f = Fmt.f64) (hu1 : roundoff f ≤ 1 / 100) {k x : Fl f} (hkf : k.isFinite = true)
    (hk : |value k - 2 * (314159265358979 / 100000000000000)| ≤ 7 * roundoff f) (h : (Fl.mul x x).isFinite = true) :
    (Fl.mul k x).isFinite = true := by
  have hx := (Fl.finite_of_mul h).1
  have hK : |value k| ≤ 8 := by
    have := abs_add_le (value k - 2 * (314159265358979 / 100000000000000)) (2 * (314159265358979 / 100000000000000))
    rw [sub_add_cancel, abs_of_nonneg (by norm_num : (0 : ℝ) ≤ 2 * (314159265358979 / 100000000000000))] at this
    linarith
  rcases le_total 8 |value x| with h8 | h8
  · refine Fl.mul_finite_of_le hkf hx ?_ h
    rw [abs_mul, abs_mul]
    exact mul_le_mul_of_nonneg_right (hK.trans h8) (abs_nonneg _)
  · have h64 : (Fl.mul (Fl.ofNat 8) (Fl.ofNat 8) : Fl f).isFinite = true ∧ (Fl.ofNat 8 : Fl f).toInt = 8 * f.D := by
      rcases hf with rfl | rfl <;> decide +kernel
    have hv : value (Fl.ofNat 8 : Fl f) = 8 := by
      have hD := Fl.D_posR (f := f)
      unfold value; rw [h64.2]; push_cast; field_simp
    refine Fl.mul_finite_of_le hkf hx ?_ h64.1
    rw [hv, abs_mul, abs_mul, abs_of_pos (by norm_num : (0 : ℝ) < 8)]
    exact mul_le_mul hK h8 (abs_nonneg _) (by norm_num)

theorem rastrigin_sum (x : List (Fl f)) (c : Fl f → ℝ) : (x.map fun a => value a ^ 2 + 10 * (1 - c a)).sum =
    (10 : ℝ) * x.length + (x.map fun a => value a ^ 2 + -(10 * c a)).sum := by
  induction x with
  | nil => simp
  | cons a x ih => simp only [List.map_cons, List.sum_cons, ih, List.length_cons]; push_cast; ring

theorem rastrigin_dev (x : List (Fl f)) (W : Fl f → ℝ) :
    (x.map fun a => (value a ^ 2 * roundoff f + tiny f) + (101 / 10 * W a + 10 * roundoff f + tiny f)).sum =
      roundoff f * (x.map fun a => value a ^ 2 + 10).sum + 101 / 10 * (x.map W).sum + 2 * (x.length * tiny f) := by
  induction x with
  | nil => simp
  | cons a x ih => simp only [List.map_cons, List.sum_cons, ih, List.length_cons]; push_cast; ring

theorem foldl_twice_finite' (l : List (Fl f)) (a b : Fl f → Fl f) : ∀ (z : Fl f),
    (l.foldl (fun acc i => (acc.add (a i)).add (b i)) z).isFinite = true →
    ∀ i ∈ l, (a i).isFinite = true ∧ (b i).isFinite = true := by
  induction l with
  | nil => intro z _ i hi; cases hi
  | cons j l ih =>
    intro z h i hi
    rcases List.mem_cons.1 hi with rfl | hi
    · have : ∀ (l : List (Fl f)) (z : Fl f), (l.foldl (fun acc i => (acc.add (a i)).add (b i)) z).isFinite = true → z.isFinite = true := by
        intro l
        induction l with
        | nil => intro z h; exact h
        | cons j l ih => intro z h; exact (Fl.finite_of_add (Fl.finite_of_add (ih _ h)).1).1
      have h1 := this l ((z.add (a i)).add (b i)) h
      exact ⟨(Fl.finite_of_add (Fl.finite_of_add h1).1).2, (Fl.finite_of_add h1).2⟩
    · exact ih _ h i hi

/-- C63: a finite value of the Rastrigin function differs from the exact sum of `x^2 + 10 (1 - cos (2 P x))` at the point, with `P` the
constant the program takes for π, by at most `9/4 (n + 2) u Σ (x^2 + 10) + 23/2 Σ (ε + 14 u |x| + t) + 5/2 (n + 1) t`, where the platform's
cosine is off by at most `ε`, `u` is the unit roundoff and `t` half the smallest positive number. -/
theorem C63_error (hf : f = Fmt.f32 ∨ f = Fmt.f64) (F : FloatFn (Fl f)) {ε : ℝ} (hF : AccurateTrig ε F) (x : List (Fl f))
    (hr : (rastriginF64 x).isFinite = true) (hfew : ((x.length : ℝ) + 10) * roundoff f ≤ 1 / 20) :
    |value (rastriginF64 x) -
        (x.map fun a => value a ^ 2 + 10 * (1 - Real.cos (2 * (314159265358979 / 100000000000000) * value a))).sum| ≤
      9 / 4 * (x.length + 2) * roundoff f * (x.map fun a => value a ^ 2 + 10).sum +
      23 / 2 * (x.map fun a => ε + 14 * roundoff f * |value a| + tiny f).sum + 5 / 2 * ((x.length + 1) * tiny f) := by
  have he : Fmt.Embeds f .f64 := by rcases hf with rfl | rfl; exacts [Fmt.embeds_f32, Fmt.embeds_refl _]
  have hu := Fl.roundoff_pos (f := f)
  have hτ := Fl.tiny_pos (f := f)
  have hn0 : (0 : ℝ) ≤ x.length := Nat.cast_nonneg _
  have hu1 : roundoff f ≤ 1 / 100 := by nlinarith
  have hvf : (rastrigin x).isFinite = true := by
    by_contra hc
    rw [Bool.not_eq_true] at hc
    unfold rastriginF64 at hr
    rw [Fl.isFinite_cast_inf (g := .f64) hc] at hr
    cases hr
  unfold rastriginF64
  rw [value_cast he hvf]
  have key : ∀ (ten k : Fl f), value ten = 10 → k.isFinite = true →
      |value k - 2 * (314159265358979 / 100000000000000)| ≤ 7 * roundoff f →
      (Fl.add (Fl.mul ten (Fl.ofNat x.length)) (x.foldl (fun acc a => (acc.add (Fl.mul a a)).add
        (Fl.neg (Fl.mul ten (F.cos (Fl.mul k a))))) Fl.zero)).isFinite = true →
      |value (Fl.add (Fl.mul ten (Fl.ofNat x.length)) (x.foldl (fun acc a => (acc.add (Fl.mul a a)).add
          (Fl.neg (Fl.mul ten (F.cos (Fl.mul k a))))) Fl.zero)) -
        (x.map fun a => value a ^ 2 + 10 * (1 - Real.cos (2 * (314159265358979 / 100000000000000) * value a))).sum| ≤
      9 / 4 * (x.length + 2) * roundoff f * (x.map fun a => value a ^ 2 + 10).sum +
      23 / 2 * (x.map fun a => ε + 14 * roundoff f * |value a| + tiny f).sum + 5 / 2 * ((x.length + 1) * tiny f) := by
    intro ten k hten hkf hk hfin
    obtain ⟨hA, hB⟩ := Fl.finite_of_add hfin
    have hnv := Fl.value_ofNat (f := f) (few_le (by linarith)) (Fl.finite_of_mul hA).2
    have eA := Fl.mul_near hA
    rw [hnv, hten, abs_of_nonneg (by positivity : (0 : ℝ) ≤ 10 * x.length)] at eA
    have hterms := foldl_twice_finite' _ _ _ _ hB
    have hb : ∀ a ∈ x, |value (Fl.neg (Fl.mul ten (F.cos (Fl.mul k a)))) -
        -(10 * Real.cos (2 * (314159265358979 / 100000000000000) * value a))| ≤
        101 / 10 * (ε + 14 * roundoff f * |value a| + tiny f) + 10 * roundoff f + tiny f := by
      intro a ha
      obtain ⟨h1, h2⟩ := hterms a ha
      rw [Fl.isFinite_neg] at h2
      exact rastrigin_term F hF hu1 hten hk (rastrigin_arg hf hu1 hkf hk h1) h2
    have ha : ∀ a ∈ x, |value (Fl.mul a a) - value a ^ 2| ≤ value a ^ 2 * roundoff f + tiny f :=
      fun a h => rosen_sq_near (hterms a h).1
    have eB := Fl.sum_near_twice x _ _ _ _ _ _ Fl.value_zero hB (by nlinarith) ha hb
    have eS := Fl.add_err hfin
    have hε : 0 ≤ ε := (abs_nonneg _).trans (hF Fl.zero Fl.isFinite_zero).1
    have hW : 0 ≤ (x.map fun a => ε + 14 * roundoff f * |value a| + tiny f).sum :=
      Fl.sum_nonneg_map _ _ fun a _ => by positivity
    have hle : (x.map fun a => |value a ^ 2| + |-(10 * Real.cos (2 * (314159265358979 / 100000000000000) * value a))|).sum ≤
        (x.map fun a => value a ^ 2 + 10).sum :=
      sum_le_map fun a _ => by
        rw [abs_neg, abs_mul, abs_of_nonneg (sq_nonneg (value a)), abs_of_pos (by norm_num : (0 : ℝ) < 10)]
        have := Real.abs_cos_le_one (2 * (314159265358979 / 100000000000000) * value a)
        linarith
    have hV : |(x.map fun a => value a ^ 2 + -(10 * Real.cos (2 * (314159265358979 / 100000000000000) * value a))).sum| ≤
        (x.map fun a => value a ^ 2 + 10).sum := by
      refine le_trans ?_ hle
      have h1 := Fl.sum_abs_sub_le x (fun a => value a ^ 2 + -(10 * Real.cos (2 * (314159265358979 / 100000000000000) * value a))) (fun _ => 0)
      rw [Fl.sum_const_map, mul_zero, sub_zero] at h1
      refine h1.trans (sum_le_map fun a _ => ?_)
      rw [sub_zero]
      exact abs_add_le _ _
    have eD := rastrigin_dev x (fun a => ε + 14 * roundoff f * |value a| + tiny f)
    have hS : 10 * (x.length : ℝ) ≤ (x.map fun a => value a ^ 2 + 10).sum := by
      have := sum_le_map (l := x) (g := fun _ => (10 : ℝ)) (h := fun a => value a ^ 2 + 10) fun a _ => by
        have := sq_nonneg (value a); linarith
      rw [Fl.sum_const_map] at this
      linarith
    rw [rastrigin_sum]
    refine est_rastrigin hu.le hn0 hfew hτ.le eA hS hW hV eD (eB.trans ?_) eS
    have := mul_le_mul_of_nonneg_left hle (by positivity : 0 ≤ 11 / 10 * (2 * (x.length : ℝ) * roundoff f))
    linarith
  have hkf : (Fl.mul (Fl.ofNat 2) (FloatT.lit 314159265358979 100000000000000) : Fl f).isFinite = true := by
    rcases hf with rfl | rfl <;> decide +kernel
  have e : rastrigin x = Fl.add (Fl.mul (FloatT.lit 10 1) (Fl.ofNat x.length)) (x.foldl (fun acc a => (acc.add (Fl.mul a a)).add
        (Fl.neg (Fl.mul (FloatT.lit 10 1) (F.cos (Fl.mul (Fl.mul (Fl.ofNat 2) (FloatT.lit 314159265358979 100000000000000)) a))))) Fl.zero) := by
    have e : ∀ ten P : Fl f, FloatT.add (FloatT.mul ten (FloatT.ofNat x.length)) (x.foldl (fun acc xi =>
        FloatT.sub (FloatT.add acc (FloatT.mul xi xi))
          (FloatT.mul ten (FloatFn.cos (FloatT.mul (FloatT.mul (FloatT.ofNat 2) P) xi)))) FloatT.zero) =
        Fl.add (Fl.mul ten (Fl.ofNat x.length)) (x.foldl (fun acc a => (acc.add (Fl.mul a a)).add
          (Fl.neg (Fl.mul ten (F.cos (Fl.mul (Fl.mul (Fl.ofNat 2) P) a))))) Fl.zero) := fun _ _ => rfl
    unfold rastrigin
    exact e _ _
  rw [e] at hvf ⊢
  exact key _ _ (lit_value hf).2.2.2 hkf (rastrigin_lit hf) hvf

/-- C63: so the computed value is never below zero by more than that. -/
theorem C63_error_min (hf : f = Fmt.f32 ∨ f = Fmt.f64) (F : FloatFn (Fl f)) {ε : ℝ} (hF : AccurateTrig ε F) (x : List (Fl f))
    (hr : (rastriginF64 x).isFinite = true) (hfew : ((x.length : ℝ) + 10) * roundoff f ≤ 1 / 20) :
    -(9 / 4 * (x.length + 2) * roundoff f * (x.map fun a => value a ^ 2 + 10).sum +
      23 / 2 * (x.map fun a => ε + 14 * roundoff f * |value a| + tiny f).sum + 5 / 2 * ((x.length + 1) * tiny f)) ≤
      value (rastriginF64 x) := by
  have h := (abs_le.1 (C63_error hf F hF x hr hfew)).1
  have hE := (C63_min (x.map value)).1
  rw [C63_exact, List.map_map] at hE
  have h5 : (List.map ((fun a => a ^ 2 + 10 * (1 - Real.cos (2 * (314159265358979 / 100000000000000) * a))) ∘ value) x).sum =
    (x.map fun a => value a ^ 2 + 10 * (1 - Real.cos (2 * (314159265358979 / 100000000000000) * value a))).sum := rfl
  linarith

end Verif.Props
