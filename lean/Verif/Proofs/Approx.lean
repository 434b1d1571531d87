import Verif.IEEE.Error
import Verif.Spec.Velocity

/-!
# A calculus of rounding errors

`Approx k t m q x`: the float `x` stands for the real `q`, it took at most `k` roundings in a row, `m` bounds what was added up, `t` is the
absolute error from underflow.
-/

namespace Verif.Fl

open Spec

variable {f : Fmt}

structure Approx (k : Nat) (t m q : ℝ) (x : Fl f) : Prop where
  t0 : 0 ≤ t
  le : |q| ≤ m
  err : |value x - q| ≤ ((1 + roundoff f) ^ k - 1) * m + (1 + roundoff f) ^ k * t

theorem one_le_pow_roundoff (k : Nat) : 1 ≤ (1 + roundoff f) ^ k := one_le_pow₀ (by linarith [roundoff_pos (f := f)])

namespace Approx

variable {k j : Nat} {t s m n q r : ℝ} {x y : Fl f}

theorem m0 (h : Approx k t m q x) : 0 ≤ m := (abs_nonneg q).trans h.le

theorem of_fl (x : Fl f) : Approx 0 0 |value x| (value x) x := ⟨le_rfl, le_rfl, by simp⟩

theorem mono (h : Approx k t m q x) (hk : k ≤ j) : Approx j t m q x := by
  refine ⟨h.t0, h.le, h.err.trans ?_⟩
  have h1 : (1 + roundoff f) ^ k ≤ (1 + roundoff f) ^ j := pow_le_pow_right₀ (by linarith [roundoff_pos (f := f)]) hk
  have := h.m0
  have := h.t0
  gcongr

theorem weaken (h : Approx k t m q x) {t' m' : ℝ} (ht : t ≤ t') (hm : m ≤ m') : Approx k t' m' q x := by
  have h1 := one_le_pow_roundoff (f := f) k
  refine ⟨h.t0.trans ht, h.le.trans hm, h.err.trans ?_⟩
  have : ((1 + roundoff f) ^ k - 1) * m ≤ ((1 + roundoff f) ^ k - 1) * m' := mul_le_mul_of_nonneg_left hm (by linarith)
  have : (1 + roundoff f) ^ k * t ≤ (1 + roundoff f) ^ k * t' := mul_le_mul_of_nonneg_left ht (by linarith)
  linarith

/-- One more rounding with a relative error. -/
theorem round {p : ℝ} {z : Fl f} (ht : 0 ≤ t) (hle : |q| ≤ m) (hp : |p - q| ≤ ((1 + roundoff f) ^ k - 1) * m + (1 + roundoff f) ^ k * t)
    (hz : |value z - p| ≤ |p| * roundoff f) : Approx (k + 1) t m q z := by
  refine ⟨ht, hle, ?_⟩
  have hu := roundoff_pos (f := f)
  have h1 : |value z - q| ≤ |value z - p| + |p - q| := by simpa using abs_add_le (value z - p) (p - q)
  have h2 : |p| ≤ |p - q| + m := by
    have : |p| ≤ |p - q| + |q| := by simpa using abs_add_le (p - q) q
    linarith
  have h3 : |p| * roundoff f ≤ (|p - q| + m) * roundoff f := mul_le_mul_of_nonneg_right h2 hu.le
  have h4 : |p - q| * (1 + roundoff f) ≤ (((1 + roundoff f) ^ k - 1) * m + (1 + roundoff f) ^ k * t) * (1 + roundoff f) :=
    mul_le_mul_of_nonneg_right hp (by linarith)
  rw [pow_succ]
  nlinarith

/-- One more rounding with a relative error or an absolute one. -/
theorem round' {p : ℝ} {z : Fl f} (ht : 0 ≤ t) (hle : |q| ≤ m) (hp : |p - q| ≤ ((1 + roundoff f) ^ k - 1) * m + (1 + roundoff f) ^ k * t)
    (hz : |value z - p| ≤ tiny f ∨ |value z - p| ≤ |p| * roundoff f) : Approx (k + 1) (t + tiny f) m q z := by
  have hy := (tiny_pos (f := f)).le
  rcases hz with hz | hz
  · refine ⟨by linarith, hle, ?_⟩
    have hu := roundoff_pos (f := f)
    have h1 : |value z - q| ≤ |value z - p| + |p - q| := by simpa using abs_add_le (value z - p) (p - q)
    have hm : 0 ≤ m := (abs_nonneg q).trans hle
    have h2 : (1 + roundoff f) ^ k ≤ (1 + roundoff f) ^ (k + 1) := pow_le_pow_right₀ (by linarith) (Nat.le_succ k)
    have h3 := one_le_pow_roundoff (f := f) (k + 1)
    have h4 : ((1 + roundoff f) ^ k - 1) * m ≤ ((1 + roundoff f) ^ (k + 1) - 1) * m := mul_le_mul_of_nonneg_right (by linarith) hm
    have h5 : (1 + roundoff f) ^ k * t ≤ (1 + roundoff f) ^ (k + 1) * t := mul_le_mul_of_nonneg_right h2 ht
    have h6 : 1 * tiny f ≤ (1 + roundoff f) ^ (k + 1) * tiny f := mul_le_mul_of_nonneg_right h3 hy
    rw [mul_add]
    linarith
  · exact (round ht hle hp hz).weaken (by linarith) le_rfl

theorem add (h : Approx k t m q x) (g : Approx k s n r y) (hf : (x.add y).isFinite = true) :
    Approx (k + 1) (t + s) (m + n) (q + r) (x.add y) := by
  refine round (add_nonneg h.t0 g.t0) ((abs_add_le _ _).trans (add_le_add h.le g.le)) (p := value x + value y) ?_ (add_err hf)
  have h1 : |value x + value y - (q + r)| ≤ |value x - q| + |value y - r| := by
    rw [show value x + value y - (q + r) = (value x - q) + (value y - r) by ring]
    exact abs_add_le _ _
  have := h.err
  have := g.err
  rw [mul_add, mul_add]
  linarith

theorem sub (h : Approx k t m q x) (g : Approx k s n r y) (hf : (x.sub y).isFinite = true) (hx : x.isFinite = true) (hy : y.isFinite = true) :
    Approx (k + 1) (t + s) (m + n) (q - r) (x.sub y) := by
  refine round (add_nonneg h.t0 g.t0) ((abs_sub _ _).trans (add_le_add h.le g.le)) (p := value x - value y) ?_ (sub_err hf hx hy)
  have h1 : |value x - value y - (q - r)| ≤ |value x - q| + |value y - r| := by
    rw [show value x - value y - (q - r) = (value x - q) - (value y - r) by ring]
    exact abs_sub _ _
  have := h.err
  have := g.err
  rw [mul_add, mul_add]
  linarith

/-- The difference of two given floats. -/
theorem sub_fl (x y : Fl f) (hf : (x.sub y).isFinite = true) (hx : x.isFinite = true) (hy : y.isFinite = true) :
    Approx 1 0 |value x - value y| (value x - value y) (x.sub y) :=
  round le_rfl le_rfl (k := 0) (p := value x - value y) (by simp) (sub_err hf hx hy)

/-- A product; the second factor has no error from underflow. -/
theorem mul (h : Approx k t m q x) (g : Approx j 0 n r y) (hf : (x.mul y).isFinite = true) :
    Approx (k + j + 1) (t * n + tiny f) (m * n) (q * r) (x.mul y) := by
  refine round' (mul_nonneg h.t0 g.m0) (by rw [abs_mul]; exact mul_le_mul h.le g.le (abs_nonneg _) h.m0) (p := value x * value y) ?_ (mul_err hf)
  have a := one_le_pow_roundoff (f := f) k
  have b := one_le_pow_roundoff (f := f) j
  have e1 := h.err
  have e2 := g.err
  rw [mul_zero, add_zero] at e2
  have hm := h.m0
  have hn := g.m0
  have ht := h.t0
  have h2 : |value y| ≤ (1 + roundoff f) ^ j * n := by
    have : |value y| ≤ |value y - r| + |r| := by simpa using abs_add_le (value y - r) r
    have := g.le
    linarith
  have h1 : |value x * value y - q * r| ≤ |value x - q| * |value y| + |q| * |value y - r| := by
    rw [← abs_mul, ← abs_mul, show value x * value y - q * r = (value x - q) * value y + q * (value y - r) by ring]
    exact abs_add_le _ _
  have h3 : |value x - q| * |value y| ≤
      (((1 + roundoff f) ^ k - 1) * m + (1 + roundoff f) ^ k * t) * ((1 + roundoff f) ^ j * n) :=
    mul_le_mul e1 h2 (abs_nonneg _) (by have : 0 ≤ ((1 + roundoff f) ^ k - 1) * m := mul_nonneg (by linarith) hm; positivity)
  have h4 : |q| * |value y - r| ≤ m * (((1 + roundoff f) ^ j - 1) * n) := mul_le_mul h.le e2 (abs_nonneg _) hm
  rw [pow_add]
  nlinarith

/-- The quotient by a given float. -/
theorem div_fl (h : Approx k t m q x) (hf : (x.div y).isFinite = true) (hx : x.isFinite = true) (hy : y.isFinite = true) (h0 : 0 < value y) :
    Approx (k + 1) (t / value y + tiny f) (m / value y) (q / value y) (x.div y) := by
  have h0' : y.toInt ≠ 0 := by rintro e; unfold value at h0; rw [e] at h0; simp at h0
  refine round' (div_nonneg h.t0 h0.le) (by rw [abs_div, abs_of_pos h0]; exact div_le_div_of_nonneg_right h.le h0.le)
    (p := value x / value y) ?_ (div_err hf hx hy h0')
  rw [← sub_div, abs_div, abs_of_pos h0, ← mul_div_assoc, ← mul_div_assoc, ← add_div]
  exact div_le_div_of_nonneg_right h.err h0.le

end Approx

theorem finite_of_sub {x y : Fl f} (h : (x.sub y).isFinite = true) : x.isFinite = true ∧ y.isFinite = true := by
  unfold sub at h
  obtain ⟨h1, h2⟩ := finite_of_add h
  refine ⟨h1, ?_⟩
  rw [isFinite_iff_toInt, toInt_neg, Int.natAbs_neg, ← isFinite_iff_toInt] at h2
  exact h2

theorem finite_of_div_left {x y : Fl f} (h : (x.div y).isFinite = true) (hy : y.isFinite = true) (h0 : y.toInt ≠ 0) : x.isFinite = true := by
  by_contra hx
  have hz : y.isZero = false := by
    by_contra hc
    rw [Bool.not_eq_false, isZero_iff] at hc
    exact h0 (toInt_eq_zero.2 hc)
  have hyn := isNan_of_isFinite hy
  have hyi := isInf_of_isFinite hy
  cases hn : x.isNan with
  | true =>
    rw [show x.div y = nan by unfold div; simp [hn], not_finite_nan] at h; cases h
  | false =>
    cases hi : x.isInf with
    | false => exact hx (finite_of_not hn hi)
    | true =>
      rw [show x.div y = inf (x.sgn != y.sgn) by unfold div; simp [hn, hyn, hi, hyi], not_finite_inf] at h; cases h

end Verif.Fl
