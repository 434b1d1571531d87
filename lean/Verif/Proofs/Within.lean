import Verif.Spec.Within
import Verif.IEEE.More

/-!
# Bounds through floating point operations
-/

namespace Verif.Fl

variable {f g : Fmt}

/-- `n` is a number of the format below infinity. -/
def Rep (f : Fmt) (n : Nat) : Prop := n < 2 ^ (f.bias + 1) ∧ ∃ v e, n = v * 2 ^ e ∧ v ≤ 2 ^ (f.mw + 1)

theorem rep_mul (hm : 23 ≤ f.mw) (hb : 127 ≤ f.bias) (v e : Nat) (hv : v ≤ 2 ^ 24) (he : e ≤ 103) : Rep f (v * 2 ^ e) := by
  have h1 : 2 ^ 24 ≤ 2 ^ (f.mw + 1) := Nat.pow_le_pow_right (by omega) (by omega)
  have h2 : 2 ^ 128 ≤ 2 ^ (f.bias + 1) := Nat.pow_le_pow_right (by omega) (by omega)
  refine ⟨?_, v, e, rfl, by omega⟩
  have h3 : 2 ^ e ≤ 2 ^ 103 := Nat.pow_le_pow_right (by omega) he
  have h4 : v * 2 ^ e ≤ 2 ^ 24 * 2 ^ 103 := Nat.mul_le_mul hv h3
  have : (2 : Nat) ^ 24 * 2 ^ 103 < 2 ^ 128 := by norm_num
  omega

theorem Within.mono {a b : Nat} {x : Fl f} (h : Within a x) (hab : a ≤ b) : Within b x :=
  ⟨h.1, h.2.trans (Nat.mul_le_mul_right _ hab)⟩

theorem Within.abs_le {a : Nat} {x : Fl f} (h : Within a x) : |(x.toInt : ℝ)| ≤ a * f.D := by
  have : ((x.toInt.natAbs : ℕ) : ℝ) = |(x.toInt : ℝ)| := by
    rw [← Int.cast_abs, Int.abs_eq_natAbs]; simp
  rw [← this]
  exact_mod_cast h.2

theorem Rep.rnd {n : Nat} (h : Rep f n) : f.rnd ((n : ℝ) * f.D) = (n * f.D : ℕ) := by
  obtain ⟨h1, v, e, rfl, hv⟩ := h
  have hlt : v * 2 ^ e * f.D < f.mag f.infIdx := by
    rw [f.mag_inf_eq]; exact Nat.mul_lt_mul_of_pos_right h1 f.D_pos
  have he : v * 2 ^ e * f.D = v * 2 ^ (e + (f.bias + f.mw - 1)) := by
    rw [pow_add, ← Nat.mul_assoc]; rfl
  have := f.rnd_short (v := v) (e := e + (f.bias + f.mw - 1)) hv (by rw [← he]; exact Nat.le_of_lt hlt)
  rw [← he] at this
  rw [← this]; push_cast; rfl

theorem Rounds.within {q : ℝ} {r : Fl f} {n : Nat} (h : Rounds q r) (hn : Rep f n) (hq : |q| ≤ n * f.D) : Within n r := by
  obtain ⟨h1, h2⟩ := abs_le.1 hq
  have a := f.rnd_mono h1
  have b := f.rnd_mono h2
  rw [f.rnd_neg, hn.rnd] at a
  rw [hn.rnd] at b
  rw [← h.2] at a b
  have hlt : n * f.D < f.mag f.infIdx := by
    rw [f.mag_inf_eq]; exact Nat.mul_lt_mul_of_pos_right hn.1 f.D_pos
  have hle : r.toInt.natAbs ≤ n * f.D := by omega
  exact ⟨isFinite_iff_toInt.2 (by omega), hle⟩

theorem D_pos_real : (0 : ℝ) < f.D := by exact_mod_cast f.D_pos

theorem Within.add {a b : Nat} {x y : Fl f} (hx : Within a x) (hy : Within b y) {n : Nat} (hn : Rep f n) (hab : a + b ≤ n) :
    Within n (x.add y) := by
  refine (add_rounds hx.1 hy.1).within hn ((abs_add_le _ _).trans ?_)
  have h1 := hx.abs_le
  have h2 := hy.abs_le
  have h3 : ((a : ℝ) + b) ≤ n := by exact_mod_cast hab
  nlinarith [D_pos_real (f := f)]

theorem Within.neg {a : Nat} {x : Fl f} (h : Within a x) : Within a x.neg :=
  ⟨by rw [isFinite_neg]; exact h.1, by rw [toInt_neg, Int.natAbs_neg]; exact h.2⟩

theorem Within.sub {a b : Nat} {x y : Fl f} (hx : Within a x) (hy : Within b y) {n : Nat} (hn : Rep f n) (hab : a + b ≤ n) :
    Within n (x.sub y) := hx.add hy.neg hn hab

theorem Within.mul {a b : Nat} {x y : Fl f} (hx : Within a x) (hy : Within b y) {n : Nat} (hn : Rep f n) (hab : a * b ≤ n) :
    Within n (x.mul y) := by
  refine (mul_rounds hx.1 hy.1).within hn ?_
  have h1 := hx.abs_le
  have h2 := hy.abs_le
  have h3 : ((a : ℝ) * b) ≤ n := by exact_mod_cast hab
  have hD := D_pos_real (f := f)
  rw [abs_div, abs_mul, abs_of_pos hD, div_le_iff₀ hD]
  calc |(x.toInt : ℝ)| * |(y.toInt : ℝ)| ≤ (a * f.D) * (b * f.D) :=
        mul_le_mul h1 h2 (abs_nonneg _) (by positivity)
    _ = (a * b) * f.D * f.D := by ring
    _ ≤ n * f.D * f.D := by gcongr

theorem Within.abs {a : Nat} {x : Fl f} (h : Within a x) : Within a x.abs :=
  ⟨by rw [isFinite_abs]; exact h.1, by rw [toInt_abs, Int.natAbs_natCast]; exact h.2⟩

theorem Within.sqrt_finite {a : Nat} {x : Fl f} (h : Within a x) (h0 : 0 ≤ x.toInt) (ha : Rep f a) (h1 : 1 ≤ a) :
    Within a x.sqrt := by
  refine (sqrt_rounds h.1 h0).within ha ?_
  have h2 := h.abs_le
  have hD := D_pos_real (f := f)
  rw [abs_of_nonneg (Real.sqrt_nonneg _), Real.sqrt_le_left (by positivity)]
  have h3 : (x.toInt : ℝ) ≤ a * f.D := (le_abs_self _).trans h2
  have h4 : (1 : ℝ) ≤ a := by exact_mod_cast h1
  calc (x.toInt : ℝ) * f.D ≤ (a * f.D) * f.D := by gcongr
    _ ≤ (a * f.D) * (a * f.D) := by
      have : (f.D : ℝ) ≤ a * f.D := by nlinarith
      gcongr
    _ = _ := by ring

theorem within_ofNat {n : Nat} (hn : Rep f n) : Within n (ofNat n : Fl f) := by
  refine (ofNat_rounds n).within hn ?_
  rw [abs_of_nonneg (by have := D_pos_real (f := f); positivity)]

theorem Within.cast {a : Nat} {x : Fl f} (h : Within a x) (ha : Rep g a) : Within a (x.cast : Fl g) := by
  refine (cast_rounds h.1).within ha ?_
  have h1 := h.abs_le
  have hD := D_pos_real (f := f)
  have hD' := D_pos_real (f := g)
  rw [abs_div, abs_mul, abs_of_pos hD, abs_of_pos hD', div_le_iff₀ hD]
  calc |(x.toInt : ℝ)| * g.D ≤ a * f.D * g.D := by gcongr
    _ = _ := by ring

end Verif.Fl
