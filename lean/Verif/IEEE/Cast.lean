import Verif.IEEE.More

/-!
# Converting to a wider format and back
-/

namespace Verif

namespace Fmt

variable (f : Fmt)

theorem mag_form (k : Nat) : ∃ v e, v ≤ 2 ^ (f.mw + 1) ∧ f.mag k = v * 2 ^ e := by
  unfold mag
  have h0 : 0 < 2 ^ f.mw := f.two_pow_mw_pos
  split
  · next h =>
    refine ⟨k, 0, ?_, by simp⟩
    have := (Nat.div_eq_zero_iff_lt h0).1 h
    rw [pow_succ]; omega
  · refine ⟨_, _, ?_, rfl⟩
    have := Nat.mod_lt k h0
    rw [pow_succ]; omega

/-- `g` has at least the mantissa bits and the exponent range of `f`. -/
def Embeds (f g : Fmt) : Prop := f.mw ≤ g.mw ∧ f.bias ≤ g.bias

theorem embeds_f32 : Embeds f32 f64 := by unfold Embeds; decide
theorem embeds_refl : Embeds f f := ⟨le_rfl, le_rfl⟩

/-- The ratio of the units of two formats. -/
theorem Embeds.D_eq {f g : Fmt} (h : Embeds f g) :
    g.D = f.D * 2 ^ ((g.bias + g.mw) - (f.bias + f.mw)) := by
  unfold D
  rw [← pow_add]
  congr 1
  have := f.bias_pos
  have := h.1
  have := h.2
  omega

end Fmt

namespace Fl

open Fmt

/-- Conversion to a wider format is exact. -/
theorem cast_exact {f g : Fmt} (h : Embeds f g) {x : Fl f} (hx : x.isFinite = true) :
    (x.cast : Fl g).isFinite = true ∧
      ((x.cast : Fl g).toInt : ℝ) = (x.toInt : ℝ) * g.D / f.D := by
  have r := cast_rounds (g := g) hx
  have hDf : (0 : ℝ) < f.D := by exact_mod_cast f.D_pos
  obtain ⟨d, hd⟩ : ∃ d, d = (g.bias + g.mw) - (f.bias + f.mw) := ⟨_, rfl⟩
  have hq : (x.toInt : ℝ) * g.D / f.D = (x.toInt : ℝ) * 2 ^ d := by
    rw [h.D_eq, ← hd]; push_cast; field_simp
  rw [hq] at r ⊢
  obtain ⟨v, e, hv, hm⟩ := f.mag_form x.idx
  have hv' : v ≤ 2 ^ (g.mw + 1) := hv.trans (Nat.pow_le_pow_right (by omega) (by have := h.1; omega))
  have hlt := isFinite_iff_toInt.1 hx
  rw [natAbs_toInt, f.mag_inf_eq] at hlt
  have hlt2 : v * 2 ^ (e + d) < g.mag g.infIdx := by
    rw [g.mag_inf_eq, h.D_eq, ← hd, pow_add, ← mul_assoc, ← hm, ← mul_assoc]
    apply Nat.mul_lt_mul_of_pos_right _ (by positivity)
    exact _root_.lt_of_lt_of_le hlt (Nat.mul_le_mul_right _ (Nat.pow_le_pow_right (by omega) (by
      have := h.2; omega)))
  have hr := g.rnd_short hv' (Nat.le_of_lt hlt2)
  have hval : ((f.mag x.idx : ℝ) * 2 ^ d) = ((v * 2 ^ (e + d) : ℕ) : ℝ) := by
    rw [hm, pow_add]; push_cast; ring
  have hfin : (g.rnd ((x.toInt : ℝ) * 2 ^ d)).natAbs = v * 2 ^ (e + d) ∧
      ((g.rnd ((x.toInt : ℝ) * 2 ^ d) : Int) : ℝ) = (x.toInt : ℝ) * 2 ^ d := by
    rw [toInt_cast_eq]
    split
    · rw [neg_mul, g.rnd_neg, hval, hr]
      constructor
      · simp only [Int.natAbs_neg, Int.natAbs_natCast]
      · push_cast; ring
    · rw [hval, hr]
      constructor
      · simp only [Int.natAbs_neg, Int.natAbs_natCast]
      · push_cast; ring
  constructor
  · rw [isFinite_of_rounds r, hfin.1]; exact hlt2
  · rw [r.2]; exact hfin.2

/-- A wide value between the images of two narrow ones, converted back, is between them. -/
theorem cast_between {f g : Fmt} (h : Embeds f g) {lo hi : Fl f} {x : Fl g}
    (hlo : lo.isFinite = true) (hhi : hi.isFinite = true)
    (h1 : (lo.cast : Fl g).le x = true) (h2 : x.le (hi.cast : Fl g) = true) :
    lo.le (x.cast : Fl f) = true ∧ (x.cast : Fl f).le hi = true := by
  obtain ⟨c1, e1⟩ := cast_exact h hlo
  obtain ⟨c2, e2⟩ := cast_exact h hhi
  have hx := isFinite_of_between c1 c2 h1 h2
  have r := cast_rounds (g := f) hx
  have hDf : (0 : ℝ) < f.D := by exact_mod_cast f.D_pos
  have hDg : (0 : ℝ) < g.D := by exact_mod_cast g.D_pos
  have l1 : ((lo.cast : Fl g).toInt : ℝ) ≤ x.toInt := by exact_mod_cast (le_iff.1 h1).2.2
  have l2 : (x.toInt : ℝ) ≤ ((hi.cast : Fl g).toInt : ℝ) := by exact_mod_cast (le_iff.1 h2).2.2
  rw [e1] at l1
  rw [e2] at l2
  constructor
  · apply r.ge (isNan_of_isFinite hlo)
    rw [le_div_iff₀ hDg]
    rw [div_le_iff₀ hDf] at l1
    linarith
  · apply r.le (isNan_of_isFinite hhi)
    rw [div_le_iff₀ hDg]
    rw [le_div_iff₀ hDf] at l2
    linarith

theorem cast_le {f g : Fmt} (h : Embeds f g) {x y : Fl f} (hx : x.isFinite = true)
    (hy : y.isFinite = true) (hxy : x.le y = true) : (x.cast : Fl g).le y.cast = true := by
  obtain ⟨c1, e1⟩ := cast_exact h hx
  obtain ⟨c2, e2⟩ := cast_exact h hy
  rw [le_iff]
  refine ⟨isNan_of_isFinite c1, isNan_of_isFinite c2, ?_⟩
  have : ((x.cast : Fl g).toInt : ℝ) ≤ ((y.cast : Fl g).toInt : ℝ) := by
    rw [e1, e2]
    have : (x.toInt : ℝ) ≤ y.toInt := by exact_mod_cast (le_iff.1 hxy).2.2
    gcongr
  exact_mod_cast this

theorem isFinite_cast_inf {f g : Fmt} {x : Fl f} (hx : x.isFinite = false) :
    (x.cast : Fl g).isFinite = false := by
  unfold cast
  by_cases hn : x.isNan = true
  · rw [if_pos hn]
    have := isNan_nan (f := g)
    rw [isNan_iff] at this
    rw [not_isFinite_iff]; omega
  · rw [if_neg hn]
    have hi : x.isInf = true := by
      rw [isInf_iff]
      rw [not_isFinite_iff] at hx
      rw [Bool.not_eq_true, not_isNan_iff] at hn
      omega
    rw [if_pos hi, not_isFinite_iff, idx_inf]

end Fl
end Verif
