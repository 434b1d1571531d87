import Mathlib.Analysis.SpecialFunctions.Trigonometric.Bounds
import Mathlib.Analysis.Real.Pi.Bounds
import Mathlib.Tactic.NormNum
import Mathlib.Tactic.Linarith
import Mathlib.Tactic.Ring
import Mathlib.Tactic.Positivity

/-!
# Bounds on sine and cosine, for the Schwefel function
-/

namespace Verif.Trig

open Real

theorem mono_of_deriv {g g' : ℝ → ℝ} (hd : ∀ x, HasDerivAt g (g' x) x) (h0 : g 0 = 0) (h : ∀ x, 0 ≤ x → 0 ≤ g' x)
    {x : ℝ} (hx : 0 ≤ x) : 0 ≤ g x := by
  have hm : MonotoneOn g (Set.Ici 0) := by
    refine monotoneOn_of_deriv_nonneg (convex_Ici 0) (fun y _ => (hd y).continuousAt.continuousWithinAt)
      (fun y _ => (hd y).differentiableAt.differentiableWithinAt) ?_
    intro y hy
    rw [interior_Ici] at hy
    rw [(hd y).deriv]
    exact h y (le_of_lt hy)
  have := hm (Set.mem_Ici.2 le_rfl) (Set.mem_Ici.2 hx) hx
  rwa [h0] at this

theorem cos_le_four {x : ℝ} (hx : 0 ≤ x) : cos x ≤ 1 - x ^ 2 / 2 + x ^ 4 / 24 := by
  have := mono_of_deriv (g := fun x => 1 - x ^ 2 / 2 + x ^ 4 / 24 - cos x) (g' := fun x => sin x - (x - x ^ 3 / 6))
    (fun y => by
      have h1 := (((hasDerivAt_const y (1 : ℝ)).sub ((hasDerivAt_pow 2 y).div_const 2)).add
        ((hasDerivAt_pow 4 y).div_const 24)).sub (hasDerivAt_cos y)
      refine h1.congr_deriv ?_
      push_cast
      ring)
    (by simp) (fun y hy => by have := sin_ge_sub_cube hy; linarith) hx
  linarith

theorem sin_le_five {x : ℝ} (hx : 0 ≤ x) : sin x ≤ x - x ^ 3 / 6 + x ^ 5 / 120 := by
  have := mono_of_deriv (g := fun x => x - x ^ 3 / 6 + x ^ 5 / 120 - sin x) (g' := fun x => 1 - x ^ 2 / 2 + x ^ 4 / 24 - cos x)
    (fun y => by
      have h1 := (((hasDerivAt_id y).sub ((hasDerivAt_pow 3 y).div_const 6)).add
        ((hasDerivAt_pow 5 y).div_const 120)).sub (hasDerivAt_sin y)
      refine h1.congr_deriv ?_
      push_cast
      ring)
    (by simp) (fun y hy => by have := cos_le_four hy; linarith) hx
  linarith

theorem cos_ge_six {x : ℝ} (hx : 0 ≤ x) : 1 - x ^ 2 / 2 + x ^ 4 / 24 - x ^ 6 / 720 ≤ cos x := by
  have := mono_of_deriv (g := fun x => cos x - (1 - x ^ 2 / 2 + x ^ 4 / 24 - x ^ 6 / 720))
    (g' := fun x => x - x ^ 3 / 6 + x ^ 5 / 120 - sin x)
    (fun y => by
      have h1 := (hasDerivAt_cos y).sub ((((hasDerivAt_const y (1 : ℝ)).sub ((hasDerivAt_pow 2 y).div_const 2)).add
        ((hasDerivAt_pow 4 y).div_const 24)).sub ((hasDerivAt_pow 6 y).div_const 720))
      refine h1.congr_deriv ?_
      push_cast
      ring)
    (by simp) (fun y hy => by have := sin_le_five hy; linarith) hx
  linarith

/-- The polynomial inequality behind the Schwefel constant: the difference is a square times something positive plus a
small positive rest. -/
theorem poly_bound {v : ℝ} (h0 : 0 ≤ v) (h2 : v ≤ 2) :
    (20420352248334 / 10 ^ 12 + v) ^ 2 * (1 - v ^ 2 / 2 + v ^ 4 / 24) ≤ 4189829 / 10000 := by
  have e2 : v ^ 2 ≤ 4 := by nlinarith
  have e3 : v ^ 3 ≤ 8 := by nlinarith [mul_nonneg h0 h0, mul_le_mul e2 h2 h0 (by norm_num)]
  have e4 : v ^ 4 ≤ 16 := by nlinarith [mul_nonneg h0 h0, sq_nonneg v]
  have hQ : 0 ≤ (12658779133933813110232855607999930352092557 / 60000000000000000000000000000000000000000 : ℝ) + (5127767638273836500841479476038103 / 300000000000000000000000000000000 : ℝ) * v ^ 1 + (-34413012878138055980087963 / 2000000000000000000000000 : ℝ) * v ^ 2 + (-10258761489167 / 6000000000000 : ℝ) * v ^ 3 + (-1 / 24 : ℝ) * v ^ 4 := by
    linarith
  have hs := mul_nonneg (sq_nonneg (v - 9717073 / 10 ^ 8)) hQ
  linarith

theorem sin_shift (v : ℝ) : sin (13 * π / 2 + v) = cos v := by
  have : 13 * π / 2 + v = (v + π / 2) + (3 : ℕ) * (2 * π) := by push_cast; ring
  rw [this, sin_add_nat_mul_two_pi, sin_add_pi_div_two]

/-- `t² sin t` stays between -418.9829 and 418.9829 for `0 ≤ t ≤ √500`. -/
theorem schwefel_bound {t : ℝ} (h0 : 0 ≤ t) (h1 : t ^ 2 ≤ 500) : |t ^ 2 * sin t| ≤ 4189829 / 10000 := by
  have hp1 := pi_gt_d6
  have hp2 := pi_lt_d20
  by_cases hc : t ≤ 13 * π / 2
  · rw [abs_mul, abs_of_nonneg (sq_nonneg t)]
    have h3 : t ≤ 20.43 := by linarith
    have h4 : t ^ 2 ≤ 20.43 ^ 2 := by gcongr
    calc t ^ 2 * |sin t| ≤ t ^ 2 * 1 := by gcongr; exact abs_sin_le_one t
      _ ≤ 4189829 / 10000 := by norm_num at h4 ⊢; linarith
  · push Not at hc
    obtain ⟨v, rfl⟩ : ∃ v, t = 13 * π / 2 + v := ⟨t - 13 * π / 2, by ring⟩
    have hv0 : 0 ≤ v := by linarith
    have ht : 13 * π / 2 + v ≤ 22.37 := by nlinarith
    have hv2 : v ≤ 1.96 := by linarith
    have hC : 13 * π / 2 ≤ 20420352248334 / 10 ^ 12 := by norm_num at hp2 ⊢; linarith
    rw [sin_shift, abs_le]
    have hc1 := cos_le_four hv0
    have hc2 := one_sub_sq_div_two_le_cos (x := v)
    constructor
    · have hcr : cos (1.96 : ℝ) ≤ cos v := cos_le_cos_of_nonneg_of_le_pi hv0 (by linarith) hv2
      have hc6 := cos_ge_six (x := (1.96 : ℝ)) (by norm_num)
      have : -(4 / 10) ≤ cos v := by norm_num at hc6 hcr ⊢; linarith
      nlinarith [sq_nonneg (13 * π / 2 + v)]
    · have hpb := poly_bound hv0 (by linarith : v ≤ 2)
      by_cases hs : 0 ≤ 1 - v ^ 2 / 2 + v ^ 4 / 24
      · calc (13 * π / 2 + v) ^ 2 * cos v ≤ (13 * π / 2 + v) ^ 2 * (1 - v ^ 2 / 2 + v ^ 4 / 24) := by gcongr
          _ ≤ (20420352248334 / 10 ^ 12 + v) ^ 2 * (1 - v ^ 2 / 2 + v ^ 4 / 24) := by gcongr
          _ ≤ _ := hpb
      · have : (13 * π / 2 + v) ^ 2 * cos v ≤ 0 :=
          mul_nonpos_of_nonneg_of_nonpos (sq_nonneg _) (by linarith)
        linarith

/-- The Schwefel function at its documented minimum. -/
theorem sin_at_min : 4189829 / 10000 - 13 / 1000000 ≤ 4209687 / 10000 * sin (sqrt (4209687 / 10000)) := by
  obtain ⟨v, hv⟩ : ∃ v, sqrt (4209687 / 10000) = 13 * π / 2 + v := ⟨sqrt (4209687 / 10000) - 13 * π / 2, by ring⟩
  have hp1 := pi_gt_d20
  have hp2 := pi_lt_d20
  have hs1 : sqrt (4209687 / 10000) ≤ (20517521781 / 1000000000 : ℝ) := by
    rw [sqrt_le_left (by norm_num)]; norm_num
  have hs2 : (20.5 : ℝ) ≤ sqrt (4209687 / 10000) := by
    apply le_sqrt_of_sq_le; norm_num
  rw [hv, sin_shift]
  have hv0 : 0 ≤ v := by linarith
  have hv1 : v ≤ (97169533 / 1000000000 : ℝ) := by linarith
  have hm : cos (97169533 / 1000000000 : ℝ) ≤ cos v := cos_le_cos_of_nonneg_of_le_pi hv0 (by linarith) hv1
  have h6 := cos_ge_six (x := (97169533 / 1000000000 : ℝ)) (by norm_num)
  norm_num at h6 hm ⊢
  linarith

end Verif.Trig
