import Verif.IEEE.More
import Verif.Model.Cross
import Mathlib.Algebra.BigOperators.Group.List.Basic
import Mathlib.Algebra.Order.BigOperators.Group.List

/-!
# C07, C08: mean crossings
-/

namespace Verif.Props

open Verif Cross

variable {σ : Type}

/-! ## C07 -/

/-- C07: two finite float parents whose floating-point sum does not overflow have exactly one
child; it is finite and lies between them. Any IEEE format; rounding included. -/
theorem C07_between {f : Fmt} (a b : Fl f) (ha : a.isFinite = true) (hb : b.isFinite = true)
    (hab : a.le b = true) (hsum : (a.add b).isFinite = true) (s : σ) :
    ∃ c, crossMean [a, b] s = .ok ([c], s) ∧ c.isFinite = true ∧
      a.le c = true ∧ c.le b = true := by
  obtain ⟨h2, h2f⟩ := Fl.ofNat_two (f := f)
  have hna := Fl.isNan_of_isFinite ha
  have hnb := Fl.isNan_of_isFinite hb
  -- the first addition `0 + a` does not change the value
  have r0 := Fl.add_rounds Fl.isFinite_zero ha
  rw [Fl.toInt_zero, Int.cast_zero, zero_add] at r0
  have e0 : (Fl.zero.add a).toInt = a.toInt := Fl.Rounds.exact hna r0
  have f0 : (Fl.zero.add a).isFinite = true := by
    rw [Fl.isFinite_iff_toInt, e0, ← Fl.isFinite_iff_toInt]; exact ha
  have r1 := Fl.add_rounds f0 hb
  rw [e0] at r1
  have f1 : ((Fl.zero.add a).add b).isFinite = true := by
    rw [Fl.isFinite_of_rounds r1, ← Fl.isFinite_of_rounds (Fl.add_rounds ha hb)]; exact hsum
  have hfin := (Fl.isFinite_of_rounds r1).1 f1
  have hle := (Fl.le_iff.1 hab).2.2
  have hle' : (a.toInt : ℝ) ≤ b.toInt := by exact_mod_cast hle
  have l1 := f.two_mul_le_rnd hna hfin (by linarith)
  have l2 := f.rnd_le_two_mul hnb hfin (by linarith)
  rw [← r1.2] at l1 l2
  have r2 := Fl.div_rounds f1 h2f (by rw [h2]; have := f.D_pos; omega)
  have hq : (((Fl.zero.add a).add b).toInt : ℝ) * f.D / ((Fl.ofNat 2 : Fl f).toInt : ℝ) =
      (((Fl.zero.add a).add b).toInt : ℝ) / 2 := by
    rw [h2]; push_cast
    have : (f.D : ℝ) ≠ 0 := by exact_mod_cast f.D_pos.ne'
    field_simp
  rw [hq] at r2
  have l1' : 2 * (a.toInt : ℝ) ≤ ((Fl.zero.add a).add b).toInt := by exact_mod_cast l1
  have l2' : (((Fl.zero.add a).add b).toInt : ℝ) ≤ 2 * b.toInt := by exact_mod_cast l2
  have g1 := r2.ge hna (by linarith)
  have g2 := r2.le hnb (by linarith)
  exact ⟨_, rfl, Fl.isFinite_of_between ha hb g1 g2, g1, g2⟩

/-- The order of the parents does not matter for the bounds. -/
theorem C07_between_symm {f : Fmt} (a b : Fl f) (ha : a.isFinite = true) (hb : b.isFinite = true)
    (hab : b.le a = true) (hsum : (a.add b).isFinite = true) (s : σ) :
    ∃ c, crossMean [a, b] s = .ok ([c], s) ∧ c.isFinite = true ∧
      b.le c = true ∧ c.le a = true := by
  obtain ⟨h2, h2f⟩ := Fl.ofNat_two (f := f)
  have hna := Fl.isNan_of_isFinite ha
  have hnb := Fl.isNan_of_isFinite hb
  have r0 := Fl.add_rounds Fl.isFinite_zero ha
  rw [Fl.toInt_zero, Int.cast_zero, zero_add] at r0
  have e0 : (Fl.zero.add a).toInt = a.toInt := Fl.Rounds.exact hna r0
  have f0 : (Fl.zero.add a).isFinite = true := by
    rw [Fl.isFinite_iff_toInt, e0, ← Fl.isFinite_iff_toInt]; exact ha
  have r1 := Fl.add_rounds f0 hb
  rw [e0] at r1
  have f1 : ((Fl.zero.add a).add b).isFinite = true := by
    rw [Fl.isFinite_of_rounds r1, ← Fl.isFinite_of_rounds (Fl.add_rounds ha hb)]; exact hsum
  have hfin := (Fl.isFinite_of_rounds r1).1 f1
  have hle := (Fl.le_iff.1 hab).2.2
  have hle' : (b.toInt : ℝ) ≤ a.toInt := by exact_mod_cast hle
  have l1 := f.two_mul_le_rnd hnb hfin (by linarith)
  have l2 := f.rnd_le_two_mul hna hfin (by linarith)
  rw [← r1.2] at l1 l2
  have r2 := Fl.div_rounds f1 h2f (by rw [h2]; have := f.D_pos; omega)
  have hq : (((Fl.zero.add a).add b).toInt : ℝ) * f.D / ((Fl.ofNat 2 : Fl f).toInt : ℝ) =
      (((Fl.zero.add a).add b).toInt : ℝ) / 2 := by
    rw [h2]; push_cast
    have : (f.D : ℝ) ≠ 0 := by exact_mod_cast f.D_pos.ne'
    field_simp
  rw [hq] at r2
  have l1' : 2 * (b.toInt : ℝ) ≤ ((Fl.zero.add a).add b).toInt := by exact_mod_cast l1
  have l2' : (((Fl.zero.add a).add b).toInt : ℝ) ≤ 2 * a.toInt := by exact_mod_cast l2
  have g1 := r2.ge hnb (by linarith)
  have g2 := r2.le hna (by linarith)
  exact ⟨_, rfl, Fl.isFinite_of_between hb ha g1 g2, g1, g2⟩

/-- Without the overflow condition the claim is false: the mean of two equal huge numbers is infinite. -/
theorem C07_overflow_witness : M.okAnd (crossMean [(Fl.maxFinite : F64), Fl.maxFinite] ())
    (fun cs _ => cs == [Fl.inf false]) = true := by decide +kernel

theorem foldl_add_eq (xs : List ℝ) (a : ℝ) :
    xs.foldl (fun x y => FloatT.add x y) a = a + xs.sum := by
  induction xs generalizing a with
  | nil => simp
  | cons x xs ih => rw [List.foldl_cons, ih, List.sum_cons]; show a + x + _ = _; ring

/-- C07: in exact arithmetic the child of `n ≥ 2` parents is their arithmetic mean. -/
theorem C07_mean_exact (xs : List ℝ) (h : 2 ≤ xs.length) (s : σ) :
    crossMean xs s = .ok ([xs.sum / xs.length], s) := by
  unfold crossMean
  refine M.bind_eq_ok.2 ⟨(), s, ?_, ?_⟩
  · simp [M.assert, h]; rfl
  · show Except.ok _ = _
    congr 2
    show [(xs.foldl (fun x y => FloatT.add x y) (0 : ℝ)) / (xs.length : ℝ)] = _
    rw [foldl_add_eq, zero_add]

/-- C07: the exact mean lies between any lower and upper bound of the parents (so between their
minimum and maximum). -/
theorem C07_mean_bounds (xs : List ℝ) (lo hi : ℝ) (h : 2 ≤ xs.length)
    (hlo : ∀ x ∈ xs, lo ≤ x) (hhi : ∀ x ∈ xs, x ≤ hi) (cs : List ℝ) (s s' : σ)
    (hr : crossMean xs s = .ok (cs, s')) : ∃ c, cs = [c] ∧ lo ≤ c ∧ c ≤ hi := by
  rw [C07_mean_exact xs h] at hr
  cases hr
  refine ⟨_, rfl, ?_, ?_⟩
  · rw [le_div_iff₀ (by exact_mod_cast (by omega : 0 < xs.length))]
    have := List.card_nsmul_le_sum xs lo hlo
    rw [nsmul_eq_mul] at this; linarith
  · rw [div_le_iff₀ (by exact_mod_cast (by omega : 0 < xs.length))]
    have := List.sum_le_card_nsmul xs hi hhi
    rw [nsmul_eq_mul] at this; linarith

/-- C07: fewer than two parents panic, for every number type. -/
theorem C07_few {α : Type} [FloatT α] (xs : List α) (h : xs.length < 2) (s : σ) :
    crossMean xs s = .error .assert := by
  unfold crossMean
  rw [M.bind_eq_error]; left
  simp [M.assert, Nat.not_le.2 h, M.fail]

example : (Fl.ofNat 3 : F64).isFinite = true ∧ (Fl.ofNat 3 : F64).le (Fl.ofNat 7) = true ∧
    ((Fl.ofNat 3 : F64).add (Fl.ofNat 7)).isFinite = true ∧
    M.okAnd (crossMean [(Fl.ofNat 3 : F64), Fl.ofNat 7] ()) (fun cs _ => cs == [Fl.ofNat 5]) = true := by
  decide +kernel

/-! ## C08 -/

theorem foldl_mul_eq (xs : List ℝ) (a : ℝ) :
    xs.foldl (fun x y => FloatT.mul x y) a = a * xs.prod := by
  induction xs generalizing a with
  | nil => simp
  | cons x xs ih => rw [List.foldl_cons, ih, List.prod_cons]; show a * x * _ = _; ring

theorem prod_le_pow (xs : List ℝ) (hi : ℝ) (hp : ∀ x ∈ xs, 0 < x) (h : ∀ x ∈ xs, x ≤ hi) :
    0 < xs.prod ∧ xs.prod ≤ hi ^ xs.length := by
  induction xs with
  | nil => simp
  | cons x xs ih =>
    obtain ⟨i1, i2⟩ := ih (fun y hy => hp y (by simp [hy])) (fun y hy => h y (by simp [hy]))
    have hx := hp x (by simp)
    have hxh := h x (by simp)
    rw [List.prod_cons, List.length_cons, pow_succ']
    exact ⟨mul_pos hx i1, mul_le_mul hxh i2 i1.le (by linarith)⟩

theorem pow_le_prod (xs : List ℝ) (lo : ℝ) (h0 : 0 ≤ lo) (h : ∀ x ∈ xs, lo ≤ x) :
    lo ^ xs.length ≤ xs.prod := by
  induction xs with
  | nil => simp
  | cons x xs ih =>
    have i := ih (fun y hy => h y (by simp [hy]))
    have hx := h x (by simp)
    rw [List.prod_cons, List.length_cons, pow_succ']
    exact mul_le_mul hx i (by positivity) (by linarith)

/-- C08: in exact arithmetic the one child of `n ≥ 2` positive parents is the positive `n`-th root of their product. -/
theorem C08_geometric (xs : List ℝ) (h : 2 ≤ xs.length) (hp : ∀ x ∈ xs, 0 < x) (s : σ) :
    ∃ c, crossGeomMean xs s = .ok ([c], s) ∧ 0 < c ∧ c ^ xs.length = xs.prod := by
  refine ⟨xs.prod ^ ((1 : ℝ) / (xs.length : ℝ)), ?_, ?_, ?_⟩
  · unfold crossGeomMean
    refine M.bind_eq_ok.2 ⟨(), s, ?_, ?_⟩
    · simp [M.assert, h]; rfl
    · show Except.ok _ = _
      congr 2
      show [(xs.foldl (fun x y => FloatT.mul x y) (1 : ℝ)) ^ ((1 : ℝ) / (xs.length : ℝ))] = _
      rw [foldl_mul_eq, one_mul]
  · have hpos : 0 < xs.prod := List.prod_pos hp
    exact Real.rpow_pos_of_pos hpos _
  · have hpos : 0 < xs.prod := List.prod_pos hp
    rw [← Real.rpow_natCast, ← Real.rpow_mul hpos.le, one_div_mul_cancel, Real.rpow_one]
    have : xs.length ≠ 0 := by omega
    exact_mod_cast this

/-- C08: it lies between any positive lower bound and any upper bound of the parents. -/
theorem C08_bounds (xs : List ℝ) (lo hi : ℝ) (h : 2 ≤ xs.length) (h0 : 0 < lo)
    (hlo : ∀ x ∈ xs, lo ≤ x) (hhi : ∀ x ∈ xs, x ≤ hi) (cs : List ℝ) (s s' : σ)
    (hr : crossGeomMean xs s = .ok (cs, s')) : ∃ c, cs = [c] ∧ lo ≤ c ∧ c ≤ hi := by
  have hp : ∀ x ∈ xs, 0 < x := fun x hx => lt_of_lt_of_le h0 (hlo x hx)
  obtain ⟨c, hc, hc0, hcn⟩ := C08_geometric xs h hp s
  rw [hc] at hr
  cases hr
  have hne : xs.length ≠ 0 := by omega
  obtain ⟨x, hx⟩ : ∃ x, x ∈ xs := List.exists_mem_of_length_pos (by omega)
  have hhi0 : 0 ≤ hi := (hp x hx).le.trans (hhi x hx)
  refine ⟨c, rfl, ?_, ?_⟩
  · have := pow_le_prod xs lo h0.le hlo
    rw [← hcn] at this
    exact le_of_pow_le_pow_left₀ hne hc0.le this
  · have := (prod_le_pow xs hi hp hhi).2
    rw [← hcn] at this
    exact le_of_pow_le_pow_left₀ hne hhi0 this

/-- C08: fewer than two parents panic. -/
theorem C08_few {α : Type} [FloatT α] [FloatFn α] (xs : List α) (h : xs.length < 2) (s : σ) :
    crossGeomMean xs s = .error .assert := by
  unfold crossGeomMean
  rw [M.bind_eq_error]; left
  simp [M.assert, Nat.not_le.2 h, M.fail]

example : 2 ≤ [(2 : ℝ), 8].length ∧ (0 : ℝ) < 2 ∧ (∀ x ∈ [(2 : ℝ), 8], 2 ≤ x) ∧
    (∀ x ∈ [(2 : ℝ), 8], x ≤ 8) := by
  refine ⟨by simp, by norm_num, ?_, ?_⟩ <;> intro x hx <;> simp at hx <;>
    rcases hx with rfl | rfl <;> norm_num

end Verif.Props
