import Verif.Props.TestFunc
import Verif.IEEE.Cast
import Verif.Props.RoundingDev

/-!
# C61: the rounding error of the paraboloid
-/

namespace Verif.Props

open Verif Spec TestFunc

variable {f : Fmt}

/-- A computed difference, squared, against the exact square. -/
theorem diff_sq {x y : Fl f} (h : (x.sub y).isFinite = true) (hu1 : roundoff f ≤ 1) :
    (1 - roundoff f) ^ 2 * (value x - value y) ^ 2 ≤ value (x.sub y) ^ 2 ∧
      value (x.sub y) ^ 2 ≤ (1 + roundoff f) ^ 2 * (value x - value y) ^ 2 := by
  have hu := Fl.roundoff_pos (f := f)
  obtain ⟨hx, hy⟩ := Fl.finite_of_sub h
  have h1 := Fl.sub_err h hx hy
  have h2 : |value (x.sub y)| ≤ (1 + roundoff f) * |value x - value y| := by
    have := abs_add_le (value (x.sub y) - (value x - value y)) (value x - value y)
    rw [sub_add_cancel] at this
    linarith
  have h3 : (1 - roundoff f) * |value x - value y| ≤ |value (x.sub y)| := by
    have := abs_sub_abs_le_abs_sub (value x - value y) (value (x.sub y))
    rw [abs_sub_comm (value x - value y) (value (x.sub y))] at this
    linarith
  have h4 := pow_le_pow_left₀ (abs_nonneg _) h2 2
  have h5 := pow_le_pow_left₀ (mul_nonneg (by linarith) (abs_nonneg _)) h3 2
  rw [mul_pow, sq_abs, sq_abs] at h4 h5
  exact ⟨h5, h4⟩

/-- `n + 1` as the program computes it. -/
abbrev succF (n : Nat) : Fl f := FloatT.add (FloatT.ofNat n) (FloatT.lit 1 1)

theorem paraboloidLoop_eq : ∀ (x : List (Fl f)) (n : Nat) (acc : Fl f),
    paraboloidLoop n x acc = (((x.zipIdx n).map fun p => p.1.sub (succF p.2)).map fun d => d.mul d).foldl Fl.add acc := by
  intro x
  induction x with
  | nil => intro n acc; rfl
  | cons a x ih =>
    intro n acc
    rw [paraboloidLoop, ih]
    rfl

theorem paraboloidLoop_real : ∀ (x : List (Fl f)) (n : Nat) (acc : ℝ),
    paraboloidLoop n (x.map value) acc = acc + ((x.zipIdx n).map fun p => (value p.1 - ((p.2 : ℝ) + 1)) ^ 2).sum := by
  intro x
  induction x with
  | nil => intro n acc; simp [paraboloidLoop]
  | cons a x ih =>
    intro n acc
    rw [List.map_cons, paraboloidLoop, ih, List.zipIdx_cons, List.map_cons, List.sum_cons]
    show acc + (value a - ((n : ℝ) + ((1 : ℕ) / (1 : ℕ) : ℝ))) * (value a - ((n : ℝ) + ((1 : ℕ) / (1 : ℕ) : ℝ))) + _ = _
    push_cast
    ring

theorem paraboloid_err (hf : 2 ≤ f.bias) (x : List (Fl f)) (hl : x.length < 2 ^ (f.bias + 1)) (hr : (paraboloid x).isFinite = true)
    (hfew : ((x.length : ℝ) + 10) * roundoff f ≤ 1 / 10) :
    |value (paraboloid x) - ((List.range x.length).map fun i => ((x.map value).getD i 0 - (i + 1)) ^ 2).sum| ≤
      6 / 5 * ((x.length + 3) * roundoff f) *
        ((List.range x.length).map fun i => ((x.map value).getD i 0 - (i + 1)) ^ 2).sum + 10 / 9 * (x.length * tiny f) := by
  have hu := Fl.roundoff_pos (f := f)
  have hu1 : roundoff f ≤ 1 / 100 := by
    have : (0 : ℝ) ≤ x.length * roundoff f := by positivity
    linarith
  have hnu0 : 0 ≤ (x.length : ℝ) * roundoff f := by positivity
  have hnu : (x.length : ℝ) * roundoff f ≤ 1 / 10 := by nlinarith
  -- the exact sum over pairs
  have hexact : ((List.range x.length).map fun i => ((x.map value).getD i 0 - ((i : ℝ) + 1)) ^ 2).sum =
      ((x.zipIdx 0).map fun p => (value p.1 - ((p.2 : ℝ) + 1)) ^ 2).sum := by
    have h1 := C61_exact (x.map value)
    have h2 := paraboloidLoop_real x 0 (FloatT.lit 0 1)
    rw [List.length_map] at h1
    rw [← h1]
    show paraboloidLoop 0 (x.map value) (FloatT.lit 0 1) = _
    rw [h2]
    show ((0 : ℕ) : ℝ) / ((1 : ℕ) : ℝ) + _ = _
    simp
  rw [hexact]
  have hsucc : ∀ p ∈ x.zipIdx 0, (succF p.2 : Fl f).isFinite = true ∧ value (succF p.2 : Fl f) = (p.2 : ℝ) + 1 := by
    intro p hp
    have hlt : p.2 < x.length := by
      have := List.mem_zipIdx (x := p.1) (i := p.2) hp
      omega
    have h2 := few_le hfew
    obtain ⟨k1, k2⟩ := succ_exact (f := f) hf (n := p.2) (by omega) (by omega)
    obtain ⟨k3, -⟩ := Fl.ofNat_exact (f := f) (n := p.2 + 1) (by omega) (by omega)
    refine ⟨k1, ?_⟩
    have hD := Fl.D_posR (f := f)
    unfold value
    rw [k2, k3]
    push_cast
    field_simp
  obtain ⟨z1, z2⟩ := lit_exact (f := f) hf (n := 0) (by omega)
  have hz : value (FloatT.lit 0 1 : Fl f) = 0 := by unfold value; rw [z2]; simp
  have e : paraboloid x = (((x.zipIdx 0).map fun p => p.1.sub (succF p.2)).map fun d => d.mul d).foldl Fl.add (FloatT.lit 0 1) :=
    paraboloidLoop_eq x 0 _
  rw [e] at hr ⊢
  obtain ⟨ds, hds⟩ : ∃ ds, ds = (x.zipIdx 0).map fun p => p.1.sub (succF p.2 : Fl f) := ⟨_, rfl⟩
  rw [← hds] at hr ⊢
  have hlen : ds.length = x.length := by rw [hds]; simp
  have hall := (Fl.foldl_add_finite hr).2
  have hsq : ∀ d ∈ ds, (d.mul d).isFinite = true := fun d hd => hall _ (List.mem_map.2 ⟨d, hd, rfl⟩)
  have hsum := Fl.sum_err hr
  rw [hz, zero_add, abs_zero, zero_add, List.length_map, hlen, List.map_map, List.map_map] at hsum
  have hpos : (ds.map ((fun x => |value x|) ∘ fun d => d.mul d)) = ds.map fun d => value (d.mul d) :=
    List.map_congr_left fun d hd => abs_of_nonneg (sq_value_nonneg (hsq d hd))
  rw [hpos] at hsum
  have h3 := squares_err hsq
  rw [hlen] at h3
  have hd2 : ∀ p ∈ x.zipIdx 0, (1 - roundoff f) ^ 2 * (value p.1 - ((p.2 : ℝ) + 1)) ^ 2 ≤ value (p.1.sub (succF p.2 : Fl f)) ^ 2 ∧
      value (p.1.sub (succF p.2 : Fl f)) ^ 2 ≤ (1 + roundoff f) ^ 2 * (value p.1 - ((p.2 : ℝ) + 1)) ^ 2 := by
    intro p hp
    have hd : p.1.sub (succF p.2 : Fl f) ∈ ds := hds ▸ List.mem_map.2 ⟨p, hp, rfl⟩
    have := diff_sq (Fl.finite_of_mul (hsq _ hd)).1 (by linarith)
    rwa [(hsucc p hp).2] at this
  have h1 : (1 - roundoff f) ^ 2 * ((x.zipIdx 0).map fun p => (value p.1 - ((p.2 : ℝ) + 1)) ^ 2).sum ≤
      (ds.map fun d => value d ^ 2).sum := by
    rw [← sum_mul_left, hds, List.map_map]
    exact sum_le_map fun p hp => (hd2 p hp).1
  have h2 : (ds.map fun d => value d ^ 2).sum ≤
      (1 + roundoff f) ^ 2 * ((x.zipIdx 0).map fun p => (value p.1 - ((p.2 : ℝ) + 1)) ^ 2).sum := by
    rw [← sum_mul_left, hds, List.map_map]
    exact sum_le_map fun p hp => (hd2 p hp).2
  have hg := Fl.pow_roundoff (n := x.length) hu.le (by linarith)
  have hg0 : 0 ≤ (1 + roundoff f) ^ x.length - 1 := by
    have : 1 ≤ (1 + roundoff f) ^ x.length := one_le_pow₀ (by linarith)
    linarith
  exact est_dev_sum hu (Nat.cast_nonneg _) hfew (Fl.tiny_pos (f := f)).le
    (sum_sq_nonneg (x.zipIdx 0) fun p => value p.1 - ((p.2 : ℝ) + 1)) hg0 (le_trans hg (by nlinarith)) h1 h2 h3 hsum

theorem value_cast {g : Fmt} (h : Fmt.Embeds f g) {x : Fl f} (hx : x.isFinite = true) : value (x.cast : Fl g) = value x := by
  have hD := Fl.D_posR (f := f)
  have hD' := Fl.D_posR (f := g)
  unfold value
  rw [(Fl.cast_exact h hx).2]
  field_simp

/-- C61: a finite value of the paraboloid is the exact sum of squares up to a relative error that grows with the number of components
(and a multiple of the smallest number). The format `f` is `f32` or `f64`, or any other format that fits into `f64`. -/
theorem C61_error (hf : 2 ≤ f.bias) (he : Fmt.Embeds f .f64) (x : List (Fl f)) (hl : x.length < 2 ^ (f.bias + 1))
    (hr : (paraboloidF64 x).isFinite = true) (hfew : ((x.length : ℝ) + 10) * roundoff f ≤ 1 / 10) :
    |value (paraboloidF64 x) - ((List.range x.length).map fun i => ((x.map value).getD i 0 - (i + 1)) ^ 2).sum| ≤
      6 / 5 * ((x.length + 3) * roundoff f) *
        ((List.range x.length).map fun i => ((x.map value).getD i 0 - (i + 1)) ^ 2).sum + 10 / 9 * (x.length * tiny f) := by
  have h1 : (paraboloid x).isFinite = true := by
    by_contra hc
    rw [Bool.not_eq_true] at hc
    have := Fl.isFinite_cast_inf (g := .f64) hc
    unfold paraboloidF64 at hr
    rw [this] at hr
    cases hr
  unfold paraboloidF64
  rw [value_cast he h1]
  exact paraboloid_err hf x hl h1 hfew

/-- The hypotheses are met by an ordinary point in `f32`, and the value is not zero. -/
example : 2 ≤ Fmt.f32.bias ∧ Fmt.Embeds .f32 .f64 ∧ [(Fl.ofNat 3 : F32), Fl.ofNat 7].length < 2 ^ (Fmt.f32.bias + 1) ∧
    (paraboloidF64 [(Fl.ofNat 3 : F32), Fl.ofNat 7]).isFinite = true ∧
    (paraboloidF64 [(Fl.ofNat 3 : F32), Fl.ofNat 7]).isZero = false ∧
    ((([(Fl.ofNat 3 : F32), Fl.ofNat 7].length : ℕ) : ℝ) + 10) * roundoff .f32 ≤ 1 / 10 := by
  refine ⟨by decide, Fmt.embeds_f32, by decide +kernel, by decide +kernel, by decide +kernel, ?_⟩
  unfold roundoff
  norm_num [Fmt.f32]

end Verif.Props
