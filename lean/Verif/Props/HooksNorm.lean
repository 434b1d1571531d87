import Verif.Props.HooksSpeed

/-!
# C44: MaxVelocityAbs limits the speed, with rounding
-/

namespace Verif.Props

/-! ## Estimates for real numbers -/

/-- The computed sum of squares `S` against the exact one `Q`; `P` is the exact sum of the computed squares. -/
theorem est_sum {u k g τ M n S P Q : ℝ} (hu : 0 < u) (hu1 : u ≤ 1 / 100) (hk : k = (n + 1) * u) (hk1 : k ≤ 1 / 10) (hn : 0 ≤ n)
    (hg0 : 0 ≤ g) (hg : g ≤ 11 / 10 * (n * u)) (hQ : 0 ≤ Q) (hM : 0 ≤ M) (hτ : τ ≤ u * M)
    (h1 : |P - Q| ≤ n * τ + Q * u) (h2 : |S - P| ≤ g * P) : |S - Q| ≤ 6 / 5 * k * (Q + M) := by
  have hnu : 0 ≤ n * u := by positivity
  have a1 := abs_le.1 h1
  have hP : P ≤ Q + n * u * M + Q * u := by nlinarith
  have h3 : |S - Q| ≤ |S - P| + |P - Q| := by simpa using abs_add_le (S - P) (P - Q)
  have h4 : g * P ≤ 11 / 10 * (n * u) * (Q + n * u * M + Q * u) := by
    have : 0 ≤ Q + n * u * M + Q * u := by positivity
    nlinarith
  have h5 : n * τ ≤ n * u * M := by nlinarith
  have e1 : n * u * (n * u * M) ≤ n * u * (1 / 10 * M) :=
    mul_le_mul_of_nonneg_left (mul_le_mul_of_nonneg_right (by nlinarith) hM) hnu
  have e2 : n * u * (Q * u) ≤ n * u * (1 / 100 * Q) := mul_le_mul_of_nonneg_left (by nlinarith) hnu
  have e3 : 0 ≤ n * u * M := by positivity
  have e4 : 0 ≤ n * u * Q := by positivity
  have e5 : 0 ≤ u * M := by positivity
  have e6 : 0 ≤ u * Q := by positivity
  subst hk
  nlinarith

/-- Roots of close numbers are close. -/
theorem est_root {c s L : ℝ} (hc0 : 0 ≤ c) (hc : c ≤ 1 / 8) (hL : 0 ≤ L) (h : s ^ 2 * (1 - c) ≤ L ^ 2 * (1 + c)) :
    s ≤ (1 + 6 / 5 * c) * L := by
  apply le_of_sq_le_sq' (by positivity)
  have h1 : 1 + c ≤ (1 + 6 / 5 * c) ^ 2 * (1 - c) := by
    have : 0 ≤ c * (2 / 5 - 24 / 25 * c - 36 / 25 * c ^ 2) := mul_nonneg hc0 (by nlinarith)
    nlinarith
  have h2 : L ^ 2 * (1 + c) ≤ L ^ 2 * ((1 + 6 / 5 * c) ^ 2 * (1 - c)) := mul_le_mul_of_nonneg_left h1 (sq_nonneg _)
  have h3 : s ^ 2 * (1 - c) ≤ ((1 + 6 / 5 * c) * L) ^ 2 * (1 - c) := by nlinarith
  exact le_of_mul_le_mul_right h3 (by linarith)
where
  le_of_sq_le_sq' {a b : ℝ} (hb : 0 ≤ b) (h : a ^ 2 ≤ b ^ 2) : a ≤ b := le_trans (le_abs_self a) (abs_le_of_sq_le_sq h hb)

/-- The computed length `N` against the exact length `L`, if the limit `m` is below `N`. -/
theorem est_len {u k τ m N s L : ℝ} (hu : 0 < u) (hu1 : u ≤ 1 / 100) (hk : u ≤ k) (hk1 : k ≤ 1 / 10) (hs : 0 ≤ s) (hL : 0 ≤ L)
    (hm : 0 ≤ m) (hmN : m ≤ N) (hτ : τ ≤ u * m) (h1 : |N - s| ≤ τ ∨ |N - s| ≤ s * u)
    (h2 : |s ^ 2 - L ^ 2| ≤ 6 / 5 * k * (L ^ 2 + m ^ 2)) :
    L ≤ (1 + (3 / 2 * k + 3 / 2 * u)) * N ∧ N ≤ (1 + (3 / 2 * k + 3 / 2 * u)) * L := by
  have hN : |N - s| ≤ u * N ∨ |N - s| ≤ s * u := h1.imp_left fun h => le_trans h (le_trans hτ (by nlinarith))
  have hN1 : N ≤ (1 + 6 / 5 * u) * s := by
    rcases hN with h | h
    · have := (abs_le.1 h).2
      have h3 : (1 + 6 / 5 * u) * ((1 - u) * N) ≤ (1 + 6 / 5 * u) * s := mul_le_mul_of_nonneg_left (by linarith) (by positivity)
      have h4 : 0 ≤ N * (u * (1 / 5 - 6 / 5 * u)) := mul_nonneg (le_trans hm hmN) (mul_nonneg hu.le (by linarith))
      nlinarith
    · have := (abs_le.1 h).2
      nlinarith
  have hN2 : s ≤ (1 + 6 / 5 * u) * N := by
    rcases hN with h | h
    · have := (abs_le.1 h).1
      nlinarith
    · have := (abs_le.1 h).1
      nlinarith
  have hmm : m ^ 2 ≤ 103 / 100 * s ^ 2 := by
    have h3 : m ≤ (1 + 6 / 5 * u) * s := le_trans hmN hN1
    have h4 : m ^ 2 ≤ ((1 + 6 / 5 * u) * s) ^ 2 := pow_le_pow_left₀ hm h3 2
    have h5 : (1 + 6 / 5 * u) ^ 2 ≤ 103 / 100 := by nlinarith
    nlinarith [mul_le_mul_of_nonneg_right h5 (sq_nonneg s)]
  have hkk : 0 ≤ k := by linarith
  have hc : |s ^ 2 - L ^ 2| ≤ 5 / 4 * k * (L ^ 2 + s ^ 2) := by
    refine le_trans h2 ?_
    have e1 : k * m ^ 2 ≤ k * (103 / 100 * s ^ 2) := mul_le_mul_of_nonneg_left hmm hkk
    have e2 : 0 ≤ k * L ^ 2 := by positivity
    have e3 : 0 ≤ k * s ^ 2 := by positivity
    nlinarith
  obtain ⟨c1, c2⟩ := abs_le.1 hc
  have r1 : s ≤ (1 + 6 / 5 * (5 / 4 * k)) * L := est_root (by positivity) (by linarith) hL (by nlinarith)
  have r2 : L ≤ (1 + 6 / 5 * (5 / 4 * k)) * s := est_root (by positivity) (by linarith) hs (by nlinarith)
  have hN0 : 0 ≤ N := le_trans hm hmN
  have huk : u * k ≤ u * (1 / 10) := mul_le_mul_of_nonneg_left hk1 hu.le
  have hf : (1 + 6 / 5 * (5 / 4 * k)) * (1 + 6 / 5 * u) ≤ 1 + (3 / 2 * k + 3 / 2 * u) := by nlinarith
  constructor
  · calc L ≤ (1 + 6 / 5 * (5 / 4 * k)) * s := r2
      _ ≤ (1 + 6 / 5 * (5 / 4 * k)) * ((1 + 6 / 5 * u) * N) := mul_le_mul_of_nonneg_left hN2 (by positivity)
      _ = (1 + 6 / 5 * (5 / 4 * k)) * (1 + 6 / 5 * u) * N := by ring
      _ ≤ _ := mul_le_mul_of_nonneg_right hf hN0
  · calc N ≤ (1 + 6 / 5 * u) * s := hN1
      _ ≤ (1 + 6 / 5 * u) * ((1 + 6 / 5 * (5 / 4 * k)) * L) := mul_le_mul_of_nonneg_left r1 (by positivity)
      _ = (1 + 6 / 5 * (5 / 4 * k)) * (1 + 6 / 5 * u) * L := by ring
      _ ≤ _ := mul_le_mul_of_nonneg_right hf hL

/-- One rescaled component `r` against the exact `x * m / L`; `w` is the computed product. -/
theorem est_comp {u e τ m N L x w r : ℝ} (hu : 0 < u) (hu1 : u ≤ 1 / 100) (he0 : 0 ≤ e) (he : e ≤ 17 / 100) (hm : 0 < m) (hmN : m ≤ N)
    (hL : 0 < L) (hτ0 : 0 ≤ τ) (hτ : τ ≤ u * m) (hτ2 : τ ≤ u * m ^ 2) (h1 : L ≤ (1 + e) * N) (h2 : N ≤ (1 + e) * L)
    (hw : |w - x * m| ≤ τ + |x| * m * u) (hr : |r - w / N| ≤ τ + |w| / N * u) :
    |r - x * m / L| ≤ 21 / 10 * (u * m) + (e + 5 / 2 * u) * (|x| / L * m) := by
  have hN : 0 < N := lt_of_lt_of_le hm hmN
  -- multiply everything out in terms of `y = |x| / L * m`
  have hLN : |1 / N - 1 / L| ≤ e * (1 / L) := by
    have : 1 / N - 1 / L = (L - N) / (N * L) := by field_simp
    rw [this, abs_div, abs_of_pos (mul_pos hN hL), div_le_iff₀ (mul_pos hN hL)]
    have e1 : e * (1 / L) * (N * L) = e * N := by field_simp
    rw [e1, abs_le]
    constructor
    · rcases le_total N L with h | h
      · nlinarith
      · nlinarith
    · linarith
  have hN1 : 1 / N ≤ (1 + e) * (1 / L) := by linarith [(abs_le.1 hLN).2]
  have hx := abs_nonneg x
  have ht : τ / N ≤ u * m := by
    rw [div_le_iff₀ hN]
    nlinarith [mul_le_mul_of_nonneg_left hmN (by positivity : (0 : ℝ) ≤ u * m)]
  have hwN : |w / N - x * m / N| ≤ τ / N + |x| * m / N * u := by
    rw [← sub_div, abs_div, abs_of_pos hN, div_le_iff₀ hN]
    have : (τ / N + |x| * m / N * u) * N = τ + |x| * m * u := by field_simp
    rw [this]; exact hw
  have hwa : |w| / N ≤ τ / N + (1 + u) * (|x| * m / N) := by
    have a1 : |w| ≤ |w - x * m| + |x * m| := by simpa using abs_add_le (w - x * m) (x * m)
    rw [abs_mul, abs_of_pos hm] at a1
    rw [div_le_iff₀ hN]
    have : (τ / N + (1 + u) * (|x| * m / N)) * N = τ + (1 + u) * (|x| * m) := by field_simp
    rw [this]; linarith
  have hxN : |x * m / N - x * m / L| ≤ e * (|x| / L * m) := by
    have : x * m / N - x * m / L = x * m * (1 / N - 1 / L) := by ring
    rw [this, abs_mul, abs_mul, abs_of_pos hm]
    calc |x| * m * |1 / N - 1 / L| ≤ |x| * m * (e * (1 / L)) := mul_le_mul_of_nonneg_left hLN (by positivity)
      _ = _ := by ring
  have hy : |x| * m / N ≤ (1 + e) * (|x| / L * m) := by
    calc |x| * m / N = |x| * m * (1 / N) := by ring
      _ ≤ |x| * m * ((1 + e) * (1 / L)) := mul_le_mul_of_nonneg_left hN1 (by positivity)
      _ = _ := by ring
  have tri : |r - x * m / L| ≤ |r - w / N| + |w / N - x * m / N| + |x * m / N - x * m / L| := by
    have a1 := abs_add_le (r - w / N + (w / N - x * m / N)) (x * m / N - x * m / L)
    have a2 := abs_add_le (r - w / N) (w / N - x * m / N)
    have a3 : r - w / N + (w / N - x * m / N) + (x * m / N - x * m / L) = r - x * m / L := by ring
    rw [a3] at a1
    linarith
  set y := |x| / L * m with hyd
  have hy0 : 0 ≤ y := by positivity
  set z := |x| * m / N
  have hz0 : 0 ≤ z := by positivity
  have hz : z ≤ 117 / 100 * y := by nlinarith
  have b1 : |w| / N * u ≤ (u * m + (1 + u) * z) * u := mul_le_mul_of_nonneg_right (by linarith) hu.le
  have b2 : u * z ≤ u * (117 / 100 * y) := mul_le_mul_of_nonneg_left hz hu.le
  have b3 : u * (u * z) ≤ 1 / 100 * (u * z) := mul_le_mul_of_nonneg_right hu1 (by positivity)
  have b4 : u * (u * m) ≤ 1 / 100 * (u * m) := mul_le_mul_of_nonneg_right hu1 (by positivity)
  have b5 : 0 ≤ u * m := by positivity
  have b6 : 0 ≤ u * y := by positivity
  nlinarith

/-! ## The computed length -/

open Verif Spec

variable {σ : Type} {f : Fmt}

theorem abs_value (y : Fl f) : |value y| = |(y.toInt : ℝ)| / f.D := by
  unfold value; rw [abs_div, abs_of_pos Fl.D_posR]

theorem finite_of_abs_le {r y : Fl f} (hr : r.isNan = false) (hy : y.isFinite = true) (h : |value r| ≤ |value y|) :
    r.isFinite = true := by
  rw [abs_value, abs_value, div_le_div_iff_of_pos_right Fl.D_posR] at h
  have h1 : |r.toInt| ≤ |y.toInt| := by exact_mod_cast h
  have h2 := Fl.isFinite_iff_toInt.1 hy
  rw [Fl.isFinite_iff_toInt]
  rw [Int.abs_eq_natAbs, Int.abs_eq_natAbs] at h1
  omega

theorem tiny_eq : tiny f = minNormal f * roundoff f := by
  unfold tiny minNormal roundoff
  have hD := Fl.D_posR (f := f)
  rw [pow_succ]
  field_simp

/-- The squares, summed exactly, before and after rounding. -/
theorem squares_err {v : List (Fl f)} (h : ∀ x ∈ v, (x.mul x).isFinite = true) :
    |(v.map fun x => value (x.mul x)).sum - (v.map fun x => value x ^ 2).sum| ≤
      v.length * tiny f + (v.map fun x => value x ^ 2).sum * roundoff f := by
  have hu := (Fl.roundoff_pos (f := f)).le
  have ht := (Fl.tiny_pos (f := f)).le
  induction v with
  | nil => simp
  | cons x v ih =>
    have h1 := ih fun y hy => h y (List.mem_cons_of_mem _ hy)
    have h2 := Fl.mul_err (h x List.mem_cons_self)
    simp only [List.map_cons, List.sum_cons, List.length_cons]
    rw [← sq, abs_of_nonneg (sq_nonneg (value x))] at h2
    have h3 : |value (x.mul x) - value x ^ 2| ≤ tiny f + value x ^ 2 * roundoff f := by
      have : 0 ≤ value x ^ 2 * roundoff f := by positivity
      rcases h2 with h2 | h2 <;> linarith
    have h4 := abs_add_le (value (x.mul x) - value x ^ 2)
      ((v.map fun x => value (x.mul x)).sum - (v.map fun x => value x ^ 2).sum)
    have e : value (x.mul x) - value x ^ 2 + ((v.map fun x => value (x.mul x)).sum - (v.map fun x => value x ^ 2).sum) =
      value (x.mul x) + (v.map fun x => value (x.mul x)).sum - (value x ^ 2 + (v.map fun x => value x ^ 2).sum) := by ring
    rw [e] at h4
    push_cast
    linarith

theorem squares_finite : ∀ {v : List (Fl f)} {a : Fl f}, (sumSq a v).isFinite = true → ∀ x ∈ v, (x.mul x).isFinite = true := by
  intro v
  induction v with
  | nil => simp
  | cons y v ih =>
    intro a h x hx
    rw [sumSq, List.foldl_cons] at h
    rcases List.mem_cons.1 hx with rfl | hx
    · exact (Fl.finite_of_add (sumSq_finite h).1).2
    · exact ih h x hx

/-- The setting of the estimates: a vector with a finite computed length, and few enough components. -/
structure Measured (v : List (Fl f)) : Prop where
  finite : (Hooks.velocityAbs v).isFinite = true
  few : (v.length + 10) * roundoff f ≤ 1 / 10

theorem Measured.small {v : List (Fl f)} (h : Measured v) : roundoff f ≤ 1 / 100 ∧ (v.length + 1) * roundoff f ≤ 1 / 10 := by
  have hu := Fl.roundoff_pos (f := f)
  have h1 := h.few
  have : (0 : ℝ) ≤ v.length * roundoff f := by positivity
  constructor <;> linarith

/-- The facts that both branches use: with a limit `m` whose square is a normal number. -/
theorem Measured.facts {v : List (Fl f)} (h : Measured v) {m : ℝ} (hm0 : 0 ≤ m) (hm : minNormal f ≤ m ^ 2) :
    ∃ s, 0 ≤ s ∧ (|value (Hooks.velocityAbs v) - s| ≤ tiny f ∨ |value (Hooks.velocityAbs v) - s| ≤ s * roundoff f) ∧
      |s ^ 2 - length₂ (v.map value) ^ 2| ≤ 6 / 5 * ((v.length + 1) * roundoff f) * (length₂ (v.map value) ^ 2 + m ^ 2) := by
  have hu := Fl.roundoff_pos (f := f)
  obtain ⟨hu1, hk⟩ := h.small
  have hfin := h.finite
  rw [velocityAbs_fl] at hfin ⊢
  have hS := Fl.finite_of_sqrt hfin
  have hS0 : 0 ≤ (sumSq Fl.zero v).toInt := by
    have := (sumSq_ge hS (by simp)).1
    rwa [Fl.toInt_zero] at this
  have hSv : 0 ≤ value (sumSq Fl.zero v) := by
    unfold value
    have : (0 : ℝ) ≤ (sumSq Fl.zero v).toInt := by exact_mod_cast hS0
    have := Fl.D_posR (f := f)
    positivity
  refine ⟨Real.sqrt (value (sumSq Fl.zero v)), Real.sqrt_nonneg _, Fl.sqrt_err hfin hS0, ?_⟩
  have hQ0 : 0 ≤ (v.map fun x => value x ^ 2).sum :=
    List.sum_nonneg (by simp only [List.mem_map]; rintro _ ⟨y, -, rfl⟩; positivity)
  have hL : length₂ (v.map value) ^ 2 = (v.map fun x => value x ^ 2).sum := by
    unfold length₂
    rw [List.map_map, Real.sq_sqrt]
    · rfl
    · exact hQ0
  rw [Real.sq_sqrt hSv, hL]
  have hsq := squares_finite hS
  have e : sumSq Fl.zero v = (v.map fun x => x.mul x).foldl Fl.add Fl.zero := by rw [List.foldl_map]
  have h1 := Fl.sum_err (xs := v.map fun x => x.mul x) (a := Fl.zero) (by rw [← e]; exact hS)
  rw [← e, Fl.value_zero, zero_add, abs_zero, zero_add, List.map_map, List.map_map, List.length_map] at h1
  have hpos : (List.map ((fun x => |value x|) ∘ fun x => x.mul x) v).sum = (v.map fun x => value (x.mul x)).sum := by
    congr 1
    apply List.map_congr_left
    intro x hx
    have hxf := (Fl.finite_of_mul (hsq x hx)).1
    have := sq_nonneg' hxf
    have : (0 : ℝ) ≤ (x.mul x).toInt := by exact_mod_cast this
    have := Fl.D_posR (f := f)
    show |value (x.mul x)| = value (x.mul x)
    rw [abs_of_nonneg]
    unfold value; positivity
  rw [hpos] at h1
  have hg := Fl.pow_roundoff (n := v.length) hu.le (by linarith)
  have hg0 : 0 ≤ (1 + roundoff f) ^ v.length - 1 := by
    have : 1 ≤ (1 + roundoff f) ^ v.length := one_le_pow₀ (by linarith)
    linarith
  have hnu : (0 : ℝ) ≤ v.length * roundoff f := by positivity
  refine est_sum hu hu1 rfl hk (Nat.cast_nonneg v.length) hg0 ?_ hQ0 (sq_nonneg m) ?_ (squares_err hsq) h1
  · refine le_trans hg ?_
    nlinarith
  · rw [tiny_eq, mul_comm]
    exact mul_le_mul_of_nonneg_left hm hu.le

/-! ## Lengths -/

section Length

variable {β : Type}

theorem length₂_nonneg (v : List ℝ) : 0 ≤ length₂ v := Real.sqrt_nonneg _

theorem length₂_cons (x : ℝ) (v : List ℝ) : length₂ (x :: v) = Real.sqrt (x ^ 2 + length₂ v ^ 2) := by
  unfold length₂
  rw [List.map_cons, List.sum_cons, Real.sq_sqrt]
  exact List.sum_nonneg (by simp only [List.mem_map]; rintro _ ⟨y, -, rfl⟩; positivity)

theorem length₂_nil : length₂ [] = 0 := by simp [length₂]

theorem length₂_add (g h : β → ℝ) (v : List β) :
    length₂ (v.map fun x => g x + h x) ≤ length₂ (v.map g) + length₂ (v.map h) := by
  induction v with
  | nil => simp [length₂_nil]
  | cons x v ih =>
    rw [List.map_cons, List.map_cons, List.map_cons, length₂_cons, length₂_cons, length₂_cons]
    set A := length₂ (v.map g)
    set B := length₂ (v.map h)
    have hA : 0 ≤ A := length₂_nonneg _
    have hB : 0 ≤ B := length₂_nonneg _
    have hC := length₂_nonneg (v.map fun x => g x + h x)
    set p := Real.sqrt (g x ^ 2 + A ^ 2)
    set q := Real.sqrt (h x ^ 2 + B ^ 2)
    have hp : p ^ 2 = g x ^ 2 + A ^ 2 := Real.sq_sqrt (by positivity)
    have hq : q ^ 2 = h x ^ 2 + B ^ 2 := Real.sq_sqrt (by positivity)
    have hp0 : 0 ≤ p := Real.sqrt_nonneg _
    have hq0 : 0 ≤ q := Real.sqrt_nonneg _
    have h1 : g x * h x + A * B ≤ p * q := by
      refine le_trans (le_abs_self _) (abs_le_of_sq_le_sq ?_ (by positivity))
      rw [mul_pow, hp, hq]
      nlinarith [sq_nonneg (g x * B - h x * A)]
    rw [Real.sqrt_le_left (by positivity)]
    have h2 := pow_le_pow_left₀ hC ih 2
    nlinarith

theorem length₂_mono {g h : β → ℝ} {v : List β} (hgh : ∀ x ∈ v, |g x| ≤ h x) : length₂ (v.map g) ≤ length₂ (v.map h) := by
  induction v with
  | nil => simp
  | cons x v ih =>
    have h1 := ih fun y hy => hgh y (List.mem_cons_of_mem _ hy)
    have h2 := hgh x List.mem_cons_self
    rw [List.map_cons, List.map_cons, length₂_cons, length₂_cons]
    apply Real.sqrt_le_sqrt
    have h3 := pow_le_pow_left₀ (length₂_nonneg _) h1 2
    have h4 := pow_le_pow_left₀ (abs_nonneg _) h2 2
    rw [sq_abs] at h4
    linarith

theorem length₂_const (b : ℝ) (hb : 0 ≤ b) (v : List β) : length₂ (v.map fun _ => b) ≤ v.length * b := by
  induction v with
  | nil => simp [length₂_nil]
  | cons x v ih =>
    rw [List.map_cons, length₂_cons, List.length_cons, Real.sqrt_le_left (by positivity)]
    have h3 := pow_le_pow_left₀ (length₂_nonneg _) ih 2
    push_cast
    have : (0 : ℝ) ≤ v.length * b * b := by positivity
    nlinarith

theorem length₂_smul (c : ℝ) (hc : 0 ≤ c) (g : β → ℝ) (v : List β) : length₂ (v.map fun x => c * g x) = c * length₂ (v.map g) := by
  induction v with
  | nil => simp [length₂_nil]
  | cons x v ih =>
    rw [List.map_cons, List.map_cons, length₂_cons, length₂_cons, ih, mul_pow, mul_pow, ← mul_add, Real.sqrt_mul (sq_nonneg c),
      Real.sqrt_sq hc]

theorem le_length₂ {g : β → ℝ} {v : List β} {x : β} (hx : x ∈ v) : |g x| ≤ length₂ (v.map g) := by
  induction v with
  | nil => cases hx
  | cons y v ih =>
    rw [List.map_cons, length₂_cons]
    apply Real.le_sqrt_of_sq_le
    rw [sq_abs]
    rcases List.mem_cons.1 hx with rfl | hx
    · nlinarith [sq_nonneg (length₂ (v.map g))]
    · have := pow_le_pow_left₀ (abs_nonneg _) (ih hx) 2
      rw [sq_abs] at this
      nlinarith [sq_nonneg (g y)]

end Length

/-! ## The theorems -/

theorem value_nonneg {x : Fl f} : 0 ≤ value x ↔ 0 ≤ x.toInt := by
  have hD := Fl.D_posR (f := f)
  unfold value
  rw [le_div_iff₀ hD, zero_mul]
  exact_mod_cast Iff.rfl

theorem value_le {x y : Fl f} : value x ≤ value y ↔ x.toInt ≤ y.toInt := by
  have hD := Fl.D_posR (f := f)
  unfold value
  rw [div_le_div_iff_of_pos_right hD]
  exact_mod_cast Iff.rfl

theorem minNormal_pos : 0 < minNormal f := by
  have hD := Fl.D_posR (f := f)
  unfold minNormal; positivity

theorem tiny_le {m : ℝ} (hmv : 0 ≤ m) (hmin : minNormal f ≤ m ^ 2) : tiny f ≤ roundoff f * m := by
  have hu := Fl.roundoff_pos (f := f)
  rw [tiny_eq, mul_comm]
  refine mul_le_mul_of_nonneg_left ?_ hu.le
  rcases le_total m 1 with h1 | h1
  · nlinarith
  · have hmn : minNormal f ≤ 1 := by
      unfold minNormal
      rw [div_le_one Fl.D_posR]
      have : 2 ^ f.mw ≤ f.D := by
        unfold Fmt.D
        exact Nat.pow_le_pow_right (by norm_num) (by have := f.hew; have := f.bias_pos; omega)
      exact_mod_cast this
    linarith

/-- All components stay finite. -/
theorem rescaled_finite {m : Fl f} {v r : List (Fl f)} {s s' : σ} (h : Hooks.maxVelocityAbs m v s = .ok (r, s'))
    (hm : Fl.zero.le m = true) (hmin : minNormal f ≤ value m ^ 2) (hlt : m.lt (Hooks.velocityAbs v) = true)
    (hn : (Hooks.velocityAbs v).isFinite = true) : ∀ x ∈ v, ((x.mul m).div (Hooks.velocityAbs v)).isFinite = true := by
  intro x hx
  obtain ⟨i, hi, rfl⟩ := List.getElem_of_mem hx
  have hm0 : 0 ≤ m.toInt := by have := Fl.le_iff.1 hm; simpa using this.2.2
  obtain ⟨hxf, hmf, hpf, hN⟩ := rescale m v hm0 hlt hn v[i] (List.getElem_mem _)
  obtain ⟨r', e1, e0, -, e2⟩ := C44_total m v s
  rw [h] at e1; cases e1
  have hir : i < r.length := by omega
  obtain ⟨k1, -, -, -, k2⟩ := C44_shrinks m v _ s _ h hm hlt hn i hir hi
  have er : r[i] = (v[i].mul m).div (Hooks.velocityAbs v) := by
    have := e2 hlt
    subst this
    rw [List.getElem_map]
  rw [er] at k1 k2
  rcases le_or_gt (minNormal f) |value v[i] * value m| with hb | hb
  · exact finite_of_abs_le k1 hxf (k2 hb)
  · have hD := Fl.D_posR (f := f)
    have hmN : value m ≤ value (Hooks.velocityAbs v) := value_le.2 (Fl.lt_iff.1 hlt).2.2.le
    have hmv : 0 ≤ value m := value_nonneg.2 hm0
    set N := Hooks.velocityAbs v
    set x := v[i]
    -- the product stays below the smallest normal number
    have hq := Fl.mul_rounds hxf hmf
    have hpow : f.rnd ((2 ^ f.mw : ℕ) : ℝ) = ((2 ^ f.mw : ℕ) : ℤ) := by
      have e : f.mag (2 ^ f.mw) = 2 ^ f.mw := f.mag_small (by rw [pow_succ]; omega)
      have hle : 2 ^ f.mw ≤ f.infIdx := by
        unfold Fmt.infIdx
        have := f.hew
        have h2 : 2 ^ 1 ≤ 2 ^ f.ew := Nat.pow_le_pow_right (by norm_num) (by omega)
        have h3 : 1 ≤ 2 ^ f.ew - 1 := by omega
        exact Nat.le_mul_of_pos_left _ h3
      have := f.rnd_mag hle
      rwa [e] at this
    have hP : |value (x.mul m)| ≤ minNormal f := by
      rw [abs_value, hq.2, f.rnd_abs, minNormal, div_le_div_iff_of_pos_right hD]
      have e : |(x.toInt : ℝ) * m.toInt / f.D| ≤ ((2 ^ f.mw : ℕ) : ℝ) := by
        have e2 : value x * value m = (x.toInt : ℝ) * m.toInt / f.D / f.D := by unfold value; field_simp
        rw [e2, abs_div, abs_of_pos hD, minNormal, div_lt_div_iff_of_pos_right hD] at hb
        push_cast; exact hb.le
      have := f.rnd_mono e
      rw [hpow] at this
      have : ((f.rnd |(x.toInt : ℝ) * m.toInt / f.D| : ℤ) : ℝ) ≤ (((2 ^ f.mw : ℕ) : ℤ) : ℝ) := by exact_mod_cast this
      push_cast at this
      exact this
    have hNv : 0 < value N := by
      have : (0 : ℝ) < N.toInt := by exact_mod_cast hN
      unfold value; positivity
    have hr := Fl.div_rounds hpf hn (by omega)
    apply finite_of_abs_le hr.1 hn
    rw [abs_value, hr.2, f.rnd_abs, abs_value, div_le_div_iff_of_pos_right hD]
    rw [← abs_le_of_rnd (Fl.isNan_of_isFinite hn)]
    have hle : |((x.mul m).toInt : ℝ) * f.D / N.toInt| ≤ |(N.toInt : ℝ)| := by
      have e3 : ((x.mul m).toInt : ℝ) * f.D / N.toInt = value (x.mul m) / value N * f.D := by
        have : (N.toInt : ℝ) ≠ 0 := by have : N.toInt ≠ 0 := by omega
                                       exact_mod_cast this
        unfold value; field_simp
      have e4 : (N.toInt : ℝ) = value N * f.D := by unfold value; field_simp
      rw [e3, e4, abs_mul, abs_mul, abs_of_pos hD, abs_div, abs_of_pos hNv]
      refine mul_le_mul_of_nonneg_right ?_ hD.le
      rw [div_le_iff₀ hNv]
      have := pow_le_pow_left₀ hmv hmN 2
      nlinarith
    exact_mod_cast f.rnd_mono hle

/-- C44, floats: when the computed length is finite and above the limit, the result is the vector of the same direction whose length is
the limit, up to a rounding error: `L` is the true length, `n` the number of components, `u` the unit roundoff. -/
theorem C44_direction (m : Fl f) (v r : List (Fl f)) (s s' : σ) (h : Hooks.maxVelocityAbs m v s = .ok (r, s'))
    (hm : Fl.zero.le m = true) (hmin : minNormal f ≤ value m ^ 2) (hlt : m.lt (Hooks.velocityAbs v) = true)
    (hn : (Hooks.velocityAbs v).isFinite = true) (hfew : (v.length + 10) * roundoff f ≤ 1 / 10) :
    (∀ y ∈ r, y.isFinite = true) ∧
    (∀ (i : Nat) (h1 : i < r.length) (h2 : i < v.length),
      |value r[i] - value m * value v[i] / length₂ (v.map value)| ≤ value m * (2 * (v.length + 4) * roundoff f)) ∧
    |length₂ (r.map value) - value m| ≤ value m * (4 * (v.length + 2) * roundoff f) := by
  have hfins := rescaled_finite h hm hmin hlt hn
  obtain ⟨r', e1, e0, -, e2⟩ := C44_total m v s
  rw [h] at e1; cases e1
  have er := e2 hlt
  subst er
  have hms : Measured v := ⟨hn, hfew⟩
  obtain ⟨hu1, hk⟩ := hms.small
  have hu := Fl.roundoff_pos (f := f)
  have hm0 : 0 ≤ m.toInt := by have := Fl.le_iff.1 hm; simpa using this.2.2
  have hmv : 0 ≤ value m := value_nonneg.2 hm0
  have hmN : value m ≤ value (Hooks.velocityAbs v) := value_le.2 (Fl.lt_iff.1 hlt).2.2.le
  have hmp : 0 < value m := by
    rcases hmv.lt_or_eq with h1 | h1
    · exact h1
    · rw [← h1] at hmin
      have := minNormal_pos (f := f)
      norm_num at hmin; linarith
  obtain ⟨s1, hs0, hs1, hs2⟩ := hms.facts hmv hmin
  have ht2 : tiny f ≤ roundoff f * value m ^ 2 := by
    rw [tiny_eq, mul_comm]; exact mul_le_mul_of_nonneg_left hmin hu.le
  have ht1 : tiny f ≤ roundoff f * value m := tiny_le hmv hmin
  set L := length₂ (v.map value) with hLd
  set N := value (Hooks.velocityAbs v) with hNd
  set n : ℝ := (v.length : ℝ) with hnd
  set u := roundoff f with hud
  have hn0 : 0 ≤ n := Nat.cast_nonneg _
  have hL0 : 0 ≤ L := length₂_nonneg _
  have hNp : 0 < N := lt_of_lt_of_le hmp hmN
  have hnu : 0 ≤ n * u := by positivity
  obtain ⟨l1, l2⟩ := est_len hu hu1 (k := (n + 1) * u) (by nlinarith) hk hs0 hL0 hmv hmN ht1 hs1 hs2
  set e := 3 / 2 * ((n + 1) * u) + 3 / 2 * u with hed
  have he0 : 0 ≤ e := by positivity
  have he : e ≤ 17 / 100 := by linarith
  have hLp : 0 < L := by
    rcases hL0.lt_or_eq with h1 | h1
    · exact h1
    · rw [← h1] at l2; linarith
  have hcomp : ∀ x ∈ v, |value ((x.mul m).div (Hooks.velocityAbs v)) - value x * value m / L| ≤
      21 / 10 * (u * value m) + (e + 5 / 2 * u) * (|value x| / L * value m) := by
    intro x hx
    obtain ⟨hxf, hmf, hpf, hN⟩ := rescale m v hm0 hlt hn x hx
    have w1 := Fl.mul_err hpf
    have w2 := Fl.div_err (hfins x hx) hpf hn (by omega)
    rw [abs_mul, abs_of_nonneg hmv] at w1
    rw [abs_div (value (x.mul m)), ← hNd, abs_of_pos hNp] at w2
    have p1 : 0 ≤ |value x| * value m * u := by positivity
    have p2 : 0 ≤ |value (x.mul m)| / N * u := by positivity
    have p3 := (Fl.tiny_pos (f := f)).le
    refine est_comp (w := value (x.mul m)) (N := N) hu hu1 he0 he hmp hmN hLp (Fl.tiny_pos (f := f)).le ht1 ht2 l1 l2 ?_ ?_
    · rcases w1 with w1 | w1 <;> linarith
    · rcases w2 with w2 | w2 <;> linarith
  refine ⟨?_, ?_, ?_⟩
  · intro y hy
    obtain ⟨x, hx, rfl⟩ := List.mem_map.1 hy
    exact hfins x hx
  · intro i h1 h2
    rw [List.getElem_map]
    have h3 := hcomp v[i] (List.getElem_mem _)
    have h4 : |value v[i]| / L ≤ 1 := by
      rw [div_le_one hLp]
      exact le_length₂ (g := value) (List.getElem_mem _)
    have h5 : |value v[i]| / L * value m ≤ value m := by nlinarith
    rw [mul_comm (value m) (value v[i])]
    refine le_trans h3 ?_
    have h6 : (e + 5 / 2 * u) * (|value v[i]| / L * value m) ≤ (e + 5 / 2 * u) * value m :=
      mul_le_mul_of_nonneg_left h5 (by positivity)
    have h7 : 0 ≤ n * u * value m := by positivity
    have h8 : 0 ≤ u * value m := by positivity
    nlinarith
  · rw [List.map_map]
    -- the exact vector of length `m`, and the difference
    let y : Fl f → ℝ := fun x => value m / L * value x
    let d : Fl f → ℝ := fun x => value ((x.mul m).div (Hooks.velocityAbs v)) - value x * value m / L
    have hy : length₂ (v.map y) = value m := by
      show length₂ (v.map fun x => value m / L * value x) = _
      rw [length₂_smul _ (by positivity), ← hLd]
      field_simp
    have hd : length₂ (v.map d) ≤ value m * (4 * (n + 2) * u) := by
      have b1 : length₂ (v.map d) ≤ length₂ (v.map fun x => 21 / 10 * (u * value m) + (e + 5 / 2 * u) * value m / L * |value x|) := by
        apply length₂_mono
        intro x hx
        refine le_trans (hcomp x hx) (le_of_eq ?_)
        ring
      refine le_trans b1 (le_trans (length₂_add _ _ v) ?_)
      have b2 := length₂_const (21 / 10 * (u * value m)) (by positivity) v
      have b3 : length₂ (v.map fun x => (e + 5 / 2 * u) * value m / L * |value x|) = (e + 5 / 2 * u) * value m := by
        rw [length₂_smul _ (by positivity)]
        have : length₂ (v.map fun x => |value x|) = L := by
          rw [hLd]; unfold length₂
          rw [List.map_map, List.map_map]
          congr 2
          apply List.map_congr_left
          intro x _
          simp
        rw [this]; field_simp
      rw [b3]
      have h7 : 0 ≤ n * u * value m := by positivity
      have h8 : 0 ≤ u * value m := by positivity
      nlinarith
    have hr1 : length₂ (v.map (value ∘ fun x => (x.mul m).div (Hooks.velocityAbs v))) ≤ length₂ (v.map y) + length₂ (v.map d) := by
      refine le_trans (le_of_eq ?_) (length₂_add y d v)
      congr 1
      apply List.map_congr_left
      intro x _
      show value _ = value m / L * value x + (value _ - value x * value m / L)
      ring
    have hr2 : length₂ (v.map y) ≤ length₂ (v.map (value ∘ fun x => (x.mul m).div (Hooks.velocityAbs v))) + length₂ (v.map d) := by
      have hneg : length₂ (v.map fun x => - d x) = length₂ (v.map d) := by
        unfold length₂
        rw [List.map_map, List.map_map]
        congr 2
        apply List.map_congr_left
        intro x _
        simp
      rw [← hneg]
      refine le_trans (le_of_eq ?_) (length₂_add (value ∘ fun x => (x.mul m).div (Hooks.velocityAbs v)) (fun x => - d x) v)
      congr 1
      apply List.map_congr_left
      intro x _
      show value m / L * value x = value _ + -(value _ - value x * value m / L)
      ring
    rw [abs_le]
    constructor <;> linarith

/-- C44, floats: whenever the computed length is finite, the true length of the result is at most the limit, up to a rounding error. -/
theorem C44_speed (m : Fl f) (v r : List (Fl f)) (s s' : σ) (h : Hooks.maxVelocityAbs m v s = .ok (r, s'))
    (hm : Fl.zero.le m = true) (hmf : m.isFinite = true) (hmin : minNormal f ≤ value m ^ 2)
    (hn : (Hooks.velocityAbs v).isFinite = true) (hfew : (v.length + 10) * roundoff f ≤ 1 / 10) :
    length₂ (r.map value) ≤ value m * (1 + 4 * (v.length + 2) * roundoff f) := by
  cases hlt : m.lt (Hooks.velocityAbs v) with
  | true =>
    have := (abs_le.1 (C44_direction m v r s s' h hm hmin hlt hn hfew).2.2).2
    linarith
  | false =>
    obtain ⟨r', e1, e0, e2, -⟩ := C44_total m v s
    rw [h] at e1; cases e1
    have er := e2 hlt
    subst er
    have hms : Measured r := ⟨hn, hfew⟩
    obtain ⟨hu1, hk⟩ := hms.small
    have hu := Fl.roundoff_pos (f := f)
    have hm0 : 0 ≤ m.toInt := by have := Fl.le_iff.1 hm; simpa using this.2.2
    have hmv : 0 ≤ value m := value_nonneg.2 hm0
    have hNm : value (Hooks.velocityAbs r) ≤ value m := by
      apply value_le.2
      by_contra hc
      have : m.lt (Hooks.velocityAbs r) = true :=
        Fl.lt_iff.2 ⟨Fl.isNan_of_isFinite hmf, Fl.isNan_of_isFinite hn, not_le.1 hc⟩
      rw [hlt] at this; cases this
    obtain ⟨s1, hs0, hs1, hs2⟩ := hms.facts hmv hmin
    have hL0 := length₂_nonneg (r.map value)
    set L := length₂ (r.map value)
    set N := value (Hooks.velocityAbs r)
    set n : ℝ := (r.length : ℝ)
    set u := roundoff f
    have hn0 : 0 ≤ n := Nat.cast_nonneg _
    have ht2 : tiny f ≤ u * value m ^ 2 := by
      rw [tiny_eq, mul_comm]; exact mul_le_mul_of_nonneg_left hmin hu.le
    have ht1 : tiny f ≤ u * value m := tiny_le hmv hmin
    have hs : s1 ≤ (1 + 6 / 5 * u) * value m := by
      rcases hs1 with h1 | h1
      · have := (abs_le.1 h1).1
        nlinarith
      · have := (abs_le.1 h1).1
        have h3 : (1 + 6 / 5 * u) * ((1 - u) * s1) ≤ (1 + 6 / 5 * u) * value m := mul_le_mul_of_nonneg_left (by linarith) (by positivity)
        have h4 : 0 ≤ s1 * (u * (1 / 5 - 6 / 5 * u)) := mul_nonneg hs0 (mul_nonneg hu.le (by linarith))
        nlinarith
    have hss := pow_le_pow_left₀ hs0 hs 2
    have hk0 : 0 ≤ (n + 1) * u := by positivity
    have huk : u ≤ (n + 1) * u := by nlinarith
    have hgoal : 1 + 4 * (n + 2) * u = 1 + 4 * ((n + 1) * u) + 4 * u := by ring
    rw [hgoal]
    generalize (n + 1) * u = k at *
    have c1 := (abs_le.1 hs2).1
    have c2 : L ^ 2 * (1 - 6 / 5 * k) ≤ value m ^ 2 * ((1 + 6 / 5 * u) ^ 2 + 6 / 5 * k) := by nlinarith
    have c3 : (1 + 6 / 5 * u) ^ 2 + 6 / 5 * k ≤ (1 + 4 * k + 4 * u) ^ 2 * (1 - 6 / 5 * k) := by
      have d1 : 1 + 8 * k + 8 * u ≤ (1 + 4 * k + 4 * u) ^ 2 := by nlinarith
      have d2 : (1 + 8 * k + 8 * u) * (1 - 6 / 5 * k) ≤ (1 + 4 * k + 4 * u) ^ 2 * (1 - 6 / 5 * k) :=
        mul_le_mul_of_nonneg_right d1 (by linarith)
      nlinarith
    have c4 : L ^ 2 * (1 - 6 / 5 * k) ≤ (value m * (1 + 4 * k + 4 * u)) ^ 2 * (1 - 6 / 5 * k) := by
      rw [mul_pow, mul_assoc]
      exact le_trans c2 (mul_le_mul_of_nonneg_left c3 (sq_nonneg _))
    have c5 := le_of_mul_le_mul_right c4 (by linarith)
    exact le_trans (le_abs_self L) (abs_le_of_sq_le_sq c5 (by positivity))

/-- The hypotheses are met by the velocity (3, 4) and the limit 1 in `f64`. -/
example : Fl.zero.le (Fl.one : F64) = true ∧ (Fl.one : F64).isFinite = true ∧ minNormal .f64 ≤ value (Fl.one : F64) ^ 2 ∧
    (Fl.one : F64).lt (Hooks.velocityAbs [Fl.ofNat 3, Fl.ofNat 4]) = true ∧
    (Hooks.velocityAbs [(Fl.ofNat 3 : F64), Fl.ofNat 4]).isFinite = true ∧
    ((([Fl.ofNat 3, Fl.ofNat 4] : List F64).length : ℝ) + 10) * roundoff .f64 ≤ 1 / 10 := by
  refine ⟨by decide +kernel, by decide +kernel, ?_, by decide +kernel, by decide +kernel, ?_⟩
  · have h1 : value (Fl.one : F64) = 1 := by
      unfold value
      rw [Fl.toInt_one]
      exact div_self (ne_of_gt (by exact_mod_cast Fmt.f64.D_pos))
    rw [h1, one_pow]
    unfold minNormal
    rw [div_le_one Fl.D_posR]
    have : 2 ^ Fmt.f64.mw ≤ Fmt.f64.D := Nat.pow_le_pow_right (by norm_num) (by decide)
    exact_mod_cast this
  · unfold roundoff
    norm_num [Fmt.f64]

end Verif.Props
