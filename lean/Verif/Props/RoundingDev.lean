import Verif.Props.Rounding

/-!
# C84: standard deviations in floating point
-/

namespace Verif.Props

/-! ## Estimates for real numbers -/

/-- The computed sum of squares `V` against the exact `Y`; `D` are the exact squares of the computed differences, `P` the computed squares. -/
theorem est_dev_sum {u n g τ Y D P V : ℝ} (hu : 0 < u) (hn : 0 ≤ n) (hk : (n + 10) * u ≤ 1 / 10) (hτ : 0 ≤ τ) (hY : 0 ≤ Y)
    (hg0 : 0 ≤ g) (hg : g ≤ 11 / 10 * (n * u)) (h1 : (1 - u) ^ 2 * Y ≤ D) (h2 : D ≤ (1 + u) ^ 2 * Y)
    (h3 : |P - D| ≤ n * τ + D * u) (h4 : |V - P| ≤ g * P) : |V - Y| ≤ 6 / 5 * ((n + 3) * u) * Y + 10 / 9 * (n * τ) := by
  have hu1 : u ≤ 1 / 100 := by nlinarith
  have hnu : 0 ≤ n * u := by positivity
  have hnu1 : n * u ≤ 1 / 10 := by nlinarith
  have huY : 0 ≤ u * Y := by positivity
  have huuY : u * (u * Y) ≤ 1 / 100 * (u * Y) := mul_le_mul_of_nonneg_right hu1 huY
  have d1 : D ≤ Y + 21 / 10 * (u * Y) := by nlinarith
  have d2 : Y - 2 * (u * Y) ≤ D := by nlinarith [mul_nonneg hu.le huY]
  obtain ⟨p1, p2⟩ := abs_le.1 h3
  have hDu : D * u ≤ 103 / 100 * (u * Y) := by nlinarith
  have q1 : P ≤ Y + 32 / 10 * (u * Y) + n * τ := by linarith
  have q2 : Y - 31 / 10 * (u * Y) - n * τ ≤ P := by linarith
  have hnτ : 0 ≤ n * τ := by positivity
  have hP : g * P ≤ 11 / 10 * (n * u) * (Y + 32 / 10 * (u * Y) + n * τ) := by
    have h5 : 0 ≤ Y + 32 / 10 * (u * Y) + n * τ := by positivity
    calc g * P ≤ g * (Y + 32 / 10 * (u * Y) + n * τ) := mul_le_mul_of_nonneg_left q1 hg0
      _ ≤ _ := mul_le_mul_of_nonneg_right hg h5
  have e1 : n * u * (u * Y) ≤ n * u * (1 / 100 * Y) := mul_le_mul_of_nonneg_left (by nlinarith) hnu
  have e2 : n * u * (n * τ) ≤ 1 / 10 * (n * τ) := mul_le_mul_of_nonneg_right hnu1 hnτ
  have e3 : 0 ≤ n * u * Y := by positivity
  obtain ⟨v1, v2⟩ := abs_le.1 h4
  rw [abs_le]
  constructor <;> nlinarith

/-- Roots of numbers that are close up to a relative and an absolute error. -/
theorem est_sqrt {c τ Z q : ℝ} (hc0 : 0 ≤ c) (hc1 : c ≤ 1) (hτ : 0 ≤ τ) (hZ0 : 0 ≤ Z) (hq0 : 0 ≤ q) (h : |q - Z| ≤ c * Z + 4 * τ) :
    |Real.sqrt q - Real.sqrt Z| ≤ c * Real.sqrt Z + 2 * Real.sqrt τ := by
  obtain ⟨q1, q2⟩ := abs_le.1 h
  have hz0 : 0 ≤ Real.sqrt Z := Real.sqrt_nonneg _
  have ht0 : 0 ≤ Real.sqrt τ := Real.sqrt_nonneg _
  have hp0 : 0 ≤ Real.sqrt q := Real.sqrt_nonneg _
  have hzz := Real.sq_sqrt hZ0
  have htt := Real.sq_sqrt hτ
  have hpp := Real.sq_sqrt hq0
  generalize Real.sqrt Z = z at *
  generalize Real.sqrt τ = t at *
  generalize Real.sqrt q = p at *
  subst hzz htt hpp
  have b1 : p ≤ (1 + c) * z + 2 * t := by
    apply le_trans (le_abs_self p) (abs_le_of_sq_le_sq _ (by positivity))
    have e : ((1 + c) * z + 2 * t) ^ 2 = z ^ 2 + c * z ^ 2 + 4 * t ^ 2 + (c * (1 + c) * z ^ 2 + 4 * ((1 + c) * z * t)) := by ring
    have h6 : 0 ≤ c * (1 + c) * z ^ 2 + 4 * ((1 + c) * z * t) := by positivity
    linarith
  have b2 : (1 - c) * z - 2 * t ≤ p := by
    by_contra hcon
    have h5 : p + 2 * t < (1 - c) * z := by linarith [not_le.1 hcon]
    have h6 : (p + 2 * t) ^ 2 < ((1 - c) * z) ^ 2 := pow_lt_pow_left₀ h5 (by positivity) (by norm_num)
    have e1 : (p + 2 * t) ^ 2 = p ^ 2 + 4 * t ^ 2 + 4 * (p * t) := by ring
    have e2 : ((1 - c) * z) ^ 2 = z ^ 2 - c * z ^ 2 - c * (1 - c) * z ^ 2 := by ring
    have h7 : 0 ≤ p * t := by positivity
    have h8 : 0 ≤ c * (1 - c) * z ^ 2 := mul_nonneg (mul_nonneg hc0 (by linarith)) (sq_nonneg _)
    linarith
  rw [abs_le]
  constructor <;> linarith

/-- The computed root `ρ` of the computed quotient `q`. -/
theorem est_dev_root {u n τ Y V q ρ : ℝ} (hu : 0 < u) (hn : 2 ≤ n) (hk : (n + 10) * u ≤ 1 / 10) (hτ : 0 ≤ τ) (hτ1 : τ ≤ 1)
    (hY : 0 ≤ Y) (hq0 : 0 ≤ q) (h1 : |V - Y| ≤ 6 / 5 * ((n + 3) * u) * Y + 10 / 9 * (n * τ)) (hV : 0 ≤ V)
    (h2 : |q - V / (n - 1)| ≤ τ + V / (n - 1) * u) (h3 : |ρ - Real.sqrt q| ≤ τ ∨ |ρ - Real.sqrt q| ≤ Real.sqrt q * u) :
    |ρ - Real.sqrt (Y / (n - 1))| ≤ 6 / 5 * ((n + 5) * u) * Real.sqrt (Y / (n - 1)) + 4 * Real.sqrt τ := by
  have hu1 : u ≤ 1 / 120 := by nlinarith
  have hn1 : 0 < n - 1 := by linarith
  have hnu1 : (n + 3) * u ≤ 1 / 10 := by nlinarith
  set Z := Y / (n - 1) with hZ
  set W := V / (n - 1) with hW
  have hZ0 : 0 ≤ Z := by positivity
  have hW0 : 0 ≤ W := by positivity
  have hnn : n / (n - 1) ≤ 2 := by rw [div_le_iff₀ hn1]; linarith
  have hWZ : |W - Z| ≤ 6 / 5 * ((n + 3) * u) * Z + 20 / 9 * τ := by
    rw [hW, hZ, ← sub_div, abs_div, abs_of_pos hn1, div_le_iff₀ hn1]
    have e : (6 / 5 * ((n + 3) * u) * (Y / (n - 1)) + 20 / 9 * τ) * (n - 1) = 6 / 5 * ((n + 3) * u) * Y + 20 / 9 * τ * (n - 1) := by
      field_simp
    rw [e]
    have : n * τ ≤ 2 * (n - 1) * τ := mul_le_mul_of_nonneg_right (by linarith) hτ
    linarith
  obtain ⟨w1, w2⟩ := abs_le.1 hWZ
  have hZu : 0 ≤ u * Z := by positivity
  have hWu : W * u ≤ 112 / 100 * (u * Z) + 1 / 40 * τ := by
    have a1 : (n + 3) * u * Z ≤ 1 / 10 * Z := mul_le_mul_of_nonneg_right hnu1 hZ0
    have a2 : W ≤ 112 / 100 * Z + 20 / 9 * τ := by linarith
    have a3 : W * u ≤ (112 / 100 * Z + 20 / 9 * τ) * u := mul_le_mul_of_nonneg_right a2 hu.le
    have a4 : τ * u ≤ τ * (1 / 120) := mul_le_mul_of_nonneg_left hu1 hτ
    nlinarith
  have hqZ : |q - Z| ≤ 6 / 5 * ((n + 4) * u) * Z + 4 * τ := by
    have := abs_add_le (q - W) (W - Z)
    rw [sub_add_sub_cancel] at this
    nlinarith
  obtain ⟨q1, q2⟩ := abs_le.1 hqZ
  set c := 6 / 5 * ((n + 4) * u) with hc
  have hc0 : 0 ≤ c := by positivity
  have hc1 : c ≤ 12 / 100 := by rw [hc]; nlinarith
  set z := Real.sqrt Z with hz
  set t := Real.sqrt τ with ht
  have hz0 : 0 ≤ z := Real.sqrt_nonneg _
  have ht0 : 0 ≤ t := Real.sqrt_nonneg _
  have hzz : z ^ 2 = Z := Real.sq_sqrt hZ0
  have htt : t ^ 2 = τ := Real.sq_sqrt hτ
  have ht1 : t ≤ 1 := by rw [ht, Real.sqrt_le_one]; exact hτ1
  have hτt : τ ≤ t := by nlinarith
  set p := Real.sqrt q with hp
  have hp0 : 0 ≤ p := Real.sqrt_nonneg _
  have hpp : p ^ 2 = q := Real.sq_sqrt hq0
  obtain ⟨b2, b1⟩ := abs_le.1 (est_sqrt hc0 (by linarith) hτ hZ0 hq0 hqZ)
  have hpu : p * u ≤ 112 / 100 * (u * z) + 1 / 50 * t := by
    have a1 : p ≤ 112 / 100 * z + 2 * t := by
      have : c * z ≤ 12 / 100 * z := mul_le_mul_of_nonneg_right hc1 hz0
      linarith
    have a3 : p * u ≤ (112 / 100 * z + 2 * t) * u := mul_le_mul_of_nonneg_right a1 hu.le
    have a4 : t * u ≤ t * (1 / 120) := mul_le_mul_of_nonneg_left hu1 ht0
    nlinarith
  have hpu0 : 0 ≤ p * u := by positivity
  have huz : 0 ≤ u * z := by positivity
  have hρ : |ρ - p| ≤ τ + p * u := by rcases h3 with h3 | h3 <;> linarith
  obtain ⟨r1, r2⟩ := abs_le.1 hρ
  have e5 : 6 / 5 * ((n + 5) * u) * z = c * z + 6 / 5 * (u * z) := by rw [hc]; ring
  rw [e5, abs_le]
  constructor <;> linarith

/-- The deviation from a slightly wrong mean. -/
theorem est_dev_total {u n τ δ A s z ρ : ℝ} (hu : 0 < u) (hn : 2 ≤ n) (hk : (n + 10) * u ≤ 1 / 10) (hτ : 0 ≤ τ) (hτ1 : τ ≤ 1)
    (hδ : 0 ≤ δ) (hA : 0 ≤ A) (hs : 0 ≤ s) (hd : δ ≤ 11 / 10 * ((n + 1) * u) * A + τ) (hz : |z - s| ≤ 3 / 2 * δ)
    (h : |ρ - z| ≤ 6 / 5 * ((n + 5) * u) * z + 4 * Real.sqrt τ) :
    |ρ - s| ≤ 2 * (n + 5) * u * (s + A) + 6 * Real.sqrt τ := by
  have hnu : (n + 5) * u ≤ 1 / 10 := by nlinarith
  have hnu0 : 0 ≤ (n + 5) * u := by positivity
  obtain ⟨z1, z2⟩ := abs_le.1 hz
  have h1 := abs_add_le (ρ - z) (z - s)
  rw [sub_add_sub_cancel] at h1
  have h2 : (n + 5) * u * z ≤ (n + 5) * u * (s + 3 / 2 * δ) := mul_le_mul_of_nonneg_left (by linarith) hnu0
  have h3 : (n + 5) * u * δ ≤ 1 / 10 * δ := mul_le_mul_of_nonneg_right hnu hδ
  have h4 : 0 ≤ (n + 5) * u * s := by positivity
  have h5 : (n + 1) * u * A ≤ (n + 5) * u * A := by
    refine mul_le_mul_of_nonneg_right ?_ hA
    nlinarith
  have h6 : 0 ≤ (n + 5) * u * A := by positivity
  set t := Real.sqrt τ with ht
  have ht0 : 0 ≤ t := Real.sqrt_nonneg _
  have htt : t ^ 2 = τ := Real.sq_sqrt hτ
  have ht1 : t ≤ 1 := by rw [ht, Real.sqrt_le_one]; exact hτ1
  have hτt : τ ≤ t := by nlinarith
  nlinarith

/-! ## The computed deviation -/

open Verif Spec Stats

variable {σ T : Type} {f : Fmt}

theorem sum_le_map {β : Type} {l : List β} {g h : β → ℝ} (H : ∀ x ∈ l, g x ≤ h x) : (l.map g).sum ≤ (l.map h).sum := by
  induction l with
  | nil => simp
  | cons x l ih =>
    rw [List.map_cons, List.map_cons, List.sum_cons, List.sum_cons]
    exact add_le_add (H x List.mem_cons_self) (ih fun y hy => H y (List.mem_cons_of_mem _ hy))

theorem sum_mul_left {β : Type} (l : List β) (c : ℝ) (g : β → ℝ) : (l.map fun x => c * g x).sum = c * (l.map g).sum := by
  induction l with
  | nil => simp
  | cons x l ih => rw [List.map_cons, List.map_cons, List.sum_cons, List.sum_cons, ih]; ring

theorem sum_sq_nonneg {β : Type} (l : List β) (g : β → ℝ) : 0 ≤ (l.map fun x => g x ^ 2).sum :=
  List.sum_nonneg (by simp only [List.mem_map]; rintro _ ⟨y, -, rfl⟩; positivity)

theorem tiny_le_one : tiny f ≤ 1 := by
  unfold tiny
  have : (1 : ℝ) ≤ f.D := by exact_mod_cast f.D_pos
  rw [div_le_one (by positivity)]
  linarith

theorem few_le {n : Nat} (h : ((n : ℝ) + 10) * roundoff f ≤ 1 / 10) : n ≤ 2 ^ (f.mw + 1) := by
  have h1 : (n : ℝ) * roundoff f ≤ 1 := by
    have := Fl.roundoff_pos (f := f)
    nlinarith
  unfold roundoff at h1
  rw [mul_one_div, div_le_one (by positivity)] at h1
  exact_mod_cast h1

/-- The deviation of the numbers `xs` from `μ`, computed from the computed sum `V` of the squares. -/
theorem dev_err {xs : List (Fl f)} {μ V : Fl f} (hn : 2 ≤ xs.length) (hfew : ((xs.length : ℝ) + 10) * roundoff f ≤ 1 / 10)
    (hnf : (Fl.ofNat (xs.length - 1) : Fl f).isFinite = true) (hsq : ∀ x ∈ xs, ((x.sub μ).mul (x.sub μ)).isFinite = true)
    (hV : |value V - (xs.map fun x => value ((x.sub μ).mul (x.sub μ))).sum| ≤
      ((1 + roundoff f) ^ xs.length - 1) * (xs.map fun x => value ((x.sub μ).mul (x.sub μ))).sum)
    (hV0 : 0 ≤ value V) (hr : (V.div (Fl.ofNat (xs.length - 1))).sqrt.isFinite = true) :
    |value (V.div (Fl.ofNat (xs.length - 1))).sqrt -
        Real.sqrt ((xs.map fun x => (value x - value μ) ^ 2).sum / ((xs.length : ℝ) - 1))| ≤
      6 / 5 * (((xs.length : ℝ) + 5) * roundoff f) *
        Real.sqrt ((xs.map fun x => (value x - value μ) ^ 2).sum / ((xs.length : ℝ) - 1)) + 4 * Real.sqrt (tiny f) := by
  have hu := Fl.roundoff_pos (f := f)
  have hn2 : (2 : ℝ) ≤ xs.length := by exact_mod_cast hn
  have hu1 : roundoff f ≤ 1 / 120 := by nlinarith
  have hnu0 : 0 ≤ (xs.length : ℝ) * roundoff f := by positivity
  have hnu : (xs.length : ℝ) * roundoff f ≤ 1 / 10 := by nlinarith
  -- the differences
  have hd : ∀ x ∈ xs, |value (x.sub μ) - (value x - value μ)| ≤ |value x - value μ| * roundoff f := by
    intro x hx
    have h1 := (Fl.finite_of_mul (hsq x hx)).1
    obtain ⟨h2, h3⟩ := Fl.finite_of_sub h1
    exact Fl.sub_err h1 h2 h3
  have hd2 : ∀ x ∈ xs, (1 - roundoff f) ^ 2 * (value x - value μ) ^ 2 ≤ value (x.sub μ) ^ 2 ∧
      value (x.sub μ) ^ 2 ≤ (1 + roundoff f) ^ 2 * (value x - value μ) ^ 2 := by
    intro x hx
    have h1 := hd x hx
    have h2 : |value (x.sub μ)| ≤ (1 + roundoff f) * |value x - value μ| := by
      have := abs_add_le (value (x.sub μ) - (value x - value μ)) (value x - value μ)
      rw [sub_add_cancel] at this
      linarith
    have h3 : (1 - roundoff f) * |value x - value μ| ≤ |value (x.sub μ)| := by
      have := abs_sub_abs_le_abs_sub (value x - value μ) (value (x.sub μ))
      rw [abs_sub_comm (value x - value μ) (value (x.sub μ))] at this
      linarith
    have h4 := pow_le_pow_left₀ (abs_nonneg _) h2 2
    have h5 := pow_le_pow_left₀ (mul_nonneg (by linarith) (abs_nonneg _)) h3 2
    rw [mul_pow, sq_abs, sq_abs] at h4 h5
    exact ⟨h5, h4⟩
  have h1 : (1 - roundoff f) ^ 2 * (xs.map fun x => (value x - value μ) ^ 2).sum ≤ (xs.map fun x => value (x.sub μ) ^ 2).sum := by
    rw [← sum_mul_left]
    exact sum_le_map fun x hx => (hd2 x hx).1
  have h2 : (xs.map fun x => value (x.sub μ) ^ 2).sum ≤ (1 + roundoff f) ^ 2 * (xs.map fun x => (value x - value μ) ^ 2).sum := by
    rw [← sum_mul_left]
    exact sum_le_map fun x hx => (hd2 x hx).2
  have h3 := squares_err (v := xs.map fun x => x.sub μ) (by
    intro y hy
    obtain ⟨x, hx, rfl⟩ := List.mem_map.1 hy
    exact hsq x hx)
  rw [List.map_map, List.map_map, List.length_map] at h3
  have hg := Fl.pow_roundoff (n := xs.length) hu.le (by linarith)
  have hg0 : 0 ≤ (1 + roundoff f) ^ xs.length - 1 := by
    have : 1 ≤ (1 + roundoff f) ^ xs.length := one_le_pow₀ (by linarith)
    linarith
  have hsum := est_dev_sum hu (by linarith) hfew (Fl.tiny_pos (f := f)).le (sum_sq_nonneg xs fun x => value x - value μ) hg0
    (le_trans hg (by nlinarith)) h1 h2 h3 hV
  -- the quotient and the root
  have hqf := Fl.finite_of_sqrt hr
  obtain ⟨hVf, h0⟩ := Fl.finite_of_div hqf hnf
  have hv := Fl.value_ofNat (le_trans (Nat.sub_le _ _) (few_le hfew)) hnf
  rw [Nat.cast_sub (by omega), Nat.cast_one] at hv
  have hq := Fl.div_err hqf hVf hnf h0
  rw [hv] at hq
  have hn1 : (0 : ℝ) < xs.length - 1 := by linarith
  have hVq : 0 ≤ value V / ((xs.length : ℝ) - 1) := by positivity
  rw [abs_of_nonneg hVq] at hq
  have hq' : |value (V.div (Fl.ofNat (xs.length - 1))) - value V / ((xs.length : ℝ) - 1)| ≤
      tiny f + value V / ((xs.length : ℝ) - 1) * roundoff f := by
    have := mul_nonneg hVq hu.le
    have := (Fl.tiny_pos (f := f)).le
    rcases hq with hq | hq <;> linarith
  have hq0 : 0 ≤ (V.div (Fl.ofNat (xs.length - 1))).toInt := by
    rw [(Fl.div_rounds hVf hnf h0).2]
    apply f.rnd_nonneg
    have a1 : (0 : ℝ) ≤ V.toInt := by exact_mod_cast value_nonneg.1 hV0
    have a2 : (0 : ℝ) ≤ (Fl.ofNat (xs.length - 1) : Fl f).toInt := by
      have : 0 ≤ value (Fl.ofNat (xs.length - 1) : Fl f) := by rw [hv]; linarith
      exact_mod_cast value_nonneg.1 this
    positivity
  exact est_dev_root hu hn2 hfew (Fl.tiny_pos (f := f)).le tiny_le_one (sum_sq_nonneg xs fun x => value x - value μ)
    (value_nonneg.2 hq0) hsum hV0 hq' (Fl.sqrt_err hr hq0)

theorem length₂_const_eq {β : Type} (b : ℝ) (hb : 0 ≤ b) (v : List β) : length₂ (v.map fun _ => b) = Real.sqrt v.length * b := by
  unfold length₂
  rw [List.map_map]
  have : (v.map ((fun x : ℝ => x ^ 2) ∘ fun _ => b)).sum = v.length * b ^ 2 := by
    induction v with
    | nil => simp
    | cons x v ih => rw [List.map_cons, List.sum_cons, ih, List.length_cons]; simp; ring
  rw [this, Real.sqrt_mul (Nat.cast_nonneg _), Real.sqrt_sq hb]

/-- The deviation from a number near the mean. -/
theorem dev_shift {xs : List (Fl f)} (hn : 2 ≤ xs.length) (a b : ℝ) :
    Real.sqrt ((xs.map fun x => (value x - a) ^ 2).sum / ((xs.length : ℝ) - 1)) ≤
      Real.sqrt ((xs.map fun x => (value x - b) ^ 2).sum / ((xs.length : ℝ) - 1)) + 3 / 2 * |a - b| := by
  have hn2 : (2 : ℝ) ≤ xs.length := by exact_mod_cast hn
  have hn1 : (0 : ℝ) < xs.length - 1 := by linarith
  have e : ∀ c : ℝ, Real.sqrt ((xs.map fun x => (value x - c) ^ 2).sum / ((xs.length : ℝ) - 1)) =
      length₂ (xs.map fun x => value x - c) / Real.sqrt ((xs.length : ℝ) - 1) := by
    intro c
    rw [Real.sqrt_div (sum_sq_nonneg xs fun x => value x - c)]
    unfold length₂
    rw [List.map_map]; rfl
  rw [e, e]
  have hs : 0 < Real.sqrt ((xs.length : ℝ) - 1) := Real.sqrt_pos.2 hn1
  have h1 : length₂ (xs.map fun x => value x - a) ≤ length₂ (xs.map fun x => value x - b) + Real.sqrt xs.length * |a - b| := by
    have h2 := length₂_add (fun x : Fl f => value x - b) (fun _ => b - a) xs
    have h3 : length₂ (xs.map fun _ => b - a) ≤ length₂ (xs.map fun _ => |a - b|) :=
      length₂_mono fun x _ => le_of_eq (abs_sub_comm _ _)
    rw [length₂_const_eq _ (abs_nonneg _)] at h3
    have h4 : (xs.map fun x => value x - a) = xs.map fun x => value x - b + (b - a) := by
      apply List.map_congr_left; intro x _; ring
    rw [h4]
    linarith
  have h5 : Real.sqrt (xs.length : ℝ) ≤ 3 / 2 * Real.sqrt ((xs.length : ℝ) - 1) := by
    apply Real.sqrt_le_iff.2
    refine ⟨by positivity, ?_⟩
    rw [mul_pow, Real.sq_sqrt hn1.le]
    linarith
  rw [div_le_iff₀ hs, add_mul, div_mul_cancel₀ _ hs.ne']
  have h6 := mul_le_mul_of_nonneg_right h5 (abs_nonneg (a - b))
  linarith

/-- Everything together; `μ` is a computed mean. -/
theorem dev_total {xs : List (Fl f)} {μ V : Fl f} (hn : 2 ≤ xs.length) (hfew : ((xs.length : ℝ) + 10) * roundoff f ≤ 1 / 10)
    (hnf : (Fl.ofNat (xs.length - 1) : Fl f).isFinite = true) (hsq : ∀ x ∈ xs, ((x.sub μ).mul (x.sub μ)).isFinite = true)
    (hV : |value V - (xs.map fun x => value ((x.sub μ).mul (x.sub μ))).sum| ≤
      ((1 + roundoff f) ^ xs.length - 1) * (xs.map fun x => value ((x.sub μ).mul (x.sub μ))).sum)
    (hV0 : 0 ≤ value V) (hr : (V.div (Fl.ofNat (xs.length - 1))).sqrt.isFinite = true)
    (hμ : |value μ - mean (xs.map value)| ≤
      ((1 + roundoff f) ^ (xs.length + 1) - 1) * mean (xs.map fun x => |value x|) + tiny f) :
    |value (V.div (Fl.ofNat (xs.length - 1))).sqrt - Real.sqrt (sampleVariance (xs.map value))| ≤
      2 * ((xs.length : ℝ) + 5) * roundoff f *
        (Real.sqrt (sampleVariance (xs.map value)) + mean (xs.map fun x => |value x|)) + 6 * Real.sqrt (tiny f) := by
  have hu := Fl.roundoff_pos (f := f)
  have hn2 : (2 : ℝ) ≤ xs.length := by exact_mod_cast hn
  have h1 := dev_err hn hfew hnf hsq hV hV0 hr
  have hs : sampleVariance (xs.map value) =
      (xs.map fun x => (value x - mean (xs.map value)) ^ 2).sum / ((xs.length : ℝ) - 1) := by
    unfold sampleVariance
    rw [List.map_map, List.length_map]; rfl
  rw [hs]
  have hA : 0 ≤ mean (xs.map fun x => |value x|) := by
    unfold mean
    have : 0 ≤ (xs.map fun x => |value x|).sum :=
      List.sum_nonneg (by simp only [List.mem_map]; rintro _ ⟨y, -, rfl⟩; positivity)
    positivity
  have hg := Fl.pow_roundoff (n := xs.length + 1) hu.le (by push_cast; nlinarith)
  push_cast at hg
  have hk0 : 0 ≤ ((xs.length : ℝ) + 1) * roundoff f := by positivity
  have hk1 : ((xs.length : ℝ) + 1) * roundoff f ≤ 1 / 10 := by nlinarith
  have hδ : |value μ - mean (xs.map value)| ≤
      11 / 10 * (((xs.length : ℝ) + 1) * roundoff f) * mean (xs.map fun x => |value x|) + tiny f := by
    refine le_trans hμ ?_
    have : (1 + roundoff f) ^ (xs.length + 1) - 1 ≤ 11 / 10 * (((xs.length : ℝ) + 1) * roundoff f) := by nlinarith
    have := mul_le_mul_of_nonneg_right this hA
    linarith
  refine est_dev_total hu hn2 hfew (Fl.tiny_pos (f := f)).le tiny_le_one (abs_nonneg _) hA (Real.sqrt_nonneg _) hδ ?_ h1
  rw [abs_le]
  have a1 := dev_shift hn (value μ) (mean (xs.map value))
  have a2 := dev_shift hn (mean (xs.map value)) (value μ)
  rw [abs_sub_comm] at a2
  constructor <;> linarith

/-- The sum of squares as it is computed for the goals. -/
theorem sumSq_rel {xs : List (Fl f)} {μ : Fl f} {a : Fl f} {l : List (Fl f)} {n : Nat}
    (hfin : (l.foldl Fl.add a).isFinite = true) (hn : l.length ≤ n) (ha : 0 ≤ value a) (hl : ∀ y ∈ l, 0 ≤ value y)
    (hs : value a + (l.map value).sum = (xs.map fun x => value ((x.sub μ).mul (x.sub μ))).sum) :
    |value (l.foldl Fl.add a) - (xs.map fun x => value ((x.sub μ).mul (x.sub μ))).sum| ≤
      ((1 + roundoff f) ^ n - 1) * (xs.map fun x => value ((x.sub μ).mul (x.sub μ))).sum := by
  have hu := Fl.roundoff_pos (f := f)
  have h1 := Fl.sum_err hfin
  have h2 : (l.map fun x => |value x|) = l.map value := List.map_congr_left fun x hx => abs_of_nonneg (hl x hx)
  rw [h2, abs_of_nonneg ha, hs] at h1
  refine le_trans h1 (mul_le_mul_of_nonneg_right ?_ ?_)
  · have := pow_le_pow_right₀ (by linarith : 1 ≤ 1 + roundoff f) hn
    linarith
  · rw [← hs]
    have : 0 ≤ (l.map value).sum := List.sum_nonneg (by simp only [List.mem_map]; rintro _ ⟨y, hy, rfl⟩; exact hl y hy)
    linarith

theorem foldl_nonneg {l : List (Fl f)} : ∀ {a : Fl f}, (l.foldl Fl.add a).isFinite = true → 0 ≤ value a →
    (∀ y ∈ l, 0 ≤ value y) → 0 ≤ value (l.foldl Fl.add a) := by
  induction l with
  | nil => intro a _ h _; exact h
  | cons y l ih =>
    intro a hf ha hl
    refine ih hf ?_ fun z hz => hl z (List.mem_cons_of_mem _ hz)
    rw [List.foldl_cons] at hf
    have h1 := (Fl.foldl_add_finite hf).1
    obtain ⟨h2, h3⟩ := Fl.finite_of_add h1
    rw [value_nonneg, (Fl.add_rounds h2 h3).2]
    apply f.rnd_nonneg
    have a1 : (0 : ℝ) ≤ a.toInt := by exact_mod_cast value_nonneg.1 ha
    have a2 : (0 : ℝ) ≤ y.toInt := by exact_mod_cast value_nonneg.1 (hl y List.mem_cons_self)
    linarith

theorem sq_value_nonneg {x : Fl f} (h : (x.mul x).isFinite = true) : 0 ≤ value (x.mul x) :=
  value_nonneg.2 (sq_nonneg' (Fl.finite_of_mul h).1)

theorem ofNat_pred_finite {n : Nat} (h : (Fl.ofNat n : Fl f).isFinite = true) : (Fl.ofNat (n - 1) : Fl f).isFinite = true := by
  refine Fl.isFinite_of_between Fl.isFinite_zero h ?_ (Fl.ofNat_mono (Nat.sub_le _ _))
  have := Fl.ofNat_mono (f := f) (Nat.zero_le (n - 1))
  have h0 : (Fl.ofNat 0 : Fl f).toInt = 0 := by
    have := (Fl.ofNat_exact (f := f) (n := 0) (Nat.zero_le _) (by positivity)).1
    simpa using this
  have h1 := Fl.le_iff.1 this
  exact Fl.le_iff.2 ⟨Fl.isNan_zero, h1.2.1, by rw [Fl.toInt_zero, ← h0]; exact h1.2.2⟩

/-! ## C84 -/

/-- C84: a finite standard deviation of the goals is the exact one up to a rounding error. -/
theorem C84_goal (rs : List (Option (T × Fl f))) (r : Fl f) (h : stdDevGoal rs = some r) (hr : r.isFinite = true)
    (hfew : (((goals rs).length : ℝ) + 10) * roundoff f ≤ 1 / 10) (hnf : (Fl.ofNat (goals rs).length : Fl f).isFinite = true) :
    |value r - Real.sqrt (sampleVariance ((goals rs).map value))| ≤
      2 * (((goals rs).length : ℝ) + 5) * roundoff f *
        (Real.sqrt (sampleVariance ((goals rs).map value)) + mean ((goals rs).map fun x => |value x|)) + 6 * Real.sqrt (tiny f) := by
  rw [stdDevGoal_eq] at h
  split at h
  · cases h
  rename_i hlen
  obtain ⟨μ, hμ, rfl⟩ := Option.map_eq_some_iff.1 h
  have hnf1 := ofNat_pred_finite hnf
  have hq := Fl.finite_of_sqrt hr
  have hVf := (Fl.finite_of_div hq hnf1).1
  set xs := goals rs with hxs
  have e : xs.foldl (fun acc g => FloatT.add acc (FloatT.mul (FloatT.sub g μ) (FloatT.sub g μ))) FloatT.zero =
      (xs.map fun x => (x.sub μ).mul (x.sub μ)).foldl Fl.add Fl.zero := by rw [List.foldl_map]; rfl
  rw [e] at hr hq hVf ⊢
  have hall := (Fl.foldl_add_finite hVf).2
  have hsq : ∀ x ∈ xs, ((x.sub μ).mul (x.sub μ)).isFinite = true := fun x hx => hall _ (List.mem_map.2 ⟨x, hx, rfl⟩)
  have hpos : ∀ y ∈ xs.map fun x => (x.sub μ).mul (x.sub μ), 0 ≤ value y := by
    intro y hy
    obtain ⟨x, hx, rfl⟩ := List.mem_map.1 hy
    exact sq_value_nonneg (hsq x hx)
  have hne : xs ≠ [] := by intro h0; rw [h0] at hlen; simp at hlen
  have hμf : μ.isFinite = true := by
    obtain ⟨x, hx⟩ := List.exists_mem_of_ne_nil _ hne
    exact (Fl.finite_of_sub (Fl.finite_of_mul (hsq x hx)).1).2
  refine dev_total (by omega) hfew hnf1 hsq ?_ ?_ hr (C83_average_goal rs μ hμ hμf (few_le hfew) hnf)
  · exact sumSq_rel hVf (by simp) (by rw [Fl.value_zero]) hpos (by rw [Fl.value_zero, zero_add, List.map_map]; rfl)
  · exact foldl_nonneg hVf (by rw [Fl.value_zero]) hpos

/-- C84: the same for each coordinate of the points. -/
theorem C84_point (rs : List (Option (List (Fl f) × F64))) (d : Nat) (s s' : σ) (v : List (Fl f)) (g : F64)
    (hd : ∀ x ∈ points rs, x.length = d) (h : stdDev rs s = .ok (some (v, g), s')) (i : Nat) (r : Fl f) (hi : v[i]? = some r)
    (hr : r.isFinite = true) (hfew : (((points rs).length : ℝ) + 10) * roundoff f ≤ 1 / 10)
    (hnf : (Fl.ofNat (points rs).length : Fl f).isFinite = true) :
    |value r - Real.sqrt (sampleVariance ((coords i (points rs)).map value))| ≤
      2 * (((points rs).length : ℝ) + 5) * roundoff f *
        (Real.sqrt (sampleVariance ((coords i (points rs)).map value)) + mean ((coords i (points rs)).map fun x => |value x|)) +
      6 * Real.sqrt (tiny f) := by
  obtain ⟨k1, k2⟩ := C56_dev rs d s hd
  cases hg : stdDevGoal rs with
  | none => rw [k1 hg] at h; cases h
  | some g' =>
    obtain ⟨v', avg, ga, h1, h2, h3, h4⟩ := k2 g' hg
    rw [h] at h1
    cases h1
    have hid : i < d := by rw [← h3]; exact (List.getElem?_eq_some_iff.1 hi).1
    obtain ⟨μ, a, as, e1, e2, e3⟩ := h4 i hid
    rw [hi] at e3
    obtain rfl := Option.some.inj e3
    have hl := coords_length i d hid (points rs) hd
    have hlen : 2 ≤ (points rs).length := by
      rw [points_length]
      by_contra hc
      rw [stdDevGoal_eq, if_pos (by omega)] at hg
      cases hg
    have hnf1 := ofNat_pred_finite hnf
    have hq := Fl.finite_of_sqrt hr
    have hVf := (Fl.finite_of_div hq hnf1).1
    change ((as.map fun x => (x.sub μ).mul (x.sub μ)).foldl Fl.add ((a.sub μ).mul (a.sub μ))).isFinite = true at hVf
    obtain ⟨ha, has⟩ := Fl.foldl_add_finite hVf
    have hsq : ∀ x ∈ a :: as, ((x.sub μ).mul (x.sub μ)).isFinite = true := by
      rw [List.forall_mem_cons]
      exact ⟨ha, fun x hx => has _ (List.mem_map.2 ⟨x, hx, rfl⟩)⟩
    have hμf : μ.isFinite = true := (Fl.finite_of_sub (Fl.finite_of_mul ha).1).2
    have hm := C83_average rs d s s avg ga hd h2 i μ e1 hμf (few_le hfew) hnf
    have hpos : ∀ y ∈ as.map fun x => (x.sub μ).mul (x.sub μ), 0 ≤ value y := by
      intro y hy
      obtain ⟨x, hx, rfl⟩ := List.mem_map.1 hy
      exact sq_value_nonneg (hsq x (List.mem_cons_of_mem _ hx))
    rw [e2] at hl hm ⊢
    rw [← hl] at hfew hnf hnf1 hm hlen hr ⊢
    refine dev_total hlen hfew hnf1 hsq ?_ (foldl_nonneg hVf (sq_value_nonneg ha) hpos) hr ?_
    · exact sumSq_rel hVf (by simp) (sq_value_nonneg ha) hpos (by rw [List.map_map, List.map_cons, List.sum_cons]; rfl)
    · refine le_trans hm ?_
      have hu := (Fl.roundoff_pos (f := f)).le
      have hA : 0 ≤ mean ((a :: as).map fun x => |value x|) := by
        unfold mean
        have : 0 ≤ ((a :: as).map fun x => |value x|).sum :=
          List.sum_nonneg (by simp only [List.mem_map]; rintro _ ⟨y, -, rfl⟩; positivity)
        positivity
      have hp := pow_le_pow_right₀ (by linarith : 1 ≤ 1 + roundoff f) (Nat.le_succ (a :: as).length)
      refine add_le_add_left (mul_le_mul_of_nonneg_right ?_ hA) _
      exact sub_le_sub_right hp 1

/-! ## Instances -/

example : (stdDevGoal threeRuns).any (·.isFinite) = true ∧ (Fl.ofNat (goals threeRuns).length : F64).isFinite = true := by
  decide +kernel

example : (((goals threeRuns).length : ℝ) + 10) * roundoff .f64 ≤ 1 / 10 ∧
    (((points threeRuns).length : ℝ) + 10) * roundoff .f64 ≤ 1 / 10 := by
  have h1 : (goals threeRuns).length = 2 := by decide +kernel
  have h2 : (points threeRuns).length = 2 := by decide +kernel
  rw [h1, h2]
  unfold roundoff
  norm_num [Fmt.f64]

example : (∀ x ∈ points threeRuns, x.length = 2) ∧ M.okAnd (stdDev threeRuns ()) (fun r _ => match r with
    | some (v, _) => v.length == 2 && v.all (·.isFinite)
    | none => false) = true := by decide +kernel

end Verif.Props
