import Verif.Proofs.SumNear
import Verif.Props.TestFuncError
import Verif.Props.TestFuncFinite

/-!
# C62: the rounding error of the Rosenbrock function
-/

namespace Verif.Props

open Verif Spec TestFunc

variable {σ : Type} {f : Fmt}

/-! ## The two terms of a turn -/

/-- `100 (y - x^2)^2` in four roundings; `g` is what the first of them can do. -/
theorem est_rosen_a {u τ x y s d q h g : ℝ} (hu : 0 ≤ u) (hu1 : u ≤ 1 / 100) (hτ : 0 ≤ τ) (hg : g = u * x ^ 2 + τ)
    (hs : |s - x ^ 2| ≤ g) (hd : |d - (y - s)| ≤ |y - s| * u) (hq : |q - d ^ 2| ≤ d ^ 2 * u + τ)
    (hh : |h - 100 * q| ≤ |100 * q| * u + τ) :
    |h - 100 * (y - x ^ 2) ^ 2| ≤ 41 / 10 * u * (100 * (y - x ^ 2) ^ 2) +
      100 * (21 / 10 * (g * |y - x ^ 2|) + 11 / 10 * g ^ 2) + 103 * τ := by
  set t := y - x ^ 2 with ht
  have hg0 : 0 ≤ g := by rw [hg]; positivity
  have hT := abs_nonneg t
  -- the difference
  have h1 : |y - s| ≤ |t| + g := by
    have := abs_sub_le y (x ^ 2) s
    rw [abs_sub_comm (x ^ 2) s] at this
    linarith
  have h2 : |d - t| ≤ (1 + u) * g + u * |t| := by
    have := abs_sub_le d (y - s) t
    have e : |y - s - t| = |s - x ^ 2| := by rw [ht, ← abs_neg]; congr 1; ring
    rw [e] at this
    nlinarith
  have h3 : |d - t| ≤ 101 / 100 * g + u * |t| := by nlinarith
  -- its square
  have h4 : |d ^ 2 - t ^ 2| ≤ |d - t| * (2 * |t| + |d - t|) := by
    rw [show d ^ 2 - t ^ 2 = (d - t) * (d + t) by ring, abs_mul]
    refine mul_le_mul_of_nonneg_left ?_ (abs_nonneg _)
    have := abs_add_le (d - t) (2 * t)
    rw [show d - t + 2 * t = d + t by ring, abs_mul, abs_two] at this
    linarith
  have hm : |d - t| * (2 * |t| + |d - t|) ≤ (101 / 100 * g + u * |t|) * (2 * |t| + (101 / 100 * g + u * |t|)) :=
    mul_le_mul h3 (by linarith) (by positivity) (by positivity)
  have htt : |t| ^ 2 = t ^ 2 := sq_abs t
  have hug : 0 ≤ g * |t| := by positivity
  have h5 : |d ^ 2 - t ^ 2| ≤ 201 / 100 * u * t ^ 2 + 205 / 100 * (g * |t|) + 103 / 100 * g ^ 2 := by
    refine (h4.trans hm).trans ?_
    have e : (101 / 100 * g + u * |t|) * (2 * |t| + (101 / 100 * g + u * |t|)) =
        202 / 100 * (g * |t|) + 2 * u * |t| ^ 2 + (101 / 100) ^ 2 * g ^ 2 + 202 / 100 * (u * (g * |t|)) + u * (u * |t| ^ 2) := by ring
    rw [e, htt]
    have a1 : u * (g * |t|) ≤ 1 / 100 * (g * |t|) := mul_le_mul_of_nonneg_right hu1 hug
    have a2 : u * (u * t ^ 2) ≤ 1 / 100 * (u * t ^ 2) := mul_le_mul_of_nonneg_right hu1 (by positivity)
    have a3 := sq_nonneg g
    nlinarith
  have h6 : d ^ 2 ≤ 103 / 100 * t ^ 2 + 205 / 100 * (g * |t|) + 103 / 100 * g ^ 2 := by
    have := (abs_le.1 h5).2
    have a2 : u * t ^ 2 ≤ 1 / 100 * t ^ 2 := mul_le_mul_of_nonneg_right hu1 (by positivity)
    have := sq_nonneg t
    linarith
  have h7 : |100 * q| ≤ 100 * (d ^ 2 + (d ^ 2 * u + τ)) := by
    rw [abs_mul, abs_of_pos (by norm_num : (0 : ℝ) < 100)]
    have := abs_add_le (q - d ^ 2) (d ^ 2)
    rw [sub_add_cancel, abs_of_nonneg (sq_nonneg d)] at this
    linarith
  have h8 : |h - 100 * t ^ 2| ≤ |h - 100 * q| + 100 * |q - d ^ 2| + 100 * |d ^ 2 - t ^ 2| := by
    have a := abs_add_three (h - 100 * q) (100 * (q - d ^ 2)) (100 * (d ^ 2 - t ^ 2))
    rw [abs_mul, abs_mul, abs_of_pos (by norm_num : (0 : ℝ) < 100)] at a
    rwa [show h - 100 * q + 100 * (q - d ^ 2) + 100 * (d ^ 2 - t ^ 2) = h - 100 * t ^ 2 by ring] at a
  have hd0 := sq_nonneg d
  have h9 : |100 * q| * u ≤ 100 * (101 / 100 * (d ^ 2 * u) + 1 / 100 * τ) := by
    have b1 : |100 * q| * u ≤ 100 * (d ^ 2 + (d ^ 2 * u + τ)) * u := mul_le_mul_of_nonneg_right h7 hu
    have b2 : u * (d ^ 2 * u) ≤ 1 / 100 * (d ^ 2 * u) := mul_le_mul_of_nonneg_right hu1 (by positivity)
    have b3 : u * τ ≤ 1 / 100 * τ := mul_le_mul_of_nonneg_right hu1 hτ
    nlinarith
  have h10 : d ^ 2 * u ≤ 103 / 100 * (u * t ^ 2) + 205 / 10000 * (g * |t|) + 103 / 10000 * g ^ 2 := by
    have b1 := mul_le_mul_of_nonneg_right h6 hu
    have b2 : u * (g * |t|) ≤ 1 / 100 * (g * |t|) := mul_le_mul_of_nonneg_right hu1 hug
    have b3 : u * g ^ 2 ≤ 1 / 100 * g ^ 2 := mul_le_mul_of_nonneg_right hu1 (sq_nonneg g)
    nlinarith
  have := sq_nonneg g
  have : 0 ≤ u * t ^ 2 := by positivity
  nlinarith

/-- `(1 - x)^2` in two roundings. -/
theorem est_rosen_b {u τ v b q : ℝ} (hu : 0 ≤ u) (hu1 : u ≤ 1 / 100) (hb : |b - v| ≤ |v| * u)
    (hq : |q - b ^ 2| ≤ b ^ 2 * u + τ) : |q - v ^ 2| ≤ 31 / 10 * u * v ^ 2 + τ := by
  have hv := abs_nonneg v
  have h4 : |b ^ 2 - v ^ 2| ≤ |b - v| * (2 * |v| + |b - v|) := by
    rw [show b ^ 2 - v ^ 2 = (b - v) * (b + v) by ring, abs_mul]
    refine mul_le_mul_of_nonneg_left ?_ (abs_nonneg _)
    have := abs_add_le (b - v) (2 * v)
    rw [show b - v + 2 * v = b + v by ring, abs_mul, abs_two] at this
    linarith
  have hm : |b - v| * (2 * |v| + |b - v|) ≤ (|v| * u) * (2 * |v| + |v| * u) :=
    mul_le_mul hb (by linarith) (by positivity) (by positivity)
  have hvv : |v| ^ 2 = v ^ 2 := sq_abs v
  have huv : 0 ≤ u * v ^ 2 := by positivity
  have h5 : |b ^ 2 - v ^ 2| ≤ 201 / 100 * (u * v ^ 2) := by
    refine (h4.trans hm).trans ?_
    have e : (|v| * u) * (2 * |v| + |v| * u) = 2 * (u * |v| ^ 2) + u * (u * |v| ^ 2) := by ring
    rw [e, hvv]
    nlinarith
  have h6 : b ^ 2 * u ≤ 103 / 100 * (u * v ^ 2) := by
    have := (abs_le.1 h5).2
    have a2 : u * (u * v ^ 2) ≤ 1 / 100 * (u * v ^ 2) := mul_le_mul_of_nonneg_right hu1 huv
    nlinarith
  have := abs_sub_le q (b ^ 2) (v ^ 2)
  linarith

/-- The sum of both, with the roundings of the additions. -/
theorem est_rosen_sum {u n τ E R D V : ℝ} (hu : 0 ≤ u) (hn : 0 ≤ n) (hk : 2 * n * u ≤ 1 / 10) (hτ : 0 ≤ τ) (hE : 0 ≤ E) (hR : 0 ≤ R)
    (hD : D ≤ 41 / 10 * u * E + 11 / 10 * (2 * R) + 104 * (n * τ))
    (h : |V - E| ≤ 11 / 10 * (2 * n * u) * (E + D) + D) :
    |V - E| ≤ 5 / 2 * (n + 2) * u * E + 5 / 2 * R + 120 * (n * τ) := by
  have hnu : 0 ≤ 2 * n * u := by positivity
  have h1 : 11 / 10 * (2 * n * u) * D ≤ 11 / 100 * (41 / 10 * u * E + 11 / 10 * (2 * R) + 104 * (n * τ)) :=
    (mul_le_mul_of_nonneg_left hD (by linarith)).trans (mul_le_mul_of_nonneg_right (by linarith) (by positivity))
  have : 0 ≤ n * u * E := by positivity
  have : 0 ≤ u * E := by positivity
  have : 0 ≤ n * τ := by positivity
  nlinarith

theorem sum_lin {β : Type} (l : List β) (E G : β → ℝ) (a b c : ℝ) :
    (l.map fun i => (a * E i + b * G i) + c).sum = a * (l.map E).sum + b * (l.map G).sum + l.length * c := by
  induction l with
  | nil => simp
  | cons i l ih => simp only [List.map_cons, List.sum_cons, ih, List.length_cons]; push_cast; ring

/-! ## The function -/

/-- The two terms of turn `i` as computed. -/
def rosenA (x : List (Fl f)) (i : Nat) : Fl f :=
  Fl.mul (FloatT.lit 100 1) (sq (Fl.sub (x.getD (i + 1) Fl.zero) (Fl.mul (x.getD i Fl.zero) (x.getD i Fl.zero))))

def rosenB (x : List (Fl f)) (i : Nat) : Fl f := sq (Fl.sub (FloatT.lit 1 1) (x.getD i Fl.zero))

theorem rosenbrock_loop (p : Profile) (x : List (Fl f)) (h : x ≠ []) (s : σ) : rosenbrock p x s =
    .ok ((List.range (x.length - 1)).foldl (fun acc i => (acc.add (rosenA x i)).add (rosenB x i)) (FloatT.lit 0 1), s) := by
  rw [rosenbrock_eq p x h]
  have key : ∀ (l : List Nat) (sum : Fl f), (∀ n ∈ l, n + 1 < x.length) →
      M.foldL (rosenbrockStep (σ := σ) x) sum l s =
        .ok (l.foldl (fun acc i => (acc.add (rosenA x i)).add (rosenB x i)) sum, s) := by
    intro l
    induction l with
    | nil => intro sum _; rfl
    | cons n l ih =>
      intro sum hl
      have hn := hl n (by simp)
      refine M.foldL_cons_ok.2 ⟨_, s, rosenbrockStep_ok x sum n s hn, ?_⟩
      rw [ih _ (fun m hm => hl m (by simp [hm])), List.foldl_cons]
      unfold rosenA rosenB
      have g1 : x.getD (n + 1) Fl.zero = x[n + 1] := by simp [List.getD_eq_getElem?_getD, List.getElem?_eq_getElem hn]
      have g0 : x.getD n Fl.zero = x[n]'(by omega) := by
        simp [List.getD_eq_getElem?_getD, List.getElem?_eq_getElem (by omega : n < x.length)]
      rw [g1, g0]
      rfl
  exact key _ _ (by intro n hn; rw [List.mem_range] at hn; omega)

theorem value_getD (x : List (Fl f)) (i : Nat) : value (x.getD i Fl.zero) = (x.map value).getD i 0 := by
  rw [List.getD_eq_getElem?_getD, List.getD_eq_getElem?_getD, List.getElem?_map]
  cases x[i]? with
  | none => exact Fl.value_zero
  | some a => rfl

theorem lit_value (hf : f = Fmt.f32 ∨ f = Fmt.f64) : value (FloatT.lit 100 1 : Fl f) = 100 ∧
    value (FloatT.lit 1 1 : Fl f) = 1 ∧ value (FloatT.lit 0 1 : Fl f) = 0 ∧ value (FloatT.lit 10 1 : Fl f) = 10 := by
  have key : ∀ (c : Fl f) (n : Nat), c.toInt = n * f.D → value c = n := by
    intro c n h
    have hD := Fl.D_posR (f := f)
    unfold value
    rw [h]; push_cast; field_simp
  have h : (FloatT.lit 100 1 : Fl f).toInt = (100 : Nat) * f.D ∧ (FloatT.lit 1 1 : Fl f).toInt = (1 : Nat) * f.D ∧
      (FloatT.lit 0 1 : Fl f).toInt = (0 : Nat) * f.D ∧ (FloatT.lit 10 1 : Fl f).toInt = (10 : Nat) * f.D := by
    rcases hf with rfl | rfl <;> decide +kernel
  refine ⟨(key _ _ h.1).trans (by norm_num), (key _ _ h.2.1).trans (by norm_num), (key _ _ h.2.2.1).trans (by norm_num),
    (key _ _ h.2.2.2).trans (by norm_num)⟩

theorem foldl_twice_finite (l : List Nat) (a b : Nat → Fl f) : ∀ (z : Fl f),
    (l.foldl (fun acc i => (acc.add (a i)).add (b i)) z).isFinite = true →
    ∀ i ∈ l, (a i).isFinite = true ∧ (b i).isFinite = true := by
  intro z h
  rw [Fl.foldl_twice] at h
  have := (Fl.foldl_add_finite h).2
  intro i hi
  have hmem : ∀ t : Bool, (i, t) ∈ Fl.twice l := by
    intro t
    rw [Fl.twice, List.mem_flatMap]
    refine ⟨i, hi, ?_⟩
    cases t <;> simp
  exact ⟨this _ (List.mem_map.2 ⟨(i, true), hmem true, rfl⟩), this _ (List.mem_map.2 ⟨(i, false), hmem false, rfl⟩)⟩

theorem rosen_sq_near {d : Fl f} (h : (sq d).isFinite = true) : |value (sq d) - value d ^ 2| ≤ value d ^ 2 * roundoff f + tiny f := by
  have := Fl.mul_near h
  rw [abs_of_nonneg (mul_self_nonneg (value d)), ← _root_.sq (value d)] at this
  exact this

theorem rosenA_near {c a b : Fl f} (hc : value c = 100) (hu1 : roundoff f ≤ 1 / 100)
    (ha : (Fl.mul c (sq (Fl.sub b (Fl.mul a a)))).isFinite = true) :
    |value (Fl.mul c (sq (Fl.sub b (Fl.mul a a)))) - 100 * (value b - value a ^ 2) ^ 2| ≤
      41 / 10 * roundoff f * (100 * (value b - value a ^ 2) ^ 2) +
      100 * (21 / 10 * ((roundoff f * value a ^ 2 + tiny f) * |value b - value a ^ 2|) +
        11 / 10 * (roundoff f * value a ^ 2 + tiny f) ^ 2) + 103 * tiny f := by
  have hq := (Fl.finite_of_mul ha).2
  have hd := (Fl.finite_of_mul hq).1
  obtain ⟨hy, hs⟩ := Fl.finite_of_sub hd
  have e1 : |value (Fl.mul a a) - value a ^ 2| ≤ _ := rosen_sq_near hs
  have e2 := Fl.sub_err hd hy hs
  have e3 := rosen_sq_near hq
  have e4 := Fl.mul_near ha
  rw [hc] at e4
  exact est_rosen_a (Fl.roundoff_pos).le hu1 (Fl.tiny_pos).le rfl (by linarith) e2 e3 e4

theorem rosenB_near {c a : Fl f} (hc : value c = 1) (hu1 : roundoff f ≤ 1 / 100)
    (hb : (sq (Fl.sub c a)).isFinite = true) :
    |value (sq (Fl.sub c a)) - (1 - value a) ^ 2| ≤ 31 / 10 * roundoff f * (1 - value a) ^ 2 + tiny f := by
  have hd := (Fl.finite_of_mul hb).1
  obtain ⟨hy, hs⟩ := Fl.finite_of_sub hd
  have e2 := Fl.sub_err hd hy hs
  rw [hc] at e2
  exact est_rosen_b (Fl.roundoff_pos).le hu1 e2 (rosen_sq_near hb)

/-- C62: a finite value of the Rosenbrock function differs from the exact value `E` at the point by at most
`5/2 (n + 1) u E + 5/2 * 100 Σ g (|x' - x^2| + g) + 120 n t`, where `x` and `x'` are neighbours among the `n` coordinates,
`g = u x^2 + t` bounds the rounding error of `x^2`, `u` is the unit roundoff and `t` half the smallest positive number. -/
theorem C62_error (hf : f = Fmt.f32 ∨ f = Fmt.f64) (p : Profile) (x : List (Fl f)) (r : F64) (s s' : σ)
    (h : rosenbrockF64 p x s = .ok (r, s')) (hr : r.isFinite = true) (hfew : ((x.length : ℝ) + 10) * roundoff f ≤ 1 / 20) :
    |value r - ((List.range (x.length - 1)).map fun i =>
        100 * ((x.map value).getD (i + 1) 0 - (x.map value).getD i 0 ^ 2) ^ 2 + (1 - (x.map value).getD i 0) ^ 2).sum| ≤
      5 / 2 * (x.length + 1) * roundoff f * ((List.range (x.length - 1)).map fun i =>
        100 * ((x.map value).getD (i + 1) 0 - (x.map value).getD i 0 ^ 2) ^ 2 + (1 - (x.map value).getD i 0) ^ 2).sum +
      5 / 2 * ((List.range (x.length - 1)).map fun i => 100 * ((roundoff f * (x.map value).getD i 0 ^ 2 + tiny f) *
        (|(x.map value).getD (i + 1) 0 - (x.map value).getD i 0 ^ 2| + (roundoff f * (x.map value).getD i 0 ^ 2 + tiny f)))).sum +
      120 * (x.length * tiny f) := by
  have hne : x ≠ [] := by
    rintro rfl
    obtain ⟨e, he⟩ := C62_empty (σ := σ) (α := Fl f) p s
    obtain ⟨r0, s0, h0, -⟩ := M.bind_eq_ok.1 h
    rw [he] at h0; cases h0
  have he : Fmt.Embeds f .f64 := by rcases hf with rfl | rfl; exacts [Fmt.embeds_f32, Fmt.embeds_refl _]
  obtain ⟨v, s0, h0, h1⟩ := M.bind_eq_ok.1 h
  rw [rosenbrock_loop p x hne s] at h0
  obtain ⟨hv, -⟩ := Prod.mk.inj (Except.ok.inj h0)
  obtain ⟨hrv, -⟩ := M.pure_eq_ok.1 h1
  have hvf : v.isFinite = true := by
    by_contra hc
    rw [Bool.not_eq_true] at hc
    rw [← hrv, Fl.isFinite_cast_inf (g := .f64) hc] at hr
    cases hr
  rw [← hrv, value_cast he hvf]
  have hu := Fl.roundoff_pos (f := f)
  have hτ := Fl.tiny_pos (f := f)
  have hN1 : 1 ≤ x.length := List.length_pos_iff.2 hne
  obtain ⟨N, hN⟩ : ∃ N, x.length = N + 1 := ⟨x.length - 1, by omega⟩
  have hNR : (x.length : ℝ) = N + 1 := by rw [hN]; push_cast; rfl
  have hN0 : (0 : ℝ) ≤ N := Nat.cast_nonneg N
  have hu1 : roundoff f ≤ 1 / 100 := by rw [hNR] at hfew; nlinarith
  have hk : 2 * (N : ℝ) * roundoff f ≤ 1 / 10 := by rw [hNR] at hfew; nlinarith
  obtain ⟨l100, l1, l0, -⟩ := lit_value hf
  rw [← hv] at hvf ⊢
  rw [hN, Nat.add_sub_cancel] at hvf ⊢
  have hterms := foldl_twice_finite _ _ _ _ hvf
  have hA : ∀ i ∈ List.range N, |value (rosenA x i) - 100 * ((x.map value).getD (i + 1) 0 - (x.map value).getD i 0 ^ 2) ^ 2| ≤
      41 / 10 * roundoff f * (100 * ((x.map value).getD (i + 1) 0 - (x.map value).getD i 0 ^ 2) ^ 2) +
      100 * (21 / 10 * ((roundoff f * (x.map value).getD i 0 ^ 2 + tiny f) *
          |(x.map value).getD (i + 1) 0 - (x.map value).getD i 0 ^ 2|) +
        11 / 10 * (roundoff f * (x.map value).getD i 0 ^ 2 + tiny f) ^ 2) + 103 * tiny f := by
    intro i hi
    rw [← value_getD, ← value_getD]
    exact rosenA_near l100 hu1 (hterms i hi).1
  have hB : ∀ i ∈ List.range N, |value (rosenB x i) - (1 - (x.map value).getD i 0) ^ 2| ≤
      31 / 10 * roundoff f * (1 - (x.map value).getD i 0) ^ 2 + tiny f := by
    intro i hi
    rw [← value_getD]
    exact rosenB_near l1 hu1 (hterms i hi).2
  have hsum := Fl.sum_near_twice (List.range N) (rosenA x) (rosenB x) _ _ _ _ l0 hvf (by rw [List.length_range]; exact hk) hA hB
  rw [List.length_range] at hsum
  set E := fun i => 100 * ((x.map value).getD (i + 1) 0 - (x.map value).getD i 0 ^ 2) ^ 2 + (1 - (x.map value).getD i 0) ^ 2 with hE
  set G := fun i => 100 * ((roundoff f * (x.map value).getD i 0 ^ 2 + tiny f) *
        (|(x.map value).getD (i + 1) 0 - (x.map value).getD i 0 ^ 2| + (roundoff f * (x.map value).getD i 0 ^ 2 + tiny f))) with hG
  have hEabs : ∀ i, |100 * ((x.map value).getD (i + 1) 0 - (x.map value).getD i 0 ^ 2) ^ 2| + |(1 - (x.map value).getD i 0) ^ 2| = E i :=
    fun i => by rw [abs_of_nonneg (by positivity), abs_of_nonneg (by positivity)]
  simp only [hEabs] at hsum
  have hE0 : 0 ≤ ((List.range N).map E).sum := Fl.sum_nonneg_map _ _ fun i _ => by simp only [hE]; positivity
  have hG0 : 0 ≤ ((List.range N).map G).sum := Fl.sum_nonneg_map _ _ fun i _ => by simp only [hG]; positivity
  have hfinal := est_rosen_sum hu.le hN0 hk hτ.le hE0 hG0 ?_ hsum
  · rw [show ((N + 1 : ℕ) : ℝ) = N + 1 by push_cast; rfl]
    have : 0 ≤ tiny f := hτ.le
    refine hfinal.trans ?_
    rw [show (N : ℝ) + 1 + 1 = N + 2 by ring]
    linarith
  · have e : 41 / 10 * roundoff f * ((List.range N).map E).sum + 11 / 10 * (2 * ((List.range N).map G).sum) + 104 * (N * tiny f) =
        ((List.range N).map fun i => (41 / 10 * roundoff f * E i + 11 / 5 * G i) + 104 * tiny f).sum := by
      rw [sum_lin, List.length_range]
      ring
    rw [e]
    refine sum_le_map fun i _ => ?_
    simp only [hE, hG]
    set X := (x.map value).getD i 0
    set T := |(x.map value).getD (i + 1) 0 - X ^ 2|
    set g := roundoff f * X ^ 2 + tiny f with hg
    have hg0 : 0 ≤ g := by rw [hg]; positivity
    have hT0 : 0 ≤ T := abs_nonneg _
    have : 0 ≤ g * T := by positivity
    have : 0 ≤ roundoff f * (1 - X) ^ 2 := by positivity
    nlinarith [sq_nonneg g]

/-- The hypotheses are met by an ordinary point in `f32`, and the value is not zero. -/
example : M.okAnd ((rosenbrockF64 .debug [(Fl.ofNat 3 : F32), Fl.ofNat 7] : M Unit F64) ()) (fun v _ => v.isFinite && !v.isZero) = true ∧
    ((([(Fl.ofNat 3 : F32), Fl.ofNat 7].length : ℕ) : ℝ) + 10) * roundoff .f32 ≤ 1 / 20 := by
  refine ⟨by decide +kernel, ?_⟩
  unfold roundoff
  norm_num [Fmt.f32]

end Verif.Props
