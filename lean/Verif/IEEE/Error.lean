import Verif.IEEE.Algebra
import Verif.Spec.Error
import Mathlib.Analysis.SpecialFunctions.Exp

/-!
# Rounding errors: the standard model of floating-point arithmetic
-/

namespace Verif.Fmt

variable (f : Fmt)

/-- Rounding moves a number by at most half the gap it lies in, downwards too, if it does not overflow. -/
theorem rnd_ge_half {q : ℝ} {k : Nat} (h1 : (f.mag k : ℝ) ≤ q) (h2 : q < f.mag (k + 1)) (hfin : (f.rnd q).natAbs < f.mag f.infIdx) :
    q - ((f.mag (k + 1) : ℝ) - f.mag k) / 2 ≤ (f.rnd q : ℝ) := by
  have hq : 0 ≤ q := le_trans (by positivity) h1
  rw [f.rnd_of_nonneg hq] at hfin ⊢
  rw [Int.natAbs_natCast, f.mag_lt_mag] at hfin
  have hfl : f.floorIdx (⌊2 * q⌋₊ / 2) = k := by
    apply f.floorIdx_unique
    · have : (2 * f.mag k : ℕ) ≤ ⌊2 * q⌋₊ := Nat.le_floor (by push_cast; linarith)
      omega
    · have : ⌊2 * q⌋₊ < 2 * f.mag (k + 1) := (Nat.floor_lt (by linarith)).2 (by push_cast; linarith)
      omega
  have hlt : f.mag k < f.mag (k + 1) := f.mag_lt_mag.2 (Nat.lt_succ_self k)
  have hltR : (f.mag k : ℝ) < f.mag (k + 1) := by exact_mod_cast hlt
  have hr : k + 1 ≤ f.ridx q ∨ (2 * q ≤ f.mag k + f.mag (k + 1) ∧ k ≤ f.ridx q) := by
    unfold ridx at hfin ⊢
    rw [roundIdx_eq] at hfin ⊢
    have hmin : ∀ {a b : Nat}, min a b < b → min a b = a := by omega
    rw [hmin hfin]
    simp only [roundRaw, hfl]
    have hfl2 := Nat.lt_floor_add_one (2 * q)
    split_ifs with c1 c2 c3 c4
    · right
      refine ⟨?_, le_rfl⟩
      have : ((⌊2 * q⌋₊ + 1 : ℕ) : ℝ) ≤ ((f.mag k + f.mag (k + 1) : ℕ) : ℝ) := by exact_mod_cast c1
      push_cast at this; linarith
    · left; exact le_rfl
    · left; exact le_rfl
    · right
      refine ⟨?_, le_rfl⟩
      have e1 : ⌊2 * q⌋₊ = f.mag k + f.mag (k + 1) := by omega
      have e2 : 2 * q = (⌊2 * q⌋₊ : ℝ) := by
        by_contra hc
        simp only [ne_eq, decide_eq_true_eq] at c3
        exact c3 hc
      rw [e2, e1]; push_cast; exact le_rfl
    · left; exact le_rfl
  rcases hr with hr | ⟨hm, hr⟩
  · have : (f.mag (k + 1) : ℝ) ≤ f.mag (f.ridx q) := by exact_mod_cast f.mag_le_mag.2 hr
    push_cast; linarith
  · have : (f.mag k : ℝ) ≤ f.mag (f.ridx q) := by exact_mod_cast f.mag_le_mag.2 hr
    push_cast; linarith

theorem rnd_err_nonneg {q : ℝ} (h : 0 ≤ q) (hfin : (f.rnd q).natAbs < f.mag f.infIdx) :
    |(f.rnd q : ℝ) - q| ≤ 1 / 2 ∨ |(f.rnd q : ℝ) - q| ≤ q * Spec.roundoff f := by
  obtain ⟨g1, g2⟩ := f.floorIdx_spec ⌊q⌋₊
  set k := f.floorIdx ⌊q⌋₊ with hk
  have h1 : (f.mag k : ℝ) ≤ q := le_trans (by exact_mod_cast g1) (Nat.floor_le h)
  have h2 : q < f.mag (k + 1) := by
    have : ⌊q⌋₊ + 1 ≤ f.mag (k + 1) := g2
    have h3 := Nat.lt_floor_add_one q
    have h4 : ((⌊q⌋₊ + 1 : ℕ) : ℝ) ≤ f.mag (k + 1) := by exact_mod_cast this
    push_cast at h4; linarith
  have hb : |(f.rnd q : ℝ) - q| ≤ ((f.mag (k + 1) : ℝ) - f.mag k) / 2 := by
    have a := f.rnd_le_half h1 h2
    have b := f.rnd_ge_half h1 h2 hfin
    rw [abs_le]; constructor <;> linarith
  rcases Nat.lt_or_ge k (2 ^ f.mw) with hs | hs
  · left
    have e1 : f.mag k = k := f.mag_small (by rw [pow_succ]; omega)
    have e2 : f.mag (k + 1) = k + 1 := f.mag_small (by rw [pow_succ]; omega)
    rw [e1, e2] at hb
    push_cast at hb
    linarith
  · right
    have hg := f.gap_le hs
    have hlt : f.mag k < f.mag (k + 1) := f.mag_lt_mag.2 (Nat.lt_succ_self k)
    have hgR : (2 : ℝ) ^ f.mw * ((f.mag (k + 1) : ℝ) - f.mag k) ≤ f.mag k := by
      have : ((2 ^ f.mw * (f.mag (k + 1) - f.mag k) : ℕ) : ℝ) ≤ f.mag k := by exact_mod_cast hg
      rw [Nat.cast_mul, Nat.cast_sub hlt.le] at this
      push_cast at this; exact this
    refine le_trans hb ?_
    have hp : (0 : ℝ) < 2 ^ f.mw := by positivity
    unfold Spec.roundoff
    rw [pow_succ, mul_one_div, div_le_div_iff₀ (by norm_num) (by positivity)]
    nlinarith

/-- The error of rounding: half a unit or a relative `2 ^ -(mw + 1)`. -/
theorem rnd_err {q : ℝ} (hfin : (f.rnd q).natAbs < f.mag f.infIdx) :
    |(f.rnd q : ℝ) - q| ≤ 1 / 2 ∨ |(f.rnd q : ℝ) - q| ≤ |q| * Spec.roundoff f := by
  rcases le_total 0 q with h | h
  · rw [abs_of_nonneg h]; exact f.rnd_err_nonneg h hfin
  · have := f.rnd_err_nonneg (q := -q) (by linarith) (by rw [f.rnd_neg, Int.natAbs_neg]; exact hfin)
    rw [f.rnd_neg] at this
    push_cast at this
    have e : |-(f.rnd q : ℝ) - -q| = |(f.rnd q : ℝ) - q| := by rw [← abs_neg]; congr 1; ring
    rw [e] at this
    rw [abs_of_nonpos h]
    exact this

/-- Whole numbers of units are rounded with a relative error. -/
theorem rnd_err_int {n : Int} (hfin : (f.rnd (n : ℝ)).natAbs < f.mag f.infIdx) :
    |(f.rnd (n : ℝ) : ℝ) - n| ≤ |(n : ℝ)| * Spec.roundoff f := by
  rcases Nat.lt_or_ge n.natAbs (2 ^ (f.mw + 1)) with h | h
  · obtain ⟨k, hk⟩ : ∃ k, f.mag k = n.natAbs := ⟨n.natAbs, f.mag_small h.le⟩
    have e : f.rnd (n : ℝ) = n := by
      have hle : k ≤ f.infIdx := by
        by_contra hc
        have h1 : f.mag f.infIdx < n.natAbs := by rw [← hk]; exact f.mag_lt_mag.2 (by omega)
        rcases Int.natAbs_eq n with hn | hn
        · have h2 : ((f.mag f.infIdx : ℕ) : ℝ) ≤ (n : ℝ) := by
            have : ((f.mag f.infIdx : ℕ) : ℤ) ≤ n := by omega
            exact_mod_cast this
          have h3 := f.rnd_mono h2
          rw [f.rnd_mag le_rfl] at h3
          omega
        · have h2 : ((f.mag f.infIdx : ℕ) : ℝ) ≤ -(n : ℝ) := by
            have : ((f.mag f.infIdx : ℕ) : ℤ) ≤ -n := by omega
            exact_mod_cast this
          have h3 := f.rnd_mono h2
          rw [f.rnd_mag le_rfl, f.rnd_neg] at h3
          omega
      have hm := f.rnd_mag hle
      rw [hk] at hm
      rcases Int.natAbs_eq n with hn | hn
      · have : (n : ℝ) = ((n.natAbs : ℕ) : ℝ) := by
          rw [← Int.cast_natCast]; exact congrArg _ hn
        rw [this, hm]; exact hn.symm
      · have : (n : ℝ) = -((n.natAbs : ℕ) : ℝ) := by
          rw [← Int.cast_natCast, ← Int.cast_neg]; exact congrArg _ hn
        rw [this, f.rnd_neg, hm]; exact hn.symm
    rw [e, sub_self, abs_zero]
    unfold Spec.roundoff
    positivity
  · rcases f.rnd_err hfin with h1 | h1
    · refine le_trans h1 ?_
      have h2 : ((2 ^ (f.mw + 1) : ℕ) : ℝ) ≤ |(n : ℝ)| := by
        rw [← Int.cast_abs, Int.abs_eq_natAbs]; exact_mod_cast h
      push_cast at h2
      unfold Spec.roundoff
      rw [mul_one_div, div_le_div_iff₀ (by norm_num) (by positivity)]
      have : (0 : ℝ) < 2 ^ (f.mw + 1) := by positivity
      linarith
    · exact h1

end Verif.Fmt

namespace Verif.Fl

open Spec

variable {f : Fmt}

theorem not_finite_nan : (nan : Fl f).isFinite = false := by
  have := isNan_nan (f := f)
  rw [isNan_iff] at this
  rw [not_isFinite_iff]; omega

theorem not_finite_inf (s : Bool) : (inf s : Fl f).isFinite = false := by
  rw [not_isFinite_iff, idx_inf]

theorem finite_of_add {x y : Fl f} (h : (x.add y).isFinite = true) : x.isFinite = true ∧ y.isFinite = true := by
  unfold add at h
  split_ifs at h with h1 h2 h3 h4 h5
  · rw [not_finite_nan] at h; cases h
  · rw [not_finite_nan] at h; cases h
  · rw [isInf_iff] at h2; rw [isFinite_iff] at h; omega
  · rw [isInf_iff] at h4; rw [isFinite_iff] at h; omega
  all_goals
    simp only [Bool.or_eq_true, not_or, Bool.not_eq_true] at h1 h2 h4
    exact ⟨finite_of_not h1.1 h2, finite_of_not h1.2 h4⟩

theorem finite_of_mul {x y : Fl f} (h : (x.mul y).isFinite = true) : x.isFinite = true ∧ y.isFinite = true := by
  unfold mul at h
  split_ifs at h with h1 h2 h3
  · rw [not_finite_nan] at h; cases h
  · rw [not_finite_nan] at h; cases h
  · rw [not_finite_inf] at h; cases h
  · simp only [Bool.or_eq_true, not_or, Bool.not_eq_true] at h1 h2
    exact ⟨finite_of_not h1.1 h2.1, finite_of_not h1.2 h2.2⟩

theorem finite_of_sqrt {x : Fl f} (h : x.sqrt.isFinite = true) : x.isFinite = true := by
  unfold sqrt at h
  split_ifs at h with h1 h2 h3 h4
  · rw [not_finite_nan] at h; cases h
  · exact h
  · rw [not_finite_nan] at h; cases h
  · exact h
  · exact finite_of_not (by simpa using h1) (by simpa using h4)

theorem roundoff_pos : 0 < roundoff f := by unfold roundoff; positivity
theorem tiny_pos : 0 < tiny f := by
  have := f.D_pos
  unfold tiny; positivity

theorem roundoff_le : roundoff f ≤ 1 / 4 := by
  unfold roundoff
  have h : (2 : ℝ) ^ 2 ≤ 2 ^ (f.mw + 1) := pow_le_pow_right₀ (by norm_num) (by have := f.hmw; omega)
  rw [div_le_div_iff₀ (by positivity) (by norm_num)]
  linarith

theorem D_posR : (0 : ℝ) < f.D := by exact_mod_cast f.D_pos

/-- A sum has a relative error only. -/
theorem add_err {x y : Fl f} (h : (x.add y).isFinite = true) :
    |value (x.add y) - (value x + value y)| ≤ |value x + value y| * roundoff f := by
  obtain ⟨hx, hy⟩ := finite_of_add h
  have hr := add_rounds hx hy
  have hfin := (isFinite_of_rounds hr).1 h
  have e : ((x.toInt : ℝ) + y.toInt) = ((x.toInt + y.toInt : Int) : ℝ) := by push_cast; rfl
  have := f.rnd_err_int (n := x.toInt + y.toInt) (by rw [← e]; exact hfin)
  rw [← e, ← hr.2] at this
  have hD := D_posR (f := f)
  unfold value
  rw [← add_div, ← sub_div, abs_div, abs_div, abs_of_pos hD, div_mul_eq_mul_div]
  exact div_le_div_of_nonneg_right this hD.le

theorem sub_err {x y : Fl f} (h : (x.sub y).isFinite = true) (hx : x.isFinite = true) (hy : y.isFinite = true) :
    |value (x.sub y) - (value x - value y)| ≤ |value x - value y| * roundoff f := by
  have hr := sub_rounds hx hy
  have hfin := (isFinite_of_rounds hr).1 h
  have e : ((x.toInt : ℝ) - y.toInt) = ((x.toInt - y.toInt : Int) : ℝ) := by push_cast; rfl
  have := f.rnd_err_int (n := x.toInt - y.toInt) (by rw [← e]; exact hfin)
  rw [← e, ← hr.2] at this
  have hD := D_posR (f := f)
  unfold value
  rw [← sub_div, ← sub_div, abs_div, abs_div, abs_of_pos hD, div_mul_eq_mul_div]
  exact div_le_div_of_nonneg_right this hD.le

/-- Whatever is rounded has a relative error, or an absolute one of half the smallest number. -/
theorem rounds_err {q : ℝ} {r : Fl f} (hr : Rounds (q * f.D) r) (h : r.isFinite = true) :
    |value r - q| ≤ tiny f ∨ |value r - q| ≤ |q| * roundoff f := by
  have hD := D_posR (f := f)
  have hfin := (isFinite_of_rounds hr).1 h
  have e : value r - q = ((f.rnd (q * f.D) : ℝ) - q * f.D) / f.D := by
    unfold value; rw [hr.2, sub_div, mul_div_assoc, div_self hD.ne', mul_one]
  rw [e, abs_div, abs_of_pos hD]
  rcases f.rnd_err hfin with h1 | h1
  · left
    unfold tiny
    rw [← div_div]
    exact div_le_div_of_nonneg_right h1 hD.le
  · right
    rw [div_le_iff₀ hD]
    rw [abs_mul, abs_of_pos hD] at h1
    linarith

theorem mul_err {x y : Fl f} (h : (x.mul y).isFinite = true) :
    |value (x.mul y) - value x * value y| ≤ tiny f ∨
      |value (x.mul y) - value x * value y| ≤ |value x * value y| * roundoff f := by
  obtain ⟨hx, hy⟩ := finite_of_mul h
  have hr := mul_rounds hx hy
  have hD := D_posR (f := f)
  refine rounds_err ?_ h
  have e : value x * value y * f.D = (x.toInt : ℝ) * y.toInt / f.D := by
    unfold value; field_simp
  rw [e]; exact hr

theorem div_err {x y : Fl f} (h : (x.div y).isFinite = true) (hx : x.isFinite = true) (hy : y.isFinite = true) (h0 : y.toInt ≠ 0) :
    |value (x.div y) - value x / value y| ≤ tiny f ∨
      |value (x.div y) - value x / value y| ≤ |value x / value y| * roundoff f := by
  have hr := div_rounds hx hy h0
  have hD := D_posR (f := f)
  refine rounds_err ?_ h
  have hyR : (y.toInt : ℝ) ≠ 0 := by exact_mod_cast h0
  have e : value x / value y * f.D = (x.toInt : ℝ) * f.D / y.toInt := by
    unfold value; field_simp
  rw [e]; exact hr

theorem sqrt_err {x : Fl f} (h : x.sqrt.isFinite = true) (h0 : 0 ≤ x.toInt) :
    |value x.sqrt - Real.sqrt (value x)| ≤ tiny f ∨ |value x.sqrt - Real.sqrt (value x)| ≤ Real.sqrt (value x) * roundoff f := by
  have hr := sqrt_rounds (finite_of_sqrt h) h0
  have hD := D_posR (f := f)
  have hx0 : (0 : ℝ) ≤ x.toInt := by exact_mod_cast h0
  have e : Real.sqrt (value x) * f.D = Real.sqrt ((x.toInt : ℝ) * f.D) := by
    unfold value
    rw [Real.sqrt_div hx0, Real.sqrt_mul hx0]
    have : Real.sqrt (f.D : ℝ) * Real.sqrt f.D = f.D := Real.mul_self_sqrt hD.le
    have hs : Real.sqrt (f.D : ℝ) ≠ 0 := (Real.sqrt_pos.2 hD).ne'
    field_simp
    rw [sq, this]
  have := rounds_err (q := Real.sqrt (value x)) (by rw [e]; exact hr) h
  rwa [abs_of_nonneg (Real.sqrt_nonneg _)] at this

theorem value_zero : value (zero : Fl f) = 0 := by simp [value]

/-- Adding numbers one after the other: each number takes part in at most as many roundings as there are numbers. -/
theorem sum_err {xs : List (Fl f)} : ∀ {a : Fl f}, (xs.foldl Fl.add a).isFinite = true →
    |value (xs.foldl Fl.add a) - (value a + (xs.map value).sum)| ≤
      ((1 + roundoff f) ^ xs.length - 1) * (|value a| + (xs.map fun x => |value x|).sum) := by
  have hu := (roundoff_pos (f := f)).le
  induction xs with
  | nil => intro a _; simp
  | cons x xs ih =>
    intro a h
    rw [List.foldl_cons] at h ⊢
    have hax : (a.add x).isFinite = true := by
      clear ih
      revert h
      generalize a.add x = b
      induction xs generalizing b with
      | nil => exact id
      | cons y ys ih2 => intro h; exact (finite_of_add (ih2 _ h)).1
    have h1 := ih h
    have h2 := add_err hax
    simp only [List.map_cons, List.sum_cons, List.length_cons]
    set F := value (List.foldl Fl.add (a.add x) xs)
    set A := value a
    set X := value x
    set B := value (a.add x)
    set T := (xs.map value).sum
    set T' := (xs.map fun x => |value x|).sum
    set u := roundoff f
    have hT : 0 ≤ T' := List.sum_nonneg (by simp only [List.mem_map]; rintro _ ⟨y, -, rfl⟩; exact abs_nonneg _)
    have hp : 1 ≤ (1 + u) ^ xs.length := one_le_pow₀ (by linarith)
    have ht : |A + X| ≤ |A| + |X| := abs_add_le _ _
    have h3 : |B| ≤ (1 + u) * (|A| + |X|) := by
      have : |B| ≤ |B - (A + X)| + |A + X| := by simpa using abs_add_le (B - (A + X)) (A + X)
      nlinarith
    have h4 : |F - (A + (X + T))| ≤ |F - (B + T)| + |B - (A + X)| := by
      have := abs_add_le (F - (B + T)) (B - (A + X))
      refine _root_.le_trans (le_of_eq ?_) this
      congr 1; ring
    have h5 : ((1 + u) ^ xs.length - 1) * (|B| + T') ≤ ((1 + u) ^ xs.length - 1) * ((1 + u) * (|A| + |X|) + T') :=
      mul_le_mul_of_nonneg_left (by linarith) (by linarith)
    have h6 : |A + X| * u ≤ (|A| + |X|) * u := mul_le_mul_of_nonneg_right ht hu
    have h7 : 0 ≤ (1 + u) ^ xs.length * u * T' := by positivity
    rw [pow_succ]
    nlinarith

/-- A power of `1 + u` for few roundings. -/
theorem pow_roundoff {n : Nat} {u : ℝ} (hu : 0 ≤ u) (hn : n * u ≤ 1) : (1 + u) ^ n - 1 ≤ n * u * (1 + n * u) := by
  have h0 : (0 : ℝ) ≤ n * u := by positivity
  have h1 : (1 + u) ^ n ≤ Real.exp (n * u) := by
    rw [Real.exp_nat_mul]
    exact pow_le_pow_left₀ (by linarith) (by linarith [Real.add_one_le_exp u]) n
  have h2 := abs_le.1 (Real.abs_exp_sub_one_sub_id_le (x := n * u) (by rwa [abs_of_nonneg h0]))
  nlinarith [h2.2]

end Verif.Fl
