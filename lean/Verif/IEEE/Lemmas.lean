import Verif.IEEE.Round
import Mathlib.Analysis.Real.Sqrt
import Mathlib.Algebra.Order.Archimedean.Real.Basic
import Mathlib.Algebra.Order.Floor.Semifield
import Mathlib.Tactic.Positivity
import Mathlib.Tactic.FieldSimp

/-!
# Basic facts about floats: bit fields, order, rounding of exact results
-/

namespace Verif
namespace Fl

variable {f : Fmt}

theorem idx_lt (x : Fl f) : x.idx < 2 ^ f.kw := Nat.mod_lt _ (Nat.two_pow_pos _)

theorem bits_toNat (x : Fl f) : x.bits.toNat = (if x.sgn then 2 ^ f.kw else 0) + x.idx := by
  have h := x.bits.isLt
  have hp : (2 : Nat) ^ f.w = 2 * 2 ^ f.kw := by unfold Fmt.w Fmt.kw; rw [pow_succ]; ring
  rw [hp] at h
  unfold idx sgn
  by_cases hc : 2 ^ f.kw ≤ x.bits.toNat
  · simp only [hc, decide_true, if_true]
    rw [Nat.mod_eq_sub_mod hc, Nat.mod_eq_of_lt (by omega)]; omega
  · simp only [hc, decide_false]
    rw [Nat.mod_eq_of_lt (by omega)]; simp

theorem mk'_bits_toNat (s : Bool) {k : Nat} (hk : k < 2 ^ f.kw) :
    (mk' s k : Fl f).bits.toNat = (if s then 2 ^ f.kw else 0) + k := by
  unfold mk'
  rw [BitVec.toNat_ofNat, Nat.mod_eq_of_lt]
  have hp : (2 : Nat) ^ f.w = 2 * 2 ^ f.kw := by unfold Fmt.w Fmt.kw; rw [pow_succ]; ring
  rw [hp]; split <;> omega

theorem idx_mk' (s : Bool) {k : Nat} (hk : k < 2 ^ f.kw) : (mk' s k : Fl f).idx = k := by
  unfold idx
  rw [mk'_bits_toNat s hk]
  cases s
  · simp only [Bool.false_eq_true, if_false, Nat.zero_add]; exact Nat.mod_eq_of_lt hk
  · simp only [if_true, Nat.add_mod_left]; exact Nat.mod_eq_of_lt hk

theorem sgn_mk' (s : Bool) {k : Nat} (hk : k < 2 ^ f.kw) : (mk' s k : Fl f).sgn = s := by
  unfold sgn
  rw [mk'_bits_toNat s hk]
  cases s <;> simp <;> omega

theorem ext' {x y : Fl f} (hs : x.sgn = y.sgn) (hi : x.idx = y.idx) : x = y := by
  have : x.bits = y.bits := by
    apply BitVec.eq_of_toNat_eq
    rw [bits_toNat, bits_toNat, hs, hi]
  cases x; cases y; simpa using this

theorem mk'_sgn_idx (x : Fl f) : mk' x.sgn x.idx = x :=
  ext' (sgn_mk' _ x.idx_lt) (idx_mk' _ x.idx_lt)

theorem le_inf_lt {k : Nat} (hk : k ≤ f.infIdx) : k < 2 ^ f.kw := by
  have := f.infIdx_lt
  have := f.one_lt_pow_mw
  omega

/-! ### Classification -/

theorem isNan_iff {x : Fl f} : x.isNan = true ↔ f.infIdx < x.idx := by simp [isNan]
theorem not_isNan_iff {x : Fl f} : x.isNan = false ↔ x.idx ≤ f.infIdx := by
  simp [isNan]
theorem isFinite_iff {x : Fl f} : x.isFinite = true ↔ x.idx < f.infIdx := by simp [isFinite]
theorem not_isFinite_iff {x : Fl f} : x.isFinite = false ↔ f.infIdx ≤ x.idx := by
  simp [isFinite]
theorem isInf_iff {x : Fl f} : x.isInf = true ↔ x.idx = f.infIdx := by simp [isInf]
theorem isZero_iff {x : Fl f} : x.isZero = true ↔ x.idx = 0 := by simp [isZero]

theorem isNan_of_isFinite {x : Fl f} (h : x.isFinite = true) : x.isNan = false := by
  rw [isFinite_iff] at h; rw [not_isNan_iff]; omega

theorem isInf_of_isFinite {x : Fl f} (h : x.isFinite = true) : x.isInf = false := by
  rw [isFinite_iff] at h; simp [isInf]; omega

theorem finite_of_not {x : Fl f} (h1 : x.isNan = false) (h2 : x.isInf = false) :
    x.isFinite = true := by
  rw [not_isNan_iff] at h1
  simp only [isInf, decide_eq_false_iff_not] at h2
  rw [isFinite_iff]; omega

/-! ### Exact integer values -/

theorem toInt_mk' (s : Bool) {k : Nat} (hk : k < 2 ^ f.kw) :
    (mk' s k : Fl f).toInt = if s then -(f.mag k : Int) else f.mag k := by
  unfold toInt; rw [sgn_mk' s hk, idx_mk' s hk]

theorem natAbs_toInt (x : Fl f) : x.toInt.natAbs = f.mag x.idx := by
  unfold toInt; split <;> simp

theorem toInt_eq_zero {x : Fl f} : x.toInt = 0 ↔ x.idx = 0 := by
  have := x.natAbs_toInt
  have h2 := f.mag_eq_zero (k := x.idx)
  omega

theorem toInt_nonneg_of_sgn {x : Fl f} (h : x.sgn = false) : 0 ≤ x.toInt := by
  unfold toInt; simp [h]

theorem toInt_nonpos_of_sgn {x : Fl f} (h : x.sgn = true) : x.toInt ≤ 0 := by
  unfold toInt; simp [h]

theorem sgn_of_toInt_neg {x : Fl f} (h : x.toInt < 0) : x.sgn = true := by
  by_contra hc
  have := toInt_nonneg_of_sgn (x := x) (by simpa using hc)
  omega

theorem sgn_of_toInt_pos {x : Fl f} (h : 0 < x.toInt) : x.sgn = false := by
  by_contra hc
  have := toInt_nonpos_of_sgn (x := x) (by simpa using hc)
  omega

@[simp] theorem toInt_zero : (zero : Fl f).toInt = 0 := by
  unfold zero; rw [toInt_mk' _ (Nat.two_pow_pos _)]; simp

theorem idx_zero : (zero : Fl f).idx = 0 := idx_mk' _ (Nat.two_pow_pos _)

theorem oneIdx_lt : f.oneIdx < 2 ^ f.kw := le_inf_lt (le_of_lt f.oneIdx_lt_inf)

@[simp] theorem toInt_one : (one : Fl f).toInt = f.D := by
  unfold one; rw [toInt_mk' _ oneIdx_lt]; simp [f.mag_oneIdx]

theorem isFinite_zero : (zero : Fl f).isFinite = true := by
  rw [isFinite_iff, idx_zero]; exact f.infIdx_pos

theorem idx_one : (one : Fl f).idx = f.oneIdx := idx_mk' _ oneIdx_lt

theorem isFinite_one : (one : Fl f).isFinite = true := by
  rw [isFinite_iff, idx_one]; exact f.oneIdx_lt_inf

theorem isNan_nan : (nan : Fl f).isNan = true := by
  have h := f.infIdx_lt
  have h2 : 2 ^ (f.mw - 1) < 2 ^ f.mw := Nat.pow_lt_pow_right (by omega) (by have := f.hmw; omega)
  have h3 := Nat.two_pow_pos (f.mw - 1)
  rw [isNan_iff, nan, idx_mk' _ (by omega)]; omega

theorem idx_inf (s : Bool) : (inf s : Fl f).idx = f.infIdx := idx_mk' _ (le_inf_lt le_rfl)
theorem sgn_inf (s : Bool) : (inf s : Fl f).sgn = s := sgn_mk' _ (le_inf_lt le_rfl)

theorem isNan_inf (s : Bool) : (inf s : Fl f).isNan = false := by
  rw [not_isNan_iff, idx_inf]

theorem idx_neg (x : Fl f) : x.neg.idx = x.idx := idx_mk' _ x.idx_lt
theorem sgn_neg (x : Fl f) : x.neg.sgn = !x.sgn := sgn_mk' _ x.idx_lt
theorem idx_abs (x : Fl f) : x.abs.idx = x.idx := idx_mk' _ x.idx_lt
theorem sgn_abs (x : Fl f) : x.abs.sgn = false := sgn_mk' _ x.idx_lt

theorem toInt_neg (x : Fl f) : x.neg.toInt = -x.toInt := by
  unfold toInt; rw [idx_neg, sgn_neg]; cases x.sgn <;> simp

theorem toInt_abs (x : Fl f) : x.abs.toInt = (x.toInt.natAbs : Int) := by
  rw [natAbs_toInt]; unfold toInt; rw [idx_abs, sgn_abs]; simp

theorem isNan_neg (x : Fl f) : x.neg.isNan = x.isNan := by unfold isNan; rw [idx_neg]
theorem isNan_abs (x : Fl f) : x.abs.isNan = x.isNan := by unfold isNan; rw [idx_abs]
theorem isFinite_neg (x : Fl f) : x.neg.isFinite = x.isFinite := by unfold isFinite; rw [idx_neg]
theorem isFinite_abs (x : Fl f) : x.abs.isFinite = x.isFinite := by unfold isFinite; rw [idx_abs]
theorem isInf_neg (x : Fl f) : x.neg.isInf = x.isInf := by unfold isInf; rw [idx_neg]

theorem neg_neg (x : Fl f) : x.neg.neg = x := by
  apply ext'
  · rw [sgn_neg, sgn_neg, Bool.not_not]
  · rw [idx_neg, idx_neg]

/-- A float is finite exactly when its value is strictly within the infinities. -/
theorem isFinite_iff_toInt {x : Fl f} :
    x.isFinite = true ↔ x.toInt.natAbs < f.mag f.infIdx := by
  rw [natAbs_toInt, f.mag_lt_mag, isFinite_iff]

/-! ### Order -/

theorem lt_iff {x y : Fl f} :
    x.lt y = true ↔ x.isNan = false ∧ y.isNan = false ∧ x.toInt < y.toInt := by
  simp [lt, and_assoc]

theorem le_iff {x y : Fl f} :
    x.le y = true ↔ x.isNan = false ∧ y.isNan = false ∧ x.toInt ≤ y.toInt := by
  simp [le, and_assoc]

theorem feq_iff {x y : Fl f} :
    x.feq y = true ↔ x.isNan = false ∧ y.isNan = false ∧ x.toInt = y.toInt := by
  simp [feq, and_assoc]

/-- For non-NaN operands `!(x < y)` is `y <= x`. -/
theorem not_lt {x y : Fl f} (hx : x.isNan = false) (hy : y.isNan = false) :
    x.lt y = false ↔ y.le x = true := by
  rw [← Bool.not_eq_true, lt_iff, le_iff]; simp [hx, hy]

theorem le_refl {x : Fl f} (hx : x.isNan = false) : x.le x = true := by
  rw [le_iff]; exact ⟨hx, hx, Int.le_refl _⟩

theorem le_trans {x y z : Fl f} (h1 : x.le y = true) (h2 : y.le z = true) : x.le z = true := by
  rw [le_iff] at *; exact ⟨h1.1, h2.2.1, h1.2.2.trans h2.2.2⟩

theorem lt_of_lt_of_le {x y z : Fl f} (h1 : x.lt y = true) (h2 : y.le z = true) :
    x.lt z = true := by
  rw [lt_iff] at *; rw [le_iff] at h2; exact ⟨h1.1, h2.2.1, _root_.lt_of_lt_of_le h1.2.2 h2.2.2⟩

theorem lt_of_le_of_lt {x y z : Fl f} (h1 : x.le y = true) (h2 : y.lt z = true) :
    x.lt z = true := by
  rw [lt_iff] at *; rw [le_iff] at h1; exact ⟨h1.1, h2.2.1, _root_.lt_of_le_of_lt h1.2.2 h2.2.2⟩

theorem le_of_lt {x y : Fl f} (h : x.lt y = true) : x.le y = true := by
  rw [lt_iff] at h; rw [le_iff]; exact ⟨h.1, h.2.1, _root_.le_of_lt h.2.2⟩

/-- A value between two finite values is finite. -/
theorem isFinite_of_between {x y z : Fl f} (hx : x.isFinite = true) (hz : z.isFinite = true)
    (h1 : x.le y = true) (h2 : y.le z = true) : y.isFinite = true := by
  rw [le_iff] at *
  rw [isFinite_iff_toInt] at *
  omega

end Fl

/-! ### Rounding a real number -/

namespace Fmt

variable (f : Fmt)

open Classical in
/-- index of the rounded magnitude of a non-negative real `q` (in units) -/
noncomputable def ridx (q : ℝ) : Nat :=
  f.roundIdx ⌊2 * q⌋₊ (decide (2 * q ≠ (⌊2 * q⌋₊ : ℝ)))

open Classical in
/-- The signed value (in units) to which the real number `q` (in units) is rounded. -/
noncomputable def rnd (q : ℝ) : Int :=
  if q < 0 then -(f.mag (f.ridx (-q)) : Int) else f.mag (f.ridx q)

theorem ridx_le_inf (q : ℝ) : f.ridx q ≤ f.infIdx := f.roundIdx_le_inf _ _

theorem ridx_mono {p q : ℝ} (hp : 0 ≤ p) (h : p ≤ q) : f.ridx p ≤ f.ridx q := by
  apply f.roundIdx_mono
  have h2 : 2 * p ≤ 2 * q := by linarith
  have hf : ⌊2 * p⌋₊ ≤ ⌊2 * q⌋₊ := Nat.floor_mono h2
  rcases Nat.lt_or_eq_of_le hf with hf | hf
  · exact .inl hf
  · refine .inr ⟨hf, ?_⟩
    intro h3
    simp only [ne_eq, decide_not, Bool.not_eq_true', decide_eq_false_iff_not] at h3 ⊢
    intro h4
    apply h3
    have h5 : (⌊2 * p⌋₊ : ℝ) ≤ 2 * p := Nat.floor_le (by linarith)
    have : 2 * q = (⌊2 * p⌋₊ : ℝ) := by rw [h4, hf]
    linarith

theorem ridx_mag {k : Nat} (hk : k ≤ f.infIdx) : f.ridx (f.mag k : ℝ) = k := by
  unfold ridx
  have h : (2 * (f.mag k : ℝ)) = ((2 * f.mag k : ℕ) : ℝ) := by push_cast; ring
  rw [h, Nat.floor_natCast]
  simp [f.roundIdx_exact hk]

theorem ridx_zero : f.ridx 0 = 0 := by
  have := f.ridx_mag (k := 0) (Nat.zero_le _)
  simpa using this

theorem rnd_neg (q : ℝ) : f.rnd (-q) = -f.rnd q := by
  unfold rnd
  rcases lt_trichotomy q 0 with h | h | h
  · rw [if_neg (by linarith), if_pos h]; simp
  · simp [h, f.ridx_zero]
  · rw [if_pos (by linarith), if_neg (by linarith)]; simp

theorem rnd_of_nonneg {q : ℝ} (h : 0 ≤ q) : f.rnd q = f.mag (f.ridx q) := by
  unfold rnd; rw [if_neg (by linarith)]

theorem rnd_nonneg {q : ℝ} (h : 0 ≤ q) : 0 ≤ f.rnd q := by
  rw [f.rnd_of_nonneg h]; positivity

theorem rnd_nonpos {q : ℝ} (h : q ≤ 0) : f.rnd q ≤ 0 := by
  have := f.rnd_nonneg (q := -q) (by linarith)
  rw [rnd_neg] at this; omega

/-- Rounding is monotone. -/
theorem rnd_mono {p q : ℝ} (h : p ≤ q) : f.rnd p ≤ f.rnd q := by
  rcases le_total 0 p with hp | hp
  · rw [f.rnd_of_nonneg hp, f.rnd_of_nonneg (hp.trans h)]
    exact_mod_cast f.mag_le_mag.2 (f.ridx_mono hp h)
  · rcases le_total 0 q with hq | hq
    · exact (f.rnd_nonpos hp).trans (f.rnd_nonneg hq)
    · have h1 : f.rnd (-q) ≤ f.rnd (-p) := by
        rw [f.rnd_of_nonneg (by linarith), f.rnd_of_nonneg (by linarith)]
        exact_mod_cast f.mag_le_mag.2 (f.ridx_mono (by linarith) (by linarith))
      rw [rnd_neg, rnd_neg] at h1; omega

/-- Representable values are rounded to themselves. -/
theorem rnd_mag {k : Nat} (hk : k ≤ f.infIdx) : f.rnd (f.mag k : ℝ) = f.mag k := by
  rw [f.rnd_of_nonneg (by positivity), f.ridx_mag hk]

theorem rnd_zero : f.rnd 0 = 0 := by
  have := f.rnd_mag (k := 0) (Nat.zero_le _)
  simpa using this

end Fmt

namespace Fl

variable {f : Fmt}

theorem rnd_toInt {x : Fl f} (h : x.isNan = false) : f.rnd (x.toInt : ℝ) = x.toInt := by
  rw [not_isNan_iff] at h
  unfold toInt
  split
  · push_cast; rw [f.rnd_neg, f.rnd_mag h]
  · push_cast; rw [f.rnd_mag h]

/-- `r` is the correctly rounded value of the exact result `q` (in units). -/
def Rounds (q : ℝ) (r : Fl f) : Prop := r.isNan = false ∧ r.toInt = f.rnd q

theorem Rounds.le {q : ℝ} {r z : Fl f} (h : Rounds q r) (hz : z.isNan = false)
    (hq : q ≤ z.toInt) : r.le z = true := by
  rw [le_iff]; refine ⟨h.1, hz, ?_⟩
  rw [h.2, ← rnd_toInt hz]; exact f.rnd_mono hq

theorem Rounds.ge {q : ℝ} {r z : Fl f} (h : Rounds q r) (hz : z.isNan = false)
    (hq : (z.toInt : ℝ) ≤ q) : z.le r = true := by
  rw [le_iff]; refine ⟨hz, h.1, ?_⟩
  rw [h.2, ← rnd_toInt hz]; exact f.rnd_mono hq

theorem Rounds.mono {p q : ℝ} {r s : Fl f} (h1 : Rounds p r) (h2 : Rounds q s)
    (h : p ≤ q) : r.le s = true := by
  rw [le_iff]; refine ⟨h1.1, h2.1, ?_⟩
  rw [h1.2, h2.2]; exact f.rnd_mono h

theorem Rounds.exact {z r : Fl f} (hz : z.isNan = false) (h : Rounds (z.toInt : ℝ) r) :
    r.toInt = z.toInt := by
  rw [h.2, rnd_toInt hz]

theorem Rounds.neg {q : ℝ} {r : Fl f} (h : Rounds q r) : Rounds (-q) r.neg := by
  refine ⟨by rw [isNan_neg]; exact h.1, ?_⟩
  rw [toInt_neg, h.2, f.rnd_neg]

theorem roundIdx_lt (t : Nat) (st : Bool) : f.roundIdx t st < 2 ^ f.kw :=
  le_inf_lt (f.roundIdx_le_inf _ _)

theorem idx_round (s : Bool) (t : Nat) (st : Bool) :
    (round s t st : Fl f).idx = f.roundIdx t st := idx_mk' _ (roundIdx_lt _ _)

theorem sgn_round (s : Bool) (t : Nat) (st : Bool) :
    (round s t st : Fl f).sgn = s := sgn_mk' _ (roundIdx_lt _ _)

theorem isNan_round (s : Bool) (t : Nat) (st : Bool) :
    (round s t st : Fl f).isNan = false := by
  rw [not_isNan_iff, idx_round]; exact f.roundIdx_le_inf _ _

/-- The computed rounding of `± p/d` (with `t = ⌊2p/d⌋` and the sticky bit)
is the rounding of the real number. -/
theorem round_div (s : Bool) (p d : Nat) (hd : 0 < d) :
    Rounds (if s then -((p : ℝ) / d) else (p : ℝ) / d)
      (round s (2 * p / d) (decide (2 * p % d ≠ 0)) : Fl f) := by
  refine ⟨isNan_round _ _ _, ?_⟩
  have hd' : (0 : ℝ) < d := by exact_mod_cast hd
  have hq : (0 : ℝ) ≤ (p : ℝ) / d := by positivity
  have h2 : 2 * ((p : ℝ) / d) = ((2 * p : ℕ) : ℝ) / (d : ℕ) := by push_cast; ring
  have hfl : ⌊2 * ((p : ℝ) / d)⌋₊ = 2 * p / d := by
    rw [h2, Nat.floor_div_natCast, Nat.floor_natCast]
  have hst : (2 * p % d ≠ 0) ↔ (2 * ((p : ℝ) / d) ≠ ((2 * p / d : ℕ) : ℝ)) := by
    rw [not_iff_not, h2]
    rw [div_eq_iff (ne_of_gt hd')]
    have := Nat.div_add_mod (2 * p) d
    constructor
    · intro h
      rw [h, Nat.add_zero, Nat.mul_comm] at this
      exact_mod_cast this.symm
    · intro h
      have h' : 2 * p = 2 * p / d * d := by exact_mod_cast h
      rw [Nat.mul_comm d] at this
      omega
  have hridx : f.ridx ((p : ℝ) / d) = f.roundIdx (2 * p / d) (decide (2 * p % d ≠ 0)) := by
    unfold Fmt.ridx
    rw [hfl]
    congr 1
    exact decide_eq_decide.2 hst.symm
  have hr : f.rnd ((p : ℝ) / d) = f.mag (f.roundIdx (2 * p / d) (decide (2 * p % d ≠ 0))) := by
    rw [f.rnd_of_nonneg hq, hridx]
  cases s
  · simp only [Bool.false_eq_true, if_false]
    rw [hr]; unfold toInt; rw [sgn_round, idx_round]; simp
  · simp only [if_true]
    rw [f.rnd_neg, hr]; unfold toInt; rw [sgn_round, idx_round]; simp

theorem round_nat (s : Bool) (n : Nat) :
    Rounds (if s then -(n : ℝ) else (n : ℝ)) (round s (2 * n) false : Fl f) := by
  have := round_div (f := f) s n 1 Nat.one_pos
  simpa [Nat.mod_one] using this

/-- Floating point addition of finite values is exact addition followed by rounding. -/
theorem add_rounds {x y : Fl f} (hx : x.isFinite = true) (hy : y.isFinite = true) :
    Rounds ((x.toInt : ℝ) + y.toInt) (x.add y) := by
  unfold add
  simp only [isNan_of_isFinite hx, isNan_of_isFinite hy, isInf_of_isFinite hx,
    isInf_of_isFinite hy, Bool.or_self, Bool.false_eq_true, if_false]
  split
  · next h =>
    have h' : (x.toInt : ℝ) + y.toInt = 0 := by exact_mod_cast h
    rw [h']
    refine ⟨?_, ?_⟩
    · rw [not_isNan_iff, idx_mk' _ (Nat.two_pow_pos _)]; exact Nat.zero_le _
    · rw [toInt_mk' _ (Nat.two_pow_pos _), f.rnd_zero]; simp
  · next h =>
    have := round_nat (f := f) (decide (x.toInt + y.toInt < 0)) (x.toInt + y.toInt).natAbs
    convert this using 1
    have hc : ((x.toInt + y.toInt).natAbs : ℝ) = |((x.toInt + y.toInt : ℤ) : ℝ)| := by
      rw [← Int.cast_abs, Int.abs_eq_natAbs]; simp
    rw [hc]
    simp only [decide_eq_true_eq]
    split
    · next hs =>
      rw [abs_of_neg (by exact_mod_cast hs)]; push_cast; ring
    · next hs =>
      rw [abs_of_nonneg (by exact_mod_cast Int.not_lt.1 hs)]; push_cast; ring

theorem sub_rounds {x y : Fl f} (hx : x.isFinite = true) (hy : y.isFinite = true) :
    Rounds ((x.toInt : ℝ) - y.toInt) (x.sub y) := by
  have := add_rounds hx (y := y.neg) (by rw [isFinite_neg]; exact hy)
  rw [toInt_neg] at this
  unfold sub
  convert this using 1
  push_cast; ring

theorem toInt_cast_eq (x : Fl f) :
    (x.toInt : ℝ) = if x.sgn then -(f.mag x.idx : ℝ) else (f.mag x.idx : ℝ) := by
  unfold toInt; split <;> push_cast <;> rfl

theorem mul_rounds {x y : Fl f} (hx : x.isFinite = true) (hy : y.isFinite = true) :
    Rounds ((x.toInt : ℝ) * y.toInt / f.D) (x.mul y) := by
  unfold mul
  simp only [isNan_of_isFinite hx, isNan_of_isFinite hy, isInf_of_isFinite hx,
    isInf_of_isFinite hy, Bool.or_self, Bool.false_eq_true, if_false]
  have := round_div (f := f) (x.sgn != y.sgn) (f.mag x.idx * f.mag y.idx) f.D f.D_pos
  convert this using 1
  rw [toInt_cast_eq, toInt_cast_eq]
  cases x.sgn <;> cases y.sgn <;> simp <;> ring

theorem div_rounds {x y : Fl f} (hx : x.isFinite = true) (hy : y.isFinite = true)
    (h0 : y.toInt ≠ 0) :
    Rounds ((x.toInt : ℝ) * f.D / y.toInt) (x.div y) := by
  have hz : y.idx ≠ 0 := fun h => h0 (toInt_eq_zero.2 h)
  have hz' : y.isZero = false := by simp [isZero, hz]
  unfold div
  simp only [isNan_of_isFinite hx, isNan_of_isFinite hy, isInf_of_isFinite hx,
    isInf_of_isFinite hy, Bool.or_self, Bool.false_eq_true, if_false, hz']
  have := round_div (f := f) (x.sgn != y.sgn) (f.mag x.idx * f.D) (f.mag y.idx)
    (f.mag_pos.2 (Nat.pos_of_ne_zero hz))
  convert this using 1
  rw [toInt_cast_eq, toInt_cast_eq]
  cases x.sgn <;> cases y.sgn <;> simp [neg_div, div_neg]

theorem ofNat_rounds (n : Nat) : Rounds ((n : ℝ) * f.D) (ofNat n : Fl f) := by
  have := round_nat (f := f) false (n * f.D)
  simpa [ofNat] using this

theorem ofInt_rounds (n : Int) : Rounds ((n : ℝ) * f.D) (ofInt n : Fl f) := by
  have := round_nat (f := f) (decide (n < 0)) (n.natAbs * f.D)
  unfold ofInt
  convert this using 1
  have hc : ((n.natAbs : ℕ) : ℝ) = |(n : ℝ)| := by
    rw [← Int.cast_abs, Int.abs_eq_natAbs]; simp
  push_cast
  simp only [decide_eq_true_eq]
  rw [hc]
  split
  · next hs => rw [abs_of_neg (by exact_mod_cast hs)]; ring
  · next hs => rw [abs_of_nonneg (by exact_mod_cast Int.not_lt.1 hs)]

theorem cast_rounds {f g : Fmt} {x : Fl f} (hx : x.isFinite = true) :
    Rounds ((x.toInt : ℝ) * g.D / f.D) (x.cast : Fl g) := by
  unfold cast
  simp only [isNan_of_isFinite hx, isInf_of_isFinite hx, Bool.false_eq_true, if_false]
  have := round_div (f := g) x.sgn (f.mag x.idx * g.D) f.D f.D_pos
  convert this using 1
  rw [toInt_cast_eq]
  cases x.sgn <;> simp <;> ring

theorem ofRat_rounds (s : Bool) (n d : Nat) (hd : 0 < d) :
    Rounds (if s then -((n : ℝ) * f.D / d) else (n : ℝ) * f.D / d) (ofRat s n d : Fl f) := by
  have := round_div (f := f) s (n * f.D) d hd
  unfold ofRat
  convert this using 1
  push_cast; rfl

/-! ### Integer square root -/

theorem isqrtAux_spec (v : Nat) : ∀ (n r : Nat), r * r ≤ v → v < (r + 2 ^ n) * (r + 2 ^ n) →
    isqrtAux v n r * isqrtAux v n r ≤ v ∧ v < (isqrtAux v n r + 1) * (isqrtAux v n r + 1) := by
  intro n
  induction n with
  | zero => intro r h1 h2; simpa [isqrtAux] using ⟨h1, h2⟩
  | succ n ih =>
    intro r h1 h2
    rw [isqrtAux]
    split
    · next h =>
      apply ih _ h
      have : r + 2 ^ n + 2 ^ n = r + 2 ^ (n + 1) := by rw [pow_succ]; ring
      rw [this]; exact h2
    · next h => exact ih _ h1 (by omega)

theorem isqrt_spec (v : Nat) : isqrt v * isqrt v ≤ v ∧ v < (isqrt v + 1) * (isqrt v + 1) := by
  unfold isqrt
  apply isqrtAux_spec
  · omega
  · rw [Nat.zero_add, ← pow_add]
    rcases Nat.eq_zero_or_pos v with rfl | h0
    · positivity
    · have : v < 2 ^ (v.log2 + 1) := (Nat.log2_lt (by omega)).1 (by omega)
      refine _root_.lt_of_lt_of_le this (Nat.pow_le_pow_right (by omega) ?_)
      omega

theorem sqrt_rounds {x : Fl f} (hx : x.isFinite = true) (h0 : 0 ≤ x.toInt) :
    Rounds (Real.sqrt ((x.toInt : ℝ) * f.D)) x.sqrt := by
  unfold sqrt
  simp only [isNan_of_isFinite hx, Bool.false_eq_true, if_false]
  split
  · next h =>
    have h' := isZero_iff.1 h
    have h2 := toInt_eq_zero.2 h'
    refine ⟨isNan_of_isFinite hx, ?_⟩
    rw [h2]; simp [f.rnd_zero]
  · next h =>
    have hne : x.idx ≠ 0 := fun hh => h (isZero_iff.2 hh)
    have hpos : 0 < x.toInt := by
      rcases Int.lt_or_eq_of_le h0 with h1 | h1
      · exact h1
      · exact absurd (toInt_eq_zero.1 h1.symm) hne
    have hs := sgn_of_toInt_pos hpos
    simp only [hs, isInf_of_isFinite hx, Bool.false_eq_true, if_false]
    refine ⟨isNan_round _ _ _, ?_⟩
    have hv : (x.toInt : ℝ) = (f.mag x.idx : ℝ) := by rw [toInt_cast_eq]; simp [hs]
    rw [hv]
    set v := 4 * (f.mag x.idx * f.D) with hvdef
    obtain ⟨h1, h2⟩ := isqrt_spec v
    set t := isqrt v with ht
    have hsq : 2 * Real.sqrt ((f.mag x.idx : ℝ) * f.D) = Real.sqrt (v : ℝ) := by
      rw [hvdef]; push_cast
      rw [Real.sqrt_mul (by norm_num : (0:ℝ) ≤ 4)]
      have : Real.sqrt 4 = 2 := by
        rw [show (4:ℝ) = 2 ^ 2 by norm_num]; exact Real.sqrt_sq (by norm_num)
      rw [this]
    have hfl : ⌊2 * Real.sqrt ((f.mag x.idx : ℝ) * f.D)⌋₊ = t := by
      rw [hsq, Nat.floor_eq_iff (Real.sqrt_nonneg _)]
      constructor
      · apply Real.le_sqrt_of_sq_le; rw [pow_two]; exact_mod_cast h1
      · rw [Real.sqrt_lt' (by positivity), pow_two]; exact_mod_cast h2
    have hst : (t * t ≠ v) ↔ (2 * Real.sqrt ((f.mag x.idx : ℝ) * f.D) ≠ (t : ℝ)) := by
      rw [not_iff_not, hsq]
      constructor
      · intro h
        rw [← h]; push_cast
        exact Real.sqrt_mul_self (by positivity)
      · intro h
        have := Real.mul_self_sqrt (show (0:ℝ) ≤ (v:ℝ) by positivity)
        rw [h] at this
        exact_mod_cast this
    rw [f.rnd_of_nonneg (Real.sqrt_nonneg _)]
    unfold Fmt.ridx
    rw [hfl]
    unfold toInt
    rw [sgn_round, idx_round]
    simp only [Bool.false_eq_true, if_false]
    congr 2
    congr 1
    exact decide_eq_decide.2 hst

end Fl
end Verif
