import Verif.Spec.Mirror
import Verif.IEEE.Algebra
import Verif.IEEE.More

/-!
# Floating point operations on numbers of opposite sign
-/

namespace Verif.Fl

open Spec.Mirror

variable {f : Fmt} {b : Bool} {x y x' y' : Fl f}

/-- `y` is `x`, or `-x` if `b`, up to the sign of zero and the bits of NaN. -/
def Opp (b : Bool) (x y : Fl f) : Prop :=
  (x.isNan = true ∧ y.isNan = true) ∨ y = flipped b x ∨ (x.idx = 0 ∧ y.idx = 0)

theorem idx_flipped (b : Bool) (x : Fl f) : (flipped b x).idx = x.idx := by
  unfold flipped; cases b
  · rfl
  · exact idx_neg x

theorem toInt_flipped (b : Bool) (x : Fl f) : (flipped b x).toInt = if b then -x.toInt else x.toInt := by
  unfold flipped; cases b
  · rfl
  · exact toInt_neg x

theorem sgn_flipped (b : Bool) (x : Fl f) : (flipped b x).sgn = (x.sgn != b) := by
  unfold flipped; cases b
  · simp
  · simp [sgn_neg]

theorem isNan_flipped (b : Bool) (x : Fl f) : (flipped b x).isNan = x.isNan := by unfold isNan; rw [idx_flipped]

theorem not_nan_zero (h : x.idx = 0) : x.isNan = false := by rw [not_isNan_iff, h]; exact Nat.zero_le _

theorem Opp.nan_eq (h : Opp b x y) : y.isNan = x.isNan := by
  rcases h with h | h | h
  · rw [h.1, h.2]
  · rw [h, isNan_flipped]
  · rw [not_nan_zero h.1, not_nan_zero h.2]

theorem Opp.idx_eq (h : Opp b x y) (hx : x.isNan = false) : y.idx = x.idx := by
  rcases h with h | h | h
  · rw [hx] at h; exact absurd h.1 (by simp)
  · rw [h, idx_flipped]
  · rw [h.1, h.2]

theorem Opp.toInt_eq (h : Opp b x y) (hx : x.isNan = false) : y.toInt = if b then -x.toInt else x.toInt := by
  rcases h with h | h | h
  · rw [hx] at h; exact absurd h.1 (by simp)
  · rw [h, toInt_flipped]
  · rw [toInt_eq_zero.2 h.1, toInt_eq_zero.2 h.2]; simp

theorem Opp.sgn_eq (h : Opp b x y) (hx : x.isNan = false) (h0 : x.idx ≠ 0) : y.sgn = (x.sgn != b) := by
  rcases h with h | h | h
  · rw [hx] at h; exact absurd h.1 (by simp)
  · rw [h, sgn_flipped]
  · exact absurd h.1 h0

theorem Opp.finite_eq (h : Opp b x y) : y.isFinite = x.isFinite := by
  cases hx : x.isNan with
  | false => unfold isFinite; rw [h.idx_eq hx]
  | true =>
    have hy := h.nan_eq.trans hx
    cases h1 : x.isFinite with
    | true => rw [isNan_of_isFinite h1] at hx; cases hx
    | false =>
      cases h2 : y.isFinite with
      | true => rw [isNan_of_isFinite h2] at hy; cases hy
      | false => rfl

theorem Opp.eq_flipped (h : Opp b x y) (hx : x.isNan = false) (h0 : x.idx ≠ 0) : y = flipped b x := by
  rcases h with h | h | h
  · rw [hx] at h; exact absurd h.1 (by simp)
  · exact h
  · exact absurd h.1 h0

theorem Opp.of_toInt (hx : x.isNan = false) (hy : y.isNan = false) (h : y.toInt = if b then -x.toInt else x.toInt) : Opp b x y := by
  by_cases h0 : x.toInt = 0
  · refine .inr (.inr ⟨toInt_eq_zero.1 h0, toInt_eq_zero.1 ?_⟩)
    rw [h, h0]; simp
  · refine .inr (.inl (ext_toInt ?_ ?_))
    · rw [h, toInt_flipped]
    · rw [toInt_flipped]; split <;> omega

theorem Opp.nan (hx : x.isNan = true) (hy : y.isNan = true) : Opp b x y := .inl ⟨hx, hy⟩

theorem Opp.of_eq (h : y = flipped b x) : Opp b x y := .inr (.inl h)

theorem Opp.refl (x : Fl f) : Opp false x x := .inr (.inl rfl)

theorem mirrored_iff : Same (flipped b x) y ↔ Opp b x y := by
  constructor
  · rintro (h | h)
    · rw [feq_iff] at h
      rw [isNan_flipped, toInt_flipped] at h
      exact .of_toInt h.1 h.2.1 h.2.2.symm
    · rw [isNan_flipped] at h
      exact .nan h.1 h.2
  · intro h
    cases hx : x.isNan with
    | true => exact .inr ⟨by rw [isNan_flipped]; exact hx, h.nan_eq.trans hx⟩
    | false =>
      refine .inl ?_
      rw [feq_iff, isNan_flipped, toInt_flipped]
      exact ⟨hx, h.nan_eq.trans hx, (h.toInt_eq hx).symm⟩

theorem Opp.add (hx : Opp b x x') (hy : Opp b y y') : Opp b (x.add y) (x'.add y') := by
  cases n1 : x.isNan with
  | true => rw [isNan_add_left _ _ n1, isNan_add_left _ _ (hx.nan_eq.trans n1)]; exact .nan isNan_nan isNan_nan
  | false =>
  cases n2 : y.isNan with
  | true => rw [isNan_add_right _ _ n2, isNan_add_right _ _ (hy.nan_eq.trans n2)]; exact .nan isNan_nan isNan_nan
  | false =>
  have n1' := hx.nan_eq.trans n1
  have n2' := hy.nan_eq.trans n2
  have i1 : x'.isInf = x.isInf := by unfold isInf; rw [hx.idx_eq n1]
  have i2 : y'.isInf = y.isInf := by unfold isInf; rw [hy.idx_eq n2]
  have ne : ∀ z : Fl f, z.isInf = true → z.idx ≠ 0 := fun z h => by
    rw [isInf_iff.1 h]; exact Nat.ne_of_gt f.infIdx_pos
  cases h1 : x.isInf with
  | true =>
    have e1 := hx.eq_flipped n1 (ne _ h1)
    have s1 := hx.sgn_eq n1 (ne _ h1)
    unfold Fl.add
    rw [n1, n2, n1', n2', i1, i2, h1]
    cases h2 : y.isInf with
    | true =>
      rw [s1, hy.sgn_eq n2 (ne _ h2)]
      have : ((x.sgn != b) != (y.sgn != b)) = (x.sgn != y.sgn) := by cases x.sgn <;> cases y.sgn <;> cases b <;> rfl
      rw [this]
      cases x.sgn != y.sgn
      · exact .of_eq e1
      · exact .nan isNan_nan isNan_nan
    | false => exact .of_eq e1
  | false =>
    cases h2 : y.isInf with
    | true =>
      unfold Fl.add
      rw [n1, n2, n1', n2', i1, i2, h1, h2]
      exact .of_eq (hy.eq_flipped n2 (ne _ h2))
    | false =>
      have f1 := finite_of_not n1 h1
      have f2 := finite_of_not n2 h2
      have r := add_rounds f1 f2
      have r' := add_rounds (hx.finite_eq.trans f1) (hy.finite_eq.trans f2)
      refine .of_toInt r.1 r'.1 ?_
      rw [r.2, r'.2, hx.toInt_eq n1, hy.toInt_eq n2]
      cases b
      · rfl
      · simp only [if_true]
        rw [← f.rnd_neg]
        congr 1
        push_cast; ring

theorem Opp.neg (h : Opp b x y) : Opp b x.neg y.neg := by
  rcases h with h | h | h
  · exact .nan (by rw [isNan_neg]; exact h.1) (by rw [isNan_neg]; exact h.2)
  · subst h
    refine .of_eq ?_
    unfold flipped; cases b <;> rfl
  · exact .inr (.inr ⟨by rw [idx_neg]; exact h.1, by rw [idx_neg]; exact h.2⟩)

theorem Opp.sub (hx : Opp b x x') (hy : Opp b y y') : Opp b (x.sub y) (x'.sub y') := hx.add hy.neg

theorem isZero_eq_of (h : Opp b x y) (hx : x.isNan = false) : y.isZero = x.isZero := by unfold isZero; rw [h.idx_eq hx]

/-- A factor times a number of opposite sign -/
theorem Opp.mul (c : Fl f) (hx : Opp b x x') : Opp b (c.mul x) (c.mul x') := by
  cases n1 : c.isNan with
  | true => rw [isNan_mul_left _ _ n1, isNan_mul_left _ _ n1]; exact .nan isNan_nan isNan_nan
  | false =>
  cases n2 : x.isNan with
  | true => rw [isNan_mul_right _ _ n2, isNan_mul_right _ _ (hx.nan_eq.trans n2)]; exact .nan isNan_nan isNan_nan
  | false =>
  have n2' := hx.nan_eq.trans n2
  have i2 : x'.isInf = x.isInf := by unfold isInf; rw [hx.idx_eq n2]
  have z2 := isZero_eq_of hx n2
  cases hi : (c.isInf || x.isInf) with
  | true =>
    unfold Fl.mul
    rw [n1, n2, n2', i2, hi, z2]
    cases hz : (c.isZero || x.isZero) with
    | true => exact .nan isNan_nan isNan_nan
    | false =>
      have h0 : x.idx ≠ 0 := fun h => by
        rw [isZero_iff.2 h, Bool.or_true] at hz; cases hz
      refine .of_eq ?_
      show inf (c.sgn != x'.sgn) = flipped b (inf (c.sgn != x.sgn))
      rw [hx.sgn_eq n2 h0]
      refine ext' ?_ ?_
      · rw [sgn_flipped, sgn_inf, sgn_inf]; cases c.sgn <;> cases x.sgn <;> cases b <;> rfl
      · rw [idx_flipped, idx_inf, idx_inf]
  | false =>
    rw [Bool.or_eq_false_iff] at hi
    have f1 := finite_of_not n1 hi.1
    have f2 := finite_of_not n2 hi.2
    have r := mul_rounds f1 f2
    have r' := mul_rounds f1 (hx.finite_eq.trans f2)
    refine .of_toInt r.1 r'.1 ?_
    rw [r.2, r'.2, hx.toInt_eq n2]
    cases b
    · rfl
    · simp only [if_true]
      rw [← f.rnd_neg]
      congr 1
      push_cast; ring

theorem Opp.mul_right (c : Fl f) (hx : Opp b x x') : Opp b (x.mul c) (x'.mul c) := by
  rw [mul_comm' x, mul_comm' x']; exact hx.mul c

theorem Opp.sq (hx : Opp b x x') : x'.mul x' = x.mul x := by
  cases n2 : x.isNan with
  | true => rw [isNan_mul_right _ _ n2, isNan_mul_right _ _ (hx.nan_eq.trans n2)]
  | false =>
    unfold Fl.mul isInf isZero
    rw [n2, hx.nan_eq.trans n2, hx.idx_eq n2]
    simp

theorem Opp.div (c : Fl f) (hx : Opp b x x') : Opp b (x.div c) (x'.div c) := by
  cases n1 : c.isNan with
  | true => rw [isNan_div_right _ _ n1, isNan_div_right _ _ n1]; exact .nan isNan_nan isNan_nan
  | false =>
  cases n2 : x.isNan with
  | true => rw [isNan_div_left _ _ n2, isNan_div_left _ _ (hx.nan_eq.trans n2)]; exact .nan isNan_nan isNan_nan
  | false =>
  have n2' := hx.nan_eq.trans n2
  have i2 : x'.isInf = x.isInf := by unfold isInf; rw [hx.idx_eq n2]
  have z2 := isZero_eq_of hx n2
  have key : x.idx ≠ 0 → ∀ k, k < 2 ^ f.kw → Opp b (mk' (x.sgn != c.sgn) k : Fl f) (mk' (x'.sgn != c.sgn) k) := by
    intro h0 k hk
    refine .of_eq (ext' ?_ ?_)
    · rw [sgn_flipped, sgn_mk' _ hk, sgn_mk' _ hk, hx.sgn_eq n2 h0]; cases c.sgn <;> cases x.sgn <;> cases b <;> rfl
    · rw [idx_flipped, idx_mk' _ hk, idx_mk' _ hk]
  cases hi : x.isInf with
  | true =>
    have h0 : x.idx ≠ 0 := by rw [isInf_iff.1 hi]; exact Nat.ne_of_gt f.infIdx_pos
    unfold Fl.div
    rw [n1, n2, n2', i2, hi]
    cases c.isInf
    · exact key h0 _ (le_inf_lt le_rfl)
    · exact .nan isNan_nan isNan_nan
  | false =>
    cases hc : c.isInf with
    | true =>
      unfold Fl.div
      rw [n1, n2, n2', i2, hi, hc]
      exact .inr (.inr ⟨idx_mk' _ (Nat.two_pow_pos _), idx_mk' _ (Nat.two_pow_pos _)⟩)
    | false =>
      cases hz : c.isZero with
      | true =>
        unfold Fl.div
        rw [n1, n2, n2', i2, hi, hc, hz, z2]
        cases hx0 : x.isZero
        · exact key (fun h => by rw [isZero_iff.2 h] at hx0; cases hx0) _ (le_inf_lt le_rfl)
        · exact .nan isNan_nan isNan_nan
      | false =>
        have f2 := finite_of_not n2 hi
        have fc := finite_of_not n1 hc
        have c0 : c.toInt ≠ 0 := fun h => by rw [isZero_iff.2 (toInt_eq_zero.1 h)] at hz; cases hz
        have r := div_rounds f2 fc c0
        have r' := div_rounds (hx.finite_eq.trans f2) fc c0
        refine .of_toInt r.1 r'.1 ?_
        rw [r.2, r'.2, hx.toInt_eq n2]
        cases b
        · rfl
        · simp only [if_true]
          rw [← f.rnd_neg]
          congr 1
          push_cast; ring

end Verif.Fl
