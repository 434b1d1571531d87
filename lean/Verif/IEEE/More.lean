import Verif.IEEE.Lemmas

/-!
# More about IEEE values: doubling, small integers, signs
-/

namespace Verif

namespace Fmt

variable (f : Fmt)

theorem mag_small {k : Nat} (h : k ≤ 2 ^ (f.mw + 1)) : f.mag k = k := by
  have h0 : 0 < 2 ^ f.mw := f.two_pow_mw_pos
  rw [pow_succ] at h
  unfold mag
  split
  · rfl
  · next hne =>
    have h1 : 2 ^ f.mw ≤ k := by
      by_contra hc
      exact hne (Nat.div_eq_of_lt (by omega))
    rcases Nat.lt_or_ge k (2 ^ f.mw * 2) with h2 | h2
    · have hd : k / 2 ^ f.mw = 1 := Nat.div_eq_of_lt_le (by omega) (by omega)
      have hm := Nat.div_add_mod k (2 ^ f.mw)
      rw [hd] at hm ⊢
      simp; omega
    · have hk : k = 2 ^ f.mw * 2 := by omega
      rw [hk, Nat.mul_div_cancel_left _ h0, Nat.mul_mod_right]; simp

/-- Twice a representable magnitude is representable (perhaps beyond infinity's index). -/
theorem mag_double (k : Nat) : ∃ j, f.mag j = 2 * f.mag k := by
  have h0 : 0 < 2 ^ f.mw := f.two_pow_mw_pos
  rcases Nat.lt_or_ge k (2 ^ f.mw) with h | h
  · refine ⟨2 * k, ?_⟩
    rw [f.mag_small (by rw [pow_succ]; omega), f.mag_small (by rw [pow_succ]; omega)]
  · refine ⟨k + 2 ^ f.mw, ?_⟩
    have hd : 1 ≤ k / 2 ^ f.mw := (Nat.le_div_iff_mul_le h0).2 (by omega)
    unfold mag
    rw [Nat.add_div_right _ h0, Nat.add_mod_right, if_neg (by omega), if_neg (by omega)]
    have : (k / 2 ^ f.mw).succ - 1 = (k / 2 ^ f.mw - 1) + 1 := by omega
    rw [this, pow_succ]; ring

theorem exists_mag {v : Nat} (hv : v ≤ 2 ^ (f.mw + 1)) (e : Nat) : ∃ k, f.mag k = v * 2 ^ e := by
  induction e with
  | zero => exact ⟨v, by rw [f.mag_small hv]; simp⟩
  | succ e ih =>
    obtain ⟨k, hk⟩ := ih
    obtain ⟨j, hj⟩ := f.mag_double k
    exact ⟨j, by rw [hj, hk, pow_succ]; ring⟩

theorem mag_inf_eq : f.mag f.infIdx = 2 ^ (f.bias + 1) * f.D := by
  rw [f.mag_infIdx, D, ← pow_add]
  congr 1
  have := f.two_bias
  have := f.bias_pos
  have := f.hmw
  omega

/-- A value of the form `v * 2^e` with a short `v`, below infinity, is rounded to itself. -/
theorem rnd_short {v e : Nat} (hv : v ≤ 2 ^ (f.mw + 1)) (h : v * 2 ^ e ≤ f.mag f.infIdx) :
    f.rnd ((v * 2 ^ e : ℕ) : ℝ) = (v * 2 ^ e : ℕ) := by
  obtain ⟨k, hk⟩ := f.exists_mag hv e
  rw [← hk] at h ⊢
  exact f.rnd_mag (f.mag_le_mag.1 h)

/-- If the rounded value of `q` is finite and `2 * X ≤ q` for a representable `X`, then `2 * X` is at most the rounded value. -/
theorem two_mul_le_rnd {x : Fl f} (hx : x.isNan = false) {q : ℝ}
    (hfin : (f.rnd q).natAbs < f.mag f.infIdx) (h : 2 * (x.toInt : ℝ) ≤ q) :
    2 * x.toInt ≤ f.rnd q := by
  obtain ⟨j, hj⟩ := f.mag_double x.idx
  have habs := Fl.natAbs_toInt x
  rcases Nat.lt_or_ge f.infIdx j with hlt | hle
  · -- 2 * X overflows
    have hbig : f.mag f.infIdx < 2 * f.mag x.idx := by rw [← hj]; exact f.mag_lt_mag.2 hlt
    rcases lt_or_ge x.toInt 0 with hneg | hpos
    · omega
    · exfalso
      have hX : x.toInt = f.mag x.idx := by omega
      have h1 : ((f.mag f.infIdx : ℕ) : ℝ) ≤ q := by
        have : ((f.mag f.infIdx : ℕ) : ℝ) ≤ ((2 * f.mag x.idx : ℕ) : ℝ) := by
          exact_mod_cast Nat.le_of_lt hbig
        rw [hX] at h; push_cast at h this; linarith
      have h2 := f.rnd_mono h1
      rw [f.rnd_mag le_rfl] at h2
      omega
  · have hr : f.rnd (2 * (x.toInt : ℝ)) = 2 * x.toInt := by
      unfold Fl.toInt
      split
      · have e : (2 * ((-(f.mag x.idx : Int) : Int) : ℝ)) = -((f.mag j : ℕ) : ℝ) := by
          rw [hj]; push_cast; ring
        rw [e, f.rnd_neg, f.rnd_mag hle, hj]; push_cast; ring
      · have e : (2 * (((f.mag x.idx : Int) : Int) : ℝ)) = ((f.mag j : ℕ) : ℝ) := by
          rw [hj]; push_cast; ring
        rw [e, f.rnd_mag hle, hj]; push_cast; ring
    rw [← hr]; exact f.rnd_mono h

theorem rnd_le_two_mul {x : Fl f} (hx : x.isNan = false) {q : ℝ}
    (hfin : (f.rnd q).natAbs < f.mag f.infIdx) (h : q ≤ 2 * (x.toInt : ℝ)) :
    f.rnd q ≤ 2 * x.toInt := by
  have := f.two_mul_le_rnd (x := x.neg) (by rw [Fl.isNan_neg]; exact hx) (q := -q)
    (by rw [f.rnd_neg]; simpa using hfin) (by rw [Fl.toInt_neg]; push_cast; linarith)
  rw [f.rnd_neg, Fl.toInt_neg] at this
  omega

end Fmt

namespace Fl

variable {f : Fmt}

theorem isNan_zero : (zero : Fl f).isNan = false := isNan_of_isFinite isFinite_zero
theorem isNan_one : (one : Fl f).isNan = false := isNan_of_isFinite isFinite_one

/-- Small integers are represented exactly. -/
theorem ofNat_exact {n : Nat} (h1 : n ≤ 2 ^ (f.mw + 1)) (h2 : n < 2 ^ (f.bias + 1)) :
    (ofNat n : Fl f).toInt = n * f.D ∧ (ofNat n : Fl f).isFinite = true := by
  have hr := ofNat_rounds (f := f) n
  have hlt : n * f.D < f.mag f.infIdx := by
    rw [f.mag_inf_eq]; exact Nat.mul_lt_mul_of_pos_right h2 f.D_pos
  have he : f.rnd ((n : ℝ) * f.D) = (n * f.D : ℕ) := by
    have := f.rnd_short (v := n) (e := f.bias + f.mw - 1) h1 (Nat.le_of_lt hlt)
    have hD : f.D = 2 ^ (f.bias + f.mw - 1) := rfl
    rw [← hD] at this; rw [← this]; push_cast; rfl
  have ht : (ofNat n : Fl f).toInt = (n * f.D : ℕ) := by rw [hr.2, he]
  refine ⟨by rw [ht]; push_cast; rfl, ?_⟩
  rw [isFinite_iff_toInt, ht, Int.natAbs_natCast]; exact hlt

theorem two_le_pow : 2 ≤ 2 ^ (f.mw + 1) := by
  have := f.one_lt_pow_mw
  rw [pow_succ]; omega

theorem lt_pow_bias {n : Nat} (h : n < 4) : n < 2 ^ (f.bias + 1) := by
  have := f.bias_pos
  have h4 : 2 ^ 2 ≤ 2 ^ (f.bias + 1) := Nat.pow_le_pow_right (by omega) (by omega)
  omega

theorem ofNat_two : (ofNat 2 : Fl f).toInt = 2 * f.D ∧ (ofNat 2 : Fl f).isFinite = true :=
  ofNat_exact two_le_pow (lt_pow_bias (by omega))

theorem isFinite_of_rounds {q : ℝ} {r : Fl f} (h : Rounds q r) :
    r.isFinite = true ↔ (f.rnd q).natAbs < f.mag f.infIdx := by
  rw [isFinite_iff_toInt, h.2]

end Fl
end Verif

namespace Verif.Fl

variable {f : Fmt}

/-- Away from zero the value determines the bit pattern. -/
theorem ext_toInt {x y : Fl f} (h : x.toInt = y.toInt) (h0 : y.toInt ≠ 0) : x = y := by
  have hx := natAbs_toInt x
  have hy := natAbs_toInt y
  rw [h] at hx
  refine ext' ?_ (le_antisymm (f.mag_le_mag.1 (by omega)) (f.mag_le_mag.1 (by omega)))
  rcases lt_or_gt_of_ne h0 with hn | hp
  · rw [sgn_of_toInt_neg hn, sgn_of_toInt_neg (by rw [h]; exact hn)]
  · rw [sgn_of_toInt_pos hp, sgn_of_toInt_pos (by rw [h]; exact hp)]

end Verif.Fl
