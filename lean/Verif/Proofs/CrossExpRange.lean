import Verif.Proofs.CrossExp
import Verif.Spec.CrossExp

namespace Verif.Cross

open Verif Spec

variable {σ : Type}

/-! ### Splices stay in aligned blocks -/

theorem splice_nat_div {w pos m1 m2 k j : Nat} {m : BitVec w} (h : Splice pos (BitVec.ofNat w m1) (BitVec.ofNat w m2) m)
    (h1 : m1 < 2 ^ w) (h2 : m2 < 2 ^ w) (hj1 : m1 / 2 ^ k = j) (hj2 : m2 / 2 ^ k = j) : m.toNat / 2 ^ k = j := by
  have e12 : BitVec.ofNat w m1 >>> k = BitVec.ofNat w m2 >>> k := by
    apply BitVec.eq_of_toNat_eq
    rw [BitVec.toNat_ushiftRight, BitVec.toNat_ushiftRight, BitVec.toNat_ofNat, BitVec.toNat_ofNat,
      Nat.mod_eq_of_lt h1, Nat.mod_eq_of_lt h2, Nat.shiftRight_eq_div_pow, Nat.shiftRight_eq_div_pow, hj1, hj2]
  have em : m >>> k = BitVec.ofNat w m1 >>> k := by
    apply BitVec.eq_of_getLsbD_eq
    intro i hi
    have hb : (BitVec.ofNat w m1).getLsbD (k + i) = (BitVec.ofNat w m2).getLsbD (k + i) := by
      rw [← BitVec.getLsbD_ushiftRight, ← BitVec.getLsbD_ushiftRight, e12]
    rw [BitVec.getLsbD_ushiftRight, BitVec.getLsbD_ushiftRight]
    rcases Nat.lt_or_ge (k + i) w with hk | hk
    · rw [h _ hk, hb, ite_self]
    · rw [BitVec.getLsbD_of_ge _ _ hk, BitVec.getLsbD_of_ge _ _ hk]
  have := congrArg BitVec.toNat em
  rw [BitVec.toNat_ushiftRight, BitVec.toNat_ushiftRight, BitVec.toNat_ofNat, Nat.mod_eq_of_lt h1,
    Nat.shiftRight_eq_div_pow, Nat.shiftRight_eq_div_pow, hj1] at this
  exact this

theorem toInt_ofInt16 {e : Int} (h1 : -32768 ≤ e) (h2 : e < 32768) : (BitVec.ofInt 16 e).toInt = e := by
  rw [BitVec.toInt_ofInt, Int.bmod_eq_of_le (by omega) (by omega)]

theorem splice_int_div {pos k : Nat} {e1 e2 j : Int} {e : BitVec 16} (hp : pos < 16)
    (h : Splice pos (BitVec.ofInt 16 e1) (BitVec.ofInt 16 e2) e) (a1 : -32768 ≤ e1) (b1 : e1 < 32768)
    (a2 : -32768 ≤ e2) (b2 : e2 < 32768) (hj1 : e1 / 2 ^ k = j) (hj2 : e2 / 2 ^ k = j) : e.toInt / 2 ^ k = j := by
  have e12 : (BitVec.ofInt 16 e1).sshiftRight k = (BitVec.ofInt 16 e2).sshiftRight k := by
    apply BitVec.eq_of_toInt_eq
    rw [BitVec.toInt_sshiftRight, BitVec.toInt_sshiftRight, toInt_ofInt16 a1 b1, toInt_ofInt16 a2 b2,
      Int.shiftRight_eq_div_pow, Int.shiftRight_eq_div_pow]
    push_cast
    rw [hj1, hj2]
  have hmsb : e.msb = (BitVec.ofInt 16 e1).msb := by
    rw [BitVec.msb_eq_getLsbD_last, BitVec.msb_eq_getLsbD_last]
    have := h 15 (by omega)
    rw [if_neg (by omega)] at this
    exact this
  have em : e.sshiftRight k = (BitVec.ofInt 16 e1).sshiftRight k := by
    apply BitVec.eq_of_getLsbD_eq
    intro i hi
    have hb : ((BitVec.ofInt 16 e1).sshiftRight k).getLsbD i = ((BitVec.ofInt 16 e2).sshiftRight k).getLsbD i := by
      rw [e12]
    rw [BitVec.getLsbD_sshiftRight, BitVec.getLsbD_sshiftRight] at hb ⊢
    rcases Nat.lt_or_ge (k + i) 16 with hk | hk
    · simp only [hk, if_true] at hb ⊢
      rw [h _ hk]
      split
      · exact hb.symm
      · rfl
    · simp only [Nat.not_lt.2 hk, if_false]
      rw [hmsb]
  have := congrArg BitVec.toInt em
  rw [BitVec.toInt_sshiftRight, BitVec.toInt_sshiftRight, toInt_ofInt16 a1 b1,
    Int.shiftRight_eq_div_pow, Int.shiftRight_eq_div_pow] at this
  push_cast at this
  rw [hj1] at this
  exact this

/-- The sign of the exponent comes from the first parent. -/
theorem splice_int_neg {pos : Nat} {e1 e2 : Int} {e : BitVec 16} (hp : pos < 16)
    (h : Splice pos (BitVec.ofInt 16 e1) (BitVec.ofInt 16 e2) e) (a1 : -32768 ≤ e1) (b1 : e1 < 32768) :
    e.toInt < 0 ↔ e1 < 0 := by
  have hmsb : e.msb = (BitVec.ofInt 16 e1).msb := by
    rw [BitVec.msb_eq_getLsbD_last, BitVec.msb_eq_getLsbD_last]
    have := h 15 (by omega)
    rw [if_neg (by omega)] at this
    exact this
  have h1 : ∀ x : BitVec 16, x.toInt < 0 ↔ x.msb = true := by
    intro x
    constructor
    · intro hx
      by_contra hc
      rw [Bool.not_eq_true] at hc
      have := BitVec.toInt_nonneg_of_msb_false hc
      omega
    · exact fun hx => BitVec.toInt_neg_of_msb_true hx
  rw [h1, hmsb, ← h1, toInt_ofInt16 a1 b1]

theorem toInt16_range (e : BitVec 16) : -32768 ≤ e.toInt ∧ e.toInt ≤ 32767 := by
  have h1 := BitVec.le_toInt e
  have h2 := BitVec.toInt_lt (x := e)
  simp at h1 h2; omega

/-! ### The parents -/

theorem D_zpow (f : Fmt) : (f.D : ℝ) = (2 : ℝ) ^ ((f.bias + f.mw - 1 : ℕ) : ℤ) := by
  unfold Fmt.D; push_cast; rw [zpow_natCast]

theorem minNormal_eq (f : Fmt) : minNormal f = (2 : ℝ) ^ (1 - (f.bias : ℤ)) := by
  unfold minNormal
  rw [D_zpow, ← zpow_natCast, ← zpow_sub₀ (by norm_num)]
  congr 1
  have := f.bias_pos
  omega

theorem abs_value {f : Fmt} (x : Fl f) : |value x| = (f.mag x.idx : ℝ) / f.D := by
  unfold value
  rw [abs_div, abs_of_pos (show (0 : ℝ) < f.D by exact_mod_cast f.D_pos), ← Fl.natAbs_toInt, Nat.cast_natAbs, Int.cast_abs]

theorem normal_idx {f : Fmt} {x : Fl f} (h : minNormal f ≤ |value x|) : 2 ^ f.mw ≤ x.idx := by
  rw [abs_value] at h
  unfold minNormal at h
  have hD : (0 : ℝ) < f.D := by exact_mod_cast f.D_pos
  rw [div_le_div_iff_of_pos_right hD] at h
  have h2 : f.mag (2 ^ f.mw) = 2 ^ f.mw := f.mag_small (Nat.pow_le_pow_right (by omega) (by omega))
  rw [← f.mag_le_mag, h2]
  exact_mod_cast h

theorem decode_sci {f : Fmt} {x : Fl f} (h : 2 ^ f.mw ≤ x.idx) :
    Scientific x (integerDecode x).1 (integerDecode x).2.1 := by
  have hE1 : 1 ≤ x.idx / 2 ^ f.mw := (Nat.le_div_iff_mul_le f.two_pow_mw_pos).2 (by omega)
  have hne : x.idx / 2 ^ f.mw ≠ 0 := Nat.one_le_iff_ne_zero.1 hE1
  refine ⟨?_, ?_, decode_mant_lt x⟩
  · rw [abs_value]
    have hmagE : f.mag x.idx = (integerDecode x).1 * 2 ^ (x.idx / 2 ^ f.mw - 1) := by
      unfold Fmt.mag integerDecode
      dsimp only
      rw [if_neg hne, if_neg hne, Nat.add_comm]
    rw [hmagE, D_zpow]
    push_cast
    rw [mul_div_assoc, ← zpow_natCast, ← zpow_sub₀ (by norm_num)]
    congr 2
    unfold integerDecode
    have := f.bias_pos
    dsimp only
    omega
  · unfold integerDecode
    dsimp only
    rw [if_neg hne]; omega

theorem sci_ge {f : Fmt} {x : Fl f} {m : Nat} {e A : Int} (h : Scientific x m e)
    (hA : (2 : ℝ) ^ ((f.mw : Int) + A) ≤ |value x|) : A ≤ e := by
  obtain ⟨h1, -, h3⟩ := h
  have hm : (m : ℝ) < 2 ^ ((f.mw : Int) + 1) := by
    have : (m : ℝ) < 2 ^ (f.mw + 1) := by exact_mod_cast h3
    rw [← zpow_natCast] at this; push_cast at this; exact this
  have he : (0 : ℝ) < 2 ^ e := by positivity
  have : (2 : ℝ) ^ ((f.mw : Int) + A) < 2 ^ ((f.mw : Int) + 1 + e) := by
    rw [zpow_add₀ (by norm_num) ((f.mw : Int) + 1) e]
    calc _ ≤ _ := hA
      _ = _ := h1
      _ < _ := by gcongr
  rw [zpow_lt_zpow_iff_right₀ (by norm_num)] at this
  omega

theorem sci_lt {f : Fmt} {x : Fl f} {m : Nat} {e B : Int} (h : Scientific x m e)
    (hB : |value x| < (2 : ℝ) ^ ((f.mw : Int) + B)) : e < B := by
  obtain ⟨h1, h2, -⟩ := h
  have hm : (2 : ℝ) ^ (f.mw : Int) ≤ m := by
    rw [zpow_natCast]; exact_mod_cast h2
  have he : (0 : ℝ) < 2 ^ e := by positivity
  have : (2 : ℝ) ^ ((f.mw : Int) + e) < 2 ^ ((f.mw : Int) + B) := by
    rw [zpow_add₀ (by norm_num) (f.mw : Int) e]
    calc _ ≤ (m : ℝ) * 2 ^ e := by gcongr
      _ = _ := h1.symm
      _ < _ := hB
  rw [zpow_lt_zpow_iff_right₀ (by norm_num)] at this
  omega

theorem sci_bounds {f : Fmt} {x : Fl f} {m : Nat} {e : Int} (h : Scientific x m e) :
    (2 : ℝ) ^ ((f.mw : Int) + e) ≤ |value x| ∧ |value x| < (2 : ℝ) ^ ((f.mw : Int) + (e + 1)) := by
  obtain ⟨h1, h2, h3⟩ := h
  have he : (0 : ℝ) < 2 ^ e := by positivity
  have hm : (2 : ℝ) ^ (f.mw : Int) ≤ m := by rw [zpow_natCast]; exact_mod_cast h2
  have hm' : (m : ℝ) < 2 ^ ((f.mw : Int) + 1) := by
    have : (m : ℝ) < 2 ^ (f.mw + 1) := by exact_mod_cast h3
    rw [← zpow_natCast] at this; push_cast at this; exact this
  rw [h1]
  constructor
  · rw [zpow_add₀ (by norm_num)]; gcongr
  · rw [show (f.mw : Int) + (e + 1) = (f.mw : Int) + 1 + e by ring, zpow_add₀ (by norm_num) _ e]; gcongr

/-! ### The child -/

theorem rnd_big (f : Fmt) {q : ℝ} (h : (f.mag f.infIdx : ℝ) ≤ q) : f.rnd q = f.mag f.infIdx := by
  have hq : 0 ≤ q := le_trans (by positivity) h
  have h1 := f.rnd_mono h
  rw [f.rnd_mag le_rfl] at h1
  rw [f.rnd_of_nonneg hq] at h1 ⊢
  have h2 := f.mag_le_mag.2 (f.ridx_le_inf q)
  omega

theorem rnd_small (f : Fmt) {q : ℝ} (h0 : 0 ≤ q) (h : q ≤ 1 / 2) : f.rnd q = 0 := by
  have h1 := f.rnd_mono h
  have h2 : f.rnd (1 / 2) = 0 := by
    rw [f.rnd_of_nonneg (by norm_num)]
    have : f.ridx (1 / 2) = 0 := by
      unfold Fmt.ridx
      have e : (2 : ℝ) * (1 / 2) = ((1 : ℕ) : ℝ) := by norm_num
      rw [e, Nat.floor_natCast]
      simp only [ne_eq, not_true_eq_false, decide_false]
      rw [f.roundIdx_eq]
      have hfl : f.floorIdx (1 / 2) = 0 := by
        have := f.floorIdx_mag 0
        simpa using this
      have hm1 : f.mag 1 = 1 := f.mag_small (by have := f.two_pow_mw_pos; omega)
      have : f.roundRaw 1 false = 0 := by
        unfold Fmt.roundRaw
        simp [hfl, hm1]
      rw [this]; simp
    rw [this]; simp
  have := f.rnd_nonneg h0
  omega

section child

variable {f : Fmt} (hf : f = Fmt.f32 ∨ f = Fmt.f64) {exp2 : Fl f → Fl f} (hexp : Exp2OnIntegers exp2) {sg : Int}
  (hs : sg = -1 ∨ sg = 1) {m : Nat} (hm : m < 2 ^ (f.mw + 1)) {e : Int}

include hf hexp hs hm

/-- An exponent below that of the smallest positive number: the child is zero. -/
theorem child_flush (he0 : -32768 ≤ e) (he : e < 1 - (f.bias : Int) - f.mw) :
    (Fl.mul (Fl.mul (Fl.ofInt sg) (Fl.ofNat m)) (exp2 (Fl.ofInt e)) : Fl f).isNan = false ∧
    (Fl.mul (Fl.mul (Fl.ofInt sg) (Fl.ofNat m)) (exp2 (Fl.ofInt e)) : Fl f).toInt = 0 := by
  obtain ⟨hw, hb, -, -⟩ := fmt_facts hf
  have hm64 : m < 2 ^ 64 := lt_of_lt_of_le hm (Nat.pow_le_pow_right (by omega) (by omega))
  obtain ⟨g1, g2, -⟩ := signed_mant hf hs hm64
  have hx := hexp e he0 (by omega)
  have h0 : (exp2 (Fl.ofInt e)).toInt = 0 := by
    rw [hx.2]
    apply rnd_small
    · positivity
    · rw [D_zpow, ← zpow_add₀ (by norm_num)]
      calc (2 : ℝ) ^ (e + ((f.bias + f.mw - 1 : ℕ) : ℤ)) ≤ 2 ^ (-1 : ℤ) := zpow_le_zpow_right₀ (by norm_num) (by
            have := f.bias_pos; omega)
        _ = 1 / 2 := by norm_num
  have hfin : (exp2 (Fl.ofInt e)).isFinite = true := by
    rw [Fl.isFinite_iff_toInt, h0]
    exact f.mag_pos.2 f.infIdx_pos
  have rr := Fl.mul_rounds g1 hfin
  rw [h0] at rr
  simp only [Int.cast_zero, mul_zero, zero_div] at rr
  exact ⟨rr.1, by rw [rr.2, f.rnd_zero]⟩

/-- Otherwise the child is the correctly rounded `sg * m * 2^e`, if `m` is not zero or the power of two is finite. -/
theorem child_rounds (he0 : 1 - (f.bias : Int) - f.mw ≤ e) (he1 : e ≤ 32767) (hme : m ≠ 0 ∨ e ≤ f.bias) :
    (Fl.mul (Fl.mul (Fl.ofInt sg) (Fl.ofNat m)) (exp2 (Fl.ofInt e)) : Fl f).isNan = false ∧
    (Fl.mul (Fl.mul (Fl.ofInt sg) (Fl.ofNat m)) (exp2 (Fl.ofInt e)) : Fl f).toInt =
      sg * f.rnd (m * (2 : ℝ) ^ e * f.D) := by
  obtain ⟨hw, hb, hbm, -⟩ := fmt_facts hf
  have hm64 : m < 2 ^ 64 := lt_of_lt_of_le hm (Nat.pow_le_pow_right (by omega) (by omega))
  obtain ⟨g1, g2, g3⟩ := signed_mant hf hs hm64
  have hmant : (Fl.ofNat m : Fl f).toInt = m * f.D :=
    (Fl.ofNat_exact hm.le (lt_of_lt_of_le hm (Nat.pow_le_pow_right (by omega) (by omega)))).1
  have hx := hexp e (by omega) he1
  have hDr : (0 : ℝ) < f.D := by exact_mod_cast f.D_pos
  have hbp := f.bias_pos
  rcases le_or_gt e f.bias with heb | heb
  · obtain ⟨N, hN⟩ : ∃ N : Nat, (N : Int) = e + ((f.bias + f.mw - 1 : ℕ) : ℤ) :=
      ⟨(e + ((f.bias + f.mw - 1 : ℕ) : ℤ)).toNat, Int.toNat_of_nonneg (by omega)⟩
    have hp : (2 : ℝ) ^ e * f.D = ((1 * 2 ^ N : ℕ) : ℝ) := by
      rw [D_zpow, ← zpow_add₀ (by norm_num), ← hN]; push_cast; rw [zpow_natCast, one_mul]
    have hinf : f.mag f.infIdx = 2 ^ (f.bias + 1 + (f.bias + f.mw - 1)) := by
      rw [f.mag_inf_eq]; unfold Fmt.D; rw [← pow_add]
    have hlt : 1 * 2 ^ N < f.mag f.infIdx := by
      rw [hinf, one_mul]
      exact Nat.pow_lt_pow_right (by omega) (by omega)
    have hxv : (exp2 (Fl.ofInt e)).toInt = (1 * 2 ^ N : ℕ) := by
      rw [hx.2, hp]
      exact f.rnd_short Nat.one_le_two_pow hlt.le
    have hxf : (exp2 (Fl.ofInt e)).isFinite = true := by
      rw [Fl.isFinite_iff_toInt, hxv, Int.natAbs_natCast]; exact hlt
    have rr := Fl.mul_rounds g1 hxf
    refine ⟨rr.1, ?_⟩
    have hq : ((Fl.mul (Fl.ofInt sg) (Fl.ofNat m) : Fl f).toInt : ℝ) * ((exp2 (Fl.ofInt e)).toInt : ℝ) / f.D =
        sg * (m * (2 : ℝ) ^ e * f.D) := by
      rw [g2, hmant, hxv]
      rw [mul_assoc (m : ℝ), hp]
      push_cast; field_simp
    rw [rr.2, hq]
    rcases hs with rfl | rfl
    · rw [show (((-1 : Int) : ℝ)) * (m * (2 : ℝ) ^ e * f.D) = -(m * (2 : ℝ) ^ e * f.D) by push_cast; ring, f.rnd_neg]
      ring
    · rw [show (((1 : Int) : ℝ)) * (m * (2 : ℝ) ^ e * f.D) = m * (2 : ℝ) ^ e * f.D by push_cast; ring]
      ring
  · have hm0 : m ≠ 0 := by
      rcases hme with h | h
      · exact h
      · omega
    have hinfr : (f.mag f.infIdx : ℝ) ≤ (2 : ℝ) ^ e * f.D := by
      rw [f.mag_inf_eq]; push_cast
      have : (2 : ℝ) ^ (f.bias + 1) ≤ 2 ^ e := by
        rw [← zpow_natCast]; exact zpow_le_zpow_right₀ (by norm_num) (by push_cast; omega)
      gcongr
    have hbig : f.rnd ((2 : ℝ) ^ e * f.D) = f.mag f.infIdx := rnd_big f hinfr
    have hbig2 : f.rnd (m * (2 : ℝ) ^ e * f.D) = f.mag f.infIdx := by
      apply rnd_big f
      have : (1 : ℝ) ≤ m := by exact_mod_cast Nat.one_le_iff_ne_zero.2 hm0
      calc (f.mag f.infIdx : ℝ) ≤ 2 ^ e * f.D := hinfr
        _ = 1 * (2 ^ e * f.D) := by ring
        _ ≤ m * (2 ^ e * f.D) := by gcongr
        _ = _ := by ring
    have hxi : (exp2 (Fl.ofInt e)).idx = f.infIdx := by
      apply f.mag_inj.1
      rw [← Fl.natAbs_toInt, hx.2, hbig, Int.natAbs_natCast]
    have hxs : (exp2 (Fl.ofInt e)).sgn = false := by
      apply Fl.sgn_of_toInt_pos
      rw [hx.2, hbig]
      exact_mod_cast f.mag_pos.2 f.infIdx_pos
    have hxinf : (exp2 (Fl.ofInt e)).isInf = true := Fl.isInf_iff.2 hxi
    have hD := f.D_pos
    have hsm : (Fl.mul (Fl.ofInt sg) (Fl.ofNat m) : Fl f).toInt = sg * (m * f.D) := by rw [g2, hmant]
    have hmD : (0 : Int) < m * f.D := by
      have : 0 < m := Nat.pos_of_ne_zero hm0
      exact_mod_cast Nat.mul_pos this hD
    generalize hy : (Fl.mul (Fl.ofInt sg) (Fl.ofNat m) : Fl f) = y at *
    have hyz : y.isZero = false := by
      by_contra hc
      rw [Bool.not_eq_false, Fl.isZero_iff, ← Fl.toInt_eq_zero, hsm] at hc
      rcases hs with rfl | rfl <;> omega
    have hxz : (exp2 (Fl.ofInt e)).isZero = false := by
      by_contra hc
      rw [Bool.not_eq_false, Fl.isZero_iff, hxi] at hc
      have := f.infIdx_pos
      omega
    have hmul : Fl.mul y (exp2 (Fl.ofInt e)) = Fl.inf y.sgn := by
      unfold Fl.mul
      rw [Fl.isNan_of_isFinite g1, hx.1, hxinf, hyz, hxz, hxs]
      simp
    rw [hmul, hbig2]
    refine ⟨Fl.isNan_inf _, ?_⟩
    unfold Fl.toInt
    rw [Fl.sgn_inf, Fl.idx_inf]
    rcases hs with rfl | rfl
    · rw [Fl.sgn_of_toInt_neg (by rw [hsm]; omega)]; simp
    · rw [Fl.sgn_of_toInt_pos (by rw [hsm]; omega)]; simp

end child

end Verif.Cross
