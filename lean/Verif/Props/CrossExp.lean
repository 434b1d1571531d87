import Verif.Proofs.CrossExp

/-!
# C09: `FloatCrossExp`

The property as first written ("the child is never NaN") is false. The exact boundary is
proved: a NaN child needs a second parent that is zero and a first parent that is at
least `2^52` (`f64`; `2^23` for `f32`) in magnitude or not finite.
-/

namespace Verif.Props

open Verif Spec Cross

variable {σ : Type}

/-- C09: exactly one child, no panic, whatever the parents, the draws, the build profile and `exp2`. -/
theorem C09_one_child (p : Profile) (R : Rng σ) {f : Fmt} (exp2 : Fl f → Fl f) (a b : Fl f) (s : σ) :
    ∃ c s', floatCrossExp p R exp2 [a, b] s = .ok ([c], s') := by
  obtain ⟨mpos, epos, m, e, sg, s', -, -, -, -, -, -, -, h⟩ := floatCrossExp_spec p R exp2 a b s
  exact ⟨_, s', h⟩

/-- C09: any other number of parents panics. -/
theorem C09_wrong_arity (p : Profile) (R : Rng σ) {f : Fmt} (exp2 : Fl f → Fl f)
    (parents : List (Fl f)) (h : parents.length ≠ 2) (s : σ) :
    floatCrossExp p R exp2 parents s = .error .assert := by
  unfold floatCrossExp
  rw [M.bind_eq_error]; left
  simp [M.assert, h, M.fail]

/-- The reference `exp2` meets the contract (so the contract is satisfiable). -/
theorem exp2Ref_ok {f : Fmt} (hf : f = Fmt.f32 ∨ f = Fmt.f64) :
    Exp2OnIntegers (exp2Ref : Fl f → Fl f) := by
  intro n h1 h2
  have hD := f.D_pos
  have hback : (Fl.ofInt n : Fl f).toInt / (f.D : Int) = n := by
    have hv : (Fl.ofInt n : Fl f).toInt = n * f.D := by
      have r := Fl.ofInt_rounds (f := f) n
      rw [r.2]
      have hnat : f.rnd (((n.natAbs * 2 ^ (f.bias + f.mw - 1) : ℕ) : ℝ)) =
          (n.natAbs * 2 ^ (f.bias + f.mw - 1) : ℕ) := by
        apply f.rnd_short
        · have : n.natAbs ≤ 2 ^ 24 := by omega
          rcases hf with rfl | rfl
          · exact this
          · exact this.trans (by decide)
        · rw [f.mag_inf_eq]
          apply Nat.mul_le_mul_right
          have : n.natAbs ≤ 2 ^ 65 := by omega
          exact this.trans (Nat.pow_le_pow_right (by omega) (by
            have := (fmt_facts hf).2.1; omega))
      have hDr : (f.D : ℝ) = 2 ^ (f.bias + f.mw - 1) := by unfold Fmt.D; push_cast; rfl
      have hDz : (f.D : Int) = 2 ^ (f.bias + f.mw - 1) := by unfold Fmt.D; push_cast; rfl
      push_cast at hnat
      rcases le_total 0 n with h | h
      · have e : |(n : ℝ)| = n := abs_of_nonneg (by exact_mod_cast h)
        have e' : |n| = n := abs_of_nonneg h
        rw [Nat.cast_natAbs, Int.cast_abs, e] at hnat
        rw [hDr, hnat, hDz, e']
      · have e : |(n : ℝ)| = -n := abs_of_nonpos (by exact_mod_cast h)
        have e' : |n| = -n := abs_of_nonpos h
        rw [Nat.cast_natAbs, Int.cast_abs, e] at hnat
        have : (n : ℝ) * f.D = -(-(n : ℝ) * 2 ^ (f.bias + f.mw - 1)) := by rw [hDr]; ring
        rw [this, f.rnd_neg, hnat, hDz, e']; ring
    rw [hv, Int.mul_ediv_cancel]
    exact_mod_cast hD.ne'
  unfold exp2Ref
  rw [hback]
  dsimp only
  split
  · next h =>
    have r := Fl.ofRat_rounds (f := f) false (2 ^ n.toNat) 1 (by omega)
    convert r using 1
    have : (2 : ℝ) ^ n = 2 ^ n.toNat := by
      conv_lhs => rw [← Int.toNat_of_nonneg h]
      rw [zpow_natCast]
    rw [this]; simp
  · next h =>
    have r := Fl.ofRat_rounds (f := f) false 1 (2 ^ (-n).toNat) (by positivity)
    convert r using 1
    have : (2 : ℝ) ^ n = (2 ^ (-n).toNat)⁻¹ := by
      have hn : n = -((-n).toNat : Int) := by omega
      conv_lhs => rw [hn]
      rw [zpow_neg, zpow_natCast]
    rw [this]; simp; field_simp

/-- C09, the exceptional case: a child of `2^60` and `0` is NaN. -/
theorem C09_nan_witness :
    M.okAnd (floatCrossExp .debug Rng.script exp2Ref [(Fl.ofNat (2 ^ 60) : F64), Fl.zero] [59, 14, 0])
      (fun cs _ => cs.all Fl.isNan && cs.length == 1) = true := by decide +kernel

/-- The same for `f32` and a negative zero. -/
theorem C09_nan_witness_f32 :
    M.okAnd (floatCrossExp .release Rng.script exp2Ref [(Fl.ofNat (2 ^ 30) : F32), Fl.zero.neg] [59, 14, 0])
      (fun cs _ => cs.all Fl.isNan && cs.length == 1) = true := by decide +kernel

/-- C09: if the second parent is not zero, or the first is
below `2^mw` in magnitude (`2^52` for `f64`, `2^23` for `f32`), no sequence of draws gives a NaN child.
In the excluded case the child can be NaN (`C09_nan_witness`). -/
theorem C09_not_nan (p : Profile) (R : Rng σ) {f : Fmt} (hf : f = Fmt.f32 ∨ f = Fmt.f64)
    (exp2 : Fl f → Fl f) (hexp : Exp2OnIntegers exp2) (a b : Fl f)
    (hab : b.isZero = false ∨ a.abs.lt (Fl.ofNat (2 ^ f.mw)) = true) (s s' : σ) (cs : List (Fl f))
    (hr : floatCrossExp p R exp2 [a, b] s = .ok (cs, s')) :
    ∃ c, cs = [c] ∧ c.isNan = false := by
  obtain ⟨mpos, epos, m, e, sg, s1, m1, m2, e1, e2, hm, he, hsg, h⟩ :=
    floatCrossExp_spec p R exp2 a b s
  rw [h] at hr
  cases hr
  refine ⟨_, rfl, ?_⟩
  by_contra hnan
  rw [Bool.not_eq_false] at hnan
  have hs : sg = -1 ∨ sg = 1 := by
    rcases hsg with rfl | rfl <;> exact decode_sign _
  obtain ⟨g1, g2, g3⟩ := signed_mant hf hs m.isLt
  have hel : -32768 ≤ e.toInt ∧ e.toInt ≤ 32767 := by
    have h1 := BitVec.le_toInt e
    have h2 := BitVec.toInt_lt (x := e)
    simp at h1 h2; omega
  have hx := hexp e.toInt hel.1 hel.2
  obtain ⟨z1, z2⟩ := isNan_mul_of g1 hx.1 hnan
  -- the mantissa is zero
  have hm0 : m = 0#64 := by
    have : m.toNat = 0 := by
      apply g3
      rw [← Fl.toInt_eq_zero, g2] at z1
      rcases hs with rfl | rfl <;> omega
    exact BitVec.eq_of_toNat_eq (by simpa using this)
  -- the exponent is not negative
  have he0 : 0 ≤ e.toInt := by
    by_contra hneg
    have hle : (2 : ℝ) ^ e.toInt * f.D ≤ ((Fl.one : Fl f).toInt : ℝ) := by
      rw [Fl.toInt_one]
      have h1 : (2 : ℝ) ^ e.toInt ≤ 1 := zpow_le_one_of_nonpos₀ (by norm_num) (by omega)
      have : (0 : ℝ) ≤ f.D := by positivity
      push_cast; nlinarith
    have := (Fl.le_iff.1 (hx.le Fl.isNan_one hle)).2.2
    have hab2 := Fl.natAbs_toInt (exp2 (Fl.ofInt e.toInt))
    rw [z2] at hab2
    have h1 := f.mag_lt_mag.2 f.oneIdx_lt_inf
    rw [f.mag_oneIdx] at h1
    rw [Fl.toInt_one] at this
    have hnn : 0 ≤ (exp2 (Fl.ofInt e.toInt)).toInt := by
      rw [hx.2]; exact f.rnd_nonneg (by positivity)
    omega
  obtain ⟨hw, hb, -, -⟩ := fmt_facts hf
  -- so the exponent of the first parent is not negative either
  have hea : 0 ≤ (integerDecode a).2.1 := by
    obtain ⟨r1, r2⟩ := decode_exp_range hf a
    have hbit := he 15 (by omega)
    rw [if_neg (by omega)] at hbit
    have hmsb : e.msb = false := by
      by_contra hc
      rw [Bool.not_eq_false] at hc
      have := BitVec.toInt_neg_of_msb_true hc
      omega
    rw [BitVec.msb_eq_getLsbD_last] at hmsb
    rw [show 16 - 1 = 15 from rfl, hbit] at hmsb
    have hm2 : (BitVec.ofInt 16 (integerDecode a).2.1).msb = false := by
      rw [BitVec.msb_eq_getLsbD_last]; exact hmsb
    have hv := BitVec.toInt_ofInt (n := 16) (i := (integerDecode a).2.1)
    by_contra hneg
    have hpos := BitVec.toInt_nonneg_of_msb_false hm2
    rw [hv, Int.bmod_eq_of_le (by omega) (by omega)] at hpos
    omega
  have hE : f.bias + f.mw ≤ a.idx / 2 ^ f.mw := by
    unfold integerDecode at hea
    have : ((f.bias + f.mw : Nat) : Int) ≤ ((a.idx / 2 ^ f.mw : Nat) : Int) := by
      dsimp only at hea; linarith
    exact_mod_cast this
  have hne : a.idx / 2 ^ f.mw ≠ 0 := by omega
  -- its hidden bit is set, so the mantissa was cut above it
  have hposm : f.mw < mpos := by
    by_contra hc
    have hbit := hm f.mw (by omega)
    rw [if_neg (by omega), hm0, BitVec.getLsbD_ofNat, BitVec.getLsbD_ofNat] at hbit
    have hbit2 : ((integerDecode a).1).testBit f.mw = true := by
      unfold integerDecode
      dsimp only
      rw [if_neg hne, Nat.add_comm, Nat.testBit_two_pow_add_eq,
        Nat.testBit_lt_two_pow (Nat.mod_lt _ f.two_pow_mw_pos)]
      rfl
    rw [hbit2] at hbit
    simp at hbit
    omega
  -- so the mantissa of the second parent is zero
  have hb0 : (integerDecode b).1 = 0 := by
    apply Nat.eq_of_testBit_eq
    intro i
    rw [Nat.zero_testBit]
    rcases Nat.lt_or_ge i (f.mw + 1) with hi | hi
    · have hbit := hm i (by omega)
      rw [if_pos (by omega), hm0, BitVec.getLsbD_ofNat, BitVec.getLsbD_ofNat] at hbit
      have h64 : i < 64 := by omega
      simpa [h64] using hbit.symm
    · exact Nat.testBit_lt_two_pow
        (lt_of_lt_of_le (decode_mant_lt b) (Nat.pow_le_pow_right (by omega) hi))
  have hbz : b.idx = 0 := by
    unfold integerDecode at hb0
    dsimp only at hb0
    have := f.two_pow_mw_pos
    split at hb0
    · next h0 =>
      have := Nat.div_add_mod b.idx (2 ^ f.mw)
      rw [h0] at this; omega
    · omega
  rcases hab with h0 | h0
  · rw [Fl.isZero_iff.2 hbz] at h0; simp at h0
  · -- and the first parent is large
    obtain ⟨n1, -, hlt⟩ := Fl.lt_iff.1 h0
    have hpow : (2 : ℕ) ^ f.mw ≤ 2 ^ (f.mw + 1) := Nat.pow_le_pow_right (by omega) (by omega)
    have hpow2 : (2 : ℕ) ^ f.mw < 2 ^ (f.bias + 1) := Nat.pow_lt_pow_right (by omega) (by omega)
    rw [(Fl.ofNat_exact hpow hpow2).1, Fl.toInt_abs, Fl.natAbs_toInt] at hlt
    have hmag : 2 ^ f.mw * f.D ≤ f.mag a.idx := by
      unfold Fmt.mag Fmt.D
      rw [if_neg hne]
      exact Nat.mul_le_mul (Nat.le_add_right _ _) (Nat.pow_le_pow_right (by omega) (by omega))
    have : ((2 ^ f.mw * f.D : ℕ) : Int) ≤ (f.mag a.idx : Int) := by exact_mod_cast hmag
    push_cast at this hlt
    omega

/-- C09: crossing a finite number that is not subnormal (exponent field not zero) with itself gives exactly that number. -/
theorem C09_self (p : Profile) (R : Rng σ) {f : Fmt} (hf : f = Fmt.f32 ∨ f = Fmt.f64)
    (exp2 : Fl f → Fl f) (hexp : Exp2OnIntegers exp2) (a : Fl f) (hfin : a.isFinite = true)
    (hnorm : 2 ^ f.mw ≤ a.idx) (s : σ) :
    ∃ s', floatCrossExp p R exp2 [a, a] s = .ok ([a], s') := by
  obtain ⟨mpos, epos, m, e, sg, s1, m1, m2, e1, e2, hm, he, hsg, h⟩ :=
    floatCrossExp_spec p R exp2 a a s
  refine ⟨s1, ?_⟩
  rw [h]
  have hD := f.D_pos
  have hDr : (0 : ℝ) < f.D := by exact_mod_cast hD
  obtain ⟨hw, hb, hbm, -⟩ := fmt_facts hf
  obtain ⟨r1, r2⟩ := decode_exp_range hf a
  have hsg' : sg = (integerDecode a).2.2 := by rcases hsg with rfl | rfl <;> rfl
  have hs : sg = -1 ∨ sg = 1 := by rw [hsg']; exact decode_sign _
  have hmE : m = BitVec.ofNat 64 (integerDecode a).1 := by
    apply BitVec.eq_of_getLsbD_eq
    intro i hi
    rw [hm i hi]; simp
  have heE : e = BitVec.ofInt 16 (integerDecode a).2.1 := by
    apply BitVec.eq_of_getLsbD_eq
    intro i hi
    rw [he i hi]; simp
  have hmN : m.toNat = (integerDecode a).1 := by
    rw [hmE, BitVec.toNat_ofNat, Nat.mod_eq_of_lt]
    exact lt_of_lt_of_le (decode_mant_lt a) (Nat.pow_le_pow_right (by omega) (by omega))
  have heN : e.toInt = (integerDecode a).2.1 := by
    rw [heE, BitVec.toInt_ofInt, Int.bmod_eq_of_le (by omega) (by omega)]
  obtain ⟨g1, g2, -⟩ := signed_mant hf hs m.isLt
  rw [hmN] at g1 g2
  rw [hmN, heN]
  have hml := decode_mant_lt a
  have hE1 : 1 ≤ a.idx / 2 ^ f.mw := (Nat.le_div_iff_mul_le f.two_pow_mw_pos).2 (by omega)
  have hne : a.idx / 2 ^ f.mw ≠ 0 := Nat.one_le_iff_ne_zero.1 hE1
  have hmant : (Fl.ofNat (integerDecode a).1 : Fl f).toInt = (integerDecode a).1 * f.D :=
    (Fl.ofNat_exact hml.le (lt_of_lt_of_le hml (Nat.pow_le_pow_right (by omega) (by omega)))).1
  -- the power of two is exact
  have hx := hexp (integerDecode a).2.1 (by omega) (by omega)
  have hmagE : f.mag a.idx = (integerDecode a).1 * 2 ^ (a.idx / 2 ^ f.mw - 1) := by
    unfold Fmt.mag integerDecode
    dsimp only
    rw [if_neg hne, if_neg hne, Nat.add_comm]
  have hlt := (Fl.isFinite_iff_toInt.1 hfin)
  rw [Fl.natAbs_toInt] at hlt
  have hmpos : 1 ≤ (integerDecode a).1 := by
    unfold integerDecode
    dsimp only
    rw [if_neg hne]
    have := f.two_pow_mw_pos
    omega
  have hpow : (2 : ℝ) ^ (integerDecode a).2.1 * f.D = ((1 * 2 ^ (a.idx / 2 ^ f.mw - 1) : ℕ) : ℝ) := by
    have hDr2 : (f.D : ℝ) = (2 : ℝ) ^ ((f.bias + f.mw - 1 : ℕ) : ℤ) := by
      unfold Fmt.D; push_cast; rw [zpow_natCast]
    rw [hDr2, ← zpow_add₀ (by norm_num)]
    push_cast
    rw [one_mul, ← zpow_natCast]
    congr 1
    unfold integerDecode
    have := f.bias_pos
    dsimp only
    rw [Nat.cast_sub hE1, Nat.cast_sub (by omega)]
    push_cast; ring
  have hle2 : 1 * 2 ^ (a.idx / 2 ^ f.mw - 1) ≤ f.mag a.idx := by
    rw [hmagE]; exact Nat.mul_le_mul_right _ hmpos
  have hxv : (exp2 (Fl.ofInt (integerDecode a).2.1)).toInt = (1 * 2 ^ (a.idx / 2 ^ f.mw - 1) : ℕ) := by
    rw [hx.2, hpow]
    exact f.rnd_short Nat.one_le_two_pow (by omega)
  have hxf : (exp2 (Fl.ofInt (integerDecode a).2.1)).isFinite = true := by
    rw [Fl.isFinite_iff_toInt, hxv, Int.natAbs_natCast]; omega
  have rr := Fl.mul_rounds g1 hxf
  have hq : ((Fl.mul (Fl.ofInt sg) (Fl.ofNat (integerDecode a).1) : Fl f).toInt : ℝ) *
      ((exp2 (Fl.ofInt (integerDecode a).2.1)).toInt : ℝ) / f.D = (a.toInt : ℝ) := by
    rw [g2, hmant, hxv, Fl.toInt_cast_eq, hmagE, hsg']
    cases hsgn : a.sgn
    · rw [show (integerDecode a).2.2 = 1 by unfold integerDecode; simp [hsgn]]
      push_cast; field_simp
    · rw [show (integerDecode a).2.2 = -1 by unfold integerDecode; simp [hsgn]]
      push_cast; field_simp; simp
  rw [hq] at rr
  have hv := Fl.Rounds.exact (Fl.isNan_of_isFinite hfin) rr
  have hmp : 0 < f.mag a.idx := by
    rw [hmagE]; positivity
  congr 3
  apply Fl.ext_toInt hv
  rw [← Int.natAbs_ne_zero, Fl.natAbs_toInt]
  omega

example : (Fl.ofNat 3 : F64).isZero = false ∧ (Fl.ofNat 3 : F64).isFinite = true ∧
    2 ^ Fmt.f64.mw ≤ (Fl.ofNat 3 : F64).idx ∧
    M.okAnd (floatCrossExp .debug Rng.script exp2Ref [(Fl.ofNat 3 : F64), Fl.ofNat 3] [7, 9, 1])
      (fun cs _ => cs == [Fl.ofNat 3]) = true := by decide +kernel

end Verif.Props
