import Verif.Proofs.Cross
import Verif.Spec.Exp2

namespace Verif.Cross

open Verif Spec

variable {σ : Type}

/-- The decoded mantissa, exponent and sign of the two parents are spliced separately, at the positions drawn. -/
theorem floatCrossExp_draws (p : Profile) (R : Rng σ) {f : Fmt} (exp2 : Fl f → Fl f) (a b : Fl f)
    (s : σ) : ∃ mpos epos sn m e s1 s2 s', R.nat 1 64 s = (mpos, s1) ∧ R.nat 1 16 s1 = (epos, s2) ∧
      R.natIncl 0 1 s2 = (sn, s') ∧ sn ≤ 1 ∧ 1 ≤ mpos ∧ mpos < 64 ∧ 1 ≤ epos ∧ epos < 16 ∧
      Splice mpos (BitVec.ofNat 64 (integerDecode a).1) (BitVec.ofNat 64 (integerDecode b).1) m ∧
      Splice epos (BitVec.ofInt 16 (integerDecode a).2.1) (BitVec.ofInt 16 (integerDecode b).2.1) e ∧
      floatCrossExp p R exp2 [a, b] s =
        .ok ([Fl.mul (Fl.mul (Fl.ofInt (if sn = 0 then (integerDecode a).2.2 else (integerDecode b).2.2))
          (Fl.ofNat m.toNat)) (exp2 (Fl.ofInt e.toInt))], s') := by
  obtain ⟨mpos, s1, h1, m1, m2⟩ := R.uniformNat_tot (show 1 < 64 by omega) s
  obtain ⟨epos, s2, h2, e1, e2⟩ := R.uniformNat_tot (show 1 < 16 by omega) s1
  obtain ⟨sn, s3, h3, _, n2⟩ := R.uniformNatIncl_tot (show 0 ≤ 1 by omega) s2
  obtain ⟨m, hm, hms⟩ := crossU_splice p (BitVec.ofNat 64 (integerDecode a).1)
    (BitVec.ofNat 64 (integerDecode b).1) m1 m2
  obtain ⟨e, he, hes⟩ := crossS_splice p (BitVec.ofInt 16 (integerDecode a).2.1)
    (BitVec.ofInt 16 (integerDecode b).2.1) e2
  have d1 : R.nat 1 64 s = (mpos, s1) := by
    unfold Rng.uniformNat at h1; rw [if_pos (by omega)] at h1; exact M.ofState_eq_ok.1 h1
  have d2 : R.nat 1 16 s1 = (epos, s2) := by
    unfold Rng.uniformNat at h2; rw [if_pos (by omega)] at h2; exact M.ofState_eq_ok.1 h2
  have d3 : R.natIncl 0 1 s2 = (sn, s3) := by
    unfold Rng.uniformNatIncl at h3; rw [if_pos (by omega)] at h3; exact M.ofState_eq_ok.1 h3
  refine ⟨mpos, epos, sn, m, e, s1, s2, s3, d1, d2, d3, n2, m1, m2, e1, e2, hms, hes, ?_⟩
  unfold floatCrossExp
  refine M.bind_eq_ok.2 ⟨(), s, by simp [M.assert]; rfl, ?_⟩
  refine M.bind_eq_ok.2 ⟨a, s, rfl, ?_⟩
  refine M.bind_eq_ok.2 ⟨b, s, rfl, ?_⟩
  refine M.bind_eq_ok.2 ⟨mpos, s1, h1, ?_⟩
  refine M.bind_eq_ok.2 ⟨epos, s2, h2, ?_⟩
  refine M.bind_eq_ok.2 ⟨m, s2, M.ofExcept_eq_ok.2 ⟨hm, rfl⟩, ?_⟩
  refine M.bind_eq_ok.2 ⟨e, s2, M.ofExcept_eq_ok.2 ⟨he, rfl⟩, ?_⟩
  refine M.bind_eq_ok.2 ⟨sn, s3, h3, ?_⟩
  rcases (show sn = 0 ∨ sn = 1 by omega) with rfl | rfl <;> rfl

/-- The same without the draws. -/
theorem floatCrossExp_spec (p : Profile) (R : Rng σ) {f : Fmt} (exp2 : Fl f → Fl f) (a b : Fl f)
    (s : σ) : ∃ mpos epos m e sg s', 1 ≤ mpos ∧ mpos < 64 ∧ 1 ≤ epos ∧ epos < 16 ∧
      Splice mpos (BitVec.ofNat 64 (integerDecode a).1) (BitVec.ofNat 64 (integerDecode b).1) m ∧
      Splice epos (BitVec.ofInt 16 (integerDecode a).2.1) (BitVec.ofInt 16 (integerDecode b).2.1) e ∧
      (sg = (integerDecode a).2.2 ∨ sg = (integerDecode b).2.2) ∧
      floatCrossExp p R exp2 [a, b] s =
        .ok ([Fl.mul (Fl.mul (Fl.ofInt sg) (Fl.ofNat m.toNat)) (exp2 (Fl.ofInt e.toInt))], s') := by
  obtain ⟨mpos, epos, sn, m, e, s1, s2, s', -, -, -, -, m1, m2, e1, e2, hm, he, h⟩ := floatCrossExp_draws p R exp2 a b s
  refine ⟨mpos, epos, m, e, _, s', m1, m2, e1, e2, hm, he, ?_, h⟩
  split
  · exact .inl rfl
  · exact .inr rfl

/-- Facts about `f32` and `f64` used below. -/
theorem fmt_facts {f : Fmt} (hf : f = Fmt.f32 ∨ f = Fmt.f64) :
    f.mw + 1 ≤ 53 ∧ 64 < f.bias + 1 ∧ f.bias + f.mw ≤ 1075 ∧ 2 ^ f.ew ≤ 2048 := by
  rcases hf with rfl | rfl <;> decide

theorem decode_mant_lt {f : Fmt} (x : Fl f) : (integerDecode x).1 < 2 ^ (f.mw + 1) := by
  unfold integerDecode
  have := Nat.mod_lt x.idx f.two_pow_mw_pos
  rw [pow_succ]
  dsimp only
  split <;> omega

theorem decode_exp_range {f : Fmt} (hf : f = Fmt.f32 ∨ f = Fmt.f64) (x : Fl f) :
    -1075 ≤ (integerDecode x).2.1 ∧ (integerDecode x).2.1 < 2048 := by
  obtain ⟨_, _, h3, h4⟩ := fmt_facts hf
  have hE : x.idx / 2 ^ f.mw < 2 ^ f.ew := by
    rw [Nat.div_lt_iff_lt_mul f.two_pow_mw_pos, ← pow_add]
    exact x.idx_lt
  unfold integerDecode
  dsimp only
  constructor
  · have : ((f.bias + f.mw : Nat) : Int) ≤ 1075 := by exact_mod_cast h3
    have : (0 : Int) ≤ ((x.idx / 2 ^ f.mw : Nat) : Int) := Int.natCast_nonneg _
    omega
  · have : ((x.idx / 2 ^ f.mw : Nat) : Int) < 2048 := by exact_mod_cast (by omega)
    omega

theorem decode_sign {f : Fmt} (x : Fl f) : (integerDecode x).2.2 = -1 ∨ (integerDecode x).2.2 = 1 := by
  unfold integerDecode
  cases x.sgn <;> simp

theorem isNan_mul_of {f : Fmt} {x y : Fl f} (hx : x.isFinite = true) (hy : y.isNan = false)
    (h : (x.mul y).isNan = true) : x.idx = 0 ∧ y.idx = f.infIdx := by
  unfold Fl.mul at h
  rw [Fl.isNan_of_isFinite hx, hy, Fl.isInf_of_isFinite hx] at h
  simp only [Bool.or_self, Bool.false_eq_true, if_false, Bool.false_or] at h
  split at h
  · next hi =>
    rw [Fl.isInf_iff] at hi
    split at h
    · next hz =>
      refine ⟨?_, hi⟩
      rw [Bool.or_eq_true, Fl.isZero_iff, Fl.isZero_iff] at hz
      have := f.infIdx_pos
      omega
    · rw [Fl.isNan_inf] at h; simp at h
  · rw [Fl.isNan_round] at h; simp at h

/-- `±1 * m` for a 64-bit `m`: finite, and zero only for `m = 0`. -/
theorem signed_mant {f : Fmt} (hf : f = Fmt.f32 ∨ f = Fmt.f64) {sg : Int} (hs : sg = -1 ∨ sg = 1)
    {m : Nat} (hm : m < 2 ^ 64) :
    (Fl.mul (Fl.ofInt sg) (Fl.ofNat m) : Fl f).isFinite = true ∧
      (Fl.mul (Fl.ofInt sg) (Fl.ofNat m) : Fl f).toInt = sg * (Fl.ofNat m : Fl f).toInt ∧
      ((Fl.ofNat m : Fl f).toInt = 0 → m = 0) := by
  obtain ⟨_, h2, _, _⟩ := fmt_facts hf
  have hD := f.D_pos
  have hDr : (0 : ℝ) < f.D := by exact_mod_cast hD
  have rm := Fl.ofNat_rounds (f := f) m
  have hle : (m : ℝ) * f.D ≤ ((2 ^ f.bias * f.D : ℕ) : ℝ) := by
    push_cast
    apply mul_le_mul_of_nonneg_right _ hDr.le
    have : m ≤ 2 ^ f.bias := hm.le.trans (Nat.pow_le_pow_right (by omega) (by omega))
    exact_mod_cast this
  have hval : f.rnd ((2 ^ f.bias * f.D : ℕ) : ℝ) = (2 ^ f.bias * f.D : ℕ) := by
    have h := f.rnd_short (v := 1) (e := f.bias + (f.bias + f.mw - 1)) Nat.one_le_two_pow (by
      rw [f.mag_inf_eq, one_mul, pow_add]
      exact Nat.mul_le_mul_right _ (Nat.pow_le_pow_right (by omega) (by omega)))
    rw [one_mul, pow_add] at h; exact h
  have hnn : 0 ≤ f.rnd ((m : ℝ) * f.D) := f.rnd_nonneg (by positivity)
  have hfm : (Fl.ofNat m : Fl f).isFinite = true := by
    rw [Fl.isFinite_of_rounds rm]
    have := f.rnd_mono hle
    rw [hval] at this
    have hlt : 2 ^ f.bias * f.D < f.mag f.infIdx := by
      rw [f.mag_inf_eq]
      exact Nat.mul_lt_mul_of_pos_right (Nat.pow_lt_pow_right (by omega) (by omega)) hD
    omega
  -- the sign
  have rs := Fl.ofInt_rounds (f := f) sg
  have hone : f.rnd (f.D : ℝ) = f.D := by
    have h := Fmt.rnd_mag (f := f) (k := f.oneIdx) (Nat.le_of_lt f.oneIdx_lt_inf)
    rw [f.mag_oneIdx] at h; exact h
  have hsv : (Fl.ofInt sg : Fl f).toInt = sg * f.D := by
    rw [rs.2]
    rcases hs with rfl | rfl
    · have : (((-1 : Int) : ℝ) * f.D) = -(f.D : ℝ) := by push_cast; ring
      rw [this, f.rnd_neg, hone]; ring
    · have : (((1 : Int) : ℝ) * f.D) = (f.D : ℝ) := by push_cast; ring
      rw [this, hone]; ring
  have hsf : (Fl.ofInt sg : Fl f).isFinite = true := by
    rw [Fl.isFinite_iff_toInt, hsv]
    have h1 := f.mag_lt_mag.2 f.oneIdx_lt_inf
    rw [f.mag_oneIdx] at h1
    rcases hs with rfl | rfl <;> omega
  have rmul := Fl.mul_rounds hsf hfm
  have hq : ((Fl.ofInt sg : Fl f).toInt : ℝ) * ((Fl.ofNat m : Fl f).toInt : ℝ) / f.D =
      ((sg * (Fl.ofNat m : Fl f).toInt : Int) : ℝ) := by
    rw [hsv]; push_cast; field_simp
  rw [hq] at rmul
  have hv : (Fl.mul (Fl.ofInt sg) (Fl.ofNat m) : Fl f).toInt = sg * (Fl.ofNat m : Fl f).toInt := by
    rw [rmul.2]
    rcases hs with rfl | rfl
    · rw [neg_one_mul]; push_cast
      rw [f.rnd_neg, Fl.rnd_toInt (Fl.isNan_of_isFinite hfm)]
    · rw [one_mul, Fl.rnd_toInt (Fl.isNan_of_isFinite hfm)]
  refine ⟨?_, hv, ?_⟩
  · rw [Fl.isFinite_iff_toInt, hv]
    rw [Fl.isFinite_iff_toInt] at hfm
    rcases hs with rfl | rfl <;> omega
  · intro h0
    by_contra hne
    have h1 : (f.D : ℝ) ≤ (m : ℝ) * f.D := by
      have : (1 : ℝ) ≤ m := by exact_mod_cast Nat.one_le_iff_ne_zero.2 hne
      nlinarith
    have h2 := f.rnd_mono h1
    rw [hone, ← rm.2, h0] at h2
    omega

end Verif.Cross
