import Verif.Proofs.CrossExpRange
import Verif.Props.CrossExp

/-!
# C94: what a child of `FloatCrossExp` looks like
-/

namespace Verif.Props

open Verif Spec Cross

variable {σ : Type}

/-- C94: the parents are `ma * 2^ea` and `mb * 2^eb` with whole mantissas of full length. Mantissas and exponents are
spliced at the first two of the numbers drawn, and the child is the correctly rounded `m * 2^e` (zero, if `2^e` is less
than the smallest positive number), with the sign of the first parent if the third number is 0, else of the second. -/
theorem C94_splice (p : Profile) (R : Rng σ) {f : Fmt} (hf : f = Fmt.f32 ∨ f = Fmt.f64) (exp2 : Fl f → Fl f)
    (hexp : Exp2OnIntegers exp2) (a b : Fl f) (ha : minNormal f ≤ |value a|) (hb : minNormal f ≤ |value b|)
    (s s' : σ) (cs : List (Fl f)) (hr : floatCrossExp p R exp2 [a, b] s = .ok (cs, s')) :
    ∃ (ma mb : Nat) (ea eb : Int) (mpos epos sign : Nat) (s1 s2 : σ) (m : BitVec 64) (e : BitVec 16) (c : Fl f), cs = [c] ∧
      R.nat 1 64 s = (mpos, s1) ∧ R.nat 1 16 s1 = (epos, s2) ∧ R.natIncl 0 1 s2 = (sign, s') ∧ Scientific a ma ea ∧ Scientific b mb eb ∧ 1 ≤ mpos ∧ mpos < 64 ∧ 1 ≤ epos ∧ epos < 16 ∧
      Splice mpos (BitVec.ofNat 64 ma) (BitVec.ofNat 64 mb) m ∧ Splice epos (BitVec.ofInt 16 ea) (BitVec.ofInt 16 eb) e ∧
      c.isNan = false ∧ (value c ≠ 0 → c.sgn = if sign = 0 then a.sgn else b.sgn) ∧
      (e.toInt < 1 - (f.bias : Int) - f.mw → value c = 0) ∧
      (1 - (f.bias : Int) - f.mw ≤ e.toInt → Fl.Rounds (m.toNat * (2 : ℝ) ^ e.toInt * f.D) c.abs) := by
  obtain ⟨mpos, epos, sn, m, e, s1, s2, s3, d1, d2, d3, hsn, m1, m2, e1, e2, hm, he, h⟩ := floatCrossExp_draws p R exp2 a b s
  rw [h] at hr
  cases hr
  generalize hsg : (if sn = 0 then (integerDecode a).2.2 else (integerDecode b).2.2) = sg at *
  have hs : sg = -1 ∨ sg = 1 := by rw [← hsg]; split <;> exact decode_sign _
  have sa := decode_sci (normal_idx ha)
  have sb := decode_sci (normal_idx hb)
  obtain ⟨hw, -, -, -⟩ := fmt_facts hf
  have h64 : ∀ x : Fl f, (integerDecode x).1 < 2 ^ 64 := fun x =>
    lt_of_lt_of_le (decode_mant_lt x) (Nat.pow_le_pow_right (by omega) (by omega))
  have hdiv : ∀ x : Fl f, 2 ^ f.mw ≤ (integerDecode x).1 → (integerDecode x).1 / 2 ^ f.mw = 1 := by
    intro x hx
    have := decode_mant_lt x
    apply Nat.div_eq_of_lt_le
    · omega
    · rw [pow_succ] at this; omega
  have hm1 := splice_nat_div hm (h64 a) (h64 b) (hdiv a sa.2.1) (hdiv b sb.2.1)
  have hmlo : 2 ^ f.mw ≤ m.toNat := by
    by_contra hc
    rw [Nat.div_eq_of_lt (by omega)] at hm1; omega
  have hmhi : m.toNat < 2 ^ (f.mw + 1) := by
    have := Nat.div_add_mod m.toNat (2 ^ f.mw)
    have h2 := Nat.mod_lt m.toNat f.two_pow_mw_pos
    rw [hm1] at this; rw [pow_succ]; omega
  have her := toInt16_range e
  have hm0 : m.toNat ≠ 0 := by have := f.two_pow_mw_pos; omega
  have hsgn : ∀ x : Fl f, x.toInt ≠ 0 → ∀ q : Int, 0 ≤ q → x.toInt = sg * q → x.sgn = if sn = 0 then a.sgn else b.sgn := by
    intro x hx0 q hq hxq
    have hq0 : q ≠ 0 := by rintro rfl; simp at hxq; exact hx0 hxq
    have key : ∀ y : Fl f, sg = (integerDecode y).2.2 → x.sgn = y.sgn := by
      intro y hy
      unfold integerDecode at hy
      dsimp only at hy
      cases hys : y.sgn
      · rw [hys] at hy; simp at hy; subst hy
        exact Fl.sgn_of_toInt_pos (by omega)
      · rw [hys] at hy; simp at hy; subst hy
        exact Fl.sgn_of_toInt_neg (by omega)
    split at hsg
    · next h0 => rw [if_pos h0]; exact key a hsg.symm
    · next h0 => rw [if_neg h0]; exact key b hsg.symm
  have hval : ∀ x : Fl f, value x ≠ 0 → x.toInt ≠ 0 := by
    intro x hx h0; apply hx; unfold value; rw [h0]; simp
  refine ⟨_, _, _, _, mpos, epos, sn, s1, s2, m, e, _, rfl, d1, d2, d3, sa, sb, m1, m2, e1, e2, hm, he, ?_⟩
  rcases lt_or_ge e.toInt (1 - (f.bias : Int) - f.mw) with hlo | hlo
  · obtain ⟨k1, k2⟩ := child_flush hf hexp hs hmhi her.1 hlo
    refine ⟨k1, fun hx => absurd k2 (hval _ hx), fun _ => by unfold value; rw [k2]; simp, fun hc => by omega⟩
  · obtain ⟨k1, k2⟩ := child_rounds hf hexp hs hmhi hlo her.2 (.inl hm0)
    have hq : 0 ≤ f.rnd (m.toNat * (2 : ℝ) ^ e.toInt * f.D) := f.rnd_nonneg (by positivity)
    refine ⟨k1, fun hx => hsgn _ (hval _ hx) _ hq k2, fun hc => by omega, fun _ => ⟨by rw [Fl.isNan_abs]; exact k1, ?_⟩⟩
    rw [Fl.toInt_abs, k2]
    rcases hs with rfl | rfl <;> omega

/-- C94: if the first parent is less than `2^52` (`f64`; `2^23` for `f32`) in magnitude, then so is the child, whatever
the second parent is (even infinite or NaN). -/
theorem C94_below (p : Profile) (R : Rng σ) {f : Fmt} (hf : f = Fmt.f32 ∨ f = Fmt.f64) (exp2 : Fl f → Fl f)
    (hexp : Exp2OnIntegers exp2) (a b : Fl f) (ha : |value a| < 2 ^ f.mw)
    (s s' : σ) (cs : List (Fl f)) (hr : floatCrossExp p R exp2 [a, b] s = .ok (cs, s')) :
    ∃ c, cs = [c] ∧ c.isFinite = true ∧ |value c| < 2 ^ f.mw := by
  obtain ⟨mpos, epos, m, e, sg, s1, m1, m2, e1, e2, hm, he, hsg, h⟩ := floatCrossExp_spec p R exp2 a b s
  rw [h] at hr
  cases hr
  have hs : sg = -1 ∨ sg = 1 := by rcases hsg with rfl | rfl <;> exact decode_sign _
  obtain ⟨hw, hbb, -, -⟩ := fmt_facts hf
  have h64 : ∀ x : Fl f, (integerDecode x).1 < 2 ^ 64 := fun x =>
    lt_of_lt_of_le (decode_mant_lt x) (Nat.pow_le_pow_right (by omega) (by omega))
  have hmhi : m.toNat < 2 ^ (f.mw + 1) := by
    have := splice_nat_div hm (h64 a) (h64 b) (Nat.div_eq_of_lt (decode_mant_lt a)) (Nat.div_eq_of_lt (decode_mant_lt b))
    rcases Nat.div_eq_zero_iff.1 this with h0 | h0
    · have := Nat.two_pow_pos (f.mw + 1); omega
    · exact h0
  have her := toInt16_range e
  have hea := decode_exp_range hf a
  have hDr : (0 : ℝ) < f.D := by exact_mod_cast f.D_pos
  have hneg : (integerDecode a).2.1 < 0 := by
    rcases Nat.lt_or_ge a.idx (2 ^ f.mw) with hi | hi
    · unfold integerDecode
      dsimp only
      rw [Nat.div_eq_of_lt hi]
      omega
    · refine sci_lt (decode_sci hi) ?_
      rw [add_zero, zpow_natCast]; exact ha
  have heneg : e.toInt < 0 := (splice_int_neg e2 he (by omega) (by omega)).2 hneg
  refine ⟨_, rfl, ?_⟩
  have hinf := f.mag_inf_eq
  have hmw : f.mw < f.bias + 1 := by omega
  have hlt : 2 ^ f.mw * f.D < f.mag f.infIdx := by
    rw [hinf]; exact Nat.mul_lt_mul_of_pos_right (Nat.pow_lt_pow_right (by omega) hmw) f.D_pos
  -- it is enough to bound the magnitude in units
  have fin : ∀ x : Fl f, x.toInt.natAbs < 2 ^ f.mw * f.D → x.isFinite = true ∧ |value x| < 2 ^ f.mw := by
    intro x hx
    refine ⟨by rw [Fl.isFinite_iff_toInt]; omega, ?_⟩
    rw [abs_value, div_lt_iff₀ hDr, ← Fl.natAbs_toInt]
    exact_mod_cast hx
  rcases lt_or_ge e.toInt (1 - (f.bias : Int) - f.mw) with hlo | hlo
  · obtain ⟨k1, k2⟩ := child_flush hf hexp hs hmhi her.1 hlo
    apply fin
    rw [k2]
    exact Nat.mul_pos f.two_pow_mw_pos f.D_pos
  · obtain ⟨k1, k2⟩ := child_rounds hf hexp hs hmhi hlo her.2 (.inr (by omega))
    apply fin
    have hb2 : f.bias + f.mw - 1 = (f.bias + f.mw - 2) + 1 := by omega
    have hD2 : (f.D : ℝ) = 2 * 2 ^ (f.bias + f.mw - 2) := by
      unfold Fmt.D; rw [hb2]; push_cast; rw [pow_succ]; ring
    have hq : (m.toNat : ℝ) * (2 : ℝ) ^ e.toInt * f.D ≤ (((2 ^ (f.mw + 1) - 1) * 2 ^ (f.bias + f.mw - 2) : ℕ) : ℝ) := by
      have h1 : (m.toNat : ℝ) ≤ ((2 ^ (f.mw + 1) - 1 : ℕ) : ℝ) := by exact_mod_cast (by omega)
      have h2 : (2 : ℝ) ^ e.toInt ≤ 2 ^ (-1 : Int) := zpow_le_zpow_right₀ (by norm_num) (by omega)
      have h3 : (2 : ℝ) ^ (-1 : Int) = 1 / 2 := by norm_num
      rw [h3] at h2
      rw [hD2]; push_cast
      calc _ ≤ ((2 ^ (f.mw + 1) - 1 : ℕ) : ℝ) * (1 / 2) * (2 * 2 ^ (f.bias + f.mw - 2)) := by gcongr
        _ = _ := by ring
    have hup : (2 ^ (f.mw + 1) - 1) * 2 ^ (f.bias + f.mw - 2) < 2 ^ f.mw * f.D := by
      unfold Fmt.D
      rw [hb2, pow_succ 2 (f.bias + f.mw - 2), pow_succ 2 f.mw]
      have := Nat.two_pow_pos (f.bias + f.mw - 2)
      have h2 := f.two_pow_mw_pos
      calc (2 ^ f.mw * 2 - 1) * 2 ^ (f.bias + f.mw - 2) < (2 ^ f.mw * 2) * 2 ^ (f.bias + f.mw - 2) :=
            Nat.mul_lt_mul_of_pos_right (by omega) this
        _ = _ := by ring
    have h1 := f.rnd_mono hq
    rw [f.rnd_short (by omega) (hup.trans hlt).le] at h1
    have h0 : 0 ≤ f.rnd (m.toNat * (2 : ℝ) ^ e.toInt * f.D) := f.rnd_nonneg (by positivity)
    have h4 : f.rnd (m.toNat * (2 : ℝ) ^ e.toInt * f.D) < ((2 ^ f.mw * f.D : ℕ) : Int) := by
      refine lt_of_le_of_lt h1 ?_
      exact_mod_cast hup
    rw [k2]
    rcases hs with rfl | rfl <;> omega

/-- C94: if both parents lie between the powers of two with the exponents `mw + j * 2^k` and `mw + (j + 1) * 2^k`
(normal numbers), then so does the child. It is then not rounded at all. -/
theorem C94_range (p : Profile) (R : Rng σ) {f : Fmt} (hf : f = Fmt.f32 ∨ f = Fmt.f64) (exp2 : Fl f → Fl f)
    (hexp : Exp2OnIntegers exp2) (a b : Fl f) (j : Int) (k : Nat) (hlo : 1 - (f.bias : Int) ≤ f.mw + j * 2 ^ k)
    (hhi : f.mw + (j + 1) * 2 ^ k ≤ (f.bias : Int) + 1)
    (ha : (2 : ℝ) ^ ((f.mw : Int) + j * 2 ^ k) ≤ |value a| ∧ |value a| < (2 : ℝ) ^ ((f.mw : Int) + (j + 1) * 2 ^ k))
    (hb : (2 : ℝ) ^ ((f.mw : Int) + j * 2 ^ k) ≤ |value b| ∧ |value b| < (2 : ℝ) ^ ((f.mw : Int) + (j + 1) * 2 ^ k))
    (s s' : σ) (cs : List (Fl f)) (hr : floatCrossExp p R exp2 [a, b] s = .ok (cs, s')) :
    ∃ c, cs = [c] ∧ c.isFinite = true ∧ (c.sgn = a.sgn ∨ c.sgn = b.sgn) ∧
      (2 : ℝ) ^ ((f.mw : Int) + j * 2 ^ k) ≤ |value c| ∧ |value c| < (2 : ℝ) ^ ((f.mw : Int) + (j + 1) * 2 ^ k) := by
  have hmin : minNormal f ≤ (2 : ℝ) ^ ((f.mw : Int) + j * 2 ^ k) := by
    rw [minNormal_eq]; exact zpow_le_zpow_right₀ (by norm_num) hlo
  obtain ⟨ma, mb, ea, eb, mpos, epos, sn, s1, s2, m, e, c, rfl, -, -, -, sa, sb, m1, m2, e1, e2, hm, he, hn, hsg, -, hrd⟩ :=
    C94_splice p R hf exp2 hexp a b (hmin.trans ha.1) (hmin.trans hb.1) s s' cs hr
  obtain ⟨hw, hbb, hbm, -⟩ := fmt_facts hf
  have hP : (0 : Int) < 2 ^ k := by positivity
  have hblk : ∀ x : Int, j * 2 ^ k ≤ x → x < (j + 1) * 2 ^ k → x / 2 ^ k = j := by
    intro x h1 h2
    apply le_antisymm
    · exact Int.lt_add_one_iff.1 ((Int.ediv_lt_iff_lt_mul hP).2 h2)
    · exact (Int.le_ediv_iff_mul_le hP).2 h1
  have a1 := sci_ge sa ha.1
  have a2 := sci_lt sa ha.2
  have b1 := sci_ge sb hb.1
  have b2 := sci_lt sb hb.2
  have hbb2 : f.bias ≤ 1075 := by omega
  have hed := splice_int_div e2 he (by omega) (by omega) (by omega) (by omega) (hblk ea a1 a2) (hblk eb b1 b2)
  have k1 : j * 2 ^ k ≤ e.toInt := by rw [← hed]; exact Int.ediv_mul_le _ hP.ne'
  have k2 : e.toInt < (j + 1) * 2 ^ k := by rw [← hed]; exact Int.lt_ediv_add_one_mul_self _ hP
  have hdiv : ∀ x : Nat, 2 ^ f.mw ≤ x → x < 2 ^ (f.mw + 1) → x / 2 ^ f.mw = 1 := by
    intro x hx this
    apply Nat.div_eq_of_lt_le
    · omega
    · rw [pow_succ] at this; omega
  have h64 : 2 ^ (f.mw + 1) ≤ 2 ^ 64 := Nat.pow_le_pow_right (by omega) (by omega)
  have hm1 := splice_nat_div hm (sa.2.2.trans_le h64) (sb.2.2.trans_le h64) (hdiv ma sa.2.1 sa.2.2) (hdiv mb sb.2.1 sb.2.2)
  have hmlo : 2 ^ f.mw ≤ m.toNat := by
    by_contra hc
    rw [Nat.div_eq_of_lt (by omega)] at hm1; omega
  have hmhi : m.toNat < 2 ^ (f.mw + 1) := by
    have := Nat.div_add_mod m.toNat (2 ^ f.mw)
    have h2 := Nat.mod_lt m.toNat f.two_pow_mw_pos
    rw [hm1] at this; rw [pow_succ]; omega
  have hr2 := hrd (by omega)
  have hbp := f.bias_pos
  obtain ⟨N, hN⟩ : ∃ N : Nat, (N : Int) = e.toInt + ((f.bias + f.mw - 1 : ℕ) : ℤ) :=
    ⟨(e.toInt + ((f.bias + f.mw - 1 : ℕ) : ℤ)).toNat, Int.toNat_of_nonneg (by omega)⟩
  have hp : (m.toNat : ℝ) * (2 : ℝ) ^ e.toInt * f.D = ((m.toNat * 2 ^ N : ℕ) : ℝ) := by
    rw [mul_assoc, D_zpow, ← zpow_add₀ (by norm_num), ← hN]; push_cast; rw [zpow_natCast]
  have hinf : f.mag f.infIdx = 2 ^ (f.bias + 1 + (f.bias + f.mw - 1)) := by
    rw [f.mag_inf_eq]; unfold Fmt.D; rw [← pow_add]
  have hlt : m.toNat * 2 ^ N < f.mag f.infIdx := by
    rw [hinf]
    calc m.toNat * 2 ^ N < 2 ^ (f.mw + 1) * 2 ^ N := Nat.mul_lt_mul_of_pos_right hmhi (Nat.two_pow_pos _)
      _ = 2 ^ (f.mw + 1 + N) := by rw [← pow_add]
      _ ≤ _ := Nat.pow_le_pow_right (by omega) (by omega)
  have hcv : c.abs.toInt = (m.toNat * 2 ^ N : ℕ) := by
    rw [hr2.2, hp]; exact f.rnd_short hmhi.le hlt.le
  have hcn : f.mag c.idx = m.toNat * 2 ^ N := by
    rw [Fl.toInt_abs, Fl.natAbs_toInt] at hcv
    exact_mod_cast hcv
  have hDr : (0 : ℝ) < f.D := by exact_mod_cast f.D_pos
  have hsc : Scientific c m.toNat e.toInt := by
    refine ⟨?_, hmlo, hmhi⟩
    rw [abs_value, hcn, ← hp]
    field_simp
  obtain ⟨q1, q2⟩ := sci_bounds hsc
  have hfin : c.isFinite = true := by
    rw [Fl.isFinite_iff_toInt, Fl.natAbs_toInt, hcn]; exact hlt
  have c1 : (2 : ℝ) ^ ((f.mw : Int) + j * 2 ^ k) ≤ |value c| :=
    (zpow_le_zpow_right₀ (by norm_num) (by omega)).trans q1
  refine ⟨c, rfl, hfin, ?_, c1, q2.trans_le (zpow_le_zpow_right₀ (by norm_num) (by omega))⟩
  have hc0 : value c ≠ 0 := by
    intro h0
    rw [h0, abs_zero] at c1
    have : (0 : ℝ) < (2 : ℝ) ^ ((f.mw : Int) + j * 2 ^ k) := by positivity
    linarith
  have := hsg hc0
  split at this
  · exact .inl this
  · exact .inr this

/-- C94: if the first parent is finite and at least `2^52` (`2^23` for `f32`) in magnitude and the second one is normal, then the
child is at least that too (or infinite). -/
theorem C94_above (p : Profile) (R : Rng σ) {f : Fmt} (hf : f = Fmt.f32 ∨ f = Fmt.f64) (exp2 : Fl f → Fl f)
    (hexp : Exp2OnIntegers exp2) (a b : Fl f) (haf : a.isFinite = true)
    (ha : 2 ^ f.mw ≤ |value a|) (hb : minNormal f ≤ |value b|)
    (s s' : σ) (cs : List (Fl f)) (hr : floatCrossExp p R exp2 [a, b] s = .ok (cs, s')) :
    ∃ c, cs = [c] ∧ (c.isInf = true ∨ c.isFinite = true ∧ 2 ^ f.mw ≤ |value c|) := by
  obtain ⟨hw, hbb, hbm, -⟩ := fmt_facts hf
  have hmin : minNormal f ≤ (2 : ℝ) ^ f.mw := by
    rw [minNormal_eq, ← zpow_natCast]; exact zpow_le_zpow_right₀ (by norm_num) (by omega)
  obtain ⟨ma, mb, ea, eb, mpos, epos, sn, s1, s2, m, e, c, rfl, -, -, -, sa, sb, m1, m2, e1, e2, hm, he, hn, -, -, hrd⟩ :=
    C94_splice p R hf exp2 hexp a b (hmin.trans ha) hb s s' cs hr
  have a0 : 0 ≤ ea := sci_ge sa (by rw [add_zero, zpow_natCast]; exact ha)
  have a1 : ea < 32768 := by
    refine (sci_lt sa (B := f.bias + 2) ?_).trans (by omega)
    rw [abs_value, div_lt_iff₀ (by exact_mod_cast f.D_pos)]
    have h1 := Fl.isFinite_iff_toInt.1 haf
    rw [Fl.natAbs_toInt, f.mag_inf_eq] at h1
    have h2 : 2 ^ (f.bias + 1) * f.D ≤ 2 ^ (f.mw + f.bias + 2) * f.D :=
      Nat.mul_le_mul_right _ (Nat.pow_le_pow_right (by omega) (by omega))
    have h3 : (f.mag a.idx : ℝ) < 2 ^ (f.mw + f.bias + 2) * f.D := by exact_mod_cast h1.trans_le h2
    rw [show ((f.mw : Int) + ((f.bias : Int) + 2)) = ((f.mw + f.bias + 2 : ℕ) : Int) by push_cast; ring, zpow_natCast]
    exact h3
  have hnn : 0 ≤ e.toInt := by
    by_contra hc
    have := (splice_int_neg e2 he (by omega) a1).1 (by omega)
    omega
  have hdiv : ∀ x : Nat, 2 ^ f.mw ≤ x → x < 2 ^ (f.mw + 1) → x / 2 ^ f.mw = 1 := by
    intro x hx this
    apply Nat.div_eq_of_lt_le
    · omega
    · rw [pow_succ] at this; omega
  have h64 : 2 ^ (f.mw + 1) ≤ 2 ^ 64 := Nat.pow_le_pow_right (by omega) (by omega)
  have hm1 := splice_nat_div hm (sa.2.2.trans_le h64) (sb.2.2.trans_le h64) (hdiv ma sa.2.1 sa.2.2) (hdiv mb sb.2.1 sb.2.2)
  have hmlo : 2 ^ f.mw ≤ m.toNat := by
    by_contra hc
    rw [Nat.div_eq_of_lt (by omega)] at hm1; omega
  have hDr : (0 : ℝ) < f.D := by exact_mod_cast f.D_pos
  have hr2 := hrd (by omega)
  have hlt : 2 ^ f.mw * f.D ≤ f.mag f.infIdx := by
    rw [f.mag_inf_eq]; exact Nat.mul_le_mul_right _ (Nat.pow_le_pow_right (by omega) (by omega))
  have hge : ((2 ^ f.mw * f.D : ℕ) : ℝ) ≤ m.toNat * (2 : ℝ) ^ e.toInt * f.D := by
    have h1 : (2 : ℝ) ^ f.mw ≤ m.toNat := by exact_mod_cast hmlo
    have h2 : (1 : ℝ) ≤ 2 ^ e.toInt := one_le_zpow₀ (by norm_num) hnn
    push_cast
    calc _ = (2 : ℝ) ^ f.mw * 1 * f.D := by ring
      _ ≤ _ := by gcongr
  have h1 := f.rnd_mono hge
  rw [show f.rnd ((2 ^ f.mw * f.D : ℕ) : ℝ) = (2 ^ f.mw * f.D : ℕ) from
    f.rnd_short (Nat.pow_le_pow_right (by omega) (by omega)) hlt, ← hr2.2, Fl.toInt_abs, Fl.natAbs_toInt] at h1
  refine ⟨c, rfl, ?_⟩
  rcases hinf : c.isInf with _ | _
  · refine .inr ⟨Fl.finite_of_not hn hinf, ?_⟩
    rw [abs_value, le_div_iff₀ hDr]
    exact_mod_cast h1
  · exact .inl rfl

/-- C94: beyond `2^52` the child of two finite numbers can be infinite (`2^60` crossed with 1). -/
theorem C94_infinite :
    M.okAnd (floatCrossExp .debug Rng.script exp2Ref [(Fl.ofNat (2 ^ 60) : F64), Fl.ofNat 1] [59, 14, 0])
      (fun cs _ => cs.all Fl.isInf && cs.length == 1) = true := by decide +kernel

/-- C94: the child of two positive normal numbers can be zero (the smallest one crossed with `2^-12`). -/
theorem C94_zero :
    M.okAnd (floatCrossExp .debug Rng.script exp2Ref [(Fl.ofRat false 1 (2 ^ 1022) : F64), Fl.ofRat false 1 (2 ^ 12)] [0, 5, 0])
      (fun cs _ => cs.all Fl.isZero && cs.length == 1) = true := by decide +kernel

/-- Two numbers for which the conditions hold, with the range from `2^-12` to 16 in `f64` (`j = -4`, `k = 4`). -/
example : let a : F64 := Fl.ofNat 3; let b : F64 := Fl.ofNat 5;
    1 - (Fmt.f64.bias : Int) ≤ Fmt.f64.mw + (-4) * 2 ^ 4 ∧ Fmt.f64.mw + (-4 + 1) * 2 ^ 4 ≤ (Fmt.f64.bias : Int) + 1 ∧
    ((2 : ℝ) ^ ((Fmt.f64.mw : Int) + (-4) * 2 ^ 4) ≤ |value a| ∧ |value a| < (2 : ℝ) ^ ((Fmt.f64.mw : Int) + (-4 + 1) * 2 ^ 4)) ∧
    ((2 : ℝ) ^ ((Fmt.f64.mw : Int) + (-4) * 2 ^ 4) ≤ |value b| ∧ |value b| < (2 : ℝ) ^ ((Fmt.f64.mw : Int) + (-4 + 1) * 2 ^ 4)) ∧
    minNormal Fmt.f64 ≤ |value a| ∧ |value a| < 2 ^ Fmt.f64.mw := by
  have hv : ∀ n : Nat, n ≤ 5 → value (Fl.ofNat n : F64) = n := by
    intro n hn
    unfold value
    rw [(Fl.ofNat_exact (f := Fmt.f64) (n := n) (hn.trans (by decide)) (lt_of_lt_of_le (show n < 2 ^ 3 by omega)
      (Nat.pow_le_pow_right (by omega) (by decide)))).1]
    have : (0 : ℝ) < Fmt.f64.D := by exact_mod_cast Fmt.f64.D_pos
    push_cast; field_simp
  intro a b
  have ea : value a = 3 := by rw [hv 3 (by omega)]; norm_num
  have eb : value b = 5 := by rw [hv 5 (by omega)]; norm_num
  rw [ea, eb, minNormal_eq]
  have e1 : (Fmt.f64.mw : Int) = 52 := rfl
  have e2 : Fmt.f64.mw = 52 := rfl
  have e3 : (Fmt.f64.bias : Int) = 1023 := rfl
  rw [e1, e2, e3]
  have : (2 : ℝ) ^ (1 - 1023 : Int) ≤ 2 ^ (0 : Int) := zpow_le_zpow_right₀ (by norm_num) (by norm_num)
  norm_num at this ⊢
  linarith

end Verif.Props
