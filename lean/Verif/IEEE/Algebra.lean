import Verif.IEEE.More

/-!
# Algebra of IEEE values: commutativity, units, infinities, signs, relative rounding error
-/

namespace Verif.Fmt

variable (f : Fmt)

/-- The gap above a magnitude is at most `mag k / 2^mw` from the smallest normal magnitude on. -/
theorem gap_le {k : Nat} (hk : 2 ^ f.mw ≤ k) : 2 ^ f.mw * (f.mag (k + 1) - f.mag k) ≤ f.mag k := by
  rw [f.mag_succ]
  have h0 := f.two_pow_mw_pos
  have hd : 1 ≤ k / 2 ^ f.mw := (Nat.le_div_iff_mul_le h0).2 (by omega)
  have : f.mag k = (2 ^ f.mw + k % 2 ^ f.mw) * 2 ^ (k / 2 ^ f.mw - 1) := by
    unfold mag; rw [if_neg (by omega)]
  rw [this]
  have h : 2 ^ f.mw * 2 ^ (k / 2 ^ f.mw - 1) ≤ (2 ^ f.mw + k % 2 ^ f.mw) * 2 ^ (k / 2 ^ f.mw - 1) :=
    Nat.mul_le_mul_right _ (by omega)
  calc _ = 2 ^ f.mw * 2 ^ (k / 2 ^ f.mw - 1) := by rw [Nat.add_sub_cancel_left]
    _ ≤ _ := h

/-- The gap below a magnitude is at least `mag k / 2^(mw+1)`. -/
theorem le_gap (k : Nat) : f.mag (k + 1) ≤ 2 ^ (f.mw + 1) * (f.mag (k + 1) - f.mag k) := by
  rw [f.mag_succ]
  have h0 := f.two_pow_mw_pos
  have hmod : k % 2 ^ f.mw < 2 ^ f.mw := Nat.mod_lt _ h0
  have e : f.mag k + 2 ^ (k / 2 ^ f.mw - 1) - f.mag k = 2 ^ (k / 2 ^ f.mw - 1) := Nat.add_sub_cancel_left _ _
  rw [e]
  have : f.mag k + 2 ^ (k / 2 ^ f.mw - 1) ≤ 2 ^ (f.mw + 1) * 2 ^ (k / 2 ^ f.mw - 1) := by
    unfold mag
    split
    · next h =>
      rw [h]
      have : k < 2 ^ f.mw := by
        by_contra hc
        have : 1 ≤ k / 2 ^ f.mw := (Nat.le_div_iff_mul_le h0).2 (by omega)
        omega
      simp [pow_succ]; omega
    · rw [pow_succ]
      have : 2 ^ f.mw + k % 2 ^ f.mw + 1 ≤ 2 ^ f.mw * 2 := by omega
      calc _ = (2 ^ f.mw + k % 2 ^ f.mw + 1) * 2 ^ (k / 2 ^ f.mw - 1) := by ring
        _ ≤ _ := Nat.mul_le_mul_right _ this
  exact this

/-- Rounding moves a number by at most half the gap it lies in. -/
theorem rnd_le_half {q : ℝ} {k : Nat} (h1 : (f.mag k : ℝ) ≤ q) (h2 : q < f.mag (k + 1)) :
    (f.rnd q : ℝ) ≤ q + ((f.mag (k + 1) : ℝ) - f.mag k) / 2 := by
  have hq : 0 ≤ q := le_trans (by positivity) h1
  rw [f.rnd_of_nonneg hq]
  have hfl : f.floorIdx (⌊2 * q⌋₊ / 2) = k := by
    apply f.floorIdx_unique
    · have : (2 * f.mag k : ℕ) ≤ ⌊2 * q⌋₊ := Nat.le_floor (by push_cast; linarith)
      omega
    · have : ⌊2 * q⌋₊ < 2 * f.mag (k + 1) := (Nat.floor_lt (by linarith)).2 (by push_cast; linarith)
      omega
  have hlt : f.mag k < f.mag (k + 1) := f.mag_lt_mag.2 (Nat.lt_succ_self k)
  have hltR : (f.mag k : ℝ) < f.mag (k + 1) := by exact_mod_cast hlt
  have hr : f.ridx q ≤ k ∨ (f.mag k + f.mag (k + 1) ≤ ⌊2 * q⌋₊ ∧ f.ridx q ≤ k + 1) := by
    unfold ridx
    rw [roundIdx_eq]
    simp only [roundRaw, hfl]
    split_ifs
    · left; exact min_le_left _ _
    · right; exact ⟨by omega, min_le_left _ _⟩
    · right; exact ⟨by omega, min_le_left _ _⟩
    · left; exact min_le_left _ _
    · right; exact ⟨by omega, min_le_left _ _⟩
  rcases hr with hr | ⟨hm, hr⟩
  · have : (f.mag (f.ridx q) : ℝ) ≤ f.mag k := by exact_mod_cast f.mag_le_mag.2 hr
    push_cast; linarith
  · have h3 : (f.mag (f.ridx q) : ℝ) ≤ f.mag (k + 1) := by exact_mod_cast f.mag_le_mag.2 hr
    have h4 : ((f.mag k + f.mag (k + 1) : ℕ) : ℝ) ≤ 2 * q := by
      refine le_trans ?_ (Nat.floor_le (by linarith))
      exact_mod_cast hm
    push_cast at h4 ⊢; linarith

/-- Relative error of rounding up, from the smallest normal number on. -/
theorem rnd_le_rel {q : ℝ} (h : (2 : ℝ) ^ f.mw ≤ q) : (f.rnd q : ℝ) ≤ q * (1 + 1 / 2 ^ (f.mw + 1)) := by
  have hq : 0 ≤ q := le_trans (by positivity) h
  obtain ⟨g1, g2⟩ := f.floorIdx_spec ⌊q⌋₊
  set k := f.floorIdx ⌊q⌋₊ with hk
  have h1 : (f.mag k : ℝ) ≤ q := le_trans (by exact_mod_cast g1) (Nat.floor_le hq)
  have h2 : q < f.mag (k + 1) := by
    have : ⌊q⌋₊ + 1 ≤ f.mag (k + 1) := g2
    have h3 := Nat.lt_floor_add_one q
    have h4 : ((⌊q⌋₊ + 1 : ℕ) : ℝ) ≤ f.mag (k + 1) := by exact_mod_cast this
    push_cast at h4; linarith
  have hn : 2 ^ f.mw ≤ k := by
    rw [hk, f.le_floorIdx, f.mag_small (by rw [pow_succ]; omega)]
    exact Nat.le_floor (by exact_mod_cast h)
  have hg := f.gap_le hn
  have hlt : f.mag k < f.mag (k + 1) := f.mag_lt_mag.2 (Nat.lt_succ_self k)
  have hgR : (2 : ℝ) ^ f.mw * ((f.mag (k + 1) : ℝ) - f.mag k) ≤ f.mag k := by
    have : ((2 ^ f.mw * (f.mag (k + 1) - f.mag k) : ℕ) : ℝ) ≤ f.mag k := by exact_mod_cast hg
    rw [Nat.cast_mul, Nat.cast_sub hlt.le] at this
    push_cast at this; exact this
  have := f.rnd_le_half h1 h2
  have hp : (0 : ℝ) < 2 ^ f.mw := by positivity
  have h5 : ((f.mag (k + 1) : ℝ) - f.mag k) / 2 ≤ q * (1 / 2 ^ (f.mw + 1)) := by
    rw [pow_succ, mul_one_div, div_le_div_iff₀ (by norm_num) (by positivity)]
    nlinarith
  linarith

/-- A magnitude below another one is smaller by a relative `2^-(mw+1)` at least. -/
theorem mag_lt_rel {j k : Nat} (h : j < k) : (f.mag j : ℝ) ≤ f.mag k * (1 - 1 / 2 ^ (f.mw + 1)) := by
  obtain ⟨n, rfl⟩ : ∃ n, k = n + 1 := ⟨k - 1, by omega⟩
  have h1 : (f.mag j : ℝ) ≤ f.mag n := by exact_mod_cast f.mag_le_mag.2 (by omega)
  have hlt : f.mag n < f.mag (n + 1) := f.mag_lt_mag.2 (Nat.lt_succ_self n)
  have h2 : (f.mag (n + 1) : ℝ) ≤ 2 ^ (f.mw + 1) * ((f.mag (n + 1) : ℝ) - f.mag n) := by
    have : ((f.mag (n + 1) : ℕ) : ℝ) ≤ ((2 ^ (f.mw + 1) * (f.mag (n + 1) - f.mag n) : ℕ) : ℝ) := by
      exact_mod_cast f.le_gap n
    rw [Nat.cast_mul, Nat.cast_sub hlt.le] at this
    push_cast at this; exact this
  have hp : (0 : ℝ) < 2 ^ (f.mw + 1) := by positivity
  have h3 : (f.mag (n + 1) : ℝ) / 2 ^ (f.mw + 1) ≤ (f.mag (n + 1) : ℝ) - f.mag n := by
    rw [div_le_iff₀ hp]; linarith
  rw [mul_sub, mul_one, mul_one_div]
  linarith

end Verif.Fmt

namespace Verif.Fl

variable {f : Fmt}

theorem add_comm' (x y : Fl f) : x.add y = y.add x := by
  unfold add
  cases hx : x.isNan <;> cases hy : y.isNan <;> simp only [Bool.or_self, Bool.or_true, Bool.or_false,
    Bool.false_eq_true, ↓reduceIte]
  cases ix : x.isInf <;> cases iy : y.isInf <;> simp only [Bool.false_and, Bool.true_and, Bool.false_eq_true, ↓reduceIte]
  · rw [_root_.add_comm, Bool.and_comm]
  · by_cases h : x.sgn = y.sgn
    · simp only [h, bne_self_eq_false, Bool.false_eq_true, ↓reduceIte]
      exact ext' h (by rw [isInf_iff.1 ix, isInf_iff.1 iy])
    · have h' : y.sgn ≠ x.sgn := fun e => h e.symm
      rw [bne_iff_ne.2 h, bne_iff_ne.2 h']
      simp

theorem mul_comm' (x y : Fl f) : x.mul y = y.mul x := by
  unfold mul
  rw [Bool.or_comm, Bool.or_comm x.isInf, Bool.or_comm x.isZero, bne_comm, Nat.mul_comm (f.mag x.idx)]

/-- Multiplication by `1` or `-1` only touches the sign. -/
theorem mul_sone (x : Fl f) (s : Bool) (hx : x.isNan = false) :
    x.mul (mk' s f.oneIdx) = mk' (x.sgn != s) x.idx := by
  have hi : (mk' s f.oneIdx : Fl f).idx = f.oneIdx := idx_mk' _ oneIdx_lt
  have hs : (mk' s f.oneIdx : Fl f).sgn = s := sgn_mk' _ oneIdx_lt
  have hf : (mk' s f.oneIdx : Fl f).isFinite = true := by rw [isFinite_iff, hi]; exact f.oneIdx_lt_inf
  have h0 : f.oneIdx ≠ 0 := by
    intro h
    have := f.mag_oneIdx
    rw [h, f.mag_zero] at this
    have := f.D_pos; omega
  have hz : (mk' s f.oneIdx : Fl f).isZero = false := by
    simp [isZero, hi, h0]
  unfold mul
  simp only [hx, isNan_of_isFinite hf, isInf_of_isFinite hf, Bool.or_false, Bool.false_eq_true, ↓reduceIte, hs, hz, hi,
    f.mag_oneIdx]
  cases ix : x.isInf with
  | true =>
    have := isInf_iff.1 ix
    have hzx : x.isZero = false := by
      have := f.infIdx_pos
      simp [isZero]; omega
    simp [hzx, this, inf]
  | false =>
    simp only [Bool.false_eq_true, ↓reduceIte]
    have hfx := finite_of_not hx ix
    have e1 : 2 * (f.mag x.idx * f.D) / f.D = 2 * f.mag x.idx := by
      rw [← Nat.mul_assoc]; exact Nat.mul_div_cancel _ f.D_pos
    have e2 : 2 * (f.mag x.idx * f.D) % f.D = 0 := by
      rw [← Nat.mul_assoc]; exact Nat.mul_mod_left _ _
    rw [e1, e2]
    unfold round
    rw [show decide ((0 : Nat) ≠ 0) = false from rfl, f.roundIdx_exact (Nat.le_of_lt (isFinite_iff.1 hfx))]

theorem mul_one' (x : Fl f) (hx : x.isNan = false) : x.mul one = x := by
  unfold one
  rw [mul_sone x false hx]
  simp [mk'_sgn_idx]

theorem one_mul' (x : Fl f) (hx : x.isNan = false) : (one : Fl f).mul x = x := by
  rw [mul_comm', mul_one' x hx]

theorem isNan_add_left (x y : Fl f) (h : x.isNan = true) : x.add y = nan := by unfold add; simp [h]
theorem isNan_add_right (x y : Fl f) (h : y.isNan = true) : x.add y = nan := by unfold add; simp [h]
theorem isNan_mul_left (x y : Fl f) (h : x.isNan = true) : x.mul y = nan := by unfold mul; simp [h]
theorem isNan_mul_right (x y : Fl f) (h : y.isNan = true) : x.mul y = nan := by unfold mul; simp [h]
theorem isNan_div_left (x y : Fl f) (h : x.isNan = true) : x.div y = nan := by unfold div; simp [h]
theorem isNan_div_right (x y : Fl f) (h : y.isNan = true) : x.div y = nan := by unfold div; simp [h]

/-- The sign of a product or a quotient that is not NaN. -/
theorem sgn_mul {x y : Fl f} (h : (x.mul y).isNan = false) : (x.mul y).sgn = (x.sgn != y.sgn) := by
  unfold mul at h ⊢
  split_ifs with h1 h2 h3
  · rw [if_pos h1, isNan_nan] at h; cases h
  · rw [if_neg h1, if_pos h2, if_pos h3, isNan_nan] at h; cases h
  · exact sgn_inf _
  · exact sgn_round _ _ _

theorem sgn_div {x y : Fl f} (h : (x.div y).isNan = false) : (x.div y).sgn = (x.sgn != y.sgn) := by
  unfold div at h ⊢
  split_ifs with h1 h2 h3 h4 h5 h6
  · rw [if_pos h1, isNan_nan] at h; cases h
  · rw [if_neg h1, if_pos h2, if_pos h3, isNan_nan] at h; cases h
  · exact sgn_inf _
  · exact sgn_mk' _ (Nat.two_pow_pos _)
  · rw [if_neg h1, if_neg h2, if_neg h4, if_pos h5, if_pos h6, isNan_nan] at h; cases h
  · exact sgn_inf _
  · exact sgn_round _ _ _

theorem isFinite_false_cases {x : Fl f} (h : x.isFinite = false) : x.isNan = true ∨ x.isInf = true := by
  cases hn : x.isNan with
  | true => exact .inl rfl
  | false =>
    cases hi : x.isInf with
    | true => exact .inr rfl
    | false => rw [finite_of_not hn hi] at h; cases h

/-- Dividing by an infinity gives zero or NaN. -/
theorem div_inf (x y : Fl f) (hy : y.isInf = true) : (x.div y).isNan = true ∨ (x.div y).isZero = true := by
  have hn : y.isNan = false := by rw [not_isNan_iff, isInf_iff.1 hy]
  unfold div
  simp only [hn, hy, Bool.or_false, ↓reduceIte]
  split_ifs
  · exact .inl isNan_nan
  · exact .inl isNan_nan
  · right; rw [isZero_iff, idx_mk' _ (Nat.two_pow_pos _)]

end Verif.Fl
