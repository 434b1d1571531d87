import Verif.IEEE.Basic
import Mathlib.Tactic.Ring
import Mathlib.Tactic.Linarith
import Mathlib.Order.Monotone.Basic

/-!
# Lemmas about magnitudes and rounding
-/

namespace Verif
namespace Fmt

variable (f : Fmt)

theorem two_pow_mw_pos : 0 < 2 ^ f.mw := Nat.two_pow_pos _

/-- Consecutive magnitudes differ by the ulp. -/
theorem mag_succ (k : Nat) : f.mag (k + 1) = f.mag k + 2 ^ (k / 2 ^ f.mw - 1) := by
  have hp := f.two_pow_mw_pos
  set P := 2 ^ f.mw with hP
  have hk := Nat.div_add_mod k P
  have hkm := Nat.mod_lt k hp
  set e := k / P with he
  set r := k % P with hr
  by_cases hc : r + 1 < P
  · have h1 : (k + 1) / P = e := by
      have : k + 1 = P * e + (r + 1) := by omega
      rw [this, Nat.mul_add_div hp, Nat.div_eq_of_lt hc, Nat.add_zero]
    have h2 : (k + 1) % P = r + 1 := by
      have : k + 1 = P * e + (r + 1) := by omega
      rw [this, Nat.mul_add_mod, Nat.mod_eq_of_lt hc]
    unfold mag
    rw [← hP, h1, h2, ← he, ← hr]
    by_cases h0 : e = 0
    · simp [h0]
    · simp only [h0, if_false]; ring
  · have hr1 : r + 1 = P := by omega
    have h1 : (k + 1) / P = e + 1 := by
      have : k + 1 = P * (e + 1) := by rw [Nat.mul_add, Nat.mul_one]; omega
      rw [this, Nat.mul_div_cancel_left _ hp]
    have h2 : (k + 1) % P = 0 := by
      have : k + 1 = P * (e + 1) := by rw [Nat.mul_add, Nat.mul_one]; omega
      rw [this, Nat.mul_mod_right]
    unfold mag
    rw [← hP, h1, h2, ← he, ← hr]
    simp only [Nat.add_one_ne_zero, if_false, Nat.add_zero, Nat.add_sub_cancel]
    by_cases h0 : e = 0
    · have hkr : k = r := by rw [← hk, h0, Nat.mul_zero, Nat.zero_add]
      simp only [h0, if_true, pow_zero, Nat.mul_one, Nat.zero_sub]
      clear_value P e r; omega
    · simp only [h0, if_false]
      obtain ⟨e', he'⟩ : ∃ e', e = e' + 1 := Nat.exists_eq_succ_of_ne_zero h0
      have : P + r + 1 = 2 * P := by omega
      rw [he']
      simp only [Nat.add_sub_cancel, pow_succ]
      have : (P + r) * 2 ^ e' + 2 ^ e' = (P + r + 1) * 2 ^ e' := by ring
      rw [this]; rw [‹P + r + 1 = 2 * P›]; ring

theorem mag_strictMono : StrictMono f.mag := by
  apply strictMono_nat_of_lt_succ
  intro k
  rw [mag_succ]
  have := Nat.two_pow_pos (k / 2 ^ f.mw - 1)
  omega

theorem mag_lt_mag {a b : Nat} : f.mag a < f.mag b ↔ a < b := f.mag_strictMono.lt_iff_lt
theorem mag_le_mag {a b : Nat} : f.mag a ≤ f.mag b ↔ a ≤ b := f.mag_strictMono.le_iff_le
theorem mag_inj {a b : Nat} : f.mag a = f.mag b ↔ a = b := f.mag_strictMono.injective.eq_iff

@[simp] theorem mag_zero : f.mag 0 = 0 := by simp [mag]

theorem mag_eq_zero {k : Nat} : f.mag k = 0 ↔ k = 0 := by
  rw [← f.mag_zero, mag_inj]; simp

theorem mag_pos {k : Nat} : 0 < f.mag k ↔ 0 < k := by
  have := f.mag_lt_mag (a := 0) (b := k); simpa using this

/-- `floorIdx v` is the greatest index whose magnitude is at most `v`. -/
theorem floorIdx_spec (v : Nat) :
    f.mag (f.floorIdx v) ≤ v ∧ v < f.mag (f.floorIdx v + 1) := by
  have hp := f.two_pow_mw_pos
  rw [mag_succ]
  unfold floorIdx
  split
  · next h =>
    have hv : v < 2 ^ (f.mw + 1) := by
      rcases Nat.eq_zero_or_pos v with rfl | h0
      · exact Nat.two_pow_pos _
      · exact (Nat.log2_lt (by omega)).1 (by omega)
    have hm : f.mag v = v := by
      unfold mag
      split
      · rfl
      · next h1 =>
        have hd : v / 2 ^ f.mw = 1 := by
          have h2 : v / 2 ^ f.mw < 2 := by
            rw [Nat.div_lt_iff_lt_mul hp]; rw [pow_succ] at hv; omega
          have h3 : 0 < v / 2 ^ f.mw := Nat.pos_of_ne_zero h1
          generalize v / 2 ^ f.mw = z at *
          omega
        have := Nat.div_add_mod v (2 ^ f.mw)
        rw [hd] at this ⊢
        simp; omega
    have := Nat.two_pow_pos (v / 2 ^ f.mw - 1)
    omega
  · next h =>
    have h0 : v ≠ 0 := by
      rintro rfl; simp at h
    have hle := Nat.log2_self_le h0
    have hlt : v < 2 ^ (v.log2 + 1) := (Nat.log2_lt h0).1 (by omega)
    set L := v.log2 with hL
    obtain ⟨e, he⟩ : ∃ e, L = f.mw + e ∧ 0 < e := ⟨L - f.mw, by omega, by omega⟩
    have hLe : L - f.mw = e := by omega
    rw [hLe]
    have hpe := Nat.two_pow_pos e
    set q := v / 2 ^ e with hq
    have hq1 : 2 ^ f.mw ≤ q := by
      rw [hq, Nat.le_div_iff_mul_le hpe, ← pow_add, ← he.1]; exact hle
    have hq2 : q < 2 ^ f.mw * 2 := by
      rw [hq, Nat.div_lt_iff_lt_mul hpe]
      calc v < 2 ^ (L + 1) := hlt
        _ = 2 ^ f.mw * 2 * 2 ^ e := by rw [he.1]; ring
    have hi1 : (e * 2 ^ f.mw + q) / 2 ^ f.mw = e + 1 := by
      have : e * 2 ^ f.mw + q = 2 ^ f.mw * (e + 1) + (q - 2 ^ f.mw) := by
        rw [Nat.mul_add, Nat.mul_comm]; omega
      rw [this, Nat.mul_add_div hp, Nat.div_eq_of_lt (by omega)]
    have hi2 : (e * 2 ^ f.mw + q) % 2 ^ f.mw = q - 2 ^ f.mw := by
      have : e * 2 ^ f.mw + q = 2 ^ f.mw * (e + 1) + (q - 2 ^ f.mw) := by
        rw [Nat.mul_add, Nat.mul_comm]; omega
      rw [this, Nat.mul_add_mod, Nat.mod_eq_of_lt (by omega)]
    have hm : f.mag (e * 2 ^ f.mw + q) = q * 2 ^ e := by
      unfold mag
      rw [hi1, hi2]
      simp only [Nat.add_one_ne_zero, if_false, Nat.add_sub_cancel]
      congr 1; omega
    rw [hm, hi1]
    simp only [Nat.add_sub_cancel]
    have h1 := Nat.div_add_mod v (2 ^ e)
    have h2 := Nat.mod_lt v hpe
    rw [← hq, Nat.mul_comm] at h1
    omega

theorem floorIdx_unique {v k : Nat} (h1 : f.mag k ≤ v) (h2 : v < f.mag (k + 1)) :
    f.floorIdx v = k := by
  obtain ⟨h3, h4⟩ := f.floorIdx_spec v
  have a := (f.mag_lt_mag).1 (lt_of_le_of_lt h1 h4)
  have b := (f.mag_lt_mag).1 (lt_of_le_of_lt h3 h2)
  omega

theorem floorIdx_mag (k : Nat) : f.floorIdx (f.mag k) = k :=
  f.floorIdx_unique le_rfl (f.mag_strictMono (Nat.lt_succ_self k))

theorem le_floorIdx {v k : Nat} : k ≤ f.floorIdx v ↔ f.mag k ≤ v := by
  obtain ⟨h3, h4⟩ := f.floorIdx_spec v
  constructor
  · intro h; exact le_trans (f.mag_le_mag.2 h) h3
  · intro h
    have := (f.mag_lt_mag).1 (lt_of_le_of_lt h h4)
    omega

/-- Which index the rounding picks before saturation. -/
def roundRaw (t : Nat) (sticky : Bool) : Nat :=
  let k := f.floorIdx (t / 2)
  let m := f.mag k + f.mag (k + 1)
  if t < m then k
  else if m < t then k + 1
  else if sticky then k + 1
  else if k % 2 = 0 then k else k + 1

theorem roundIdx_eq (t : Nat) (s : Bool) : f.roundIdx t s = min (f.roundRaw t s) f.infIdx := rfl

theorem roundIdx_le_inf (t : Nat) (s : Bool) : f.roundIdx t s ≤ f.infIdx := by
  rw [roundIdx_eq]; exact min_le_right _ _

/-- Order on exact results: `(t, sticky)` stands for a real number `2x` with
`2x = t` if not sticky and `t < 2x < t+1` otherwise. -/
def QLe (t1 : Nat) (s1 : Bool) (t2 : Nat) (s2 : Bool) : Prop :=
  t1 < t2 ∨ (t1 = t2 ∧ (s1 = true → s2 = true))

theorem roundRaw_mono {t1 t2 : Nat} {s1 s2 : Bool} (h : QLe t1 s1 t2 s2) :
    f.roundRaw t1 s1 ≤ f.roundRaw t2 s2 := by
  have hk : f.floorIdx (t1 / 2) ≤ f.floorIdx (t2 / 2) := by
    rw [le_floorIdx]
    refine le_trans (f.floorIdx_spec _).1 (Nat.div_le_div_right ?_)
    rcases h with h | h
    · omega
    · omega
  rcases Nat.lt_or_eq_of_le hk with hk | hk
  · have : f.roundRaw t1 s1 ≤ f.floorIdx (t1 / 2) + 1 := by
      simp only [roundRaw]; split_ifs <;> omega
    have : f.floorIdx (t2 / 2) ≤ f.roundRaw t2 s2 := by
      simp only [roundRaw]; split_ifs <;> omega
    omega
  · simp only [roundRaw]
    rw [hk]
    rcases h with h | ⟨rfl, h⟩
    · split_ifs <;> omega
    · cases s1 <;> cases s2 <;> simp at h ⊢
      split_ifs <;> omega

theorem roundIdx_mono {t1 t2 : Nat} {s1 s2 : Bool} (h : QLe t1 s1 t2 s2) :
    f.roundIdx t1 s1 ≤ f.roundIdx t2 s2 := by
  rw [roundIdx_eq, roundIdx_eq]
  exact min_le_min_right _ (f.roundRaw_mono h)

theorem roundRaw_exact (k : Nat) : f.roundRaw (2 * f.mag k) false = k := by
  have h : 2 * f.mag k / 2 = f.mag k := by omega
  simp only [roundRaw, h, floorIdx_mag]
  have := f.mag_strictMono (Nat.lt_succ_self k)
  rw [if_pos (by have : f.mag k < f.mag (k+1) := this; omega)]

theorem roundIdx_exact {k : Nat} (hk : k ≤ f.infIdx) : f.roundIdx (2 * f.mag k) false = k := by
  rw [roundIdx_eq, roundRaw_exact, min_eq_left hk]

/-- Sandwich: an exact result at least `mag k` rounds to at least `k`. -/
theorem le_roundIdx {k t : Nat} {s : Bool} (hk : k ≤ f.infIdx) (h : 2 * f.mag k ≤ t) :
    k ≤ f.roundIdx t s := by
  rw [← f.roundIdx_exact hk]
  apply roundIdx_mono
  rcases Nat.lt_or_eq_of_le h with h | h
  · exact .inl h
  · exact .inr ⟨h, by simp⟩

/-- Sandwich: an exact result at most `mag k` rounds to at most `k`. -/
theorem roundIdx_le {k t : Nat} {s : Bool} (h : QLe t s (2 * f.mag k) false) :
    f.roundIdx t s ≤ k := by
  rcases Nat.lt_or_ge f.infIdx k with hk | hk
  · exact le_trans (f.roundIdx_le_inf _ _) (le_of_lt hk)
  · have := f.roundIdx_mono h
    rwa [f.roundIdx_exact hk] at this

@[simp] theorem roundIdx_zero : f.roundIdx 0 false = 0 := by
  have := f.roundIdx_exact (k := 0) (Nat.zero_le _)
  simpa using this

/-- **Nearest**: among all representable magnitudes none is closer to the exact
result `x`, `2x = t + ε` (`ε = 0`, or `0 < ε < 1` if sticky), than the rounded one.
Stated with doubled distances and both one-sided bounds of `ε`. -/
theorem roundRaw_nearest (t : Nat) (s : Bool) (j : Nat) :
    let r := f.roundRaw t s
    (((2 * f.mag r : Int) - t).natAbs ≤ ((2 * f.mag j : Int) - t).natAbs) ∧
    (s = true → ((2 * f.mag r : Int) - (t + 1)).natAbs ≤ ((2 * f.mag j : Int) - (t + 1)).natAbs) := by
  intro r
  obtain ⟨h1, h2⟩ := f.floorIdx_spec (t / 2)
  set k := f.floorIdx (t / 2) with hk
  have hr : r = f.roundRaw t s := rfl
  simp only [roundRaw, ← hk] at hr
  have hj : f.mag j ≤ f.mag k ∨ f.mag (k + 1) ≤ f.mag j := by
    rcases Nat.lt_or_ge k j with h | h
    · exact .inr (f.mag_le_mag.2 h)
    · exact .inl (f.mag_le_mag.2 h)
  clear_value r k
  split_ifs at hr <;> (subst hr; constructor <;> intros <;> first | contradiction | omega)

theorem infIdx_pos : 0 < f.infIdx := by
  unfold infIdx
  have := f.hew
  have h : 2 ^ 2 ≤ 2 ^ f.ew := Nat.pow_le_pow_right (by omega) this
  exact Nat.mul_pos (by omega) f.two_pow_mw_pos

theorem infIdx_lt : f.infIdx + 2 ^ f.mw = 2 ^ f.kw := by
  unfold infIdx kw
  have h : 1 ≤ 2 ^ f.ew := Nat.two_pow_pos _
  rw [pow_add, Nat.sub_mul, Nat.one_mul]
  have : 2 ^ f.mw ≤ 2 ^ f.ew * 2 ^ f.mw := Nat.le_mul_of_pos_left _ h
  omega

theorem one_lt_pow_mw : 1 < 2 ^ f.mw := Nat.one_lt_two_pow (by have := f.hmw; omega)

theorem bias_pos : 1 ≤ f.bias := by
  unfold bias
  have : 2 ^ 1 ≤ 2 ^ (f.ew - 1) := Nat.pow_le_pow_right (by omega) (by have := f.hew; omega)
  omega

theorem D_pos : 0 < f.D := Nat.two_pow_pos _

theorem mag_oneIdx : f.mag f.oneIdx = f.D := by
  unfold mag oneIdx D
  have hb := f.bias_pos
  rw [Nat.mul_div_cancel _ f.two_pow_mw_pos, Nat.mul_mod_left]
  rw [if_neg (by omega), Nat.add_zero, ← pow_add]
  congr 1; omega

theorem two_bias : 2 * (f.bias + 1) = 2 ^ f.ew := by
  unfold bias
  have h : 1 ≤ 2 ^ (f.ew - 1) := Nat.two_pow_pos _
  have : 2 ^ f.ew = 2 * 2 ^ (f.ew - 1) := by
    rw [← pow_succ']; congr 1; have := f.hew; omega
  omega

theorem oneIdx_lt_inf : f.oneIdx < f.infIdx := by
  unfold oneIdx infIdx
  have := f.two_bias
  have := f.bias_pos
  exact Nat.mul_lt_mul_of_pos_right (by omega) f.two_pow_mw_pos

/-- Infinity's nominal magnitude `2^(emax+1)`. -/
theorem mag_infIdx : f.mag f.infIdx = 2 ^ (2 ^ f.ew - 2 + f.mw) := by
  unfold mag infIdx
  have h : 2 ^ 2 ≤ 2 ^ f.ew := Nat.pow_le_pow_right (by omega) f.hew
  rw [Nat.mul_div_cancel _ f.two_pow_mw_pos, Nat.mul_mod_left]
  rw [if_neg (by omega), Nat.add_zero, ← pow_add]
  congr 1; omega

end Fmt
end Verif
