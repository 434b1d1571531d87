import Verif.Model.TestFunc
import Verif.Props.StatGoal
import Verif.Proofs.Trig

/-!
# C61-C64: test functions
-/

namespace Verif.Fl

variable {f g : Fmt}

theorem Pos.mul {x y : Fl f} (hx : Pos x) (hy : Pos y) : Pos (x.mul y) := by
  rcases hx with hx | hx
  · exact .inl (by rw [isNan_mul_left _ _ hx]; exact isNan_nan)
  rcases hy with hy | hy
  · exact .inl (by rw [isNan_mul_right _ _ hy]; exact isNan_nan)
  cases h : (x.mul y).isNan with
  | true => exact .inl h
  | false => exact .inr (by rw [sgn_mul h, hx, hy]; rfl)

theorem isNan_cast (x : Fl f) : (x.cast : Fl g).isNan = x.isNan := by
  unfold cast
  split
  · rw [isNan_nan]; simp_all
  split
  · rw [isNan_inf]; simp_all
  · dsimp only; rw [isNan_round]; simp_all

theorem Pos.cast {x : Fl f} (hx : Pos x) : Pos (x.cast : Fl g) := by
  rcases hx with hx | hx
  · exact .inl (by rw [isNan_cast]; exact hx)
  unfold Fl.cast
  split
  · exact .inl isNan_nan
  split
  · exact .inr (by rw [sgn_inf]; exact hx)
  · exact .inr (by dsimp only; rw [sgn_round]; exact hx)

theorem Pos.le {x : Fl f} (h : Pos x) : x.isNan = true ∨ zero.le x = true := by
  rcases h with h | h
  · exact .inl h
  cases hn : x.isNan with
  | true => exact .inl rfl
  | false => exact .inr (le_iff.2 ⟨isNan_zero, hn, by rw [zero_toInt]; exact toInt_nonneg_of_sgn h⟩)

/-- A zero, of either sign. -/
def IsZ (x : Fl f) : Prop := x.isFinite = true ∧ x.toInt = 0

theorem isZ_zero : IsZ (zero : Fl f) := ⟨isFinite_zero, zero_toInt⟩

theorem Rounds.isZ {x : Fl f} {q : ℝ} (h : Rounds q x) (hq : q = 0) : IsZ x := by
  have h0 : x.toInt = 0 := by rw [h.2, hq]; exact f.rnd_zero
  exact ⟨isFinite_iff_toInt.2 (by rw [h0]; have := f.mag_lt_mag.2 f.infIdx_pos; simpa using Nat.lt_of_le_of_lt (Nat.zero_le _) this), h0⟩

theorem IsZ.add {x y : Fl f} (hx : IsZ x) (hy : IsZ y) : IsZ (x.add y) :=
  (add_rounds hx.1 hy.1).isZ (by rw [hx.2, hy.2]; simp)

theorem IsZ.mul_left {x y : Fl f} (hx : IsZ x) (hy : y.isFinite = true) : IsZ (x.mul y) :=
  (mul_rounds hx.1 hy).isZ (by rw [hx.2]; simp)

theorem IsZ.mul_right {x y : Fl f} (hx : x.isFinite = true) (hy : IsZ y) : IsZ (x.mul y) :=
  (mul_rounds hx hy.1).isZ (by rw [hy.2]; simp)

theorem isZ_sub {x y : Fl f} (hx : x.isFinite = true) (hy : y.isFinite = true) (h : x.toInt = y.toInt) : IsZ (x.sub y) :=
  (sub_rounds hx hy).isZ (by rw [h]; simp)

theorem IsZ.cast {x : Fl f} (hx : IsZ x) : IsZ (x.cast : Fl g) :=
  (cast_rounds hx.1).isZ (by rw [hx.2]; simp)

theorem IsZ.feq {x : Fl f} (hx : IsZ x) : x.feq zero = true :=
  feq_iff.2 ⟨isNan_of_isFinite hx.1, isNan_zero, by rw [hx.2, zero_toInt]⟩

theorem ofNat_two_pow {k : Nat} (hk : k ≤ f.bias) :
    (ofNat (2 ^ k) : Fl f).toInt = 2 ^ k * f.D ∧ (ofNat (2 ^ k) : Fl f).isFinite = true := by
  have hD : f.D = 2 ^ (f.bias + f.mw - 1) := rfl
  have hlt : 1 * 2 ^ (k + (f.bias + f.mw - 1)) < f.mag f.infIdx := by
    rw [f.mag_inf_eq, hD, _root_.one_mul, ← pow_add]
    exact Nat.pow_lt_pow_right (by omega) (by omega)
  have he := f.rnd_short (v := 1) (e := k + (f.bias + f.mw - 1)) (by have := two_le_pow (f := f); omega) hlt.le
  have h1 : (ofNat (2 ^ k) : Fl f).toInt = 2 ^ k * f.D := by
    rw [(ofNat_rounds (f := f) (2 ^ k)).2]
    have e : (((2 ^ k : ℕ) : ℝ) * f.D) = ((1 * 2 ^ (k + (f.bias + f.mw - 1)) : ℕ) : ℝ) := by
      rw [hD, pow_add]; push_cast; ring
    rw [e]
    refine Eq.trans (by exact_mod_cast he) ?_
    rw [hD, pow_add]; push_cast; ring
  refine ⟨h1, ?_⟩
  rw [isFinite_iff_toInt, h1]
  have h2 : ((2 ^ k * f.D : ℤ)).natAbs = 1 * 2 ^ (k + (f.bias + f.mw - 1)) := by
    have : (2 ^ k * (f.D : ℤ)) = ((1 * 2 ^ (k + (f.bias + f.mw - 1)) : ℕ) : ℤ) := by
      rw [hD, pow_add]; push_cast; ring
    rw [this, Int.natAbs_natCast]
  rw [h2]
  exact hlt

theorem isNan_mul_self {x : Fl f} (h : x.isNan = false) : (x.mul x).isNan = false := by
  unfold mul
  simp only [h, Bool.or_self, Bool.false_eq_true, ↓reduceIte]
  cases hi : x.isInf with
  | true =>
    have h0 : x.isZero = false := by
      rw [Bool.eq_false_iff]
      intro hz
      have h1 := isInf_iff.1 hi
      rw [isZero_iff.1 hz] at h1
      exact absurd h1 f.infIdx_pos.ne
    simp [h0, isNan_inf]
  | false =>
    simp only [Bool.false_eq_true, ↓reduceIte]
    rw [isNan_round]

theorem isNan_add_pos {x y : Fl f} (hx : x.isNan = false) (hy : y.isNan = false) (sx : x.sgn = false) (sy : y.sgn = false) :
    (x.add y).isNan = false ∧ (x.add y).sgn = false := by
  have hp := Pos.add (x := x) (y := y) (.inr sx) (.inr sy)
  have hn : (x.add y).isNan = false := by
    unfold add
    simp only [hx, hy, Bool.or_self, Bool.false_eq_true, ↓reduceIte]
    split
    · rw [sx, sy]; simp [hx]
    split
    · exact hy
    split
    · rw [not_isNan_iff, idx_mk' _ (Nat.two_pow_pos _)]; omega
    · exact isNan_round _ _ _
  refine ⟨hn, ?_⟩
  rcases hp with hp | hp
  · rw [hp] at hn; cases hn
  · exact hp

theorem isNan_sub_finite {x y : Fl f} (hx : x.isNan = false) (hy : y.isFinite = true) : (x.sub y).isNan = false := by
  unfold sub add
  rw [isNan_neg, isInf_neg]
  simp only [hx, isNan_of_isFinite hy, isInf_of_isFinite hy, Bool.or_self, Bool.false_eq_true, ↓reduceIte, Bool.false_and]
  split
  · exact hx
  split
  · rw [not_isNan_iff, idx_mk' _ (Nat.two_pow_pos _)]; omega
  · exact isNan_round _ _ _

end Verif.Fl

namespace Verif.Props

open Verif TestFunc

variable {σ α : Type} {f : Fmt}

/-! ## C61 paraboloid -/

theorem getD_lt {x : List ℝ} {i : Nat} (h : i < x.length) : x.getD i 0 = x[i] := by
  rw [List.getD_eq_getElem?_getD, List.getElem?_eq_getElem h]; rfl

theorem paraboloidLoop_pos : ∀ (x : List (Fl f)) (n : Nat) (acc : Fl f), Fl.Pos acc → Fl.Pos (paraboloidLoop n x acc) := by
  intro x
  induction x with
  | nil => intro n acc h; exact h
  | cons a x ih => intro n acc h; exact ih _ _ (h.add (Fl.pos_sq _))

theorem lit_pos (n d : Nat) : Fl.Pos (FloatT.lit n d : Fl f) := by
  show Fl.Pos (Fl.cast (Fl.ofRat false n d : F64) : Fl f)
  refine Fl.Pos.cast ?_
  unfold Fl.ofRat
  exact .inr (by dsimp only; rw [Fl.sgn_round])

/-- C61: the paraboloid is never negative, rounding included: it is NaN or at least zero. -/
theorem C61_nonneg (x : List (Fl f)) : (paraboloidF64 x).isNan = true ∨ Fl.zero.le (paraboloidF64 x) = true :=
  (paraboloidLoop_pos x 0 _ (lit_pos 0 1)).cast.le

theorem lit_zero (hf : 2 ≤ f.bias) : Fl.IsZ (FloatT.lit 0 1 : Fl f) := by
  obtain ⟨h1, h2⟩ := lit_exact hf (n := 0) (by omega)
  exact ⟨h1, by rw [h2]; simp⟩

/-- `n + 1` as the program computes it. -/
theorem succ_exact (hf : 2 ≤ f.bias) {n : Nat} (h : n + 1 ≤ 2 ^ (f.mw + 1)) (h' : n + 1 < 2 ^ (f.bias + 1)) :
    (FloatT.add (FloatT.ofNat n) (FloatT.lit 1 1) : Fl f).isFinite = true ∧
    (FloatT.add (FloatT.ofNat n) (FloatT.lit 1 1) : Fl f).toInt = (Fl.ofNat (n + 1) : Fl f).toInt := by
  obtain ⟨l1, l2⟩ := lit_exact hf (n := 1) (by omega)
  obtain ⟨e1, f1⟩ := Fl.ofNat_exact (f := f) (n := n) (by omega) (by omega)
  obtain ⟨e2, f2⟩ := Fl.ofNat_exact (f := f) (n := n + 1) h h'
  have hr := Fl.add_rounds f1 l1
  have hr' := Fl.ofNat_rounds (f := f) (n + 1)
  have : (((Fl.ofNat n : Fl f).toInt : ℝ) + ((FloatT.lit 1 1 : Fl f).toInt : ℝ)) = ((n + 1 : ℕ) : ℝ) * f.D := by
    rw [e1, l2]; push_cast; ring
  rw [this] at hr
  have e : (FloatT.add (FloatT.ofNat n) (FloatT.lit 1 1) : Fl f).toInt = (Fl.ofNat (n + 1) : Fl f).toInt := by
    rw [hr'.2]; exact hr.2
  refine ⟨?_, e⟩
  rw [Fl.isFinite_iff_toInt, e]
  exact Fl.isFinite_iff_toInt.1 f2

/-- C61: a component that is not a number, and nothing else, makes the result not a number (for as many components as a
computer can hold). -/
theorem C61_nan (hf : 65 ≤ f.bias) (x : List (Fl f)) (hl : x.length < 2 ^ 64) :
    (paraboloidF64 x).isNan = true ↔ ∃ a ∈ x, a.isNan = true := by
  have hone := lit_exact (f := f) (by omega) (n := 1) (by omega)
  have key : ∀ (x : List (Fl f)) (n : Nat) (acc : Fl f), n + x.length < 2 ^ 64 →
      ((∃ a ∈ x, a.isNan = true) ∨ acc.isNan = true → (paraboloidLoop n x acc).isNan = true) ∧
      ((∀ a ∈ x, a.isNan = false) → acc.isNan = false → acc.sgn = false → (paraboloidLoop n x acc).isNan = false) := by
    intro x
    induction x with
    | nil => intro n acc _; exact ⟨by simp [paraboloidLoop], fun _ h _ => h⟩
    | cons a x ih =>
      intro n acc hlen
      rw [List.length_cons] at hlen
      obtain ⟨i1, i2⟩ := ih (n + 1) (FloatT.add acc (sq (FloatT.sub a (FloatT.add (FloatT.ofNat n) (FloatT.lit 1 1)))))
        (by omega)
      constructor
      · intro h
        refine i1 ?_
        rcases h with ⟨b, hb, hn⟩ | h
        · rcases List.mem_cons.1 hb with rfl | hb
          · right
            have h1 : Fl.sub b (FloatT.add (FloatT.ofNat n) (FloatT.lit 1 1)) = Fl.nan := by
              unfold Fl.sub; exact Fl.isNan_add_left _ _ hn
            show Fl.isNan (Fl.add acc (Fl.mul (Fl.sub b _) (Fl.sub b _))) = true
            rw [h1, Fl.isNan_mul_left _ _ Fl.isNan_nan, Fl.isNan_add_right _ _ Fl.isNan_nan]
            exact Fl.isNan_nan
          · exact .inl ⟨b, hb, hn⟩
        · right
          show Fl.isNan (Fl.add acc _) = true
          rw [Fl.isNan_add_left _ _ h]
          exact Fl.isNan_nan
      · intro hall h1 h2
        have hfin : (FloatT.add (FloatT.ofNat n) (FloatT.lit 1 1) : Fl f).isFinite = true := by
          have hn := Fl.ofNat_finite (f := f) (n := n) (by omega) (by omega)
          have hr := Fl.add_rounds hn hone.1
          have hle : ((Fl.ofNat n : Fl f).toInt : ℝ) + (FloatT.lit 1 1 : Fl f).toInt ≤ 2 ^ 65 * f.D := by
            have e1 := (Fl.le_iff.1 (Fl.ofNat_mono (f := f) (show n ≤ 2 ^ 64 by omega))).2.2
            have e2 : (Fl.ofNat (2 ^ 64) : Fl f).toInt = 2 ^ 64 * f.D := by
              have := (Fl.ofNat_two_pow (f := f) (k := 64) (by omega)).1
              exact_mod_cast this
            rw [e2] at e1
            have e3 : ((Fl.ofNat n : Fl f).toInt : ℝ) ≤ 2 ^ 64 * f.D := by exact_mod_cast e1
            rw [hone.2]
            have hD : (0 : ℝ) < f.D := by exact_mod_cast f.D_pos
            push_cast
            generalize (f.D : ℝ) = D at *
            have : (2 : ℝ) ^ 65 * D = 2 ^ 64 * D + 2 ^ 64 * D := by ring
            rw [this]
            nlinarith
          obtain ⟨e4, e5⟩ := Fl.ofNat_two_pow (f := f) (k := 65) hf
          have h4 := (Fl.le_iff.1 (hr.le (Fl.isNan_of_isFinite e5) (by rw [e4]; push_cast; norm_num at hle ⊢; exact hle))).2.2
          have h5 : (0 : ℤ) ≤ (FloatT.add (FloatT.ofNat n) (FloatT.lit 1 1) : Fl f).toInt := by
            have h6 := (Fl.le_iff.1 (hr.ge (z := Fl.zero) Fl.isNan_zero (by
              have h7 : (0 : ℤ) ≤ (Fl.ofNat n : Fl f).toInt := Fl.toInt_nonneg_of_sgn (Fl.sgn_ofNat n)
              have h8 : (0 : ℝ) ≤ (Fl.ofNat n : Fl f).toInt := by exact_mod_cast h7
              rw [hone.2, Fl.zero_toInt]
              have hD : (0 : ℝ) < f.D := by exact_mod_cast f.D_pos
              push_cast
              generalize (f.D : ℝ) = D at *
              linarith))).2.2
            rw [Fl.zero_toInt] at h6
            exact h6
          have h9 := Fl.isFinite_iff_toInt.1 e5
          have h4' : (FloatT.add (FloatT.ofNat n) (FloatT.lit 1 1) : Fl f).toInt ≤ (Fl.ofNat (2 ^ 65) : Fl f).toInt := h4
          rw [Fl.isFinite_iff_toInt]
          generalize (FloatT.add (FloatT.ofNat n) (FloatT.lit 1 1) : Fl f).toInt = A at *
          generalize (Fl.ofNat (2 ^ 65) : Fl f).toInt = B at *
          omega
        have hs := Fl.isNan_sub_finite (hall a (by simp)) hfin
        have hm := Fl.isNan_mul_self hs
        have hms : (Fl.mul (Fl.sub a (FloatT.add (FloatT.ofNat n) (FloatT.lit 1 1)))
            (Fl.sub a (FloatT.add (FloatT.ofNat n) (FloatT.lit 1 1)))).sgn = false := by
          rw [Fl.sgn_mul hm]; simp
        obtain ⟨k1, k2⟩ := Fl.isNan_add_pos h1 hm h2 hms
        exact i2 (fun b hb => hall b (by simp [hb])) k1 k2
  obtain ⟨k1, k2⟩ := key x 0 (FloatT.lit 0 1) (by omega)
  unfold paraboloidF64 paraboloid
  rw [Fl.isNan_cast]
  constructor
  · intro h
    by_contra hn
    push Not at hn
    have hz := lit_zero (f := f) (by omega)
    have hzn := Fl.isNan_of_isFinite hz.1
    have hzs : (FloatT.lit 0 1 : Fl f).sgn = false := by
      rcases lit_pos (f := f) 0 1 with h | h
      · rw [h] at hzn; cases hzn
      · exact h
    have := k2 (fun a ha => by simpa using hn a ha) hzn hzs
    rw [this] at h; cases h
  · intro h
    exact k1 (.inl h)

/-- C61: at (1, 2, ..., n) the result is exactly zero (as long as these numbers exist in the format). -/
theorem C61_zero_at (hf : 2 ≤ f.bias) (n : Nat) (h : n ≤ 2 ^ (f.mw + 1)) (h' : n < 2 ^ (f.bias + 1)) :
    (paraboloidF64 ((List.range n).map fun i => (Fl.ofNat (i + 1) : Fl f))).feq Fl.zero = true := by
  have key : ∀ (m k : Nat) (acc : Fl f), k + m ≤ n → Fl.IsZ acc →
      Fl.IsZ (paraboloidLoop k ((List.range' k m).map fun i => (Fl.ofNat (i + 1) : Fl f)) acc) := by
    intro m
    induction m with
    | zero => intro k acc _ h; exact h
    | succ m ih =>
      intro k acc hk hz
      rw [List.range'_succ, List.map_cons]
      refine ih (k + 1) _ (by omega) (hz.add ?_)
      obtain ⟨s1, s2⟩ := succ_exact (f := f) hf (n := k) (by omega) (by omega)
      obtain ⟨-, f2⟩ := Fl.ofNat_exact (f := f) (n := k + 1) (by omega) (by omega)
      have := Fl.isZ_sub f2 s1 s2.symm
      exact this.mul_left this.1
  rw [List.range_eq_range']
  exact ((key n 0 _ (by omega) (lit_zero hf)).cast).feq

/-- C61: in exact arithmetic the paraboloid is the sum of squares of its documentation. -/
theorem C61_exact (x : List ℝ) :
    paraboloid x = ((List.range x.length).map fun i => (x.getD i 0 - (i + 1)) ^ 2).sum := by
  have key : ∀ (x : List ℝ) (n : Nat) (acc : ℝ), paraboloidLoop n x acc =
      acc + ((List.range x.length).map fun i => (x.getD i 0 - ((n + i : ℕ) + 1)) ^ 2).sum := by
    intro x
    induction x with
    | nil => intro n acc; simp [paraboloidLoop]
    | cons a x ih =>
      intro n acc
      rw [paraboloidLoop, ih, List.length_cons, List.range_succ_eq_map, List.map_cons, List.sum_cons, List.map_map,
        ← add_assoc]
      congr 1
      · show acc + _ = acc + _
        congr 1
        show (a - ((n : ℝ) + ((1 : ℕ) : ℝ) / ((1 : ℕ) : ℝ))) * (a - ((n : ℝ) + ((1 : ℕ) : ℝ) / ((1 : ℕ) : ℝ))) = _
        simp
        ring
      · congr 1
        apply List.map_congr_left
        intro i _
        simp only [Function.comp, List.getD_cons_succ]
        push_cast
        ring
  unfold paraboloid
  rw [key]
  have : (FloatT.lit 0 1 : ℝ) = 0 := by show ((0 : ℕ) : ℝ) / ((1 : ℕ) : ℝ) = 0; simp
  rw [this, zero_add]
  simp

/-- C61: in exact arithmetic it is never negative and it is zero exactly at (1, 2, ..., n). -/
theorem C61_min (x : List ℝ) : 0 ≤ paraboloid x ∧
    (paraboloid x = 0 ↔ ∀ i (h : i < x.length), x[i] = (i : ℝ) + 1) := by
  rw [C61_exact]
  have hnn : ∀ a ∈ (List.range x.length).map (fun i : ℕ => (x.getD i 0 - ((i : ℝ) + 1)) ^ 2), (0 : ℝ) ≤ a := by
    intro a ha
    obtain ⟨i, -, rfl⟩ := List.mem_map.1 ha
    positivity
  refine ⟨List.sum_nonneg hnn, ?_, ?_⟩
  · intro h i hi
    have := List.single_le_sum hnn _ (List.mem_map_of_mem (f := fun i : ℕ => (x.getD i 0 - ((i : ℝ) + 1)) ^ 2)
      (List.mem_range.2 hi))
    rw [h] at this
    have h0 : (x.getD i 0 - ((i : ℝ) + 1)) ^ 2 = 0 := le_antisymm this (by positivity)
    have := (pow_eq_zero_iff two_ne_zero).1 h0
    rw [getD_lt hi] at this
    linarith
  · intro h
    have : (List.range x.length).map (fun i : ℕ => (x.getD i 0 - ((i : ℝ) + 1)) ^ 2) =
        (List.range x.length).map fun _ => (0 : ℝ) := by
      apply List.map_congr_left
      intro i hi
      have hi := List.mem_range.1 hi
      rw [getD_lt hi, h i hi]
      ring
    rw [this]
    simp

/-- C61: a point where it is positive. -/
example : paraboloidF64 [(Fl.ofNat 3 : F32), Fl.ofNat 2] = Fl.ofNat 4 := by decide +kernel

/-! ## C62 rosenbrock -/

/-- C62: the empty vector panics, in both build profiles. -/
theorem C62_empty [FloatT α] (p : Profile) (s : σ) : ∃ e, rosenbrock (σ := σ) p ([] : List α) s = .error e := by
  cases p <;> exact ⟨_, rfl⟩

/-- C62: a one-element vector gives zero. -/
theorem C62_single (hf : 2 ≤ f.bias) (p : Profile) (a : Fl f) (s : σ) :
    ∃ r, rosenbrockF64 p [a] s = .ok (r, s) ∧ r.feq Fl.zero = true := by
  refine ⟨Fl.cast (FloatT.lit 0 1 : Fl f), ?_, ((lit_zero hf).cast).feq⟩
  cases p <;> rfl

/-- The loop of `rosenbrock` on a non-empty vector. -/
theorem rosenbrock_eq [FloatT α] (p : Profile) (x : List α) (h : x ≠ []) : rosenbrock (σ := σ) p x =
    M.foldL (rosenbrockStep x) (FloatT.lit 0 1) (List.range (x.length - 1)) := by
  cases x with
  | nil => exact absurd rfl h
  | cons a x => cases p <;> rfl

theorem rosenbrockStep_ok [FloatT α] (x : List α) (sum : α) (n : Nat) (s : σ) (h : n + 1 < x.length) :
    rosenbrockStep x sum n s = .ok (FloatT.add (FloatT.add sum
      (FloatT.mul (FloatT.lit 100 1) (sq (FloatT.sub x[n + 1] (FloatT.mul x[n] x[n])))))
      (sq (FloatT.sub (FloatT.lit 1 1) x[n])), s) :=
  M.bind_eq_ok.2 ⟨x[n + 1], s, M.index_eq_ok.2 ⟨List.getElem?_eq_getElem h, rfl⟩,
    M.bind_eq_ok.2 ⟨x[n], s, M.index_eq_ok.2 ⟨List.getElem?_eq_getElem (by omega), rfl⟩, rfl⟩⟩

/-- C62: a non-empty vector never panics. -/
theorem rosenbrock_fold [FloatT α] (p : Profile) (x : List α) (h : x ≠ []) (s : σ) (I : α → Prop)
    (h0 : I (FloatT.lit 0 1)) (hstep : ∀ (sum : α) (n : Nat) (hn : n + 1 < x.length), I sum → I (FloatT.add (FloatT.add sum
      (FloatT.mul (FloatT.lit 100 1) (sq (FloatT.sub x[n + 1] (FloatT.mul x[n] x[n])))))
      (sq (FloatT.sub (FloatT.lit 1 1) x[n])))) : ∃ r, rosenbrock p x s = .ok (r, s) ∧ I r := by
  rw [rosenbrock_eq p x h]
  have key : ∀ (l : List Nat) (sum : α), (∀ n ∈ l, n + 1 < x.length) → I sum →
      ∃ r, M.foldL (rosenbrockStep (σ := σ) x) sum l s = .ok (r, s) ∧ I r := by
    intro l
    induction l with
    | nil => intro sum _ hi; exact ⟨sum, rfl, hi⟩
    | cons n l ih =>
      intro sum hl hi
      have hn := hl n (by simp)
      obtain ⟨r, h1, h2⟩ := ih _ (fun m hm => hl m (by simp [hm])) (hstep sum n hn hi)
      exact ⟨r, M.foldL_cons_ok.2 ⟨_, s, rosenbrockStep_ok x sum n s hn, h1⟩, h2⟩
  exact key _ _ (fun n hn => by have := List.mem_range.1 hn; omega) h0

/-- C62: rosenbrock of a non-empty vector returns, and it is never negative, rounding included. -/
theorem C62_nonneg (p : Profile) (x : List (Fl f)) (h : x ≠ []) (s : σ) :
    ∃ r, rosenbrockF64 p x s = .ok (r, s) ∧ (r.isNan = true ∨ Fl.zero.le r = true) := by
  have hstep : ∀ c : Fl f, Fl.Pos c → ∀ sum a b : Fl f, Fl.Pos sum →
      Fl.Pos (FloatT.add (FloatT.add sum (FloatT.mul c (sq a))) (sq b)) :=
    fun c hc sum a b hp => (hp.add (hc.mul (Fl.pos_sq _))).add (Fl.pos_sq _)
  obtain ⟨r, h1, h2⟩ := rosenbrock_fold p x h s Fl.Pos (lit_pos 0 1) (fun sum n hn hp =>
    hstep _ (lit_pos 100 1) _ _ _ hp)
  exact ⟨Fl.cast r, M.bind_eq_ok.2 ⟨r, s, h1, rfl⟩, h2.cast.le⟩

/-- C62: it is exactly zero at (1, ..., 1), for `f32` and `f64`. -/
theorem C62_zero_at (hf : f = Fmt.f32 ∨ f = Fmt.f64) (p : Profile) (n : Nat) (hn : n ≠ 0) (s : σ) :
    ∃ r, rosenbrockF64 p (List.replicate n (Fl.one : Fl f)) s = .ok (r, s) ∧ r.feq Fl.zero = true := by
  have hb : 2 ≤ f.bias := by rcases hf with rfl | rfl <;> decide
  have h100 : (FloatT.lit 100 1 : Fl f).isFinite = true := by rcases hf with rfl | rfl <;> decide +kernel
  have hz1 : Fl.IsZ (FloatT.mul (FloatT.lit 100 1)
      (sq (FloatT.sub Fl.one (FloatT.mul Fl.one Fl.one))) : Fl f) := by
    rcases hf with rfl | rfl <;> (unfold Fl.IsZ; decide +kernel)
  have hz2 : Fl.IsZ (sq (FloatT.sub (FloatT.lit 1 1) Fl.one) : Fl f) := by
    rcases hf with rfl | rfl <;> (unfold Fl.IsZ; decide +kernel)
  obtain ⟨r, h1, h2⟩ := rosenbrock_fold p (List.replicate n (Fl.one : Fl f)) (by simp [hn]) s Fl.IsZ (lit_zero hb)
    (fun sum m hm hp => by
      rw [List.getElem_replicate, List.getElem_replicate]
      exact (hp.add hz1).add hz2)
  exact ⟨Fl.cast r, M.bind_eq_ok.2 ⟨r, s, h1, rfl⟩, h2.cast.feq⟩

/-- C62: in exact arithmetic rosenbrock is the sum of its documentation. -/
theorem C62_exact (p : Profile) (x : List ℝ) (h : x ≠ []) (s : σ) : rosenbrock p x s = .ok
    (((List.range (x.length - 1)).map fun i =>
      100 * (x.getD (i + 1) 0 - x.getD i 0 ^ 2) ^ 2 + (1 - x.getD i 0) ^ 2).sum, s) := by
  rw [rosenbrock_eq p x h]
  have key : ∀ (l : List Nat) (sum : ℝ), (∀ n ∈ l, n + 1 < x.length) →
      M.foldL (rosenbrockStep (σ := σ) x) sum l s = .ok (sum + (l.map fun i =>
        100 * (x.getD (i + 1) 0 - x.getD i 0 ^ 2) ^ 2 + (1 - x.getD i 0) ^ 2).sum, s) := by
    intro l
    induction l with
    | nil => intro sum _; rw [List.map_nil, List.sum_nil, add_zero]; rfl
    | cons n l ih =>
      intro sum hl
      have hn := hl n (by simp)
      refine M.foldL_cons_ok.2 ⟨_, s, rosenbrockStep_ok x sum n s hn, ?_⟩
      rw [ih _ (fun m hm => hl m (by simp [hm])), List.map_cons, List.sum_cons, ← add_assoc]
      congr 3
      rw [getD_lt hn, getD_lt (by omega : n < x.length)]
      generalize x[n + 1] = b
      generalize x[n] = a
      show sum + (((100 : ℕ) : ℝ) / ((1 : ℕ) : ℝ)) * ((b - a * a) * (b - a * a)) +
        (((1 : ℕ) : ℝ) / ((1 : ℕ) : ℝ) - a) * (((1 : ℕ) : ℝ) / ((1 : ℕ) : ℝ) - a) = _
      push_cast
      ring
  rw [key _ _ (fun n hn => by have := List.mem_range.1 hn; omega)]
  have : (FloatT.lit 0 1 : ℝ) = 0 := by show ((0 : ℕ) : ℝ) / ((1 : ℕ) : ℝ) = 0; simp
  rw [this, zero_add]

/-- C62: in exact arithmetic it is never negative, and with at least two components it is zero exactly at (1, ..., 1). -/
theorem C62_min (p : Profile) (x : List ℝ) (h : 2 ≤ x.length) (s : σ) : ∃ r, rosenbrock p x s = .ok (r, s) ∧ 0 ≤ r ∧
    (r = 0 ↔ ∀ a ∈ x, a = 1) := by
  refine ⟨_, C62_exact p x (by rintro rfl; simp at h) s, ?_, ?_⟩
  · refine List.sum_nonneg ?_
    intro a ha
    obtain ⟨i, -, rfl⟩ := List.mem_map.1 ha
    positivity
  have hnn : ∀ a ∈ (List.range (x.length - 1)).map (fun i =>
      100 * (x.getD (i + 1) 0 - x.getD i 0 ^ 2) ^ 2 + (1 - x.getD i 0) ^ 2), (0 : ℝ) ≤ a := by
    intro a ha
    obtain ⟨i, -, rfl⟩ := List.mem_map.1 ha
    positivity
  constructor
  · intro h0
    have key : ∀ i, i + 1 < x.length → x.getD i 0 = 1 ∧ x.getD (i + 1) 0 = 1 := by
      intro i hi
      have := List.single_le_sum hnn _ (List.mem_map_of_mem (f := fun i =>
        100 * (x.getD (i + 1) 0 - x.getD i 0 ^ 2) ^ 2 + (1 - x.getD i 0) ^ 2) (List.mem_range.2 (show i < x.length - 1 by omega)))
      rw [h0] at this
      have p1 : 0 ≤ (x.getD (i + 1) 0 - x.getD i 0 ^ 2) ^ 2 := sq_nonneg _
      have p2 : 0 ≤ (1 - x.getD i 0) ^ 2 := sq_nonneg _
      have q1 : (1 - x.getD i 0) ^ 2 = 0 := by linarith
      have q2 : (x.getD (i + 1) 0 - x.getD i 0 ^ 2) ^ 2 = 0 := by linarith
      have r1 := (pow_eq_zero_iff two_ne_zero).1 q1
      have r2 := (pow_eq_zero_iff two_ne_zero).1 q2
      have e1 : x.getD i 0 = 1 := by linarith
      rw [e1] at r2
      exact ⟨e1, by linarith⟩
    intro a ha
    obtain ⟨i, hi, rfl⟩ := List.getElem_of_mem ha
    rw [← getD_lt hi]
    by_cases hc : i + 1 < x.length
    · exact (key i hc).1
    · have := (key (i - 1) (by omega)).2
      rwa [show i - 1 + 1 = i by omega] at this
  · intro hall
    have : (List.range (x.length - 1)).map (fun i =>
        100 * (x.getD (i + 1) 0 - x.getD i 0 ^ 2) ^ 2 + (1 - x.getD i 0) ^ 2) =
        (List.range (x.length - 1)).map fun _ => (0 : ℝ) := by
      apply List.map_congr_left
      intro i hi
      have hi := List.mem_range.1 hi
      rw [getD_lt (by omega : i + 1 < x.length), getD_lt (by omega : i < x.length), hall _ (List.getElem_mem _),
        hall _ (List.getElem_mem _)]
      ring
    rw [this]
    simp

/-- C62: a point where it is positive. -/
example : M.okAnd (rosenbrockF64 .debug [(Fl.zero : F64), Fl.zero, Fl.one] ()) (fun r _ => r == Fl.ofNat 102) = true := by
  decide +kernel

/-! ## C63 rastrigin -/

/-- C63: in exact arithmetic (and with whatever the program takes for π) rastrigin is a sum of
`x² + 10 (1 - cos (2 π x))`. -/
theorem C63_exact (x : List ℝ) : rastrigin x =
    (x.map fun a => a ^ 2 + 10 * (1 - Real.cos (2 * (314159265358979 / 100000000000000) * a))).sum := by
  have key : ∀ (x : List ℝ) (acc : ℝ), x.foldl (fun acc xi =>
      FloatT.sub (FloatT.add acc (FloatT.mul xi xi)) (FloatT.mul (FloatT.lit 10 1)
        (FloatFn.cos (FloatT.mul (FloatT.mul (FloatT.ofNat 2) (FloatT.lit 314159265358979 100000000000000)) xi)))) acc =
      acc + (x.map fun a => a ^ 2 - 10 * Real.cos (2 * (314159265358979 / 100000000000000) * a)).sum := by
    intro x
    induction x with
    | nil => intro acc; simp
    | cons a x ih =>
      intro acc
      rw [List.foldl_cons, ih, List.map_cons, List.sum_cons, ← add_assoc]
      congr 1
      show acc + a * a - ((10 : ℕ) : ℝ) / ((1 : ℕ) : ℝ) * Real.cos (((2 : ℕ) : ℝ) *
        (((314159265358979 : ℕ) : ℝ) / ((100000000000000 : ℕ) : ℝ)) * a) = _
      push_cast
      ring_nf
  unfold rastrigin
  dsimp only
  rw [key]
  show ((10 : ℕ) : ℝ) / ((1 : ℕ) : ℝ) * (x.length : ℝ) + (0 + _) = _
  rw [zero_add]
  induction x with
  | nil => simp
  | cons a x ih =>
    rw [List.map_cons, List.sum_cons, List.map_cons, List.sum_cons, ← ih, List.length_cons]
    push_cast
    ring

/-- C63: in exact arithmetic rastrigin is never negative and it is zero exactly at the origin. -/
theorem C63_min (x : List ℝ) : 0 ≤ rastrigin x ∧ (rastrigin x = 0 ↔ ∀ a ∈ x, a = 0) := by
  rw [C63_exact]
  have hterm : ∀ a : ℝ, 0 ≤ 10 * (1 - Real.cos (2 * (314159265358979 / 100000000000000) * a)) := fun a => by
    have := Real.cos_le_one (2 * (314159265358979 / 100000000000000) * a); linarith
  have hnn : ∀ b ∈ x.map (fun a => a ^ 2 + 10 * (1 - Real.cos (2 * (314159265358979 / 100000000000000) * a))),
      (0 : ℝ) ≤ b := by
    intro b hb
    obtain ⟨a, -, rfl⟩ := List.mem_map.1 hb
    have := hterm a
    positivity
  refine ⟨List.sum_nonneg hnn, ?_, ?_⟩
  · intro h a ha
    have := List.single_le_sum hnn _ (List.mem_map_of_mem
      (f := fun a => a ^ 2 + 10 * (1 - Real.cos (2 * (314159265358979 / 100000000000000) * a))) ha)
    rw [h] at this
    have h1 := hterm a
    have h2 : a ^ 2 = 0 := le_antisymm (by linarith) (sq_nonneg a)
    exact (pow_eq_zero_iff two_ne_zero).1 h2
  · intro h
    have : x.map (fun a => a ^ 2 + 10 * (1 - Real.cos (2 * (314159265358979 / 100000000000000) * a))) =
        x.map fun _ => (0 : ℝ) := by
      apply List.map_congr_left
      intro a ha
      rw [h a ha]
      simp
    rw [this]
    simp

/-- C63: a point where it is positive. -/
example : 0 < rastrigin [(0 : ℝ), 1] := by
  rcases lt_or_eq_of_le (C63_min [(0 : ℝ), 1]).1 with h | h
  · exact h
  · have := (C63_min [(0 : ℝ), 1]).2.1 h.symm 1 (by simp)
    norm_num at this

/-! ## C64 schwefel -/

/-- C64: in exact arithmetic schwefel is a sum of `418.9829 - x sin √|x|`. -/
theorem C64_exact (x : List ℝ) : schwefel x = (x.map fun a => 4189829 / 10000 - a * Real.sin (Real.sqrt |a|)).sum := by
  have key : ∀ (x : List ℝ) (acc : ℝ), x.foldl (fun acc xi =>
      FloatT.add acc (FloatT.mul xi (FloatFn.sin (FloatT.sqrt (FloatT.abs xi))))) acc =
      acc + (x.map fun a => a * Real.sin (Real.sqrt |a|)).sum := by
    intro x
    induction x with
    | nil => intro acc; simp
    | cons a x ih =>
      intro acc
      rw [List.foldl_cons, ih, List.map_cons, List.sum_cons, ← add_assoc]
      rfl
  unfold schwefel
  rw [key]
  show ((4189829 : ℕ) : ℝ) / ((10000 : ℕ) : ℝ) * (x.length : ℝ) - (0 + _) = _
  rw [zero_add]
  induction x with
  | nil => simp
  | cons a x ih =>
    rw [List.map_cons, List.sum_cons, List.map_cons, List.sum_cons, ← ih, List.length_cons]
    push_cast
    ring

/-- C64: on [-500, 500]^n schwefel is not negative. -/
theorem C64_nonneg (x : List ℝ) (h : ∀ a ∈ x, -500 ≤ a ∧ a ≤ 500) : 0 ≤ schwefel x := by
  rw [C64_exact]
  refine List.sum_nonneg ?_
  intro b hb
  obtain ⟨a, ha, rfl⟩ := List.mem_map.1 hb
  obtain ⟨h1, h2⟩ := h a ha
  have hs : Real.sqrt |a| ^ 2 = |a| := Real.sq_sqrt (abs_nonneg a)
  have hb := Trig.schwefel_bound (Real.sqrt_nonneg |a|) (by rw [hs]; exact abs_le.2 ⟨h1, h2⟩)
  rw [hs, abs_mul, abs_abs, ← abs_mul] at hb
  have := le_abs_self (a * Real.sin (Real.sqrt |a|))
  linarith

/-- C64: at the documented point schwefel is within 1.3e-5 n of zero. -/
theorem C64_at_min (n : Nat) : 0 ≤ schwefel (List.replicate n (4209687 / 10000 : ℝ)) ∧
    schwefel (List.replicate n (4209687 / 10000 : ℝ)) ≤ 13 / 1000000 * n := by
  refine ⟨C64_nonneg _ fun a ha => ?_, ?_⟩
  · rw [List.eq_of_mem_replicate ha]; norm_num
  rw [C64_exact, List.map_replicate, List.sum_replicate, nsmul_eq_mul, mul_comm]
  refine mul_le_mul_of_nonneg_right ?_ (Nat.cast_nonneg n)
  rw [abs_of_nonneg (by norm_num)]
  have := Trig.sin_at_min
  linarith

/-- C64: outside the box schwefel is unbounded below, already in one dimension. -/
theorem C64_unbounded (K : ℝ) : ∃ a : ℝ, schwefel [a] < K := by
  obtain ⟨k, hk⟩ := exists_nat_gt (419 - K)
  refine ⟨(Real.pi / 2 + k * (2 * Real.pi)) ^ 2, ?_⟩
  have hp := Real.pi_gt_three
  have hk0 : (0 : ℝ) ≤ k := Nat.cast_nonneg k
  have ht : 0 ≤ Real.pi / 2 + k * (2 * Real.pi) := by positivity
  rw [C64_exact, List.map_singleton, List.sum_singleton, abs_of_nonneg (sq_nonneg _), Real.sqrt_sq ht,
    Real.sin_add_nat_mul_two_pi, Real.sin_pi_div_two]
  have h1 : 1 + (k : ℝ) ≤ Real.pi / 2 + k * (2 * Real.pi) := by nlinarith
  have h2 : (1 + (k : ℝ)) ^ 2 ≤ (Real.pi / 2 + k * (2 * Real.pi)) ^ 2 := by gcongr
  nlinarith

end Verif.Props
