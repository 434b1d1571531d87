import Verif.Spec.Pow
import Verif.Props.Mean
import Verif.Props.TrigWitness

/-!
# C08: the geometric mean in floating point
-/

namespace Verif.Props

open Verif Spec Cross

variable {σ : Type} {f : Fmt}

/-- The logarithm of a number with a relative error. -/
theorem log_near {q v u : ℝ} (hq : 0 < q) (hu : 0 ≤ u) (hu1 : u ≤ 1 / 4) (h : |v - q| ≤ q * u) :
    0 < v ∧ |Real.log v - Real.log q| ≤ 4 / 3 * u := by
  obtain ⟨h1, h2⟩ := abs_le.1 h
  have hv : 0 < v := by nlinarith
  refine ⟨hv, ?_⟩
  rw [← Real.log_div hv.ne' hq.ne']
  have hd : 0 < v / q := by positivity
  have a1 := Real.log_le_sub_one_of_pos hd
  have a2 := Real.one_sub_inv_le_log_of_pos hd
  have b1 : v / q ≤ 1 + u := by rw [div_le_iff₀ hq]; nlinarith
  have b2 : q / v ≤ 1 + 4 / 3 * u := by rw [div_le_iff₀ hv]; nlinarith
  rw [inv_div] at a2
  rw [abs_le]
  constructor <;> linarith

theorem mul_normal {x y : Fl f} (h : Normal (x.mul y)) :
    |value (x.mul y) - value x * value y| ≤ |value x * value y| * roundoff f := by
  have hu := Fl.roundoff_pos (f := f)
  have hu4 := Fl.roundoff_le (f := f)
  have ht := Fl.tiny_pos (f := f)
  rcases Fl.mul_err h.1 with h1 | h1
  · have h2 := h.2
    have e : 2 * (tiny f / roundoff f) * roundoff f = 2 * tiny f := by field_simp
    have h3 : tiny f ≤ tiny f / roundoff f := by
      rw [le_div_iff₀ hu]; nlinarith
    have h4 : tiny f / roundoff f ≤ value x * value y := by
      have := (abs_le.1 h1).2
      linarith
    have h5 : 0 ≤ tiny f / roundoff f := by positivity
    rw [abs_of_nonneg (h5.trans h4)]
    refine h1.trans ?_
    rw [div_le_iff₀ hu] at h4
    exact h4
  · exact h1

/-- The logarithm of a product of positive numbers, computed one by one without underflow. -/
theorem prod_log : ∀ (xs : List (Fl f)) (p : Fl f), 0 < value p → (∀ x ∈ xs, 0 < value x) →
    (∀ k ≤ xs.length, Normal ((xs.take k).foldl Fl.mul p)) →
    0 < value (xs.foldl Fl.mul p) ∧
    |Real.log (value (xs.foldl Fl.mul p)) - Real.log (value p * (xs.map value).prod)| ≤ xs.length * (4 / 3 * roundoff f) := by
  intro xs
  induction xs with
  | nil => intro p hp _ _; simpa using hp
  | cons x xs ih =>
    intro p hp hx hn
    have hu := (Fl.roundoff_pos (f := f)).le
    have hx0 := hx x (by simp)
    have h1 : Normal (p.mul x) := by simpa using hn 1 (by simp)
    have hpx : 0 < value p * value x := mul_pos hp hx0
    have h2 := mul_normal h1
    rw [abs_of_pos hpx] at h2
    obtain ⟨h3, h4⟩ := log_near hpx hu Fl.roundoff_le h2
    obtain ⟨h5, h6⟩ := ih (p.mul x) h3 (fun y hy => hx y (by simp [hy])) (fun k hk => by
      simpa using hn (k + 1) (by simp only [List.length_cons]; omega))
    rw [List.foldl_cons]
    refine ⟨h5, ?_⟩
    have hP : 0 < (xs.map value).prod := List.prod_pos (by
      simp only [List.mem_map]; rintro _ ⟨y, hy, rfl⟩; exact hx y (by simp [hy]))
    rw [List.map_cons, List.prod_cons, List.length_cons, ← mul_assoc, Real.log_mul hpx.ne' hP.ne']
    rw [Real.log_mul h3.ne' hP.ne'] at h6
    have := abs_sub_le (Real.log (value (xs.foldl Fl.mul (p.mul x)))) (Real.log (value (p.mul x)) + Real.log (xs.map value).prod)
      (Real.log (value p * value x) + Real.log (xs.map value).prod)
    rw [show Real.log (value (p.mul x)) + Real.log (xs.map value).prod - (Real.log (value p * value x) + Real.log (xs.map value).prod) =
      Real.log (value (p.mul x)) - Real.log (value p * value x) by ring] at this
    push_cast
    linarith

/-- The computed exponent. -/
theorem exponent_near (hf : f = Fmt.f32 ∨ f = Fmt.f64) {n : Nat} (h2 : 2 ≤ n) (hn : n ≤ 2 ^ 24) :
    (Fl.div Fl.one (Fl.ofNat n) : Fl f).isFinite = true ∧ 0 ≤ value (Fl.div Fl.one (Fl.ofNat n) : Fl f) ∧
    value (Fl.div Fl.one (Fl.ofNat n) : Fl f) ≤ 1 / 2 ∧
    |value (Fl.div Fl.one (Fl.ofNat n) : Fl f) - 1 / n| ≤ 1 / n * roundoff f := by
  have hD := Fl.D_posR (f := f)
  have hni : IsInt n (Fl.ofNat n : Fl f) := by
    refine rounds_int hf (by omega) ?_
    have := Fl.ofNat_rounds (f := f) n
    push_cast at this ⊢
    exact this
  have hv : value (Fl.ofNat n : Fl f) = n := by
    unfold value; rw [hni.2]; push_cast; field_simp
  have h0 : (Fl.ofNat n : Fl f).toInt ≠ 0 := by
    rw [hni.2]; have := f.D_pos; positivity
  have hr := Fl.div_rounds (Fl.isFinite_one (f := f)) hni.1 h0
  have hn0 : (0 : ℝ) < n := by exact_mod_cast (by omega : 0 < n)
  have hn2 : (2 : ℝ) ≤ n := by exact_mod_cast h2
  have e : ((Fl.one : Fl f).toInt : ℝ) * f.D / ((Fl.ofNat n : Fl f).toInt : ℝ) = f.D / n := by
    rw [hni.2, Fl.toInt_one]; push_cast; field_simp
  rw [e] at hr
  obtain ⟨half, hhalf⟩ : ∃ c : Fl f, c.isFinite = true ∧ c.toInt * 2 = f.D := by
    refine ⟨FloatT.lit 1 2, ?_⟩
    rcases hf with rfl | rfl <;> decide +kernel
  have hh : (half.toInt : ℝ) * 2 = f.D := by exact_mod_cast hhalf.2
  have g1 := hr.ge (z := (Fl.zero : Fl f)) Fl.isNan_zero (by rw [Fl.toInt_zero]; simp; positivity)
  have g2 := hr.le (z := half) (Fl.isNan_of_isFinite hhalf.1) (by
    rw [div_le_iff₀ hn0]
    have : 0 ≤ (half.toInt : ℝ) := by linarith
    nlinarith)
  have hfin := Fl.isFinite_of_between Fl.isFinite_zero hhalf.1 g1 g2
  have i1 := (Fl.le_iff.1 g1).2.2
  have i2 := (Fl.le_iff.1 g2).2.2
  rw [Fl.toInt_zero] at i1
  refine ⟨hfin, ?_, ?_, ?_⟩
  · unfold value
    exact div_nonneg (by exact_mod_cast i1) hD.le
  · unfold value
    rw [div_le_iff₀ hD]
    have : ((Fl.div Fl.one (Fl.ofNat n) : Fl f).toInt : ℝ) ≤ half.toInt := by exact_mod_cast i2
    linarith
  · have := Fl.div_err hfin Fl.isFinite_one hni.1 h0
    have h1 : value (Fl.one : Fl f) = 1 := by unfold value; rw [Fl.toInt_one]; push_cast; field_simp
    rw [h1, hv, abs_of_nonneg (by positivity : (0 : ℝ) ≤ 1 / n)] at this
    rcases this with h | h
    · refine h.trans ?_
      have ht : tiny f * 2 ^ 24 ≤ roundoff f := by
        unfold tiny roundoff
        have : 2 ^ 24 * 2 ^ (f.mw + 1) ≤ 2 * f.D := by rcases hf with rfl | rfl <;> decide +kernel
        have h' : (2 : ℝ) ^ 24 * 2 ^ (f.mw + 1) ≤ 2 * f.D := by exact_mod_cast this
        rw [div_mul_eq_mul_div, div_le_div_iff₀ (by positivity) (by positivity)]
        linarith
      rw [div_mul_eq_mul_div, one_mul, le_div_iff₀ hn0]
      have hn' : (n : ℝ) ≤ 2 ^ 24 := by exact_mod_cast hn
      have := Fl.tiny_pos (f := f)
      nlinarith
    · exact h

/-- C08: the one child of floating-point parents, `2 ≤ n ≤ 2 ^ 24` of them, all positive, such that no product of the first of them
underflows or overflows, is their geometric mean `G` up to the relative error `ε` of the power function and the factor
`exp (u (|log G| + 3))`. -/
theorem C08_float (hf : f = Fmt.f32 ∨ f = Fmt.f64) (F : FloatFn (Fl f)) {ε : ℝ} (hF : AccuratePow ε F) (xs : List (Fl f))
    (h2 : 2 ≤ xs.length) (hn : xs.length ≤ 2 ^ 24) (hx : ∀ x ∈ xs, 0 < value x)
    (hp : ∀ k ≤ xs.length, Normal ((xs.take k).foldl Fl.mul Fl.one)) (s : σ) :
    ∃ c, crossGeomMean xs s = .ok ([c], s) ∧ c.isFinite = true ∧
      ∃ t, |t| ≤ roundoff f * (|Real.log (geometricMean (xs.map value))| + 3) ∧
        |value c - geometricMean (xs.map value) * Real.exp t| ≤ ε * (geometricMean (xs.map value) * Real.exp t) := by
  have hu := Fl.roundoff_pos (f := f)
  have hu4 := Fl.roundoff_le (f := f)
  have hD := Fl.D_posR (f := f)
  have h1 : value (Fl.one : Fl f) = 1 := by unfold value; rw [Fl.toInt_one]; push_cast; field_simp
  obtain ⟨g1, g2⟩ := prod_log xs Fl.one (by rw [h1]; norm_num) hx hp
  have hfin : (xs.foldl Fl.mul Fl.one).isFinite = true := by
    have := (hp xs.length le_rfl).1
    rwa [List.take_length] at this
  obtain ⟨e1, e2, e3, e4⟩ := exponent_near hf h2 hn
  obtain ⟨c1, c2⟩ := hF _ _ hfin e1 g1 e2 e3
  have hrun : crossGeomMean xs s =
      .ok ([F.powf (xs.foldl Fl.mul Fl.one) (Fl.div Fl.one (Fl.ofNat xs.length))], s) := by
    unfold crossGeomMean
    refine M.bind_eq_ok.2 ⟨(), s, ?_, rfl⟩
    simp [M.assert, h2]; rfl
  refine ⟨_, hrun, c1, ?_⟩
  have hP : 0 < (xs.map value).prod := List.prod_pos (by
    simp only [List.mem_map]; rintro _ ⟨y, hy, rfl⟩; exact hx y hy)
  have hn0 : (0 : ℝ) < xs.length := by exact_mod_cast (by omega : 0 < xs.length)
  generalize F.powf (xs.foldl Fl.mul Fl.one) (Fl.div Fl.one (Fl.ofNat xs.length)) = c at c2 ⊢
  generalize value (xs.foldl Fl.mul Fl.one) = p at g1 g2 c2
  generalize value (Fl.div Fl.one (Fl.ofNat xs.length) : Fl f) = y at e2 e3 e4 c2
  rw [h1, one_mul] at g2
  unfold geometricMean
  rw [List.length_map]
  generalize (xs.map value).prod = Q at hP g2 ⊢
  generalize (xs.length : ℝ) = n at hn0 g2 e4 ⊢
  have hG : Q ^ (1 / n) = Real.exp (Real.log Q / n) := by
    rw [Real.rpow_def_of_pos hP]; congr 1; ring
  have hc : p ^ y = Real.exp (Real.log p * y) := Real.rpow_def_of_pos g1 _
  have hlG : Real.log (Q ^ (1 / n)) = Real.log Q / n := by rw [hG, Real.log_exp]
  refine ⟨Real.log p * y - Real.log Q / n, ?_, ?_⟩
  · rw [hlG]
    have e : Real.log p * y - Real.log Q / n = Real.log Q * (y - 1 / n) + (Real.log p - Real.log Q) * y := by ring
    rw [e]
    refine (abs_add_le _ _).trans ?_
    rw [abs_mul, abs_mul, abs_div, abs_of_pos hn0, abs_of_nonneg e2]
    have a1 : |Real.log Q| * |y - 1 / n| ≤ |Real.log Q| * (1 / n * roundoff f) := mul_le_mul_of_nonneg_left e4 (abs_nonneg _)
    have hy : y ≤ 5 / 4 * (1 / n) := by
      have := (abs_le.1 e4).2
      have : 1 / n * roundoff f ≤ 1 / n * (1 / 4) := mul_le_mul_of_nonneg_left hu4 (by positivity)
      linarith
    have a2 : |Real.log p - Real.log Q| * y ≤ n * (4 / 3 * roundoff f) * (5 / 4 * (1 / n)) :=
      mul_le_mul g2 hy e2 (by positivity)
    have a3 : n * (4 / 3 * roundoff f) * (5 / 4 * (1 / n)) = 5 / 3 * roundoff f := by field_simp
    have a4 : |Real.log Q| * (1 / n * roundoff f) = roundoff f * (|Real.log Q| / n) := by ring
    nlinarith
  · have : Q ^ (1 / n) * Real.exp (Real.log p * y - Real.log Q / n) = p ^ y := by
      rw [hG, hc, ← Real.exp_add]; congr 1; ring
    rw [this]
    exact c2

/-- The geometric mean of numbers between two bounds. -/
theorem geometricMean_between (xs : List ℝ) (lo hi : ℝ) (h : xs ≠ []) (h0 : 0 < lo) (hlo : ∀ x ∈ xs, lo ≤ x) (hhi : ∀ x ∈ xs, x ≤ hi) :
    lo ≤ geometricMean xs ∧ geometricMean xs ≤ hi := by
  have hl : xs.length ≠ 0 := by simpa using h
  have hp : ∀ x ∈ xs, 0 < x := fun x hx => h0.trans_le (hlo x hx)
  obtain ⟨x, hx⟩ := List.exists_mem_of_ne_nil xs h
  have hh : 0 ≤ hi := (hp x hx).le.trans (hhi x hx)
  have hpos : 0 < xs.prod := List.prod_pos hp
  have e : geometricMean xs ^ xs.length = xs.prod := by
    unfold geometricMean
    rw [← Real.rpow_natCast, ← Real.rpow_mul hpos.le, one_div_mul_cancel (by exact_mod_cast hl), Real.rpow_one]
  have hg : 0 ≤ geometricMean xs := Real.rpow_nonneg hpos.le _
  constructor
  · refine le_of_pow_le_pow_left₀ hl hg ?_
    rw [e]; exact pow_le_prod xs lo h0.le hlo
  · refine le_of_pow_le_pow_left₀ hl hh ?_
    rw [e]; exact (prod_le_pow xs hi hp hhi).2

/-- C08: the child of positive floating-point parents lies between them up to that error. -/
theorem C08_float_between (hf : f = Fmt.f32 ∨ f = Fmt.f64) (F : FloatFn (Fl f)) {ε : ℝ} (hF : AccuratePow ε F) (hε0 : 0 ≤ ε) (hε : ε ≤ 1)
    (xs : List (Fl f)) (h2 : 2 ≤ xs.length) (hn : xs.length ≤ 2 ^ 24) (lo hi : ℝ) (h0 : 0 < lo) (hlo : ∀ x ∈ xs, lo ≤ value x)
    (hhi : ∀ x ∈ xs, value x ≤ hi) (hp : ∀ k ≤ xs.length, Normal ((xs.take k).foldl Fl.mul Fl.one)) (s : σ) :
    ∃ c, crossGeomMean xs s = .ok ([c], s) ∧
      (1 - ε) * Real.exp (-(roundoff f * (max |Real.log lo| |Real.log hi| + 3))) * lo ≤ value c ∧
      value c ≤ (1 + ε) * Real.exp (roundoff f * (max |Real.log lo| |Real.log hi| + 3)) * hi := by
  have hu := Fl.roundoff_pos (f := f)
  obtain ⟨c, h1, -, t, h3, h4⟩ := C08_float hf F hF xs h2 hn (fun x hx => h0.trans_le (hlo x hx)) hp s
  refine ⟨c, h1, ?_⟩
  obtain ⟨g1, g2⟩ := geometricMean_between (xs.map value) lo hi (by
    intro h; rw [List.map_eq_nil_iff] at h; rw [h] at h2; simp at h2) h0
    (by simp only [List.mem_map]; rintro _ ⟨x, hx, rfl⟩; exact hlo x hx) (by simp only [List.mem_map]; rintro _ ⟨x, hx, rfl⟩; exact hhi x hx)
  generalize geometricMean (xs.map value) = G at h3 h4 g1 g2
  have hG : 0 < G := h0.trans_le g1
  have l1 := Real.log_le_log h0 g1
  have l2 := Real.log_le_log hG g2
  have hlog : |Real.log G| ≤ max |Real.log lo| |Real.log hi| := abs_le_max_abs_abs l1 l2
  have h5 : |t| ≤ roundoff f * (max |Real.log lo| |Real.log hi| + 3) :=
    h3.trans (mul_le_mul_of_nonneg_left (by linarith) hu.le)
  generalize roundoff f * (max |Real.log lo| |Real.log hi| + 3) = η at h5 ⊢
  obtain ⟨t1, t2⟩ := abs_le.1 h5
  have x1 := Real.exp_le_exp.2 t1
  have x2 := Real.exp_le_exp.2 t2
  have p1 := Real.exp_pos (-η)
  have p2 := Real.exp_pos t
  obtain ⟨c1, c2⟩ := abs_le.1 h4
  constructor
  · have : Real.exp (-η) * lo ≤ Real.exp t * G := mul_le_mul x1 g1 h0.le p2.le
    have : (1 - ε) * (Real.exp (-η) * lo) ≤ (1 - ε) * (Real.exp t * G) := mul_le_mul_of_nonneg_left this (by linarith)
    linarith
  · have : Real.exp t * G ≤ Real.exp η * hi := mul_le_mul x2 g2 hG.le (p2.le.trans x2)
    have : (1 + ε) * (Real.exp t * G) ≤ (1 + ε) * (Real.exp η * hi) := mul_le_mul_of_nonneg_left this (by linarith)
    linarith

/-- Every number in the range of the finite ones can be rounded. -/
theorem exists_rounded {q : ℝ} (h0 : 0 ≤ q) {a : Fl f} (ha : a.isFinite = true) (hq : q ≤ value a) :
    ∃ r : Fl f, Fl.Rounds (q * f.D) r ∧ r.isFinite = true := by
  have hD := Fl.D_posR (f := f)
  have hQ : 0 ≤ q * f.D := by positivity
  have hle : q * f.D ≤ a.toInt := by unfold value at hq; rwa [le_div_iff₀ hD] at hq
  have hm := f.rnd_mono hle
  rw [Fl.rnd_toInt (Fl.isNan_of_isFinite ha)] at hm
  have hfin := Fl.isFinite_iff_toInt.1 ha
  have hr := f.rnd_of_nonneg hQ
  have hlt : f.ridx (q * f.D) < f.infIdx := by
    rw [← f.mag_lt_mag]
    omega
  have hk : f.ridx (q * f.D) < 2 ^ f.kw := Fl.le_inf_lt hlt.le
  have hn : (Fl.mk' false (f.ridx (q * f.D)) : Fl f).isFinite = true := by
    unfold Fl.isFinite; rw [Fl.idx_mk' _ hk]; simpa using hlt
  exact ⟨_, ⟨Fl.isNan_of_isFinite hn, by rw [Fl.toInt_mk' _ hk, hr]; rfl⟩, hn⟩

/-- The conditions are met: the correctly rounded power function is one ... -/
theorem accuratePow_exists (hf : f = Fmt.f32 ∨ f = Fmt.f64) : ∃ F : FloatFn (Fl f), AccuratePow (roundoff f) F := by
  have hD := Fl.D_posR (f := f)
  have hu := Fl.roundoff_pos (f := f)
  have hbig : (2 : ℝ) ^ f.mw * 2 ^ f.mw ≤ f.D := by
    have : 2 ^ f.mw * 2 ^ f.mw ≤ f.D := by rcases hf with rfl | rfl <;> decide +kernel
    exact_mod_cast this
  have key : ∀ a b : Fl f, ∃ r : Fl f, a.isFinite = true → 0 < value a → 0 ≤ value b → value b ≤ 1 / 2 →
      r.isFinite = true ∧ |value r - value a ^ value b| ≤ roundoff f * value a ^ value b := by
    intro a b
    by_cases h : a.isFinite = true ∧ 0 < value a ∧ 0 ≤ value b ∧ value b ≤ 1 / 2
    · obtain ⟨h1, h2, h3, h4⟩ := h
      have hp : 0 < value a ^ value b := Real.rpow_pos_of_pos h2 _
      have hone : value (Fl.one : Fl f) = 1 := by unfold value; rw [Fl.toInt_one]; push_cast; field_simp
      have hlow : tiny f / roundoff f ≤ value a ^ value b := by
        have e : tiny f / roundoff f = 2 ^ f.mw / f.D := by unfold tiny roundoff; rw [pow_succ]; field_simp
        rw [e]
        have hle1 : (2 : ℝ) ^ f.mw / f.D ≤ 1 := by
          rw [div_le_one hD]
          have : (1 : ℝ) ≤ 2 ^ f.mw := one_le_pow₀ (by norm_num)
          nlinarith
        rcases le_total 1 (value a) with ha | ha
        · exact hle1.trans (Real.one_le_rpow ha h3)
        · have s1 : value a ^ (1 / 2 : ℝ) ≤ value a ^ value b := Real.rpow_le_rpow_of_exponent_ge h2 ha h4
          refine le_trans ?_ s1
          rw [← Real.sqrt_eq_rpow]
          refine Real.le_sqrt_of_sq_le ?_
          have ha1 : 1 / (f.D : ℝ) ≤ value a := by
            unfold value at h2 ⊢
            rw [div_le_div_iff_of_pos_right hD]
            have : 0 < (a.toInt : ℝ) := by
              by_contra hc
              exact absurd h2 (not_lt.2 (div_nonpos_of_nonpos_of_nonneg (not_lt.1 hc) hD.le))
            have : 0 < a.toInt := by exact_mod_cast this
            exact_mod_cast this
          refine le_trans ?_ ha1
          rw [div_pow, div_le_div_iff₀ (by positivity) hD]
          nlinarith
      obtain ⟨r, r1, r2⟩ : ∃ r : Fl f, Fl.Rounds (value a ^ value b * f.D) r ∧ r.isFinite = true := by
        rcases le_total 1 (value a) with ha | ha
        · refine exists_rounded hp.le h1 ?_
          have := Real.rpow_le_rpow_of_exponent_le ha (by linarith : value b ≤ 1)
          rwa [Real.rpow_one] at this
        · refine exists_rounded hp.le (Fl.isFinite_one) ?_
          rw [hone]
          exact Real.rpow_le_one h2.le ha h3
      refine ⟨r, fun _ _ _ _ => ⟨r2, ?_⟩⟩
      rw [div_le_iff₀ hu] at hlow
      rcases Fl.rounds_err r1 r2 with h | h
      · linarith
      · rw [abs_of_pos hp] at h; linarith
    · exact ⟨Fl.zero, fun h1 h2 h3 h4 => absurd ⟨h1, h2, h3, h4⟩ h⟩
  refine ⟨⟨id, fun a b => (key a b).choose, id, id⟩, fun a b h1 _ h3 h4 h5 => (key a b).choose_spec h1 h3 h4 h5⟩

/-- ... and 2 and 8 are ordinary parents. -/
example : 2 ≤ [(Fl.ofNat 2 : F64), Fl.ofNat 8].length ∧
    ∀ k ≤ 2, Normal (([(Fl.ofNat 2 : F64), Fl.ofNat 8].take k).foldl Fl.mul Fl.one) := by
  refine ⟨by decide, fun k hk => ?_⟩
  have key : ∀ c : F64, c.isFinite = true → 2 ^ (Fmt.f64.mw + 1) ≤ c.toInt → Normal c := by
    intro c h1 h2
    refine ⟨h1, ?_⟩
    have hD := Fl.D_posR (f := Fmt.f64)
    have h2 : (2 : ℝ) ^ (Fmt.f64.mw + 1) ≤ c.toInt := by exact_mod_cast h2
    unfold value tiny roundoff
    rw [show 2 * (1 / (2 * (Fmt.f64.D : ℝ)) / (1 / 2 ^ (Fmt.f64.mw + 1))) = 2 ^ (Fmt.f64.mw + 1) / Fmt.f64.D by field_simp]
    exact div_le_div_of_nonneg_right h2 hD.le
  have : k = 0 ∨ k = 1 ∨ k = 2 := by omega
  rcases this with rfl | rfl | rfl <;> exact key _ (by decide +kernel) (by decide +kernel)

/-! ## What goes wrong -/

/-- C08: without the condition on the products the claim is false. Two parents `2 ^ -600` have the child zero on every platform with
`pow (0, 1/2) = 0`, two parents `2 ^ 600` have an infinite child on every platform with `pow (inf, 1/2) = inf`. -/
theorem C08_underflow_witness (F : FloatFn F64) (h0 : F.powf Fl.zero (Fl.ofRat false 1 2) = Fl.zero)
    (h1 : F.powf (Fl.inf false) (Fl.ofRat false 1 2) = Fl.inf false) (s : σ) :
    crossGeomMean [(Fl.ofRat false 1 (2 ^ 600) : F64), Fl.ofRat false 1 (2 ^ 600)] s = .ok ([Fl.zero], s) ∧
    crossGeomMean [(Fl.ofNat (2 ^ 600) : F64), Fl.ofNat (2 ^ 600)] s = .ok ([Fl.inf false], s) ∧
    (Fl.zero : F64).lt (Fl.ofRat false 1 (2 ^ 600)) = true ∧ (Fl.ofNat (2 ^ 600) : F64).isFinite = true := by
  have e1 : ([(Fl.ofRat false 1 (2 ^ 600) : F64), Fl.ofRat false 1 (2 ^ 600)].foldl Fl.mul Fl.one) = Fl.zero := by decide +kernel
  have e2 : ([(Fl.ofNat (2 ^ 600) : F64), Fl.ofNat (2 ^ 600)].foldl Fl.mul Fl.one) = Fl.inf false := by decide +kernel
  have e3 : (Fl.div Fl.one (Fl.ofNat 2) : F64) = Fl.ofRat false 1 2 := by decide +kernel
  have run : ∀ a b : F64, crossGeomMean [a, b] s = .ok ([F.powf ([a, b].foldl Fl.mul Fl.one) (Fl.div Fl.one (Fl.ofNat 2))], s) :=
    fun _ _ => rfl
  refine ⟨?_, ?_, by decide +kernel, by decide +kernel⟩
  · rw [run, e1, e3, h0]
  · rw [run, e2, e3, h1]

/-! ## The example of the documentation -/

/-- A difference that is below a limit. -/
theorem sub_lt (hf : f = Fmt.f32 ∨ f = Fmt.f64) {c l t : Fl f} (hc : c.isFinite = true) (hl : l.isFinite = true) (ht : t.isFinite = true)
    {d : ℝ} (h1 : |value c - value l| ≤ d) (h2 : d ≤ 1) (h3 : d + d * roundoff f < value t) : (c.sub l).lt t = true := by
  have hD := Fl.D_posR (f := f)
  have hu := Fl.roundoff_pos (f := f)
  have hr := Fl.sub_rounds hc hl
  have e : ((c.toInt : ℝ) - l.toInt) = (value c - value l) * f.D := by unfold value; field_simp
  have hfin : (c.sub l).isFinite = true := by
    refine (hr.within (rep_small hf 1 (by norm_num)) ?_).1
    rw [e, abs_mul, abs_of_pos hD]
    push_cast
    exact mul_le_mul_of_nonneg_right (h1.trans h2) hD.le
  have h4 := Fl.sub_err hfin hc hl
  have h5 : |value c - value l| * roundoff f ≤ d * roundoff f := mul_le_mul_of_nonneg_right h1 hu.le
  rw [Fl.lt_iff]
  refine ⟨Fl.isNan_of_isFinite hfin, Fl.isNan_of_isFinite ht, ?_⟩
  have h6 : value (c.sub l) < value t := by
    have := (abs_le.1 h4).2
    have := (abs_le.1 h1).2
    linarith
  unfold value at h6
  rw [div_lt_div_iff_of_pos_right hD] at h6
  exact_mod_cast h6

theorem value_eq_div {c : Fl f} (n d : ℕ) (e : ℕ) (hd : 0 < d) (he : 0 < e) (h : |c.toInt * d - n * f.D| * e ≤ d * f.D) :
    |value c - n / d| ≤ 1 / e := by
  have hD := Fl.D_posR (f := f)
  have hd' : (0 : ℝ) < d := by exact_mod_cast hd
  have he' : (0 : ℝ) < e := by exact_mod_cast he
  have h' : |(c.toInt : ℝ) * d - n * f.D| * e ≤ d * f.D := by exact_mod_cast h
  unfold value
  rw [show (c.toInt : ℝ) / f.D - n / d = (c.toInt * d - n * f.D) / (d * f.D) by field_simp, abs_div,
    abs_of_pos (by positivity : (0 : ℝ) < d * f.D), div_le_div_iff₀ (by positivity) he']
  linarith

theorem normal_of (c : Fl f) (h1 : c.isFinite = true) (h2 : 2 ^ (f.mw + 1) ≤ c.toInt) : Normal c := by
  refine ⟨h1, ?_⟩
  have hD := Fl.D_posR (f := f)
  have h2 : (2 : ℝ) ^ (f.mw + 1) ≤ c.toInt := by exact_mod_cast h2
  unfold value tiny roundoff
  rw [show 2 * (1 / (2 * (f.D : ℝ)) / (1 / 2 ^ (f.mw + 1))) = 2 ^ (f.mw + 1) / f.D by field_simp]
  exact div_le_div_of_nonneg_right h2 hD.le

theorem value_nat (hf : f = Fmt.f32 ∨ f = Fmt.f64) {n : Nat} (hn : n ≤ 2 ^ 24) : value (Fl.ofNat n : Fl f) = n := by
  have hD := Fl.D_posR (f := f)
  have h : IsInt n (Fl.ofNat n : Fl f) := by
    refine rounds_int hf (by omega) ?_
    have := Fl.ofNat_rounds (f := f) n
    push_cast at this ⊢
    exact this
  unfold value; rw [h.2]; push_cast; field_simp

/-- A child near a root `g` of a number is near a number near that root. -/
theorem child_near {ε u g G c t l : ℝ} (hε : ε ≤ 1 / 10 ^ 6) (hε0 : 0 ≤ ε) (hu : u ≤ 1 / 10 ^ 7) (hg : |G - g| ≤ 1 / 10 ^ 5) (hG1 : 1 ≤ G)
    (hG2 : G ≤ 2) (ht : |t| ≤ u * (|Real.log G| + 3)) (hc : |c - G * Real.exp t| ≤ ε * (G * Real.exp t)) (hl : |l - g| ≤ 1 / 10 ^ 6) :
    |c - l| ≤ 2 / 10 ^ 5 := by
  have hlog : |Real.log G| ≤ 1 := by
    rw [abs_of_nonneg (Real.log_nonneg hG1)]
    have := Real.log_le_sub_one_of_pos (by linarith : 0 < G)
    linarith
  have h1 : |t| ≤ 4 / 10 ^ 7 := by
    refine ht.trans ?_
    have : 0 ≤ |Real.log G| := abs_nonneg _
    nlinarith
  have h2 := Real.abs_exp_sub_one_le (x := t) (by linarith)
  have h3 : |Real.exp t - 1| ≤ 8 / 10 ^ 7 := by linarith
  obtain ⟨a1, a2⟩ := abs_le.1 h3
  have h4 : |G * Real.exp t - G| ≤ 16 / 10 ^ 7 := by
    rw [show G * Real.exp t - G = G * (Real.exp t - 1) by ring, abs_mul, abs_of_nonneg (by linarith)]
    have := mul_le_mul hG2 h3 (abs_nonneg _) (by norm_num)
    linarith
  have h5 : ε * (G * Real.exp t) ≤ 1 / 10 ^ 6 * 3 := by
    refine mul_le_mul hε ?_ (by positivity) (by norm_num)
    have := (abs_le.1 h4).2
    linarith
  obtain ⟨b1, b2⟩ := abs_le.1 hc
  obtain ⟨c1, c2⟩ := abs_le.1 h4
  obtain ⟨d1, d2⟩ := abs_le.1 hg
  obtain ⟨e1, e2⟩ := abs_le.1 hl
  rw [abs_le]
  constructor <;> linarith

/-- C08: the assertions of the documentation's example hold with every power function accurate to `9e-8`. -/
theorem C08_doc (F : FloatFn F32) (F' : FloatFn F64) {ε : ℝ} (hF : AccuratePow ε F) (hF' : AccuratePow ε F') (hε0 : 0 ≤ ε)
    (hε : ε ≤ 9 / 10 ^ 8) (s : σ) :
    (∃ c, crossGeomMean [(Fl.ofNat 1 : F32), Fl.ofNat 1] s = .ok ([c], s) ∧ (c.sub (Fl.ofNat 1)).lt (FloatT.lit 1 10000000) = true) ∧
    (∃ c, crossGeomMean [(Fl.ofNat 1 : F32), Fl.ofNat 2] s = .ok ([c], s) ∧ (c.sub (FloatT.lit 141421 100000)).lt (FloatT.lit 1 10000) = true) ∧
    (∃ c, crossGeomMean [(Fl.ofNat 1 : F64), Fl.ofNat 2, Fl.ofNat 3] s = .ok ([c], s) ∧
      (c.sub (FloatT.lit 181712 100000)).lt (FloatT.lit 1 10000) = true) := by
  have u1 : roundoff Fmt.f32 ≤ 1 / 10 ^ 7 := by unfold roundoff; norm_num [Fmt.f32]
  have u2 : roundoff Fmt.f64 ≤ 1 / 10 ^ 7 := by unfold roundoff; norm_num [Fmt.f64]
  refine ⟨?_, ?_, ?_⟩
  · have run : crossGeomMean [(Fl.ofNat 1 : F32), Fl.ofNat 1] s =
        .ok ([F.powf ([(Fl.ofNat 1 : F32), Fl.ofNat 1].foldl Fl.mul Fl.one) (Fl.div Fl.one (Fl.ofNat 2))], s) := rfl
    have e1 : [(Fl.ofNat 1 : F32), Fl.ofNat 1].foldl Fl.mul Fl.one = Fl.ofNat 1 := by decide +kernel
    obtain ⟨p1, p2, p3, -⟩ := exponent_near (f := Fmt.f32) (.inl rfl) (n := 2) (by norm_num) (by norm_num)
    rw [e1] at run
    have h1 := value_nat (f := Fmt.f32) (.inl rfl) (n := 1) (by norm_num)
    have hfin : (Fl.ofNat 1 : F32).isFinite = true := by decide +kernel
    obtain ⟨c1, c2⟩ := hF (Fl.ofNat 1) _ hfin p1 (by rw [h1]; norm_num) p2 p3
    have hl := value_eq_div (c := (FloatT.lit 1 10000000 : F32)) 1 10000000 (10 ^ 12) (by norm_num) (by norm_num) (by decide +kernel)
    have hlf : (FloatT.lit 1 10000000 : F32).isFinite = true := by decide +kernel
    refine ⟨_, run, ?_⟩
    rw [h1] at c2
    push_cast at c2 hl
    rw [Real.one_rpow, mul_one] at c2
    refine sub_lt (.inl rfl) c1 hfin hlf (d := ε) (by rw [h1]; push_cast; exact c2) (by linarith) ?_
    have := (abs_le.1 hl).1
    have : ε * roundoff Fmt.f32 ≤ 9 / 10 ^ 8 * (1 / 10 ^ 7) := mul_le_mul hε u1 (Fl.roundoff_pos).le (by norm_num)
    norm_num at *
    linarith
  · have hv1 := value_nat (f := Fmt.f32) (.inl rfl) (n := 1) (by norm_num)
    have hv2 := value_nat (f := Fmt.f32) (.inl rfl) (n := 2) (by norm_num)
    obtain ⟨c, h1, hc, t, h2, h3⟩ := C08_float (.inl rfl) F hF [(Fl.ofNat 1 : F32), Fl.ofNat 2] (by decide) (by decide)
      (by intro x hx; simp only [List.mem_cons, List.not_mem_nil, or_false] at hx; rcases hx with rfl | rfl <;> simp [hv1, hv2])
      (by
        intro k hk
        have : k = 0 ∨ k = 1 ∨ k = 2 := by simp at hk; omega
        rcases this with rfl | rfl | rfl <;> exact normal_of _ (by decide +kernel) (by decide +kernel)) s
    refine ⟨c, h1, ?_⟩
    have hG : geometricMean ([(Fl.ofNat 1 : F32), Fl.ofNat 2].map value) = (2 : ℝ) ^ (1 / 2 : ℝ) := by
      unfold geometricMean
      simp only [List.map_cons, List.map_nil, List.prod_cons, List.prod_nil, List.length_cons, List.length_nil, hv1, hv2]
      norm_num
    rw [hG] at h2 h3
    rw [← Real.sqrt_eq_rpow] at h2 h3
    have g1 : 141421 / 100000 ≤ Real.sqrt 2 := Real.le_sqrt_of_sq_le (by norm_num)
    have g2 : Real.sqrt 2 ≤ 141422 / 100000 := by rw [Real.sqrt_le_left (by norm_num)]; norm_num
    have hl := value_eq_div (c := (FloatT.lit 141421 100000 : F32)) 141421 100000 (10 ^ 6) (by norm_num) (by norm_num) (by decide +kernel)
    have hL := value_eq_div (c := (FloatT.lit 1 10000 : F32)) 1 10000 (10 ^ 6) (by norm_num) (by norm_num) (by decide +kernel)
    have hlf : (FloatT.lit 141421 100000 : F32).isFinite = true ∧ (FloatT.lit 1 10000 : F32).isFinite = true := by decide +kernel
    generalize (FloatT.lit 141421 100000 : F32) = l at hl hlf ⊢
    generalize (FloatT.lit 1 10000 : F32) = L at hL hlf ⊢
    push_cast at hl hL
    have := child_near (ε := ε) (u := roundoff Fmt.f32) (g := 141421 / 100000) (by linarith) hε0 u1
      (by rw [abs_le]; constructor <;> linarith) (by linarith) (by linarith) h2 h3 (l := value l) (hl.trans (by norm_num))
    refine sub_lt (.inl rfl) hc hlf.1 hlf.2 this (by norm_num) ?_
    have := (abs_le.1 hL).1
    norm_num at *
    linarith
  · have hv1 := value_nat (f := Fmt.f64) (.inr rfl) (n := 1) (by norm_num)
    have hv2 := value_nat (f := Fmt.f64) (.inr rfl) (n := 2) (by norm_num)
    have hv3 := value_nat (f := Fmt.f64) (.inr rfl) (n := 3) (by norm_num)
    obtain ⟨c, h1, hc, t, h2, h3⟩ := C08_float (.inr rfl) F' hF' [(Fl.ofNat 1 : F64), Fl.ofNat 2, Fl.ofNat 3] (by decide) (by decide)
      (by
        intro x hx; simp only [List.mem_cons, List.not_mem_nil, or_false] at hx
        rcases hx with rfl | rfl | rfl <;> simp [hv1, hv2, hv3])
      (by
        intro k hk
        have : k = 0 ∨ k = 1 ∨ k = 2 ∨ k = 3 := by simp at hk; omega
        rcases this with rfl | rfl | rfl | rfl <;> exact normal_of _ (by decide +kernel) (by decide +kernel)) s
    refine ⟨c, h1, ?_⟩
    obtain ⟨G, hG⟩ : ∃ G, G = geometricMean ([(Fl.ofNat 1 : F64), Fl.ofNat 2, Fl.ofNat 3].map value) := ⟨_, rfl⟩
    rw [← hG] at h2 h3
    have hG3 : G ^ 3 = 6 := by
      rw [hG]
      unfold geometricMean
      simp only [List.map_cons, List.map_nil, List.prod_cons, List.prod_nil, List.length_cons, List.length_nil, hv1, hv2, hv3]
      norm_num
      rw [← Real.rpow_natCast, ← Real.rpow_mul (by norm_num)]
      norm_num
    have hG0 : 0 ≤ G := by rw [hG]; exact Real.rpow_nonneg (by simp [hv1, hv2, hv3]) _
    have g1 : 181712 / 100000 ≤ G := le_of_pow_le_pow_left₀ (n := 3) (by norm_num) hG0 (by rw [hG3]; norm_num)
    have g2 : G ≤ 181713 / 100000 := le_of_pow_le_pow_left₀ (n := 3) (by norm_num) (by norm_num) (by rw [hG3]; norm_num)
    have hl := value_eq_div (c := (FloatT.lit 181712 100000 : F64)) 181712 100000 (10 ^ 6) (by norm_num) (by norm_num) (by decide +kernel)
    have hL := value_eq_div (c := (FloatT.lit 1 10000 : F64)) 1 10000 (10 ^ 6) (by norm_num) (by norm_num) (by decide +kernel)
    have hlf : (FloatT.lit 181712 100000 : F64).isFinite = true ∧ (FloatT.lit 1 10000 : F64).isFinite = true := by decide +kernel
    generalize (FloatT.lit 181712 100000 : F64) = l at hl hlf ⊢
    generalize (FloatT.lit 1 10000 : F64) = L at hL hlf ⊢
    push_cast at hl hL
    have := child_near (ε := ε) (u := roundoff Fmt.f64) (g := 181712 / 100000) (by linarith) hε0 u2
      (by rw [abs_le]; constructor <;> linarith) (by linarith) (by linarith) h2 h3 (l := value l) (hl.trans (by norm_num))
    refine sub_lt (.inr rfl) hc hlf.1 hlf.2 this (by norm_num) ?_
    have := (abs_le.1 hL).1
    norm_num at *
    linarith

/-! ## CrossMean with many parents -/

/-- C07: with more than two parents the floating-point mean may leave their interval: ten times 0.1 has the mean 0.09999999999999999. -/
theorem C07_many_witness : M.okAnd (crossMean (List.replicate 10 (Fl.ofRat false 1 10 : F64)) ())
    (fun cs _ => cs.all fun c => c.lt (Fl.ofRat false 1 10)) = true ∧
    M.okAnd (crossMean (List.replicate 10 (Fl.ofRat false 1 10 : F64)) ()) (fun cs _ => cs.length == 1) = true := by decide +kernel

end Verif.Props
