import Verif.Props.TestThreads

/-!
# C85: a small value of Rosenbrock's function
-/

namespace Verif.Fl

variable {f : Fmt}

/-- A number is small if its square is. -/
theorem small_of_sq {d c : Fl f} (hd : (d.mul d).isFinite = true) (hc : (c.mul c).isFinite = true) (h0 : 0 ≤ c.toInt)
    (h : (d.mul d).toInt < (c.mul c).toInt) : |(d.toInt : ℝ)| < c.toInt := by
  by_contra hn
  have hn := _root_.not_lt.1 hn
  have hdf := (finite_of_mul hd).1
  have hcf := (finite_of_mul hc).1
  have : (c.mul c).toInt ≤ (d.mul d).toInt := by
    rw [(mul_rounds hcf hcf).2, (mul_rounds hdf hdf).2]
    refine Fmt.rnd_mono _ ?_
    have h4 : (0 : ℝ) ≤ c.toInt := by exact_mod_cast h0
    have h6 := mul_self_le_mul_self h4 hn
    rw [abs_mul_abs_self] at h6
    have hD := D_posR (f := f)
    first
    | exact h6
    | exact (div_le_div_iff_of_pos_right hD).2 h6
  omega

/-- A difference is small if the computed one is. -/
theorem small_of_sub {x y c : Fl f} (h : (x.sub y).isFinite = true) (hc : c.isNan = false)
    (hlt : |((x.sub y).toInt : ℝ)| < c.toInt) : |(x.toInt : ℝ) - y.toInt| < c.toInt := by
  obtain ⟨hx, hy⟩ := finite_of_sub h
  have hr := sub_rounds hx hy
  obtain ⟨h1, h2⟩ := abs_lt.1 hlt
  rw [abs_lt]
  constructor
  · by_contra hn
    have h3 := (le_iff.1 (hr.le (z := c.neg) (by rw [isNan_neg]; exact hc) (by rw [toInt_neg]; push_cast; linarith))).2.2
    rw [toInt_neg] at h3
    have : ((x.sub y).toInt : ℝ) ≤ -c.toInt := by exact_mod_cast h3
    linarith
  · by_contra hn
    have h3 := (le_iff.1 (hr.ge (z := c) hc (by linarith))).2.2
    have : (c.toInt : ℝ) ≤ (x.sub y).toInt := by exact_mod_cast h3
    linarith

end Verif.Fl

namespace Verif.Props

open Verif Spec Examples Fl Stats Workers StatPrograms TestPrograms

variable {σ : Type}

/-- What Rosenbrock's function computes for three coordinates. -/
def rosen3 (x y z : F32) : F32 :=
  ((((Fl.zero.add ((plus 100 1).mul ((y.sub (x.mul x)).mul (y.sub (x.mul x))))).add (((plus 1 1).sub x).mul ((plus 1 1).sub x))).add
    ((plus 100 1).mul ((z.sub (y.mul y)).mul (z.sub (y.mul y))))).add (((plus 1 1).sub y).mul ((plus 1 1).sub y)))

theorem rosenbrock_three' {α : Type} [FloatT α] (p : Profile) (x y z : α) (s : σ) :
    TestFunc.rosenbrock p [x, y, z] s = .ok (
      FloatT.add (FloatT.add (FloatT.add (FloatT.add (FloatT.lit 0 1)
        (FloatT.mul (FloatT.lit 100 1) (TestFunc.sq (FloatT.sub y (FloatT.mul x x))))) (TestFunc.sq (FloatT.sub (FloatT.lit 1 1) x)))
        (FloatT.mul (FloatT.lit 100 1) (TestFunc.sq (FloatT.sub z (FloatT.mul y y))))) (TestFunc.sq (FloatT.sub (FloatT.lit 1 1) y)), s) := by
  rw [rosenbrock_eq p _ (by simp)]
  rfl

theorem rosenbrock_three (p : Profile) (x y z : F32) (s : σ) :
    TestFunc.rosenbrockF64 p [x, y, z] s = .ok ((rosen3 x y z).cast, s) := by
  have h0 : (FloatT.lit 0 1 : F32) = Fl.zero := by decide +kernel
  have h1 : (FloatT.lit 1 1 : F32) = plus 1 1 := by decide +kernel
  have h2 : (FloatT.lit 100 1 : F32) = plus 100 1 := by decide +kernel
  refine M.bind_eq_ok.2 ⟨rosen3 x y z, s, ?_, rfl⟩
  rw [rosenbrock_three', h0, h1, h2]
  unfold rosen3
  generalize (plus 1 1 : F32) = b
  generalize (plus 100 1 : F32) = c
  generalize (Fl.zero : F32) = a
  rfl

theorem mul_toInt_nonneg {f : Fmt} {a b : Fl f} (h : (a.mul b).isFinite = true) (ha : 0 ≤ a.toInt) (hb : 0 ≤ b.toInt) :
    0 ≤ (a.mul b).toInt := by
  obtain ⟨h1, h2⟩ := Fl.finite_of_mul h
  have := (Fl.le_iff.1 ((Fl.mul_rounds h1 h2).ge (z := Fl.zero) Fl.isNan_zero (by
    rw [Fl.zero_toInt]
    have : (0 : ℝ) ≤ a.toInt := by exact_mod_cast ha
    have : (0 : ℝ) ≤ b.toInt := by exact_mod_cast hb
    push_cast
    positivity))).2.2
  rw [Fl.zero_toInt] at this
  exact this

/-- The parts of such a sum are not larger than the sum. -/
theorem sum_parts {f : Fmt} {a b c d r : Fl f} (he : r = (((Fl.zero.add a).add b).add c).add d) (h : r.isFinite = true)
    (hp : ∀ y ∈ [a, b, c, d], y.isFinite = true → 0 ≤ y.toInt) :
    ∀ y ∈ [a, b, c, d], y.isFinite = true ∧ y.toInt ≤ r.toInt := by
  subst he
  have h' : ([a, b, c, d].foldl Fl.add Fl.zero).isFinite = true := h
  have h1 := (Fl.foldl_add_finite h').2
  intro y hy
  exact ⟨h1 y hy, (foldl_ge h' (by rw [Fl.zero_toInt]) fun z hz => hp z hz (h1 z hz)).2 y hy⟩

/-- A product of 100 and a square is small only if the number is. -/
theorem small_of_hundred {h e c : F32} (hf : (h.mul (e.mul e)).isFinite = true) (h0 : 0 ≤ h.toInt)
    (hc : (c.mul c).isFinite = true) (hc0 : 0 ≤ c.toInt) (hlt : (h.mul (e.mul e)).toInt < (h.mul (c.mul c)).toInt) :
    |(e.toInt : ℝ)| < c.toInt := by
  obtain ⟨h1, h2⟩ := Fl.finite_of_mul hf
  refine Fl.small_of_sq h2 hc hc0 ?_
  by_contra hn
  have hn : (c.mul c).toInt ≤ (e.mul e).toInt := by omega
  have : (h.mul (c.mul c)).toInt ≤ (h.mul (e.mul e)).toInt := by
    rw [(Fl.mul_rounds h1 hc).2, (Fl.mul_rounds h1 h2).2]
    refine Fmt.rnd_mono _ ?_
    have h4 : (0 : ℝ) ≤ h.toInt := by exact_mod_cast h0
    have h5 : ((c.mul c).toInt : ℝ) ≤ (e.mul e).toInt := by exact_mod_cast hn
    have h6 := mul_le_mul_of_nonneg_left h5 h4
    have hD := Fl.D_posR (f := Fmt.f32)
    first
    | exact h6
    | exact (div_le_div_iff_of_pos_right hD).2 h6
  omega

/-- A square of a number near one is near one. -/
theorem sq_near {y : F32} {D : ℝ} (hD : (Fmt.f32.D : ℝ) = D) (hf : (y.mul y).isFinite = true)
    (hy : |D - y.toInt| < 16 / 10000 * D) : |((y.mul y).toInt : ℝ) - D| ≤ 41 / 10000 * D := by
  have hr := Fl.mul_rounds (Fl.finite_of_mul hf).1 (Fl.finite_of_mul hf).2
  have h0 : 0 < D := by rw [← hD]; exact Fl.D_posR
  rw [hD] at hr
  obtain ⟨h1, h2⟩ := abs_lt.1 hy
  have hhi : (plus 1004 1000 : F32).toInt * 10000 ≤ 10041 * (Fmt.f32.D : ℤ) ∧
      10039 * (Fmt.f32.D : ℤ) ≤ (plus 1004 1000 : F32).toInt * 10000 ∧ (plus 1004 1000 : F32).isNan = false := by decide +kernel
  have hlo : 9959 * (Fmt.f32.D : ℤ) ≤ (plus 996 1000 : F32).toInt * 10000 ∧
      (plus 996 1000 : F32).toInt * 10000 ≤ 9961 * (Fmt.f32.D : ℤ) ∧ (plus 996 1000 : F32).isNan = false := by decide +kernel
  generalize (plus 1004 1000 : F32) = hi at hhi
  generalize (plus 996 1000 : F32) = lo at hlo
  obtain ⟨a1, a2, a3⟩ := hhi
  obtain ⟨b1, b2, b3⟩ := hlo
  have a1 : (hi.toInt : ℝ) * 10000 ≤ 10041 * D := by rw [← hD]; exact_mod_cast a1
  have a2 : 10039 * D ≤ (hi.toInt : ℝ) * 10000 := by rw [← hD]; exact_mod_cast a2
  have b1 : 9959 * D ≤ (lo.toInt : ℝ) * 10000 := by rw [← hD]; exact_mod_cast b1
  have b2 : (lo.toInt : ℝ) * 10000 ≤ 9961 * D := by rw [← hD]; exact_mod_cast b2
  have e1 : (y.toInt : ℝ) * y.toInt / D ≤ hi.toInt := by
    rw [div_le_iff₀ h0]
    nlinarith
  have e2 : (lo.toInt : ℝ) ≤ (y.toInt : ℝ) * y.toInt / D := by
    rw [le_div_iff₀ h0]
    nlinarith
  have k1 : ((y.mul y).toInt : ℝ) ≤ hi.toInt := by exact_mod_cast (Fl.le_iff.1 (hr.le a3 e1)).2.2
  have k2 : (lo.toInt : ℝ) ≤ (y.mul y).toInt := by exact_mod_cast (Fl.le_iff.1 (hr.ge b3 e2)).2.2
  rw [abs_le]
  constructor <;> linarith

/-- A small value of Rosenbrock's function for three coordinates means that all of them are near one. -/
theorem rosen3_near {x y z : F32} (hf : (rosen3 x y z).isFinite = true) (hl : (rosen3 x y z).toInt ≤ (plus 2 1000000 : F32).toInt) :
    |(x.toInt : ℝ) - Fmt.f32.D| ≤ 9 / 1000 * Fmt.f32.D ∧ |(y.toInt : ℝ) - Fmt.f32.D| ≤ 9 / 1000 * Fmt.f32.D ∧
    |(z.toInt : ℝ) - Fmt.f32.D| ≤ 9 / 1000 * Fmt.f32.D := by
  have hone : (plus 1 1 : F32).toInt = Fmt.f32.D := by decide +kernel
  have hc : (plus 15 10000 : F32).toInt * 10000 ≤ 16 * (Fmt.f32.D : ℤ) ∧
      ((plus 15 10000 : F32).mul (plus 15 10000)).isFinite = true ∧ 0 ≤ (plus 15 10000 : F32).toInt ∧
      (plus 2 1000000 : F32).toInt < ((plus 15 10000 : F32).mul (plus 15 10000)).toInt ∧
      (plus 15 10000 : F32).isNan = false := by decide +kernel
  have he : (plus 15 100000 : F32).toInt * 10000 ≤ 2 * (Fmt.f32.D : ℤ) ∧
      ((plus 15 100000 : F32).mul (plus 15 100000)).isFinite = true ∧ 0 ≤ (plus 15 100000 : F32).toInt ∧
      (plus 2 1000000 : F32).toInt < ((plus 100 1 : F32).mul ((plus 15 100000 : F32).mul (plus 15 100000))).toInt ∧
      (plus 15 100000 : F32).isNan = false := by decide +kernel
  have hh : 0 ≤ (plus 100 1 : F32).toInt := by decide +kernel
  have hparts := sum_parts (r := rosen3 x y z) rfl hf (by
    intro w hw hwf
    simp only [List.mem_cons, List.not_mem_nil, or_false] at hw
    rcases hw with rfl | rfl | rfl | rfl
    · exact mul_toInt_nonneg hwf hh (sq_nonneg' (Fl.finite_of_mul (Fl.finite_of_mul hwf).2).1)
    · exact sq_nonneg' (Fl.finite_of_mul hwf).1
    · exact mul_toInt_nonneg hwf hh (sq_nonneg' (Fl.finite_of_mul (Fl.finite_of_mul hwf).2).1)
    · exact sq_nonneg' (Fl.finite_of_mul hwf).1)
  generalize (rosen3 x y z) = r at hl hparts
  generalize (plus 15 10000 : F32) = c at hc
  generalize (plus 15 100000 : F32) = e at he
  generalize (plus 2 1000000 : F32) = lim at hl hc he
  generalize (plus 1 1 : F32) = one at hone hparts
  generalize (plus 100 1 : F32) = h at he hh hparts
  obtain ⟨c1, c2, c3, c4, c5⟩ := hc
  obtain ⟨e1, e2, e3, e4, e5⟩ := he
  simp only [List.mem_cons, List.not_mem_nil, or_false, forall_eq_or_imp, forall_eq] at hparts
  obtain ⟨-, ⟨f1, f2⟩, ⟨g1, g2⟩, ⟨k1, k2⟩⟩ := hparts
  have h0 := Fl.D_posR (f := Fmt.f32)
  obtain ⟨D, hD⟩ : ∃ D, (Fmt.f32.D : ℝ) = D := ⟨_, rfl⟩
  rw [hD] at h0 ⊢
  have c1 : (c.toInt : ℝ) * 10000 ≤ 16 * D := by rw [← hD]; exact_mod_cast c1
  have e1 : (e.toInt : ℝ) * 10000 ≤ 2 * D := by rw [← hD]; exact_mod_cast e1
  have ho : (one.toInt : ℝ) = D := by rw [hone, ← hD]; rfl
  have hx := Fl.small_of_sub (Fl.finite_of_mul f1).1 c5 (Fl.small_of_sq f1 c2 c3 (by omega))
  have hy := Fl.small_of_sub (Fl.finite_of_mul k1).1 c5 (Fl.small_of_sq k1 c2 c3 (by omega))
  have hz := Fl.small_of_sub (Fl.finite_of_mul (Fl.finite_of_mul g1).2).1 e5 (small_of_hundred g1 hh e2 e3 (by omega))
  rw [ho] at hx hy
  have hyy := sq_near hD (Fl.finite_of_sub (Fl.finite_of_mul (Fl.finite_of_mul g1).2).1).2 (by linarith)
  rw [abs_lt] at hx hy hz
  rw [abs_le] at hyy
  refine ⟨abs_le.2 ⟨?_, ?_⟩, abs_le.2 ⟨?_, ?_⟩, abs_le.2 ⟨?_, ?_⟩⟩ <;> linarith

theorem near_lt {x : F32} (hx : x.isFinite = true) (h : |(x.toInt : ℝ) - Fmt.f32.D| ≤ 9 / 1000 * Fmt.f32.D) :
    (plus 1 100 : F32).lt (x.sub (plus 1 1)).abs = false := by
  have hone : (plus 1 1 : F32).toInt = Fmt.f32.D ∧ (plus 1 1 : F32).isFinite = true := by decide +kernel
  have hd : 9 * (Fmt.f32.D : ℤ) ≤ 1000 * (plus 1 100 : F32).toInt ∧ (plus 1 100 : F32).isNan = false := by decide +kernel
  generalize (plus 1 1 : F32) = one at hone ⊢
  generalize (plus 1 100 : F32) = d at hd ⊢
  obtain ⟨d1, d2⟩ := hd
  have d1 : 9 * (Fmt.f32.D : ℝ) ≤ 1000 * d.toInt := by exact_mod_cast d1
  have ho : (one.toInt : ℝ) = Fmt.f32.D := by rw [hone.1]; rfl
  have hr := Fl.sub_rounds hx hone.2
  rw [ho] at hr
  obtain ⟨h1, h2⟩ := abs_le.1 h
  have k1 := (Fl.le_iff.1 (hr.le d2 (by linarith))).2.2
  have k2 := (Fl.le_iff.1 (hr.ge (z := d.neg) (by rw [Fl.isNan_neg]; exact d2) (by rw [Fl.toInt_neg]; push_cast; linarith))).2.2
  rw [Fl.toInt_neg] at k2
  rw [Bool.eq_false_iff]
  intro hlt
  have := (Fl.lt_iff.1 hlt).2.2
  rw [Fl.toInt_abs] at this
  omega

/-- C85: a run of genetic-rosenbrock.rs that ends with a goal value of at most 1e-6 (the threshold of its stop checker) counts
as a success. -/
theorem C85_rosenbrock_small (p : Profile) (x : List F32) (hl : x.length = 3) (v : F64)
    (hv : Returned (TestFunc.rosenbrockF64 p x : M σ F64) v) (hf : v.isFinite = true)
    (hs : v.le (Fl.ofRat false 1 1000000) = true) :
    Close (List.replicate 3 (plus 1 1)) (List.replicate 3 (plus 1 100)) x := by
  obtain ⟨x, y, z, rfl⟩ : ∃ a b c, x = [a, b, c] := by
    match x, hl with
    | [a, b, c], _ => exact ⟨a, b, c, rfl⟩
  obtain ⟨s, s', hv⟩ := hv
  rw [rosenbrock_three] at hv
  obtain rfl : (rosen3 x y z).cast = v := congrArg Prod.fst (Except.ok.inj hv)
  have hrf : (rosen3 x y z).isFinite = true := by
    by_contra hc
    rw [Fl.isFinite_cast_inf (Bool.not_eq_true _ ▸ hc)] at hf
    cases hf
  have hlim : (Fl.ofRat false 1 1000000 : F64).lt (plus 2 1000000 : F32).cast = true ∧ (plus 2 1000000 : F32).isFinite = true := by
    decide +kernel
  have hsmall : (rosen3 x y z).toInt ≤ (plus 2 1000000 : F32).toInt := by
    generalize (plus 2 1000000 : F32) = lim at hlim ⊢
    generalize (Fl.ofRat false 1 1000000 : F64) = t at hs hlim
    by_contra hn
    have h1 := Fl.cast_le Fmt.embeds_f32 hlim.2 hrf (Fl.le_iff.2 ⟨Fl.isNan_of_isFinite hlim.2, Fl.isNan_of_isFinite hrf, by omega⟩)
    have h2 := (Fl.le_iff.1 h1).2.2
    have h3 := (Fl.lt_iff.1 hlim.1).2.2
    have h4 := (Fl.le_iff.1 hs).2.2
    omega
  obtain ⟨n1, n2, n3⟩ := rosen3_near hrf hsmall
  have hfin : x.isFinite = true ∧ y.isFinite = true ∧ z.isFinite = true := by
    have h : ([((plus 100 1 : F32).mul ((y.sub (x.mul x)).mul (y.sub (x.mul x)))), (((plus 1 1 : F32).sub x).mul ((plus 1 1).sub x)),
      ((plus 100 1 : F32).mul ((z.sub (y.mul y)).mul (z.sub (y.mul y)))), (((plus 1 1 : F32).sub y).mul ((plus 1 1).sub y))].foldl
      Fl.add Fl.zero).isFinite = true := hrf
    have h := (Fl.foldl_add_finite h).2
    simp only [List.mem_cons, List.not_mem_nil, or_false, forall_eq_or_imp, forall_eq] at h
    obtain ⟨h1, -, h3, -⟩ := h
    have g1 := Fl.finite_of_sub (Fl.finite_of_mul (Fl.finite_of_mul h1).2).1
    have g3 := Fl.finite_of_sub (Fl.finite_of_mul (Fl.finite_of_mul h3).2).1
    exact ⟨(Fl.finite_of_mul g1.2).1, g1.1, g3.1⟩
  intro i a e d h1 h2 h3
  obtain rfl : plus 1 1 = e := (List.mem_replicate.1 (List.mem_of_getElem? h2)).2.symm
  obtain rfl : plus 1 100 = d := (List.mem_replicate.1 (List.mem_of_getElem? h3)).2.symm
  have ha := List.mem_of_getElem? h1
  simp only [List.mem_cons, List.not_mem_nil, or_false] at ha
  rcases ha with rfl | rfl | rfl
  · exact near_lt hfin.1 n1
  · exact near_lt hfin.2.1 n2
  · exact near_lt hfin.2.2 n3

/-- C85: the test passes if at least three quarters of the runs have ended with a goal value of at most 1e-6. -/
theorem C85_rosenbrock_passes (P : Platform σ) (hP : Platform.Sound P) (L : Lens σ Stop.GNC) (hL : Platform.Leaves L P)
    (cpu : Nat) (h1 : 1 ≤ cpu) (h2 : cpu ≤ 100) (seed : Nat → σ) (m : Nat) (hm : m ≤ 2 ^ 55)
    (hend : ∀ s, rosenbrockJob P.profile (StatPrograms.geneticRosenbrock P L) m s ≠ .error .fuel) :
    Reports 100 cpu (rosenbrockJob P.profile (StatPrograms.geneticRosenbrock P L)) seed (RosenbrockRecord P m)
      (fun runs d => ∀ s : σ, 3 * runs ≤ 4 * accepted d.1.results (fun a => a.2.le (Fl.ofRat false 1 1000000)) →
        ∃ s', rosenbrockVerdict d s = .ok ((), s')) := by
  intro n y hy
  obtain ⟨k1, k2, k3⟩ := C85_genetic_rosenbrock P hP L hL cpu h1 h2 seed m hm hend n y hy
  refine ⟨k1, k2, fun acc hacc => ?_⟩
  obtain ⟨⟨ds, e1, e2, e3⟩, e4⟩ := k3 acc hacc
  refine ⟨⟨ds, e1, e2, e3⟩, fun s hs => ?_⟩
  obtain ⟨good, g1, g2⟩ := e4 s
  refine g2.1 (Nat.le_trans hs (Nat.mul_le_mul_left _ ?_))
  unfold accepted
  refine List.countP_mono_left ?_
  intro r hr h
  rw [e3.1] at hr
  obtain ⟨d, hd, hr⟩ := List.mem_flatMap.1 hr
  obtain ⟨k, ⟨ps, a, row, f1, f2, f3, f4, f5, f6, f7, f8⟩, -⟩ := e2 d hd
  have f9 : d.1.results = [some a] := by rw [congrArg Prod.fst f1]
  rw [f9, List.mem_singleton] at hr
  subst hr
  have hmem : a ∈ ps := by
    have hlast := List.getLast?_eq_getElem? (l := row)
    rw [f6] at hlast
    obtain ⟨hi, he⟩ := List.getElem?_eq_some_iff.1 hlast.symm
    obtain ⟨b, hb1, hb2⟩ := f8 _ hi
    rw [he] at hb1
    cases hb1
    exact List.mem_of_mem_take hb2
  obtain ⟨q1, q2, q3⟩ := f7 a hmem
  show good a = true
  exact (g1 a).2 (C85_rosenbrock_small P.profile a.1 (box_length q1) a.2 q2 q3 h)

/-- A point that is not the minimum and meets the conditions of `C85_rosenbrock_small`. -/
example : M.okAnd (TestFunc.rosenbrockF64 .debug [plus 1 1, plus 1 1, plus 100005 100000] ())
    (fun v _ => v.isFinite && v.le (Fl.ofRat false 1 1000000) && Fl.zero.lt v) = true := by decide +kernel

/-- The runs with the numbers of `onesPlatform` find the minimum. -/
theorem ones_test_found (s) : ∃ r s', rosenbrockJob .debug (StatPrograms.geneticRosenbrock onesPlatform (Lens.snd _ _)) 2 s = .ok (r, s') ∧
    RosenbrockRecord onesPlatform 2 r ∧ ∀ a ∈ r.1.results, ∃ b, a = some b ∧ b.2.le (Fl.ofRat false 1 1000000) = true := by
  rcases rosenbrock_job onesPlatform ones_sound (Lens.snd _ _) ones_leaves 2 (by omega) s with ⟨r, s', h1, h2⟩ | h
  · refine ⟨r, s', h1, h2, ?_⟩
    have h1 : rosenbrockJob .debug (StatPrograms.geneticRosenbrock onesPlatform (Lens.snd _ _)) 2 s = .ok (r, s') := h1
    rw [test_made (rosenbrock_make _ _ _)] at h1
    have key : M.okAnd (rosenbrockJob .debug (pure (rosenbrockMade onesPlatform (rosenbrockStops (Lens.snd _ _)
        (Fl.ofRat false 1 1000000) .debug))) 2 ((), Stop.GNC.new 2000 (Fl.ofRat false 1 10000000)))
        (fun r _ => r.1.results.all fun a => match a with | some b => b.2.le (Fl.ofRat false 1 1000000) | none => false) = true := by
      decide +kernel
    obtain ⟨r', s'', e1, e2⟩ := M.okAnd_iff.1 key
    have e3 := e1.symm.trans h1
    obtain rfl : r' = r := congrArg Prod.fst (Except.ok.inj e3)
    intro a ha
    have := List.all_eq_true.1 e2 a ha
    cases a with
    | none => cases this
    | some b => exact ⟨b, rfl, this⟩
  · exact absurd h (ones_test_end s)

/-- And an execution to which `C85_rosenbrock_passes` applies, with 99 runs that all end in the minimum: the test passes. -/
example : ∃ n y acc s', Steps (threads 100 3 (rosenbrockJob .debug (StatPrograms.geneticRosenbrock onesPlatform (Lens.snd _ _)))
      (fun _ => ((), Stop.GNC.new 0 Fl.zero))) n .start y ∧ y.main = .finished acc ∧
      rosenbrockVerdict acc ((), Stop.GNC.new 0 Fl.zero) = .ok ((), s') := by
  obtain ⟨n, y, acc, h1, h2, -⟩ := Workers.C76_any_order _ (job_safe (rosenbrockJob_steady .debug _) ones_test_found 100 3
    (fun _ => ((), Stop.GNC.new 0 Fl.zero))).1 [0, 1, 2] (List.Perm.refl _)
  obtain ⟨-, -, h3⟩ := whole (rosenbrockJob_steady .debug _) ones_test_found 100 3 (fun _ => ((), Stop.GNC.new 0 Fl.zero))
    (output := fun _ _ => True) (fun _ _ _ _ _ => trivial) n y h1
  obtain ⟨⟨ds, e1, e2, e3⟩, -⟩ := h3 acc h2
  obtain ⟨-, -, h4⟩ := C85_rosenbrock_passes onesPlatform ones_sound (Lens.snd _ _) ones_leaves 3 (by omega) (by omega)
    (fun _ => ((), Stop.GNC.new 0 Fl.zero)) 2 (by omega) ones_test_end n y h1
  have hlen : acc.1.results.length = 99 := (test_merged (fun d hd => (e2 d hd).1) e3).trans e1
  obtain ⟨s', h5⟩ := (h4 acc h2).2 ((), Stop.GNC.new 0 Fl.zero) (by
    have : accepted acc.1.results (fun a => a.2.le (Fl.ofRat false 1 1000000)) = acc.1.results.length := by
      unfold accepted
      rw [List.countP_eq_length]
      intro r hr
      rw [e3.1] at hr
      obtain ⟨d, hd, hr⟩ := List.mem_flatMap.1 hr
      obtain ⟨b, rfl, hb⟩ := (e2 d hd).2 r hr
      exact hb
    rw [this, hlen]
    omega)
  exact ⟨n, y, acc, s', h1, h2, h5⟩

end Verif.Props
