import Verif.Spec.TestFunctions
import Verif.Props.TrigWitness
import Verif.Props.GeneticExamples
import Verif.Props.SwarmExamples

/-!
# C89: how accurate the results of the example programs are
-/

namespace Verif.Props

open Verif Spec Spec.Swarm Examples

variable {σ τ : Type}

/-- A sine and a cosine that keep their range and are accurate to six digits. -/
structure Precise (P : Platform σ) : Prop where
  sound : Platform.Sound P
  trig : AccurateTrig (1 / 10 ^ 6) P.libm

theorem u32 : roundoff Fmt.f32 = 1 / 16777216 := by unfold roundoff; norm_num [Fmt.f32]

theorem tiny32 : tiny Fmt.f32 ≤ 1 / 10 ^ 40 := by
  have : (10 : ℕ) ^ 40 ≤ 2 * Fmt.f32.D := by decide +kernel
  unfold tiny
  have h' : (10 : ℝ) ^ 40 ≤ 2 * (Fmt.f32.D : ℝ) := by exact_mod_cast this
  exact one_div_le_one_div_of_le (by positivity) h'

/-- The coordinates of a point in the box, as numbers. -/
theorem box_values {lo hi : F32} {d : Nat} {c : ℝ} (hlo : -c ≤ value lo) (hhi : value hi ≤ c) {x : List F32}
    (hx : InBox (box lo hi d) x) : x.length = d ∧ ∀ a ∈ x, |value a| ≤ c := by
  refine ⟨by rw [← hx.length_eq]; exact List.length_replicate, fun a ha => ?_⟩
  obtain ⟨k, hk, rfl⟩ := List.mem_iff_getElem.1 ha
  have hk' : k < (box lo hi d).length := by rw [hx.length_eq]; exact hk
  have h := hx.get hk' hk
  simp only [List.get_eq_getElem] at h
  rw [box_mem (List.getElem_mem hk')] at h
  generalize x[k] = a at h ⊢
  have hD := Fl.D_posR (f := Fmt.f32)
  have h1 := (Fl.le_iff.1 h.2.1).2.2
  have h2 := (Fl.le_iff.1 h.2.2).2.2
  have e1 : value lo ≤ value a := by
    unfold value; rw [div_le_div_iff_of_pos_right hD]; exact_mod_cast h1
  have e2 : value a ≤ value hi := by
    unfold value; rw [div_le_div_iff_of_pos_right hD]; exact_mod_cast h2
  exact abs_le.2 ⟨by linarith, by linarith⟩

theorem box500 : -500 ≤ value (minus 500 1) ∧ value (plus 500 1) ≤ 500 := by
  have h : (minus 500 1).toInt = -(500 * Fmt.f32.D) ∧ (plus 500 1).toInt = 500 * Fmt.f32.D := by decide +kernel
  have hD := Fl.D_posR (f := Fmt.f32)
  unfold value
  rw [h.1, h.2]
  generalize Fmt.f32.D = D at hD ⊢
  push_cast
  constructor
  · rw [neg_div, mul_div_assoc, div_self hD.ne']; norm_num
  · rw [mul_div_assoc, div_self hD.ne']; norm_num

theorem box512 : -(513 / 100) ≤ value (minus 512 100) ∧ value (plus 512 100) ≤ 513 / 100 := by
  have h : -(513 * (Fmt.f32.D : ℤ)) ≤ (minus 512 100).toInt * 100 ∧ (plus 512 100).toInt * 100 ≤ 513 * (Fmt.f32.D : ℤ) := by decide +kernel
  have hD := Fl.D_posR (f := Fmt.f32)
  unfold value
  generalize (minus 512 100).toInt = a at h ⊢
  generalize (plus 512 100).toInt = b at h ⊢
  generalize Fmt.f32.D = D at h hD ⊢
  have h1 : -(513 * (D : ℝ)) ≤ a * 100 := by exact_mod_cast h.1
  have h2 : (b : ℝ) * 100 ≤ 513 * D := by exact_mod_cast h.2
  constructor
  · rw [le_div_iff₀ hD]; linarith
  · rw [div_le_iff₀ hD]; linarith

theorem box2 : -2 ≤ value (minus 2 1) ∧ value (plus 2 1) ≤ 2 := by
  have h : (minus 2 1).toInt = -(2 * Fmt.f32.D) ∧ (plus 2 1).toInt = 2 * Fmt.f32.D := by decide +kernel
  have hD := Fl.D_posR (f := Fmt.f32)
  unfold value
  rw [h.1, h.2]
  generalize Fmt.f32.D = D at hD ⊢
  push_cast
  constructor
  · rw [neg_div, mul_div_assoc, div_self hD.ne']; norm_num
  · rw [mul_div_assoc, div_self hD.ne']; norm_num

theorem few32 {n : Nat} (h : n ≤ 30) : ((n : ℝ) + 10) * roundoff .f32 ≤ 1 / 20 := by
  have : (n : ℝ) ≤ 30 := by exact_mod_cast h
  rw [u32]
  linarith

/-- C89: at every point of the box [-500, 500]^d, d at most 15, the computed value of the Schwefel function is within `d/375` of the
exact one, and so not below `-d/375`. -/
theorem C89_schwefel (F : FloatFn F32) (hS : SinCos F) (hF : AccurateTrig (1 / 10 ^ 6) F) (d : Nat) (h0 : 0 < d) (hd : d ≤ 15) (x : List F32)
    (hx : InBox (box (minus 500 1) (plus 500 1) d) x) :
    |value (TestFunc.schwefelF64 x) - Exact.schwefel (x.map value)| ≤ d / 375 ∧ -((d : ℝ) / 375) ≤ value (TestFunc.schwefelF64 x) := by
  obtain ⟨hlen, hv⟩ := box_values box500.1 box500.2 hx
  have hfin := (C72_schwefel (.inl rfl) F hS x (box_moderate (by omega) (by decide +kernel) (by decide +kernel) hx)).1
  have h := C64_error (.inl rfl) F hF x hfin (few32 (by omega))
  have hE := C64_nonneg (x.map value) (by intro a ha; obtain ⟨b, hb, rfl⟩ := List.mem_map.1 ha; exact abs_le.1 (hv b hb))
  rw [C64_exact] at hE
  change 0 ≤ Exact.schwefel (x.map value) at hE
  have eE : Exact.schwefel (x.map value) = (x.map fun a => 4189829 / 10000 - value a * Real.sin (Real.sqrt |value a|)).sum := by
    unfold Exact.schwefel; rw [List.map_map]; rfl
  rw [← eE, hlen] at h
  have hτ := tiny32
  have hτ0 := Fl.tiny_pos (f := Fmt.f32)
  have hd1 : (1 : ℝ) ≤ d := by exact_mod_cast h0
  have hd15 : (d : ℝ) ≤ 15 := by exact_mod_cast hd
  have h1 : (x.map fun a => |value a|).sum ≤ 500 * d := by
    have := sum_le_map (l := x) (g := fun a => |value a|) (h := fun _ => (500 : ℝ)) hv
    rw [Fl.sum_const_map, hlen] at this
    linarith
  have h2 : (x.map fun a => |value a| * (1 / 10 ^ 6 + roundoff .f32 * Real.sqrt |value a| + tiny .f32)).sum ≤ (24 / 20000 : ℝ) * (d : ℝ) := by
    have := sum_le_map (l := x) (g := fun a => |value a| * (1 / 10 ^ 6 + roundoff .f32 * Real.sqrt |value a| + tiny .f32))
      (h := fun _ => (24 / 20000 : ℝ)) fun a ha => by
        have h3 : Real.sqrt |value a| ≤ 23 := by
          rw [Real.sqrt_le_left (by norm_num)]
          have := hv a ha; linarith
        have h4 : roundoff .f32 * Real.sqrt |value a| ≤ 1 / 16777216 * 23 := by
          rw [u32]; exact mul_le_mul_of_nonneg_left h3 (by norm_num)
        have h5 : 0 ≤ roundoff .f32 * Real.sqrt |value a| := by rw [u32]; positivity
        refine (mul_le_mul (hv a ha) (by linarith : 1 / 10 ^ 6 + roundoff .f32 * Real.sqrt |value a| + tiny .f32 ≤
          1 / 10 ^ 6 + 1 / 16777216 * 23 + 1 / 10 ^ 40) (by positivity) (by norm_num)).trans ?_
        norm_num
    rw [Fl.sum_const_map, hlen] at this
    linarith
  have h3 : 6 / 5 * ((d : ℝ) + 3) * roundoff .f32 * (419 * d + (x.map fun a => |value a|).sum) ≤ 12 / 10000 * d := by
    have a1 : 419 * d + (x.map fun a => |value a|).sum ≤ 919 * d := by linarith
    have a2 : 6 / 5 * ((d : ℝ) + 3) * roundoff .f32 ≤ 6 / 5 * 18 * (1 / 16777216) := by rw [u32]; linarith
    refine (mul_le_mul a2 a1 ?_ (by norm_num)).trans ?_
    · have := Fl.sum_nonneg_map x (fun a => |value a|) fun a _ => abs_nonneg _
      positivity
    · linarith
  have h4 : 11 / 10 * (((d : ℝ) + 1) * tiny .f32) ≤ 1 / 10 ^ 30 * d := by
    have : ((d : ℝ) + 1) * tiny .f32 ≤ 2 * d * (1 / 10 ^ 40) := mul_le_mul (by linarith) hτ hτ0.le (by linarith)
    norm_num at this ⊢
    linarith
  have hmain : |value (TestFunc.schwefelF64 x) - Exact.schwefel (x.map value)| ≤ d / 375 := by
    refine h.trans ?_
    generalize (x.map fun a => |value a| * (1 / 10 ^ 6 + roundoff .f32 * Real.sqrt |value a| + tiny .f32)).sum = R at h2 ⊢
    norm_num at h4 ⊢
    linarith
  exact ⟨hmain, by have := (abs_le.1 hmain).1; linarith⟩

/-- C89: at every point of the box [-5.12, 5.12]^d, d at most 30, the computed value of the Rastrigin function is within `d/4000` of the
exact one, and so not below `-d/4000`. -/
theorem C89_rastrigin (F : FloatFn F32) (hS : SinCos F) (hF : AccurateTrig (1 / 10 ^ 6) F) (d : Nat) (h0 : 0 < d) (hd : d ≤ 30) (x : List F32)
    (hx : InBox (box (minus 512 100) (plus 512 100) d) x) :
    |value (TestFunc.rastriginF64 x) - Exact.rastrigin (x.map value)| ≤ d / 4000 ∧ -((d : ℝ) / 4000) ≤ value (TestFunc.rastriginF64 x) := by
  obtain ⟨hlen, hv⟩ := box_values box512.1 box512.2 hx
  have hfin := (C72_rastrigin (.inl rfl) F hS x (box_moderate (by omega) (by decide +kernel) (by decide +kernel) hx)).1
  have h := C63_error (.inl rfl) F hF x hfin (few32 (by omega))
  have hE := (C63_min (x.map value)).1
  rw [C63_exact] at hE
  change 0 ≤ Exact.rastrigin (x.map value) at hE
  have eE : Exact.rastrigin (x.map value) =
      (x.map fun a => value a ^ 2 + 10 * (1 - Real.cos (2 * (314159265358979 / 100000000000000) * value a))).sum := by
    unfold Exact.rastrigin; rw [List.map_map]; rfl
  rw [← eE, hlen] at h
  have hτ := tiny32
  have hτ0 := Fl.tiny_pos (f := Fmt.f32)
  have hd1 : (1 : ℝ) ≤ d := by exact_mod_cast h0
  have hd30 : (d : ℝ) ≤ 30 := by exact_mod_cast hd
  have h1 : (x.map fun a => value a ^ 2 + 10).sum ≤ (37 : ℝ) * (d : ℝ) := by
    have := sum_le_map (l := x) (g := fun a => value a ^ 2 + 10) (h := fun _ => (37 : ℝ)) fun a ha => by
      have := hv a ha
      have h2 : |value a| ^ 2 ≤ (513 / 100) ^ 2 := pow_le_pow_left₀ (abs_nonneg _) this 2
      rw [sq_abs] at h2
      linarith
    rw [Fl.sum_const_map, hlen] at this
    linarith
  have h1' : 0 ≤ (x.map fun a => value a ^ 2 + 10).sum := Fl.sum_nonneg_map _ _ fun a _ => by positivity
  have h2 : (x.map fun a => 1 / 10 ^ 6 + 14 * roundoff .f32 * |value a| + tiny .f32).sum ≤ (6 / 10 ^ 6 : ℝ) * (d : ℝ) := by
    have := sum_le_map (l := x) (g := fun a => 1 / 10 ^ 6 + 14 * roundoff .f32 * |value a| + tiny .f32)
      (h := fun _ => (6 / 10 ^ 6 : ℝ)) fun a ha => by
        have := hv a ha
        rw [u32]
        norm_num at hτ ⊢
        linarith
    rw [Fl.sum_const_map, hlen] at this
    linarith
  have h3 : 9 / 4 * ((d : ℝ) + 2) * roundoff .f32 * (x.map fun a => value a ^ 2 + 10).sum ≤ 17 / 100000 * d := by
    have a2 : 9 / 4 * ((d : ℝ) + 2) * roundoff .f32 ≤ 9 / 4 * 32 * (1 / 16777216) := by rw [u32]; linarith
    refine (mul_le_mul a2 h1 h1' (by norm_num)).trans ?_
    linarith
  have h4 : 5 / 2 * (((d : ℝ) + 1) * tiny .f32) ≤ 1 / 10 ^ 30 * d := by
    have : ((d : ℝ) + 1) * tiny .f32 ≤ 2 * d * (1 / 10 ^ 40) := mul_le_mul (by linarith) hτ hτ0.le (by linarith)
    norm_num at this ⊢
    linarith
  have hmain : |value (TestFunc.rastriginF64 x) - Exact.rastrigin (x.map value)| ≤ d / 4000 := by
    refine h.trans ?_
    generalize 9 / 4 * ((d : ℝ) + 2) * roundoff .f32 * (x.map fun a => value a ^ 2 + 10).sum = R' at h3 ⊢
    generalize (x.map fun a => 1 / 10 ^ 6 + 14 * roundoff .f32 * |value a| + tiny .f32).sum = R at h2 ⊢
    norm_num at h2 h4 ⊢
    linarith
  exact ⟨hmain, by have := (abs_le.1 hmain).1; linarith⟩

/-- C89: at every point of the box [-2, 2]^3 the computed value of the Rosenbrock function is within `E / 10^6 + 1/1000` of the exact value
`E`. -/
theorem C89_rosenbrock (p : Profile) (x : List F32) (hx : InBox (box (minus 2 1) (plus 2 1) 3) x) (v : F64) (s s' : σ)
    (hv : TestFunc.rosenbrockF64 p x s = .ok (v, s')) (hfin : v.isFinite = true) :
    |value v - Exact.rosenbrock (x.map value)| ≤ Exact.rosenbrock (x.map value) / 10 ^ 6 + 1 / 1000 := by
  obtain ⟨hlen, hb⟩ := box_values box2.1 box2.2 hx
  have h := C62_error (.inl rfl) p x v s s' hv hfin (few32 (by omega))
  have eE : Exact.rosenbrock (x.map value) = ((List.range (x.length - 1)).map fun i =>
        100 * ((x.map value).getD (i + 1) 0 - (x.map value).getD i 0 ^ 2) ^ 2 + (1 - (x.map value).getD i 0) ^ 2).sum := by
    unfold Exact.rosenbrock; rw [List.length_map]
  have hE : 0 ≤ Exact.rosenbrock (x.map value) := Fl.sum_nonneg_map _ _ fun i _ => by positivity
  rw [← eE, hlen] at h
  have hτ := tiny32
  have hτ0 := Fl.tiny_pos (f := Fmt.f32)
  have hc : ∀ i, |(x.map value).getD i 0| ≤ 2 := by
    intro i
    rw [← value_getD]
    rcases Nat.lt_or_ge i x.length with h | h
    · rw [List.getD_eq_getElem?_getD, List.getElem?_eq_getElem h]; exact hb _ (List.getElem_mem h)
    · rw [List.getD_eq_getElem?_getD, List.getElem?_eq_none h, Option.getD_none, Fl.value_zero]; norm_num
  have h2 : ((List.range (3 - 1)).map fun i => 100 * ((roundoff .f32 * (x.map value).getD i 0 ^ 2 + tiny .f32) *
      (|(x.map value).getD (i + 1) 0 - (x.map value).getD i 0 ^ 2| + (roundoff .f32 * (x.map value).getD i 0 ^ 2 + tiny .f32)))).sum ≤
      (2 : ℝ) * (18 / 100000) := by
    have := sum_le_map (l := List.range (3 - 1)) (g := fun i => 100 * ((roundoff .f32 * (x.map value).getD i 0 ^ 2 + tiny .f32) *
      (|(x.map value).getD (i + 1) 0 - (x.map value).getD i 0 ^ 2| + (roundoff .f32 * (x.map value).getD i 0 ^ 2 + tiny .f32))))
      (h := fun _ => (18 / 100000 : ℝ)) fun i _ => by
        have a0 := hc i
        have a1 := hc (i + 1)
        generalize (x.map value).getD i 0 = X at a0 ⊢
        generalize (x.map value).getD (i + 1) 0 = Y at a1 ⊢
        have a2 : X ^ 2 ≤ 4 := by
          have := pow_le_pow_left₀ (abs_nonneg X) a0 2
          rw [sq_abs] at this
          linarith
        have a3 : |Y - X ^ 2| ≤ 6 := by
          have := abs_sub Y (X ^ 2)
          rw [abs_of_nonneg (sq_nonneg X)] at this
          linarith
        have a4 : roundoff .f32 * X ^ 2 + tiny .f32 ≤ 24 / 10 ^ 8 := by
          rw [u32]
          norm_num at hτ ⊢
          linarith
        have a5 : 0 ≤ roundoff .f32 * X ^ 2 + tiny .f32 := by rw [u32]; positivity
        have a6 : |Y - X ^ 2| + (roundoff .f32 * X ^ 2 + tiny .f32) ≤ 7 := by norm_num at a4; linarith
        have := mul_le_mul a4 a6 (by positivity) (by norm_num)
        norm_num at this ⊢
        linarith
    rw [Fl.sum_const_map, List.length_range] at this
    norm_num at this ⊢
    linarith
  refine h.trans ?_
  rw [u32]
  rw [u32] at h2
  generalize ((List.range (3 - 1)).map fun i => 100 * ((1 / 16777216 * (x.map value).getD i 0 ^ 2 + tiny .f32) *
      (|(x.map value).getD (i + 1) 0 - (x.map value).getD i 0 ^ 2| + (1 / 16777216 * (x.map value).getD i 0 ^ 2 + tiny .f32)))).sum = R at h2 ⊢
  push_cast
  norm_num at h2 hτ ⊢
  linarith

/-- C89: the computed value of the paraboloid of at most 30 components, if finite, is within `3 E / 10^6 + 10^-38` of the exact value `E`. -/
theorem C89_paraboloid (x : List F32) (hl : x.length ≤ 30) (hfin : (TestFunc.paraboloidF64 x).isFinite = true) :
    |value (TestFunc.paraboloidF64 x) - Exact.paraboloid (x.map value)| ≤ 3 * Exact.paraboloid (x.map value) / 10 ^ 6 + 1 / 10 ^ 38 := by
  have h := C61_error (by decide) Fmt.embeds_f32 x (lt_of_le_of_lt hl (by decide +kernel)) hfin (by have := few32 hl; linarith)
  have eE : Exact.paraboloid (x.map value) = ((List.range x.length).map fun i => ((x.map value).getD i 0 - (i + 1)) ^ 2).sum := by
    unfold Exact.paraboloid; rw [List.length_map]
  have hE : 0 ≤ Exact.paraboloid (x.map value) := Fl.sum_nonneg_map _ _ fun i _ => by positivity
  rw [← eE] at h
  have hτ := tiny32
  have hτ0 := Fl.tiny_pos (f := Fmt.f32)
  have hl' : (x.length : ℝ) ≤ 30 := by exact_mod_cast hl
  refine h.trans ?_
  have a1 : 6 / 5 * (((x.length : ℝ) + 3) * roundoff .f32) * Exact.paraboloid (x.map value) ≤
      6 / 5 * (33 * (1 / 16777216)) * Exact.paraboloid (x.map value) := by
    refine mul_le_mul_of_nonneg_right ?_ hE
    rw [u32]
    linarith
  have a2 : (x.length : ℝ) * tiny .f32 ≤ 30 * (1 / 10 ^ 40) := mul_le_mul hl' hτ hτ0.le (by norm_num)
  norm_num at a2 ⊢
  linarith

/-! ## The genetic programs -/

/-- A program that returns a point of the box and a value which is near the exact function there. -/
def ReportsNear (ivs : List (F32 × F32)) (near : ℝ → ℝ → Prop) (exact : List ℝ → ℝ) {ω : Type}
    (r : Except Err ((Option (Solution (List F32)) × ω) × World σ (List F32))) : Prop :=
  ∃ x v o' w', r = .ok ((some (x, v), o'), w') ∧ InBox ivs x ∧ v.isFinite = true ∧ near (value v) (exact (x.map value))

/-- C89: genetic-schwefel.rs -/
theorem C89_genetic_schwefel (P : Platform σ) (hP : Precise P) (t : Timer τ) (fuel : Nat) (hfuel : 3000 < fuel) (s : σ) (u : τ) :
    ∃ o s', geneticSchwefel P s = .ok (o, s') ∧
    ReportsNear (box (minus 500 1) (plus 500 1) 15) (fun v e => |v - e| ≤ 1 / 25 ∧ -(1 / 25) ≤ v) Exact.schwefel
      (GA.findMin fuel (o.attach 1 t.logger) ⟨(s', u), []⟩) := by
  obtain ⟨o, s', h1, x, o', w', h2, h3, h4, -⟩ := C71_schwefel_program P hP.sound t fuel hfuel s u
  have h := @C89_schwefel P.libm hP.sound.libm hP.trig 15 (by omega) (by omega) x h3
  norm_num at h
  exact ⟨o, s', h1, x, _, o', w', h2, h3, h4, by norm_num; exact h⟩

/-- C89: genetic-rastrigin.rs -/
theorem C89_genetic_rastrigin (P : Platform σ) (hP : Precise P) (t : Timer τ) (fuel : Nat) (hfuel : 3000 < fuel) (s : σ) (u : τ) :
    ∃ o s', geneticRastrigin P s = .ok (o, s') ∧
    ReportsNear (box (minus 512 100) (plus 512 100) 30) (fun v e => |v - e| ≤ 3 / 400 ∧ -(3 / 400) ≤ v) Exact.rastrigin
      (GA.findMin fuel (o.attach 1 t.logger) ⟨(s', u), []⟩) := by
  obtain ⟨o, s', h1, x, o', w', h2, h3, h4, -⟩ := C71_rastrigin_program P hP.sound t fuel hfuel s u
  have h := @C89_rastrigin P.libm hP.sound.libm hP.trig 30 (by omega) (by omega) x h3
  norm_num at h
  exact ⟨o, s', h1, x, _, o', w', h2, h3, h4, by norm_num; exact h⟩

/-- C89: genetic-paraboloid.rs -/
theorem C89_genetic_paraboloid (P : Platform σ) (hP : Platform.Sound P) (t : Timer τ) (fuel : Nat) (hfuel : 3000 < fuel) (s : σ) (u : τ) :
    ∃ o s', geneticParaboloid P s = .ok (o, s') ∧
    ReportsNear (box (minus 100 1) (plus 100 1) 5) (fun v e => |v - e| ≤ 3 * e / 10 ^ 6 + 1 / 10 ^ 38) Exact.paraboloid
      (GA.findMin fuel (o.attach 2 t.logger) ⟨(s', u), []⟩) := by
  obtain ⟨o, s', h1, x, o', w', h2, h3, h4, -⟩ := C71_paraboloid_program P hP t fuel hfuel s u
  have hl : x.length = 5 := by rw [← h3.length_eq]; exact List.length_replicate
  exact ⟨o, s', h1, x, _, o', w', h2, h3, h4, C89_paraboloid x (by omega) h4⟩

/-- C89: genetic-rosenbrock.rs, if it ends. -/
theorem C89_genetic_rosenbrock (P : Platform σ) (hP : Platform.Sound P) (L : Lens σ Stop.GNC) (hL : Platform.Leaves L P)
    (t : Timer τ) (fuel : Nat) (s : σ) (u : τ) : ∃ o s', geneticRosenbrock P L s = .ok (o, s') ∧
    (ReportsNear (box (minus 2 1) (plus 2 1) 3) (fun v e => |v - e| ≤ e / 10 ^ 6 + 1 / 1000) Exact.rosenbrock
      (GA.findMin fuel (o.attach 2 t.logger) ⟨(s', u), []⟩) ∨
    GA.findMin fuel (o.attach 2 t.logger) ⟨(s', u), []⟩ = .error .fuel) := by
  obtain ⟨o, s', h1, h⟩ := C71_rosenbrock_program P hP L hL t fuel s u
  refine ⟨o, s', h1, ?_⟩
  rcases h with ⟨x, v, o', w', h2, h3, ⟨s1, s2, h4⟩, h5, -⟩ | h
  · exact .inl ⟨x, v, o', w', h2, h3, h5, C89_rosenbrock P.profile x h3 v s1 s2 h4 h5⟩
  · exact .inr h

/-! ## The swarm programs -/

/-- Two values that are near the exact ones and in the right order: the exact ones are nearly in that order. -/
theorem near_order {v v' : F64} {e e' t : ℝ} (h : v.le v' = true) (h1 : |value v - e| ≤ t) (h2 : |value v' - e'| ≤ t) : e ≤ e' + 2 * t := by
  have hD := Fl.D_posR (f := Fmt.f64)
  have h3 : value v ≤ value v' := by
    unfold value
    rw [div_le_div_iff_of_pos_right hD]
    exact_mod_cast (Fl.le_iff.1 h).2.2
  have := (abs_le.1 h1).1
  have := (abs_le.1 h2).2
  linarith

/-- A swarm that returns a point of the box and a value which is within `t` of the exact function there; at no point that the swarm has
evaluated is the exact function lower by more than `2 t`. -/
def ReportsBest (ivs : List (F32 × F32)) (t : ℝ) (exact : List ℝ → ℝ) {ω : Type}
    (r : Except Err ((Option (Solution (List F32)) × ω) × World σ (List F32))) : Prop :=
  ∃ x v o' w', r = .ok ((some (x, v), o'), w') ∧ InBox ivs x ∧ |value v - exact (x.map value)| ≤ t ∧
    ∀ b ∈ goalsSince w'.trace, exact (x.map value) ≤ exact (b.1.map value) + 2 * t

theorem reportsBest {n m : Nat} {ivs : List (F32 × F32)} {g : List F32 → F64} {t : ℝ} {exact : List ℝ → ℝ}
    {r : Except Err ((Option (Solution (List F32)) × PSO.Opt σ F32) × World σ (List F32))}
    (h : SwarmEndsWell n m ivs (fun x v => v = g x) r)
    (hn : ∀ x, InBox ivs x → |value (g x) - exact (x.map value)| ≤ t) : ReportsBest ivs t exact r := by
  obtain ⟨⟨x, v⟩, o', w', h1, h2, -⟩ := h
  have hv : v = g x := h2.values _ h2.mem
  have hx := h2.inside _ h2.mem
  refine ⟨x, v, o', w', h1, hx, by rw [hv]; exact hn x hx, fun b hb => ?_⟩
  refine near_order (h2.least b hb) (by rw [show (x, v).2 = g x from hv]; exact hn x hx) ?_
  rw [h2.values b hb]
  exact hn _ (h2.inside b hb)

/-- C89: particleswarm-schwefel.rs -/
theorem C89_swarm_schwefel (P : Platform σ) (hP : Precise P) (L : Lens σ Stop.GNC) (hL : Platform.Leaves L P)
    (t : Timer τ) (fuel : Nat) (hfuel : 3000 < fuel) (s : σ) (u : τ) : ∃ o s', swarmSchwefel P L s = .ok (o, s') ∧
    ReportsBest (box (minus 500 1) (plus 500 1) 3) (1 / 125) Exact.schwefel (PSO.findMin fuel (o.attach 2 t.logger) ⟨(s', u), []⟩) := by
  obtain ⟨o, s', h1, h2⟩ := Swarm.C75_schwefel_program P hP.sound L hL t fuel hfuel s u
  refine ⟨o, s', h1, reportsBest h2 fun x hx => ?_⟩
  have h := (@C89_schwefel P.libm hP.sound.libm hP.trig 3 (by omega) (by omega) x hx).1
  norm_num at h ⊢
  exact h

/-- C89: particleswarm-rastrigin.rs -/
theorem C89_swarm_rastrigin (P : Platform σ) (hP : Precise P) (L : Lens σ Stop.GNC) (hL : Platform.Leaves L P)
    (t : Timer τ) (fuel : Nat) (hfuel : 3000 < fuel) (s : σ) (u : τ) : ∃ o s', swarmRastrigin P L s = .ok (o, s') ∧
    ReportsBest (box (minus 512 100) (plus 512 100) 3) (3 / 4000) Exact.rastrigin
      (PSO.findMin fuel (o.attach 2 t.logger) ⟨(s', u), []⟩) := by
  obtain ⟨o, s', h1, h2⟩ := Swarm.C75_rastrigin_program P hP.sound L hL t fuel hfuel s u
  refine ⟨o, s', h1, reportsBest h2 fun x hx => ?_⟩
  have h := (@C89_rastrigin P.libm hP.sound.libm hP.trig 3 (by omega) (by omega) x hx).1
  norm_num at h ⊢
  exact h

/-- C89: particleswarm-paraboloid.rs -/
theorem C89_swarm_paraboloid (P : Platform σ) (hP : Platform.Sound P) (L : Lens σ Stop.GNC) (hL : Platform.Leaves L P)
    (t : Timer τ) (fuel : Nat) (hfuel : 3000 < fuel) (s : σ) (u : τ) : ∃ o s', swarmParaboloid P L s = .ok (o, s') ∧
    ReportsNear (box (minus 100 1) (plus 100 1) 5) (fun v e => |v - e| ≤ 3 * e / 10 ^ 6 + 1 / 10 ^ 38) Exact.paraboloid
      (PSO.findMin fuel (o.attach 2 t.logger) ⟨(s', u), []⟩) := by
  obtain ⟨o, s', h1, ⟨x, v⟩, o', w', h2, h3, -⟩ := Swarm.C75_paraboloid_program P hP L hL t fuel hfuel s u
  have hv : v = TestFunc.paraboloidF64 x := h3.values _ h3.mem
  have hx := h3.inside _ h3.mem
  have hl : x.length = 5 := by rw [← hx.length_eq]; exact List.length_replicate
  have hf := h3.finite _ h3.mem
  refine ⟨o, s', h1, x, v, o', w', h2, hx, hf, ?_⟩
  rw [hv] at hf ⊢
  exact C89_paraboloid x (by omega) hf

/-- C89: particleswarm-rosenbrock.rs -/
theorem C89_swarm_rosenbrock (P : Platform σ) (hP : Platform.Sound P) (L : Lens σ Stop.GNC) (hL : Platform.Leaves L P)
    (t : Timer τ) (fuel : Nat) (hfuel : 3000 < fuel) (s : σ) (u : τ) : ∃ o s', swarmRosenbrock P L s = .ok (o, s') ∧
    ReportsNear (box (minus 2 1) (plus 2 1) 3) (fun v e => |v - e| ≤ e / 10 ^ 6 + 1 / 1000) Exact.rosenbrock
      (PSO.findMin fuel (o.attach 2 t.logger) ⟨(s', u), []⟩) := by
  obtain ⟨o, s', h1, ⟨x, v⟩, o', w', h2, h3, -⟩ := Swarm.C75_rosenbrock_program P hP L hL t fuel hfuel s u
  obtain ⟨s1, s2, hv⟩ := h3.values _ h3.mem
  exact ⟨o, s', h1, x, v, o', w', h2, h3.inside _ h3.mem, h3.finite _ h3.mem,
    C89_rosenbrock P.profile x (h3.inside _ h3.mem) v s1 s2 hv (h3.finite _ h3.mem)⟩

/-- There is a platform as the theorems ask for: the one of `Swarm.demo_sound` with rounded sine and cosine. -/
example : ∃ P : Platform ((List Nat × List String) × Stop.GNC), Precise P ∧ Platform.Leaves (Lens.snd _ _) P := by
  obtain ⟨F, h1, h2⟩ := accurate_exists (f := Fmt.f32)
  refine ⟨{ Swarm.demoPlatform with libm := F }, ⟨⟨Swarm.demo_sound.print, h1⟩, fun a ha => ?_⟩,
    ⟨Swarm.demo_leaves.rng, Swarm.demo_leaves.print⟩⟩
  have h := h2 a ha
  rw [u32] at h
  exact ⟨h.1.trans (by norm_num), h.2.trans (by norm_num)⟩

end Verif.Props
