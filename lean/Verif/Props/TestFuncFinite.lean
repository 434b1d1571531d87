import Verif.Props.TestFunc
import Verif.Proofs.Within
import Verif.Spec.Shape

/-!
# C72: the test functions are finite where they are used

Coordinates up to `2 ^ 20` (about a million) and up to `2 ^ 20` of them; `f32` and `f64`.
-/

namespace Verif.Props

open Verif TestFunc Fl

variable {σ : Type} {f : Fmt}

/-- Point of at most `2 ^ 20` finite coordinates between `-2 ^ 20` and `2 ^ 20`. -/
def Moderate (x : List (Fl f)) : Prop := x.length ≤ 2 ^ 20 ∧ ∀ a ∈ x, Within (2 ^ 20) a

/-- What is asked of the platform's sine and cosine: finite arguments give finite values between -1 and 1. -/
def SinCos (F : FloatFn (Fl f)) : Prop := ∀ a : Fl f, a.isFinite = true → Within 1 (F.sin a) ∧ Within 1 (F.cos a)

theorem f32_f64_large (hf : f = Fmt.f32 ∨ f = Fmt.f64) : 23 ≤ f.mw ∧ 127 ≤ f.bias := by
  rcases hf with rfl | rfl <;> decide

theorem lit_within (hf : f = Fmt.f32 ∨ f = Fmt.f64) : Within 0 (FloatT.lit 0 1 : Fl f) ∧ Within 1 (FloatT.lit 1 1 : Fl f) ∧
    Within 100 (FloatT.lit 100 1 : Fl f) ∧ Within 419 (FloatT.lit 4189829 10000 : Fl f) ∧
    Within 10 (FloatT.lit 10 1 : Fl f) ∧ Within 4 (FloatT.lit 314159265358979 100000000000000 : Fl f) := by
  rcases hf with rfl | rfl <;> decide +kernel

theorem rep_pow (hf : f = Fmt.f32 ∨ f = Fmt.f64) (v e : Nat) (hv : v ≤ 2 ^ 24) (he : e ≤ 103) : Rep f (v * 2 ^ e) :=
  rep_mul (f32_f64_large hf).1 (f32_f64_large hf).2 v e hv he

theorem rep_small (hf : f = Fmt.f32 ∨ f = Fmt.f64) (v : Nat) (hv : v ≤ 2 ^ 24) : Rep f v := by
  simpa using rep_pow hf v 0 hv (by omega)

theorem within_zero : Within 0 (Fl.zero : Fl f) := ⟨isFinite_zero, by rw [zero_toInt]; simp⟩

theorem paraboloid_within (hf : f = Fmt.f32 ∨ f = Fmt.f64) : ∀ (x : List (Fl f)) (n : Nat) (acc : Fl f),
    n + x.length ≤ 2 ^ 20 → (∀ a ∈ x, Within (2 ^ 20) a) → Within (n * 2 ^ 42) acc →
    Within ((n + x.length) * 2 ^ 42) (paraboloidLoop n x acc) := by
  intro x
  induction x with
  | nil => intro n acc _ _ h; exact h
  | cons a x ih =>
    intro n acc hl hx h
    rw [List.length_cons] at hl
    have e : n + (a :: x).length = (n + 1) + x.length := by rw [List.length_cons]; omega
    rw [e]
    refine ih (n + 1) _ (by omega) (fun b hb => hx b (by simp [hb])) ?_
    have h1 : Within (n + 1) (FloatT.add (FloatT.ofNat n) (FloatT.lit 1 1) : Fl f) :=
      (within_ofNat (rep_small hf n (by omega))).add (lit_within hf).2.1 (rep_small hf (n + 1) (by omega)) le_rfl
    have h2 : Within (1 * 2 ^ 21) (FloatT.sub a (FloatT.add (FloatT.ofNat n) (FloatT.lit 1 1)) : Fl f) :=
      (hx a (by simp)).sub h1 (rep_pow hf 1 21 (by omega) (by omega)) (by omega)
    have h3 : Within (1 * 2 ^ 42) (sq (FloatT.sub a (FloatT.add (FloatT.ofNat n) (FloatT.lit 1 1)) : Fl f)) :=
      h2.mul h2 (rep_pow hf 1 42 (by omega) (by omega)) (by omega)
    exact h.add h3 (rep_pow hf (n + 1) 42 (by omega) (by omega)) (by omega)

/-- C72: the paraboloid of a moderate point is finite (and not above `2 ^ 62`). -/
theorem C72_paraboloid (hf : f = Fmt.f32 ∨ f = Fmt.f64) (x : List (Fl f)) (hx : Moderate x) :
    Within (x.length * 2 ^ 42) (paraboloidF64 x) := by
  have h := paraboloid_within hf x 0 _ (by simpa using hx.1) hx.2 (by simpa using (lit_within hf).1)
  rw [Nat.zero_add] at h
  exact h.cast (rep_pow (.inr rfl) _ 42 (by have := hx.1; omega) (by omega))

theorem schwefel_fold (hf : f = Fmt.f32 ∨ f = Fmt.f64) (F : FloatFn (Fl f)) (hF : SinCos F) :
    ∀ (x : List (Fl f)) (n : Nat) (acc : Fl f), n + x.length ≤ 2 ^ 20 → (∀ a ∈ x, Within (2 ^ 20) a) →
    Within (n * 2 ^ 20) acc → Within ((n + x.length) * 2 ^ 20) (x.foldl (fun acc xi =>
      FloatT.add acc (FloatT.mul xi (FloatFn.sin (FloatT.sqrt (FloatT.abs xi))))) acc) := by
  intro x
  induction x with
  | nil => intro n acc _ _ h; exact h
  | cons a x ih =>
    intro n acc hl hx h
    rw [List.length_cons] at hl
    have e : n + (a :: x).length = (n + 1) + x.length := by rw [List.length_cons]; omega
    rw [e]
    refine ih (n + 1) _ (by omega) (fun b hb => hx b (by simp [hb])) ?_
    have ha := hx a (by simp)
    have hr : Rep f (2 ^ 20) := by simpa using rep_pow hf 1 20 (by omega) (by omega)
    have h1 : Within (2 ^ 20) (FloatT.sqrt (FloatT.abs a) : Fl f) :=
      ha.abs.sqrt_finite (by rw [toInt_abs]; omega) hr (by omega)
    have h2 : Within (2 ^ 20) (FloatT.mul a (F.sin (FloatT.sqrt (FloatT.abs a))) : Fl f) :=
      ha.mul (hF _ h1.1).1 hr (by omega)
    exact h.add h2 (rep_pow hf (n + 1) 20 (by omega) (by omega)) (by omega)

/-- C72: the Schwefel function of a moderate point is finite, with any sine that keeps its range. -/
theorem C72_schwefel (hf : f = Fmt.f32 ∨ f = Fmt.f64) (F : FloatFn (Fl f)) (hF : SinCos F) (x : List (Fl f)) (hx : Moderate x) :
    Within (x.length * 2 ^ 21) (schwefelF64 x) := by
  have hl := hx.1
  have h := schwefel_fold hf F hF x 0 Fl.zero (by simpa using hx.1) hx.2 (by simpa using within_zero)
  rw [Nat.zero_add] at h
  have h1 : Within (x.length * 2 ^ 9) (FloatT.mul (FloatT.lit 4189829 10000) (FloatT.ofNat x.length) : Fl f) :=
    (lit_within hf).2.2.2.1.mul (within_ofNat (rep_small hf _ (by omega))) (rep_pow hf x.length 9 (by omega) (by omega)) (by omega)
  have h2 : Within (x.length * 2 ^ 21) (schwefel x) := by
    unfold schwefel
    exact h1.sub h (rep_pow hf x.length 21 (by omega) (by omega)) (by omega)
  exact h2.cast (rep_pow (.inr rfl) x.length 21 (by omega) (by omega))

theorem rastrigin_fold (hf : f = Fmt.f32 ∨ f = Fmt.f64) (F : FloatFn (Fl f)) (hF : SinCos F) :
    ∀ (x : List (Fl f)) (n : Nat) (acc : Fl f), n + x.length ≤ 2 ^ 20 → (∀ a ∈ x, Within (2 ^ 20) a) →
    Within (n * 2 ^ 41) acc → Within ((n + x.length) * 2 ^ 41) (x.foldl (fun acc xi =>
      FloatT.sub (FloatT.add acc (FloatT.mul xi xi)) (FloatT.mul (FloatT.lit 10 1)
        (FloatFn.cos (FloatT.mul (FloatT.mul (FloatT.ofNat 2) (FloatT.lit 314159265358979 100000000000000)) xi)))) acc) := by
  intro x
  induction x with
  | nil => intro n acc _ _ h; exact h
  | cons a x ih =>
    intro n acc hl hx h
    rw [List.length_cons] at hl
    have e : n + (a :: x).length = (n + 1) + x.length := by rw [List.length_cons]; omega
    rw [e]
    refine ih (n + 1) _ (by omega) (fun b hb => hx b (by simp [hb])) ?_
    have ha := hx a (by simp)
    have h1 : Within 8 (FloatT.mul (FloatT.ofNat 2) (FloatT.lit 314159265358979 100000000000000) : Fl f) :=
      (within_ofNat (rep_small hf 2 (by omega))).mul (lit_within hf).2.2.2.2.2 (rep_small hf 8 (by omega)) (by omega)
    have h2 : Within (1 * 2 ^ 23) (FloatT.mul (FloatT.mul (FloatT.ofNat 2) (FloatT.lit 314159265358979 100000000000000)) a : Fl f) :=
      h1.mul ha (rep_pow hf 1 23 (by omega) (by omega)) (by omega)
    have h3 : Within 10 (FloatT.mul (FloatT.lit 10 1)
        (F.cos (FloatT.mul (FloatT.mul (FloatT.ofNat 2) (FloatT.lit 314159265358979 100000000000000)) a)) : Fl f) :=
      (lit_within hf).2.2.2.2.1.mul (hF _ h2.1).2 (rep_small hf 10 (by omega)) (by omega)
    have h4 : Within (1 * 2 ^ 40) (FloatT.mul a a : Fl f) := ha.mul ha (rep_pow hf 1 40 (by omega) (by omega)) (by omega)
    have h5 : Within ((2 * n + 1) * 2 ^ 40) (FloatT.add acc (FloatT.mul a a) : Fl f) :=
      h.add h4 (rep_pow hf (2 * n + 1) 40 (by omega) (by omega)) (by omega)
    exact h5.sub h3 (rep_pow hf (n + 1) 41 (by omega) (by omega)) (by omega)

/-- C72: the Rastrigin function of a moderate point is finite, with any cosine that keeps its range. -/
theorem C72_rastrigin (hf : f = Fmt.f32 ∨ f = Fmt.f64) (F : FloatFn (Fl f)) (hF : SinCos F) (x : List (Fl f)) (hx : Moderate x) :
    Within (x.length * 2 ^ 42) (rastriginF64 x) := by
  have hl := hx.1
  have h := rastrigin_fold hf F hF x 0 Fl.zero (by simpa using hx.1) hx.2 (by simpa using within_zero)
  rw [Nat.zero_add] at h
  have h1 : Within (x.length * 2 ^ 4) (FloatT.mul (FloatT.lit 10 1) (FloatT.ofNat x.length) : Fl f) :=
    (lit_within hf).2.2.2.2.1.mul (within_ofNat (rep_small hf _ (by omega))) (rep_pow hf x.length 4 (by omega) (by omega)) (by omega)
  have h2 : Within (x.length * 2 ^ 42) (rastrigin x) := by
    unfold rastrigin
    exact h1.add h (rep_pow hf x.length 42 (by omega) (by omega)) (by omega)
  exact h2.cast (rep_pow (.inr rfl) x.length 42 (by omega) (by omega))

theorem rosenbrock_within (hf : f = Fmt.f32 ∨ f = Fmt.f64) (x : List (Fl f)) (hx : ∀ a ∈ x, Within (2 ^ 20) a) :
    ∀ (l : List Nat), (∀ n ∈ l, n + 1 < x.length) → ∀ (k : Nat) (acc : Fl f), k + l.length ≤ 2 ^ 20 → Within (k * 2 ^ 90) acc →
    Spec.Swarm.Works (M.foldL (rosenbrockStep x) acc l : M σ (Fl f)) (Within ((k + l.length) * 2 ^ 90)) := by
  intro l
  induction l with
  | nil => intro _ k acc _ h s; exact ⟨acc, s, rfl, h⟩
  | cons n l ih =>
    intro hn k acc hl h s
    rw [List.length_cons] at hl
    have e : k + (n :: l).length = (k + 1) + l.length := by rw [List.length_cons]; omega
    rw [e]
    have hn1 := hn n (by simp)
    have ha0 := hx _ (List.getElem_mem (show n < x.length by omega))
    have ha1 := hx _ (List.getElem_mem hn1)
    have h1 : Within (1 * 2 ^ 40) (FloatT.mul x[n] x[n] : Fl f) := ha0.mul ha0 (rep_pow hf 1 40 (by omega) (by omega)) (by omega)
    have h2 : Within (1 * 2 ^ 41) (FloatT.sub x[n + 1] (FloatT.mul x[n] x[n]) : Fl f) :=
      ha1.sub h1 (rep_pow hf 1 41 (by omega) (by omega)) (by omega)
    have h3 : Within (1 * 2 ^ 82) (sq (FloatT.sub x[n + 1] (FloatT.mul x[n] x[n])) : Fl f) :=
      h2.mul h2 (rep_pow hf 1 82 (by omega) (by omega)) (by omega)
    have h4 : Within (1 * 2 ^ 89) (FloatT.mul (FloatT.lit 100 1) (sq (FloatT.sub x[n + 1] (FloatT.mul x[n] x[n]))) : Fl f) :=
      (lit_within hf).2.2.1.mul h3 (rep_pow hf 1 89 (by omega) (by omega)) (by omega)
    have h5 : Within (1 * 2 ^ 21) (FloatT.sub (FloatT.lit 1 1) x[n] : Fl f) :=
      (lit_within hf).2.1.sub ha0 (rep_pow hf 1 21 (by omega) (by omega)) (by omega)
    have h6 : Within (1 * 2 ^ 42) (sq (FloatT.sub (FloatT.lit 1 1) x[n]) : Fl f) := by
      generalize (FloatT.sub (FloatT.lit 1 1) x[n] : Fl f) = B at h5 ⊢
      exact h5.mul h5 (rep_pow hf 1 42 (by omega) (by omega)) (by omega)
    have h7 : Within ((2 * k + 1) * 2 ^ 89) (FloatT.add acc (FloatT.mul (FloatT.lit 100 1) (sq (FloatT.sub x[n + 1] (FloatT.mul x[n] x[n])))) : Fl f) :=
      h.add h4 (rep_pow hf (2 * k + 1) 89 (by omega) (by omega)) (by omega)
    have h8 : Within ((k + 1) * 2 ^ 90) (FloatT.add (FloatT.add acc (FloatT.mul (FloatT.lit 100 1) (sq (FloatT.sub x[n + 1] (FloatT.mul x[n] x[n])))))
        (sq (FloatT.sub (FloatT.lit 1 1) x[n])) : Fl f) := by
      generalize (FloatT.add acc (FloatT.mul (FloatT.lit 100 1) (sq (FloatT.sub x[n + 1] (FloatT.mul x[n] x[n])))) : Fl f) = A at h7 ⊢
      generalize (sq (FloatT.sub (FloatT.lit 1 1) x[n]) : Fl f) = B at h6 ⊢
      exact h7.add h6 (rep_pow hf (k + 1) 90 (by omega) (by omega)) (by omega)
    obtain ⟨r, s', hr, hw⟩ := ih (fun m hm => hn m (by simp [hm])) (k + 1) _ (by omega) h8 s
    refine ⟨r, s', M.foldL_cons_ok.2 ⟨_, s, ?_, hr⟩, hw⟩
    unfold rosenbrockStep
    refine M.bind_eq_ok.2 ⟨x[n + 1], s, M.index_eq_ok.2 ⟨List.getElem?_eq_getElem hn1, rfl⟩, ?_⟩
    exact M.bind_eq_ok.2 ⟨x[n], s, M.index_eq_ok.2 ⟨List.getElem?_eq_getElem (by omega), rfl⟩, M.pure_eq_ok.2 ⟨rfl, rfl⟩⟩

/-- C72: the Rosenbrock function of a moderate point with at least one coordinate returns a finite value. -/
theorem C72_rosenbrock (hf : f = Fmt.f32 ∨ f = Fmt.f64) (p : Profile) (x : List (Fl f)) (hx : Moderate x) (h0 : x ≠ []) :
    Spec.Swarm.Works (rosenbrockF64 p x : M σ F64) (Within (x.length * 2 ^ 90)) := by
  intro s
  have hl := hx.1
  obtain ⟨r, s', hr, hw⟩ := rosenbrock_within (σ := σ) hf x hx.2 (List.range (x.length - 1))
    (by intro n hn; rw [List.mem_range] at hn; omega) 0 (FloatT.lit 0 1) (by rw [List.length_range]; omega)
    (by simpa using (lit_within hf).1) s
  rw [List.length_range] at hw
  refine ⟨Fl.cast r, s', ?_, (hw.cast (rep_pow (.inr rfl) _ 90 (by omega) (by omega))).mono (by omega)⟩
  unfold rosenbrockF64
  refine M.bind_eq_ok.2 ⟨r, s', ?_, rfl⟩
  have e : rosenbrock p x = (M.foldL (rosenbrockStep x) (FloatT.lit 0 1) (List.range (x.length - 1)) : M σ (Fl f)) := by
    unfold rosenbrock
    cases x with
    | nil => exact (h0 rfl).elim
    | cons a x => cases p <;> rfl
  rw [e]
  exact hr

/-- The bounds are not vacuous: a moderate point of two coordinates for f32, where all is finite. -/
example : Moderate [(Fl.ofNat 1000 : F32), (Fl.ofNat 1048576 : F32)] ∧
    (paraboloidF64 [(Fl.ofNat 1000 : F32), (Fl.ofNat 1048576 : F32)]).isFinite = true := by
  have : ∀ a ∈ [(Fl.ofNat 1000 : F32), (Fl.ofNat 1048576 : F32)], Within (2 ^ 20) a := by decide +kernel
  exact ⟨⟨by decide, this⟩, by decide +kernel⟩

/-- A sine and a cosine that keep their range. -/
example : SinCos (f := f) ⟨id, fun x _ => x, fun _ => Fl.zero, fun _ => Fl.zero⟩ :=
  fun _ _ => ⟨within_zero.mono (by omega), within_zero.mono (by omega)⟩

/-- C72: some bound on the coordinates is needed. For f32 the Rosenbrock function of the finite point `(2 ^ 40, 0)` is infinite. -/
theorem C72_overflow_witness : (Fl.ofNat (2 ^ 40) : F32).isFinite = true ∧
    M.okAnd ((rosenbrockF64 .debug [(Fl.ofNat (2 ^ 40) : F32), Fl.zero] : M Unit F64) ()) (fun v _ => v.isFinite == false) = true := by
  decide +kernel

end Verif.Props
