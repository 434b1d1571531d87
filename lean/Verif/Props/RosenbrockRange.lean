import Verif.Props.TestFuncFinite

/-!
# C72: the range of the Rosenbrock function on `[-2, 2] ^ n`
-/

namespace Verif.Props

open Verif Fl TestFunc

variable {σ : Type} {f : Fmt}

theorem rosenbrock_square (hf : f = Fmt.f32 ∨ f = Fmt.f64) (x : List (Fl f)) (hx : ∀ a ∈ x, Within 2 a) :
    ∀ (l : List Nat), (∀ n ∈ l, n + 1 < x.length) → ∀ (k : Nat) (acc : Fl f), k + l.length ≤ 4000 → Within (k * 3609) acc →
    Spec.Swarm.Works (M.foldL (rosenbrockStep x) acc l : M σ (Fl f)) (Within ((k + l.length) * 3609)) := by
  have rep : ∀ v, v ≤ 2 ^ 24 → Rep f v := rep_small hf
  intro l
  induction l with
  | nil => intro _ k acc _ h s; exact ⟨acc, s, rfl, h⟩
  | cons n l ih =>
    intro hn k acc hl h s
    rw [List.length_cons] at hl
    have e : k + (n :: l).length = (k + 1) + l.length := by rw [List.length_cons]; omega
    rw [e]
    have hn1 := hn n (by simp)
    have ha0 := hx _ (List.getElem_mem (show n < x.length by omega))
    have ha1 := hx _ (List.getElem_mem hn1)
    have h1 : Within 4 (FloatT.mul x[n] x[n] : Fl f) := ha0.mul ha0 (rep _ (by omega)) (by omega)
    have h2 : Within 6 (FloatT.sub x[n + 1] (FloatT.mul x[n] x[n]) : Fl f) := ha1.sub h1 (rep _ (by omega)) (by omega)
    have h3 : Within 36 (sq (FloatT.sub x[n + 1] (FloatT.mul x[n] x[n])) : Fl f) := h2.mul h2 (rep _ (by omega)) (by omega)
    have h4 : Within 3600 (FloatT.mul (FloatT.lit 100 1) (sq (FloatT.sub x[n + 1] (FloatT.mul x[n] x[n]))) : Fl f) :=
      (lit_within hf).2.2.1.mul h3 (rep _ (by omega)) (by omega)
    have h5 : Within 3 (FloatT.sub (FloatT.lit 1 1) x[n] : Fl f) := (lit_within hf).2.1.sub ha0 (rep _ (by omega)) (by omega)
    have h6 : Within 9 (sq (FloatT.sub (FloatT.lit 1 1) x[n]) : Fl f) := by
      generalize (FloatT.sub (FloatT.lit 1 1) x[n] : Fl f) = B at h5 ⊢
      exact h5.mul h5 (rep _ (by omega)) (by omega)
    have h7 : Within (k * 3609 + 3600) (FloatT.add acc (FloatT.mul (FloatT.lit 100 1) (sq (FloatT.sub x[n + 1] (FloatT.mul x[n] x[n])))) : Fl f) :=
      h.add h4 (rep _ (by omega)) (by omega)
    have h8 : Within ((k + 1) * 3609) (FloatT.add (FloatT.add acc (FloatT.mul (FloatT.lit 100 1) (sq (FloatT.sub x[n + 1] (FloatT.mul x[n] x[n])))))
        (sq (FloatT.sub (FloatT.lit 1 1) x[n])) : Fl f) := by
      generalize (FloatT.add acc (FloatT.mul (FloatT.lit 100 1) (sq (FloatT.sub x[n + 1] (FloatT.mul x[n] x[n])))) : Fl f) = A at h7 ⊢
      generalize (sq (FloatT.sub (FloatT.lit 1 1) x[n]) : Fl f) = B at h6 ⊢
      exact h7.add h6 (rep _ (by omega)) (by omega)
    obtain ⟨r, s', hr, hw⟩ := ih (fun m hm => hn m (by simp [hm])) (k + 1) _ (by omega) h8 s
    refine ⟨r, s', M.foldL_cons_ok.2 ⟨_, s, ?_, hr⟩, hw⟩
    unfold rosenbrockStep
    refine M.bind_eq_ok.2 ⟨x[n + 1], s, M.index_eq_ok.2 ⟨List.getElem?_eq_getElem hn1, rfl⟩, ?_⟩
    exact M.bind_eq_ok.2 ⟨x[n], s, M.index_eq_ok.2 ⟨List.getElem?_eq_getElem (by omega), rfl⟩, M.pure_eq_ok.2 ⟨rfl, rfl⟩⟩

/-- C72: on `[-2, 2] ^ n` the Rosenbrock function is at most 3609 for each pair of neighbours, as the exact function is, in
spite of all roundings. -/
theorem C72_rosenbrock_square (hf : f = Fmt.f32 ∨ f = Fmt.f64) (p : Profile) (x : List (Fl f)) (hx : ∀ a ∈ x, Within 2 a)
    (hl : x.length ≤ 4000) (h0 : x ≠ []) :
    Spec.Swarm.Works (rosenbrockF64 p x : M σ F64) (Within ((x.length - 1) * 3609)) := by
  intro s
  obtain ⟨r, s', hr, hw⟩ := rosenbrock_square (σ := σ) hf x hx (List.range (x.length - 1))
    (by intro n hn; rw [List.mem_range] at hn; omega) 0 (FloatT.lit 0 1) (by rw [List.length_range]; omega)
    (by simpa using (lit_within hf).1) s
  rw [List.length_range] at hw
  refine ⟨Fl.cast r, s', ?_, (hw.cast (rep_small (.inr rfl) _ (by omega))).mono (by omega)⟩
  unfold rosenbrockF64
  refine M.bind_eq_ok.2 ⟨r, s', ?_, rfl⟩
  have e : rosenbrock p x = (M.foldL (rosenbrockStep x) (FloatT.lit 0 1) (List.range (x.length - 1)) : M σ (Fl f)) := by
    unfold rosenbrock
    cases x with
    | nil => exact (h0 rfl).elim
    | cons a x => cases p <;> rfl
  rw [e]
  exact hr

/-- The bound is reached: at `(-2, -2)` the value is 3609. -/
example : (∀ a ∈ [(Fl.ofNat 2 : F32).neg, (Fl.ofNat 2 : F32).neg], Within 2 a) ∧
    M.okAnd ((rosenbrockF64 .debug [(Fl.ofNat 2 : F32).neg, (Fl.ofNat 2 : F32).neg] : M Unit F64) ())
      (fun v _ => v == Fl.ofNat 3609) = true := by decide +kernel

end Verif.Props
