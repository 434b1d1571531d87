import Verif.Model.Rng
import Verif.Model.Num

/-!
# Specification vocabulary: the documented velocity formulas

The documentation comments of `velocitycalc/mod.rs`, written out with the operations of the number type.
-/

namespace Verif.Spec

local infixl:65 " +ᶠ " => FloatT.add
local infixl:65 " -ᶠ " => FloatT.sub
local infixl:70 " *ᶠ " => FloatT.mul

variable {σ α : Type} [FloatT α]

/-- `v_i + phi_p * r_p * (p_i - x_i) + phi_g * r_g * (g_i - x_i)` -/
def classicFormula (phiP phiG rP rG v p g x : α) : α :=
  v +ᶠ phiP *ᶠ rP *ᶠ (p -ᶠ x) +ᶠ phiG *ᶠ rG *ᶠ (g -ᶠ x)

/-- `xi * (v_i + phi_p * r_p * (p_i - x_i) + phi_g * r_g * (g_i - x_i))` -/
def canonicalFormula (xi phiP phiG rP rG v p g x : α) : α :=
  xi *ᶠ (v +ᶠ phiP *ᶠ rP *ᶠ (p -ᶠ x) +ᶠ phiG *ᶠ rG *ᶠ (g -ᶠ x))

/-- `w(t) * v_i + phi_personal * r_p * (p_i - x_i) + phi_global * r_g * (g_i - x_i)` -/
def inertiaFormula (w phiP phiG rP rG v p g x : α) : α :=
  w *ᶠ v +ᶠ phiP *ᶠ rP *ᶠ (p -ᶠ x) +ᶠ phiG *ᶠ rG *ᶠ (g -ᶠ x)

/-- `xi * (v_i + phi_best_personal * rb_p * (p_best_i - x_i) + phi_best_current * rb_c * (c_best_i - x_i)
+ phi_best_global * rb_g * (g_best_i - x_i) - phi_worst_personal * rw_p * (p_worst_i - x_i)
- phi_worst_current * rw_c * (c_worst_i - x_i) - phi_worst_global * rw_g * (g_worst_i - x_i))` -/
def negativeFormula (xi phiBP phiBC phiBG phiWP phiWC phiWG rbP rbC rbG rwP rwC rwG v
    pBest cBest gBest pWorst cWorst gWorst x : α) : α :=
  xi *ᶠ (v +ᶠ phiBP *ᶠ rbP *ᶠ (pBest -ᶠ x) +ᶠ phiBC *ᶠ rbC *ᶠ (cBest -ᶠ x) +ᶠ phiBG *ᶠ rbG *ᶠ (gBest -ᶠ x)
    -ᶠ phiWP *ᶠ rwP *ᶠ (pWorst -ᶠ x) -ᶠ phiWC *ᶠ rwC *ᶠ (cWorst -ᶠ x) -ᶠ phiWG *ᶠ rwG *ᶠ (gWorst -ᶠ x))

/-- `us` are successive draws from `Uniform::new_inclusive(0.0, 1.0)`, starting in the state `s` of the random source. -/
inductive Drawn (R : Rng σ) {g : Fmt} : σ → List (Fl g) → σ → Prop
  | nil {s} : Drawn R s [] s
  | cons {s u s1 us s'} : R.flIncl (Fl.zero : Fl g) Fl.one s = (u, s1) → Drawn R s1 us s' → Drawn R s (u :: us) s'

end Verif.Spec
