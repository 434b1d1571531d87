import Verif.Spec.Calm
import Verif.Spec.Velocity
import Verif.IEEE.Error
import Verif.Props.Velocity

/-!
# Bounds that hold for floats: sums, products, and the velocity formulas
-/

namespace Verif.Fl

open Verif Spec

variable {f : Fmt}

theorem within_iff {B x : Fl f} : Within B x ↔ x.isFinite = true ∧ B.isNan = false ∧ (x.toInt.natAbs : Int) ≤ B.toInt := by
  unfold Within
  rw [le_iff, isNan_abs, toInt_abs]
  constructor
  · rintro ⟨h1, h2, h3, h4⟩; exact ⟨h1, h3, h4⟩
  · rintro ⟨h1, h2, h3⟩; exact ⟨h1, isNan_of_isFinite h1, h2, h3⟩

theorem within_trans {A B x : Fl f} (h : Within A x) (hl : A.le B = true) : Within B x := by
  obtain ⟨h1, h2, h3⟩ := within_iff.1 h
  obtain ⟨g1, g2, g3⟩ := le_iff.1 hl
  exact within_iff.2 ⟨h1, g2, by omega⟩

theorem within_le {A B x : Fl f} (h : Within A x) (hl : Within B A) : Within B x := by
  obtain ⟨h1, h2, h3⟩ := within_iff.1 h
  obtain ⟨g1, g2, g3⟩ := within_iff.1 hl
  exact within_iff.2 ⟨h1, g2, by omega⟩

theorem within_abs {x : Fl f} (h : x.isFinite = true) : Within x.abs x := by
  refine within_iff.2 ⟨h, ?_, ?_⟩
  · rw [isNan_abs]; exact isNan_of_isFinite h
  · rw [toInt_abs]

theorem within_zero {B : Fl f} (h : Fl.zero.le B = true) : Within B Fl.zero := by
  obtain ⟨h1, h2, h3⟩ := le_iff.1 h
  refine within_iff.2 ⟨isFinite_zero, h2, ?_⟩
  rw [toInt_zero] at h3 ⊢
  simpa using h3

theorem within_rounds {p q : ℝ} {x T : Fl f} (hx : Rounds p x) (hT : Rounds q T) (h : |p| ≤ q) (hf : T.isFinite = true) : Within T x := by
  have h1 := f.rnd_mono ((le_abs_self p).trans h)
  have h2 := f.rnd_mono ((neg_abs_le p).trans' (neg_le_neg h))
  rw [f.rnd_neg] at h2
  have h3 := isFinite_iff_toInt.1 hf
  have e1 := hx.2
  have e2 := hT.2
  have h4 : (x.toInt.natAbs : Int) ≤ T.toInt := by omega
  refine within_iff.2 ⟨isFinite_iff_toInt.2 ?_, isNan_of_isFinite hf, h4⟩
  omega

theorem within_cast {B x : Fl f} (h : Within B x) : |(x.toInt : ℝ)| ≤ B.toInt := by
  have h3 := (within_iff.1 h).2.2
  have : ((x.toInt.natAbs : Int) : ℝ) ≤ (B.toInt : ℝ) := by exact_mod_cast h3
  rwa [Int.natCast_natAbs, Int.cast_abs] at this

theorem within_add {X Y x y : Fl f} (hx : Within X x) (hy : Within Y y) (h : (X.add Y).isFinite = true) :
    Within (X.add Y) (x.add y) := by
  obtain ⟨h1, h2⟩ := finite_of_add h
  refine within_rounds (add_rounds hx.1 hy.1) (add_rounds h1 h2) ?_ h
  exact (abs_add_le _ _).trans (add_le_add (within_cast hx) (within_cast hy))

theorem within_sub {X Y x y : Fl f} (hx : Within X x) (hy : Within Y y) (h : (X.add Y).isFinite = true) :
    Within (X.add Y) (x.sub y) := by
  obtain ⟨h1, h2⟩ := finite_of_add h
  refine within_rounds (sub_rounds hx.1 hy.1) (add_rounds h1 h2) ?_ h
  exact (abs_sub _ _).trans (add_le_add (within_cast hx) (within_cast hy))

theorem within_mul {X Y x y : Fl f} (hx : Within X x) (hy : Within Y y) (h : (X.mul Y).isFinite = true) :
    Within (X.mul Y) (x.mul y) := by
  obtain ⟨h1, h2⟩ := finite_of_mul h
  refine within_rounds (mul_rounds hx.1 hy.1) (mul_rounds h1 h2) ?_ h
  have hD : (0 : ℝ) < f.D := by exact_mod_cast f.D_pos
  rw [abs_div, abs_of_pos hD, abs_mul]
  exact div_le_div_of_nonneg_right (mul_le_mul (within_cast hx) (within_cast hy) (abs_nonneg _)
    ((abs_nonneg _).trans (within_cast hx))) hD.le

/-- A factor from 0 to 1 does not make a number larger. -/
theorem within_factor {phi r : Fl f} (hp : phi.isFinite = true) (h0 : Fl.zero.le r = true) (h1 : r.le Fl.one = true) :
    Within phi.abs (phi.mul r) := by
  have hr := isFinite_of_between isFinite_zero isFinite_one h0 h1
  have a0 := (le_iff.1 h0).2.2
  have a1 := (le_iff.1 h1).2.2
  rw [toInt_zero] at a0
  rw [toInt_one] at a1
  have hD : (0 : ℝ) < f.D := by exact_mod_cast f.D_pos
  have hpa : phi.abs.isFinite = true := by rw [isFinite_abs]; exact hp
  refine within_rounds (mul_rounds hp hr) (q := (phi.abs.toInt : ℝ)) ⟨isNan_of_isFinite hpa, (rnd_toInt (isNan_of_isFinite hpa)).symm⟩ ?_ hpa
  have b0 : (0 : ℝ) ≤ r.toInt := by exact_mod_cast a0
  have b1 : (r.toInt : ℝ) ≤ f.D := by exact_mod_cast a1
  rw [toInt_abs, Int.natCast_natAbs, Int.cast_abs, abs_div, abs_of_pos hD, abs_mul, abs_of_nonneg b0, div_le_iff₀ hD]
  exact mul_le_mul_of_nonneg_left b1 (abs_nonneg _)

/-- Two numbers of an interval are not farther apart than its ends. -/
theorem within_interval {iv : Fl f × Fl f} {a b : Fl f} (ha : InInterval iv a) (hb : InInterval iv b)
    (h : (iv.2.sub iv.1).isFinite = true) : Within (iv.2.sub iv.1) (a.sub b) := by
  have h12 := finite_of_add (y := iv.1.neg) h
  rw [isFinite_neg] at h12
  refine within_rounds (sub_rounds ha.1 hb.1) (sub_rounds h12.1 h12.2) ?_ h
  have a1 := (le_iff.1 ha.2.1).2.2
  have a2 := (le_iff.1 ha.2.2).2.2
  have b1 := (le_iff.1 hb.2.1).2.2
  have b2 := (le_iff.1 hb.2.2).2.2
  have a1 : (iv.1.toInt : ℝ) ≤ a.toInt := by exact_mod_cast a1
  have a2 : (a.toInt : ℝ) ≤ iv.2.toInt := by exact_mod_cast a2
  have b1 : (iv.1.toInt : ℝ) ≤ b.toInt := by exact_mod_cast b1
  have b2 : (b.toInt : ℝ) ≤ iv.2.toInt := by exact_mod_cast b2
  rw [abs_le]
  constructor <;> linarith

/-- One pull. -/
theorem within_pull {phi r t x W : Fl f} {iv : Fl f × Fl f} (h0 : Fl.zero.le r = true) (h1 : r.le Fl.one = true)
    (ht : InInterval iv t) (hx : InInterval iv x) (hiv : Within W (iv.2.sub iv.1))
    (h : (topPull phi W).isFinite = true) : Within (topPull phi W) ((phi.mul r).mul (t.sub x)) := by
  have hp : phi.isFinite = true := by
    have := (finite_of_mul h).1
    rwa [isFinite_abs] at this
  exact within_mul (within_factor hp h0 h1) (within_le (within_interval ht hx hiv.1) hiv) h

end Verif.Fl

namespace Verif.Props

open Verif Spec PSO Velocity

variable {σ : Type} {f : Fmt}

theorem classic_within {phiP phiG rP rG v b g x B W : Fl f} {iv : Fl f × Fl f} (hP : Fl.zero.le rP = true ∧ rP.le Fl.one = true)
    (hG : Fl.zero.le rG = true ∧ rG.le Fl.one = true) (hv : Within B v) (hb : InInterval iv b) (hg : InInterval iv g) (hx : InInterval iv x)
    (hiv : Within W (iv.2.sub iv.1)) (h : (topClassic phiP phiG B W).isFinite = true) :
    Within (topClassic phiP phiG B W) (classicFormula phiP phiG rP rG v b g x) := by
  obtain ⟨h1, h2⟩ := Fl.finite_of_add h
  obtain ⟨h3, h4⟩ := Fl.finite_of_add h1
  exact Fl.within_add (Fl.within_add hv (Fl.within_pull hP.1 hP.2 hb hx hiv h4) h1) (Fl.within_pull hG.1 hG.2 hg hx hiv h2) h

theorem canonical_within {c : Canonical (Fl f)} {rP rG v b g x B W : Fl f} {iv : Fl f × Fl f}
    (hP : Fl.zero.le rP = true ∧ rP.le Fl.one = true)
    (hG : Fl.zero.le rG = true ∧ rG.le Fl.one = true) (hv : Within B v) (hb : InInterval iv b) (hg : InInterval iv g) (hx : InInterval iv x)
    (hiv : Within W (iv.2.sub iv.1)) (h : (topCanonical c B W).isFinite = true) :
    Within (topCanonical c B W) (canonicalFormula c.xi c.phiP c.phiG rP rG v b g x) := by
  obtain ⟨h1, h2⟩ := Fl.finite_of_mul h
  rw [Fl.isFinite_abs] at h1
  exact Fl.within_mul (Fl.within_abs h1) (classic_within hP hG hv hb hg hx hiv h2) h

theorem inertia_within {w wt phiP phiG rP rG v b g x B W : Fl f} {iv : Fl f × Fl f} (hw : Within wt w)
    (hP : Fl.zero.le rP = true ∧ rP.le Fl.one = true)
    (hG : Fl.zero.le rG = true ∧ rG.le Fl.one = true) (hv : Within B v) (hb : InInterval iv b) (hg : InInterval iv g) (hx : InInterval iv x)
    (hiv : Within W (iv.2.sub iv.1)) (h : (topInertia wt phiP phiG B W).isFinite = true) :
    Within (topInertia wt phiP phiG B W) (inertiaFormula w phiP phiG rP rG v b g x) := by
  obtain ⟨h1, h2⟩ := Fl.finite_of_add h
  obtain ⟨h3, h4⟩ := Fl.finite_of_add h1
  exact Fl.within_add (Fl.within_add (Fl.within_mul hw hv h3) (Fl.within_pull hP.1 hP.2 hb hx hiv h4) h1)
    (Fl.within_pull hG.1 hG.2 hg hx hiv h2) h

theorem negative_within {c : NegReinf (Fl f)} {rbP rbC rbG rwP rwC rwG v pb cb gb pw cw gw x B W : Fl f} {iv : Fl f × Fl f}
    (h1 : Fl.zero.le rbP = true ∧ rbP.le Fl.one = true) (h2 : Fl.zero.le rbC = true ∧ rbC.le Fl.one = true)
    (h3 : Fl.zero.le rbG = true ∧ rbG.le Fl.one = true) (h4 : Fl.zero.le rwP = true ∧ rwP.le Fl.one = true)
    (h5 : Fl.zero.le rwC = true ∧ rwC.le Fl.one = true) (h6 : Fl.zero.le rwG = true ∧ rwG.le Fl.one = true) (hv : Within B v)
    (g1 : InInterval iv pb) (g2 : InInterval iv cb) (g3 : InInterval iv gb) (g4 : InInterval iv pw) (g5 : InInterval iv cw)
    (g6 : InInterval iv gw) (hx : InInterval iv x) (hiv : Within W (iv.2.sub iv.1)) (h : (topNegative c B W).isFinite = true) :
    Within (topNegative c B W) (negativeFormula c.xi c.phiBestPersonal c.phiBestCurrent c.phiBestGlobal c.phiWorstPersonal
          c.phiWorstCurrent c.phiWorstGlobal rbP rbC rbG rwP rwC rwG v pb cb gb pw cw gw x) := by
  obtain ⟨hxi, e6⟩ := Fl.finite_of_mul h
  rw [Fl.isFinite_abs] at hxi
  obtain ⟨e5, p6⟩ := Fl.finite_of_add e6
  obtain ⟨e4, p5⟩ := Fl.finite_of_add e5
  obtain ⟨e3, p4⟩ := Fl.finite_of_add e4
  obtain ⟨e2, p3⟩ := Fl.finite_of_add e3
  obtain ⟨e1, p2⟩ := Fl.finite_of_add e2
  obtain ⟨e0, p1⟩ := Fl.finite_of_add e1
  exact Fl.within_mul (Fl.within_abs hxi) (Fl.within_sub (Fl.within_sub (Fl.within_sub (Fl.within_add (Fl.within_add (Fl.within_add hv
    (Fl.within_pull h1.1 h1.2 g1 hx hiv p1) e1) (Fl.within_pull h2.1 h2.2 g2 hx hiv p2) e2) (Fl.within_pull h3.1 h3.2 g3 hx hiv p3) e3)
    (Fl.within_pull h4.1 h4.2 g4 hx hiv p4) e4) (Fl.within_pull h5.1 h5.2 g5 hx hiv p5) e5) (Fl.within_pull h6.1 h6.2 g6 hx hiv p6) e6) h

end Verif.Props
