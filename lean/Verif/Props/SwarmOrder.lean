import Verif.Model.Swarm
import Verif.Spec.SwarmOrder
import Verif.IEEE.Lemmas

/-!
# C38: the order of goal values in the swarm
-/

namespace Verif.Props

open Verif Spec PSO

theorem notWorse_refl (x : F64) : NotWorse x x := by
  unfold NotWorse
  cases h : x.isFinite with
  | false => exact .inr rfl
  | true => exact .inl ⟨rfl, rfl, Fl.le_refl (Fl.isNan_of_isFinite h)⟩

theorem notWorse_trans {x y z : F64} (h1 : NotWorse x y) (h2 : NotWorse y z) : NotWorse x z := by
  rcases h2 with ⟨hy, hz, hyz⟩ | hz
  · rcases h1 with ⟨hx, -, hxy⟩ | h
    · exact .inl ⟨hx, hz, Fl.le_trans hxy hyz⟩
    · rw [hy] at h; cases h
  · exact .inr hz

theorem compare_gt {x y : F64} : compareFloats x y = .gt ↔ ¬ NotWorse x y := by
  unfold compareFloats NotWorse
  cases hx : x.isFinite <;> cases hy : y.isFinite <;> simp
  have nx := Fl.isNan_of_isFinite hx
  have ny := Fl.isNan_of_isFinite hy
  have hl := Fl.not_lt ny nx
  cases h1 : y.lt x with
  | true =>
    rw [h1] at hl
    simpa using hl
  | false =>
    rw [h1] at hl
    have : x.le y = true := hl.1 rfl
    rw [this]
    cases h2 : x.lt y <;> simp

theorem compare_lt {x y : F64} : compareFloats x y = .lt ↔ ¬ NotWorse y x := by
  have hsym : compareFloats x y = .lt ↔ compareFloats y x = .gt := by
    unfold compareFloats
    cases hx : x.isFinite <;> cases hy : y.isFinite <;> simp
    cases h1 : y.lt x <;> cases h2 : x.lt y <;> simp
    have := Fl.lt_iff.1 h1
    have := Fl.lt_iff.1 h2
    omega
  rw [hsym, compare_gt]

/-- C38: the order is "at least as good": a finite value beats a larger finite one and everything that is not finite. -/
theorem C38_meaning (x y : F64) :
    (compareFloats x y ≠ .gt ↔ NotWorse x y) ∧ (compareFloats x y ≠ .lt ↔ NotWorse y x) ∧
    (compareFloats x y = .eq ↔ NotWorse x y ∧ NotWorse y x) := by
  refine ⟨by rw [Ne, compare_gt, not_not], by rw [Ne, compare_lt, not_not], ?_⟩
  constructor
  · intro h
    constructor
    · by_contra hc; rw [compare_gt.2 hc] at h; cases h
    · by_contra hc; rw [compare_lt.2 hc] at h; cases h
  · rintro ⟨h1, h2⟩
    cases h : compareFloats x y with
    | eq => rfl
    | lt => exact absurd h2 (compare_lt.1 h)
    | gt => exact absurd h1 (compare_gt.1 h)

/-- C38: a total preorder. -/
theorem C38_preorder (x y z : F64) :
    compareFloats x x = .eq ∧ (compareFloats x y ≠ .gt ∨ compareFloats y x ≠ .gt) ∧
    (compareFloats x y ≠ .gt → compareFloats y z ≠ .gt → compareFloats x z ≠ .gt) ∧
    (compareFloats x y = .lt ↔ compareFloats y x = .gt) := by
  refine ⟨(C38_meaning x x).2.2.2 ⟨notWorse_refl x, notWorse_refl x⟩, ?_, ?_, by rw [compare_gt, compare_lt]⟩
  · by_contra h
    push Not at h
    have h1 := h.1
    have h2 := compare_gt.1 h.2
    have := compare_lt.2 h2
    rw [this] at h1; cases h1
  · intro h1 h2
    exact (C38_meaning x z).1.2 (notWorse_trans ((C38_meaning x y).1.1 h1) ((C38_meaning y z).1.1 h2))

theorem notWorse_total (x y : F64) : NotWorse x y ∨ NotWorse y x := by
  rcases (C38_preorder x y x).2.1 with h | h
  · exact .inl ((C38_meaning x y).1.1 h)
  · exact .inr ((C38_meaning y x).1.1 h)

/-- C38: on finite values it is the numerical order, and `-0` equals `+0`. -/
theorem C38_finite (x y : F64) (hx : x.isFinite = true) (hy : y.isFinite = true) :
    (compareFloats x y = .lt ↔ x.toInt < y.toInt) ∧ (compareFloats x y = .gt ↔ y.toInt < x.toInt) ∧
    (compareFloats x y = .eq ↔ x.toInt = y.toInt) := by
  have nx := Fl.isNan_of_isFinite hx
  have ny := Fl.isNan_of_isFinite hy
  have e1 : NotWorse x y ↔ x.toInt ≤ y.toInt := by
    unfold NotWorse; rw [Fl.le_iff]; simp [hx, hy, nx, ny]
  have e2 : NotWorse y x ↔ y.toInt ≤ x.toInt := by
    unfold NotWorse; rw [Fl.le_iff]; simp [hx, hy, nx, ny]
  refine ⟨by rw [compare_lt, e2]; omega, by rw [compare_gt, e1]; omega, ?_⟩
  rw [(C38_meaning x y).2.2, e1, e2]; omega

/-- C38: everything that is not finite is equivalent and worse than every finite value. -/
theorem C38_nonfinite (x y : F64) (hy : y.isFinite = false) :
    (x.isFinite = false → compareFloats x y = .eq) ∧ (x.isFinite = true → compareFloats x y = .lt) := by
  unfold compareFloats
  constructor <;> intro hx <;> simp [hx, hy]

/-- All cases occur; `-0` and `+0` are equal, and so are NaN and both infinities. -/
example : compareFloats (Fl.ofNat 1) (Fl.ofNat 2) = .lt ∧ compareFloats (Fl.ofInt (-1)) (Fl.ofInt (-2)) = .gt ∧
    compareFloats (Fl.mk' true 0) Fl.zero = .eq ∧ compareFloats Fl.nan (Fl.inf true) = .eq ∧
    compareFloats (Fl.inf true) (Fl.inf false) = .eq ∧ compareFloats (Fl.inf true) Fl.maxFinite = .gt := by
  decide +kernel

end Verif.Props
