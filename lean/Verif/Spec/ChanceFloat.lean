import Verif.Spec.Chance

/-!
# Specification vocabulary: how likely drawn floats are
-/

namespace Verif.Spec

/-- A way to turn the number of a draw into a float, for half-open and for closed intervals -/
structure Draws where
  openVal : {g : Fmt} → Fl g → Fl g → Nat → Fl g
  closedVal : {g : Fmt} → Fl g → Fl g → Nat → Fl g
  open_range : ∀ {g : Fmt} (lo hi : Fl g) k, lo.lt hi = true → lo.isFinite = true → hi.isFinite = true →
    lo.le (openVal lo hi k) = true ∧ (openVal lo hi k).lt hi = true
  closed_range : ∀ {g : Fmt} (lo hi : Fl g) k, lo.le hi = true → lo.isFinite = true → hi.isFinite = true →
    lo.le (closedVal lo hi k) = true ∧ (closedVal lo hi k).le hi = true

/-- The source of random numbers that reads the numbers of its draws from a tape -/
def Draws.source (d : Draws) : Rng (List Nat) where
  nat := Rng.script.nat
  natIncl := Rng.script.natIncl
  fl lo hi s := (d.openVal lo hi (s.headD 0), s.tail)
  flIncl lo hi s := (d.closedVal lo hi (s.headD 0), s.tail)
  nat_range := Rng.script.nat_range
  natIncl_range := Rng.script.natIncl_range
  fl_range lo hi s h1 h2 h3 := d.open_range lo hi (s.headD 0) h1 h2 h3
  flIncl_range lo hi s h1 h2 h3 := d.closed_range lo hi (s.headD 0) h1 h2 h3

/-- The share of the numbers below `m` with the property `P` -/
noncomputable def share (m : Nat) (P : Nat → Prop) : ℚ := chance [m] (fun t => P (t.headD 0))

/-- The numbers below `m` are spread evenly over the interval from `lo` to `hi`, with deviations of at most `δ` times its length. -/
def Even (m : Nat) (δ lo hi : ℚ) (v : Nat → ℚ) : Prop := ∀ k, k < m → |v k - (lo + (hi - lo) * (k / m))| ≤ δ * (hi - lo)

/-- The computation gives a result with the property `P` for these draws and uses up all of them. -/
def Gives {α : Type} (m : M (List Nat) α) (P : α → Prop) (draws : List Nat) : Prop := ∃ a, m draws = .ok (a, []) ∧ P a

end Verif.Spec
