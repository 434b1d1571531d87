import Verif.Basic.Monad
import Verif.IEEE.Lemmas

/-!
# Random numbers

`rand::thread_rng()` is modelled by arbitrary state transformers on the world
that satisfy the range contract documented by `rand` 0.7.3 for `Uniform`.
Nothing else is assumed about the values drawn: every theorem holds for every
possible sequence of draws.
-/

namespace Verif

/-- A source of random numbers living in the world `σ`. -/
structure Rng (σ : Type) where
  /-- `Uniform::new(lo, hi).sample(rng)` on integers -/
  nat : Nat → Nat → σ → Nat × σ
  /-- `Uniform::new_inclusive(lo, hi).sample(rng)` on integers -/
  natIncl : Nat → Nat → σ → Nat × σ
  /-- `Uniform::new(lo, hi).sample(rng)` on floats -/
  fl : {g : Fmt} → Fl g → Fl g → σ → Fl g × σ
  /-- `Uniform::new_inclusive(lo, hi).sample(rng)` on floats -/
  flIncl : {g : Fmt} → Fl g → Fl g → σ → Fl g × σ
  nat_range : ∀ lo hi s, lo < hi → lo ≤ (nat lo hi s).1 ∧ (nat lo hi s).1 < hi
  natIncl_range : ∀ lo hi s, lo ≤ hi → lo ≤ (natIncl lo hi s).1 ∧ (natIncl lo hi s).1 ≤ hi
  fl_range : ∀ {g : Fmt} (lo hi : Fl g) s, lo.lt hi = true → lo.isFinite = true →
    hi.isFinite = true → lo.le (fl lo hi s).1 = true ∧ (fl lo hi s).1.lt hi = true
  flIncl_range : ∀ {g : Fmt} (lo hi : Fl g) s, lo.le hi = true → lo.isFinite = true →
    hi.isFinite = true → lo.le (flIncl lo hi s).1 = true ∧ (flIncl lo hi s).1.le hi = true

namespace Rng

variable {σ : Type} (R : Rng σ)

/-- `Uniform::new(lo, hi)` panics unless `lo < hi`; then sample. -/
def uniformNat (lo hi : Nat) : M σ Nat :=
  if lo < hi then M.ofState (R.nat lo hi) else M.fail .range

/-- `Uniform::new_inclusive(lo, hi)` panics unless `lo <= hi`; then sample. -/
def uniformNatIncl (lo hi : Nat) : M σ Nat :=
  if lo ≤ hi then M.ofState (R.natIncl lo hi) else M.fail .range

/-- `Uniform::new(lo, hi)` on floats panics unless `lo < hi`, both finite. -/
def uniformFl {g : Fmt} (lo hi : Fl g) : M σ (Fl g) :=
  if lo.lt hi && lo.isFinite && hi.isFinite then M.ofState (R.fl lo hi) else M.fail .range

/-- `Uniform::new_inclusive(lo, hi)` on floats panics unless `lo <= hi`, both finite. -/
def uniformFlIncl {g : Fmt} (lo hi : Fl g) : M σ (Fl g) :=
  if lo.le hi && lo.isFinite && hi.isFinite then M.ofState (R.flIncl lo hi) else M.fail .range

theorem uniformNat_ok {lo hi n : Nat} {s s' : σ} (h : R.uniformNat lo hi s = .ok (n, s')) :
    lo ≤ n ∧ n < hi := by
  unfold uniformNat at h
  split at h
  · next hlt =>
    rw [M.ofState_eq_ok] at h
    have := R.nat_range lo hi s hlt
    rw [h] at this; exact this
  · simp [M.fail] at h

theorem uniformNatIncl_ok {lo hi n : Nat} {s s' : σ}
    (h : R.uniformNatIncl lo hi s = .ok (n, s')) : lo ≤ n ∧ n ≤ hi := by
  unfold uniformNatIncl at h
  split at h
  · next hlt =>
    rw [M.ofState_eq_ok] at h
    have := R.natIncl_range lo hi s hlt
    rw [h] at this; exact this
  · simp [M.fail] at h

theorem uniformFl_ok {g : Fmt} {lo hi x : Fl g} {s s' : σ}
    (h : R.uniformFl lo hi s = .ok (x, s')) :
    lo.le x = true ∧ x.lt hi = true ∧ lo.isFinite = true ∧ hi.isFinite = true := by
  unfold uniformFl at h
  split at h
  · next hlt =>
    simp only [Bool.and_eq_true] at hlt
    rw [M.ofState_eq_ok] at h
    have := R.fl_range lo hi s hlt.1.1 hlt.1.2 hlt.2
    rw [h] at this; exact ⟨this.1, this.2, hlt.1.2, hlt.2⟩
  · simp [M.fail] at h

theorem uniformFlIncl_ok {g : Fmt} {lo hi x : Fl g} {s s' : σ}
    (h : R.uniformFlIncl lo hi s = .ok (x, s')) :
    lo.le x = true ∧ x.le hi = true ∧ lo.isFinite = true ∧ hi.isFinite = true := by
  unfold uniformFlIncl at h
  split at h
  · next hlt =>
    simp only [Bool.and_eq_true] at hlt
    rw [M.ofState_eq_ok] at h
    have := R.flIncl_range lo hi s hlt.1.1 hlt.1.2 hlt.2
    rw [h] at this; exact ⟨this.1, this.2, hlt.1.2, hlt.2⟩
  · simp [M.fail] at h

theorem uniformNat_tot {lo hi : Nat} (h : lo < hi) (s : σ) :
    M.Tot (R.uniformNat lo hi) s (fun n _ => lo ≤ n ∧ n < hi) := by
  refine ⟨(R.nat lo hi s).1, (R.nat lo hi s).2, ?_, R.nat_range lo hi s h⟩
  unfold uniformNat; rw [if_pos h]; rfl

theorem uniformNatIncl_tot {lo hi : Nat} (h : lo ≤ hi) (s : σ) :
    M.Tot (R.uniformNatIncl lo hi) s (fun n _ => lo ≤ n ∧ n ≤ hi) := by
  refine ⟨(R.natIncl lo hi s).1, (R.natIncl lo hi s).2, ?_, R.natIncl_range lo hi s h⟩
  unfold uniformNatIncl; rw [if_pos h]; rfl

theorem uniformFl_tot {g : Fmt} {lo hi : Fl g} (h : lo.lt hi = true)
    (h1 : lo.isFinite = true) (h2 : hi.isFinite = true) (s : σ) :
    M.Tot (R.uniformFl lo hi) s (fun x _ => lo.le x = true ∧ x.lt hi = true) := by
  refine ⟨(R.fl lo hi s).1, (R.fl lo hi s).2, ?_, R.fl_range lo hi s h h1 h2⟩
  unfold uniformFl; rw [if_pos (by simp [h, h1, h2])]; rfl

theorem uniformFlIncl_tot {g : Fmt} {lo hi : Fl g} (h : lo.le hi = true)
    (h1 : lo.isFinite = true) (h2 : hi.isFinite = true) (s : σ) :
    M.Tot (R.uniformFlIncl lo hi) s (fun x _ => lo.le x = true ∧ x.le hi = true) := by
  refine ⟨(R.flIncl lo hi s).1, (R.flIncl lo hi s).2, ?_, R.flIncl_range lo hi s h h1 h2⟩
  unfold uniformFlIncl; rw [if_pos (by simp [h, h1, h2])]; rfl

/-- Concrete generators, used to show that the contract is satisfiable and to run
scripted executions: integer draws are taken from a list (reduced into the range;
0 when the list is exhausted); float draws return the lower bound, or the upper
bound of a closed interval if the next script entry is odd. -/
def script : Rng (List Nat) where
  nat lo hi s := (lo + s.headD 0 % (hi - lo), s.tail)
  natIncl lo hi s := (lo + s.headD 0 % (hi + 1 - lo), s.tail)
  fl lo _ s := (lo, s.tail)
  flIncl lo hi s := (if s.headD 0 % 2 = 1 then hi else lo, s.tail)
  nat_range lo hi s h := by
    have := Nat.mod_lt (s.headD 0) (show 0 < hi - lo by omega)
    simp only; omega
  natIncl_range lo hi s h := by
    have := Nat.mod_lt (s.headD 0) (show 0 < hi + 1 - lo by omega)
    simp only; omega
  fl_range lo hi s h h1 _ := ⟨Fl.le_refl (Fl.isNan_of_isFinite h1), h⟩
  flIncl_range lo hi s h h1 h2 := by
    simp only
    split
    · exact ⟨h, Fl.le_refl (Fl.isNan_of_isFinite h2)⟩
    · exact ⟨Fl.le_refl (Fl.isNan_of_isFinite h1), h⟩

end Rng
end Verif
