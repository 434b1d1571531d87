import Verif.Model.Mutation
import Verif.Spec.Bits
import Mathlib.Algebra.BigOperators.Group.Finset.Basic
import Mathlib.Algebra.BigOperators.Group.Finset.Piecewise

namespace Verif.Mutation

open Verif Spec

theorem filter_length_eq (q : Nat → Bool) (n : Nat) :
    ((List.range n).filter q).length = ∑ i ∈ Finset.range n, if q i then 1 else 0 := by
  induction n with
  | zero => rfl
  | succ n ih =>
    rw [List.range_succ, List.filter_append, List.length_append, ih, Finset.sum_range_succ]
    cases h : q n <;> simp [h]

theorem hamming_eq {w : Nat} (a b : BitVec w) :
    hamming a b = ∑ i ∈ Finset.range w, if a.getLsbD i != b.getLsbD i then 1 else 0 :=
  filter_length_eq _ w

theorem hamming_self {w : Nat} (a : BitVec w) : hamming a a = 0 := by
  simp [hamming]

theorem flip_bit {w : Nat} (b : BitVec w) {pos i : Nat} (hi : i < w) :
    (b ^^^ (1#w <<< pos)).getLsbD i = (b.getLsbD i ^^ decide (i = pos)) := by
  rw [BitVec.getLsbD_xor, BitVec.getLsbD_shiftLeft, BitVec.getLsbD_one]
  congr 1
  by_cases h : i = pos
  · subst h; simp; omega
  · by_cases h2 : i < pos
    · simp [h2, h]
    · have : i - pos ≠ 0 := by omega
      simp [this, h]

theorem hamming_flip {w : Nat} (a b : BitVec w) {pos : Nat} (hp : pos < w) :
    hamming a (b ^^^ (1#w <<< pos)) = hamming a b + 1 ∨
    hamming a (b ^^^ (1#w <<< pos)) + 1 = hamming a b := by
  rw [hamming_eq, hamming_eq]
  have hm : pos ∈ Finset.range w := Finset.mem_range.2 hp
  rw [← Finset.add_sum_erase _ _ hm, ← Finset.add_sum_erase _ _ hm]
  have he : ∑ x ∈ (Finset.range w).erase pos,
      (if a.getLsbD x != (b ^^^ (1#w <<< pos)).getLsbD x then 1 else 0) =
      ∑ x ∈ (Finset.range w).erase pos, (if a.getLsbD x != b.getLsbD x then 1 else 0) := by
    apply Finset.sum_congr rfl
    intro i hi
    rw [Finset.mem_erase, Finset.mem_range] at hi
    rw [flip_bit b hi.2]
    simp [hi.1]
  rw [he, flip_bit b hp]
  cases a.getLsbD pos <;> cases b.getLsbD pos <;> simp <;> omega

theorem flipLoop_spec {σ : Type} (R : Rng σ) {w : Nat} (hw : 0 < w) (a : BitVec w) :
    ∀ (n : Nat) (b : BitVec w) (s : σ), ∃ c s', flipLoop R n b s = .ok (c, s') ∧
      hamming a c ≤ hamming a b + n ∧ hamming a c % 2 = (hamming a b + n) % 2 := by
  intro n
  induction n with
  | zero => intro b s; exact ⟨b, s, rfl, by omega, rfl⟩
  | succ n ih =>
    intro b s
    obtain ⟨pos, s1, h1, _, h3⟩ := R.uniformNat_tot hw s
    obtain ⟨c, s2, h4, h5, h6⟩ := ih (b ^^^ (1#w <<< pos)) s1
    refine ⟨c, s2, ?_, ?_⟩
    · unfold flipLoop; exact M.bind_eq_ok.2 ⟨pos, s1, h1, h4⟩
    · have := hamming_flip a b h3
      omega

end Verif.Mutation
