import Verif.Model.Cross
import Verif.Spec.Bits

namespace Verif.Cross

open Verif Spec

theorem usizeSub_ok (p : Profile) {a b : Nat} (h : b ≤ a) : usizeSub p a b = .ok (a - b) := by
  simp [usizeSub, h]

theorem shl_ok (p : Profile) {w n : Nat} (x : BitVec w) (h : n < w) : shl p x n = .ok (x <<< n) := by
  simp [shl, h]

theorem shrU_ok (p : Profile) {w n : Nat} (x : BitVec w) (h : n < w) :
    shrU p x n = .ok (x >>> n) := by
  simp [shrU, h]

theorem shrS_ok (p : Profile) {w n : Nat} (x : BitVec w) (h : n < w) :
    shrS p x n = .ok (x.sshiftRight n) := by
  simp [shrS, h]

theorem crossU_ok (p : Profile) {w pos : Nat} (a b : BitVec w) (h1 : 1 ≤ pos) (h2 : pos < w) :
    crossU p a b pos = .ok ((a &&& (BitVec.allOnes w <<< pos)) |||
      (b &&& (BitVec.allOnes w >>> (w - pos)))) := by
  unfold crossU
  rw [shl_ok p _ h2, usizeSub_ok p (by omega : pos ≤ w)]
  show (shrU p _ (w - pos) >>= _) = _
  rw [shrU_ok p _ (by omega)]
  rfl

theorem crossS_ok (p : Profile) {w pos : Nat} (a b : BitVec w) (h2 : pos < w) :
    crossS p a b pos = .ok ((a &&& (BitVec.allOnes w <<< pos)) |||
      (b &&& ((BitVec.intMax w).sshiftRight (w - pos - 1)))) := by
  unfold crossS
  rw [shl_ok p _ h2, usizeSub_ok p (by omega : pos ≤ w)]
  show (usizeSub p (w - pos) 1 >>= fun x => shrS p _ x >>= _) = _
  rw [usizeSub_ok p (by omega)]
  show (shrS p _ (w - pos - 1) >>= _) = _
  rw [shrS_ok p _ (by omega)]
  rfl

theorem crossU_splice (p : Profile) {w pos : Nat} (a b : BitVec w) (h1 : 1 ≤ pos) (h2 : pos < w) :
    ∃ c, crossU p a b pos = .ok c ∧ Splice pos a b c := by
  refine ⟨_, crossU_ok p a b h1 h2, ?_⟩
  intro i hi
  by_cases h : i < pos
  · have : w - pos + i < w := by omega
    simp [h, BitVec.getLsbD_shiftLeft, BitVec.getLsbD_ushiftRight, this]
  · have h3 : ¬ (w - pos + i < w) := by omega
    have h4 : i - pos < w := by omega
    simp [h, BitVec.getLsbD_shiftLeft, BitVec.getLsbD_ushiftRight, h3, hi, h4]

theorem intMax_bit {w i : Nat} (hw : 0 < w) : (BitVec.intMax w).getLsbD i = decide (i < w - 1) := by
  rw [BitVec.getLsbD_intMax]
  congr 1
  rw [eq_iff_iff]; omega

theorem crossS_splice (p : Profile) {w pos : Nat} (a b : BitVec w) (h2 : pos < w) :
    ∃ c, crossS p a b pos = .ok c ∧ Splice pos a b c := by
  refine ⟨_, crossS_ok p a b h2, ?_⟩
  intro i hi
  have hm : (BitVec.intMax w).msb = false := by
    rw [BitVec.msb_eq_getLsbD_last, intMax_bit (by omega)]; simp
  rw [BitVec.getLsbD_or, BitVec.getLsbD_and, BitVec.getLsbD_and, BitVec.getLsbD_shiftLeft,
    BitVec.getLsbD_sshiftRight, hm, intMax_bit (by omega)]
  by_cases h : i < pos
  · have h3 : w - pos - 1 + i < w - 1 := by omega
    have h4 : w - pos - 1 + i < w := by omega
    have h5 : ¬ (w ≤ i) := by omega
    simp [h, h3, h4, h5]
  · have h3 : ¬ (w - pos - 1 + i < w - 1) := by omega
    have h4 : i - pos < w := by omega
    have h5 : ¬ (w ≤ i) := by omega
    simp [h, h3, h4, hi]

end Verif.Cross
