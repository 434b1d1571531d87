import Verif.Spec.Attach
import Verif.Proofs.Private

/-!
# Attached objects are private
-/

set_option linter.unusedSectionVars false

namespace Verif

open Spec

variable {σ τ T α β : Type}

theorem leaves_beside (m : M σ β) : Leaves (Lens.snd σ τ) ((Lens.fst σ τ).zoom m) := by
  intro s a s' h
  unfold Lens.zoom at h
  split at h
  · cases h; rfl
  · cases h

theorem leaves_logger (l : Logger σ T) (k : LogKind) (s : AlgState T) :
    Leaves (Lens.snd σ τ) ((l.zoom (Lens.fst σ τ)).on k s) := by
  rw [Logger.zoom_on]; exact leaves_beside _

theorem attach_get {ls : List β} {x : β} {i : Nat} (hi : i ≤ ls.length) :
    (ls.take i ++ x :: ls.drop i)[i]? = some x := by
  rw [List.getElem?_append_right (by simp)]
  simp [Nat.min_eq_left hi]

theorem attach_other {ls : List β} {x y : β} {i j : Nat} (hi : i ≤ ls.length) (hj : j ≠ i)
    (h : (ls.take i ++ x :: ls.drop i)[j]? = some y) : y ∈ ls := by
  by_cases hji : j < i
  · rw [List.getElem?_append_left (by simp; omega)] at h
    exact List.mem_of_mem_take (List.mem_of_getElem? h)
  · rw [List.getElem?_append_right (by simp; omega)] at h
    obtain ⟨d, hd⟩ : ∃ d, j - (ls.take i).length = d + 1 := ⟨j - i - 1, by simp; omega⟩
    rw [hd, List.getElem?_cons_succ] at h
    exact List.mem_of_mem_drop (List.mem_of_getElem? h)

namespace GA

theorem beside_leaves (c : Comps σ T) : OperatorsLeave (Lens.snd σ τ) (c.beside τ) where
  creator := leaves_beside _
  pairing _ := leaves_beside _
  cross _ := leaves_beside _
  mutation _ := leaves_beside _
  selections f hf p := by
    obtain ⟨g, -, rfl⟩ := List.mem_map.1 hf; exact leaves_beside _
  preBirths f hf p xs := by
    obtain ⟨g, -, rfl⟩ := List.mem_map.1 hf; exact leaves_beside _

theorem attach_private (o : Opt σ T) {i : Nat} (hi : i ≤ o.comps.loggers.length) (l : Logger τ T) :
    PrivateLogger (Lens.snd σ τ) l i (o.attach i l).comps where
  logger_eq := attach_get (by simpa [Comps.beside] using hi)
  operators := by
    have := beside_leaves (τ := τ) o.comps
    exact ⟨this.creator, this.pairing, this.cross, this.mutation, this.selections, this.preBirths⟩
  goal _ := leaves_beside _
  stop _ := leaves_beside _
  loggers j l' hj h k s := by
    obtain ⟨g, -, rfl⟩ := List.mem_map.1 (attach_other (by simpa [Comps.beside] using hi) hj h)
    exact leaves_logger g k s

end GA

namespace PSO

theorem beside_leaves (c : Comps σ α) : OperatorsLeave (Lens.snd σ τ) (c.beside τ) where
  coordInit := leaves_beside _
  velInit := leaves_beside _
  velCalc _ _ := leaves_beside _
  postVel f hf x := by
    obtain ⟨g, -, rfl⟩ := List.mem_map.1 hf; exact leaves_beside _
  postMove f hf x := by
    obtain ⟨g, -, rfl⟩ := List.mem_map.1 hf; exact leaves_beside _

theorem attach_private (o : Opt σ α) {i : Nat} (hi : i ≤ o.comps.loggers.length) (l : Logger τ (List α)) :
    PrivateLogger (Lens.snd σ τ) l i (o.attach i l).comps where
  logger_eq := attach_get (by simpa [Comps.beside] using hi)
  operators := by
    have := beside_leaves (τ := τ) o.comps
    exact ⟨this.coordInit, this.velInit, this.velCalc, this.postVel, this.postMove⟩
  goal _ := leaves_beside _
  stop _ := leaves_beside _
  loggers j l' hj h k s := by
    obtain ⟨g, -, rfl⟩ := List.mem_map.1 (attach_other (by simpa [Comps.beside] using hi) hj h)
    exact leaves_logger g k s

end PSO
end Verif
