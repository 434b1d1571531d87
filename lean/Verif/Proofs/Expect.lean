import Verif.Spec.Expect
import Verif.Proofs.Chance
import Verif.Proofs.Average

/-!
# Mean values over the sequences of draws
-/

namespace Verif.Spec

open Verif

theorem meanOver_cons (n : Nat) (ns : List Nat) (V : List Nat → ℚ) :
    meanOver (n :: ns) V = (∑ d ∈ Finset.range n, meanOver ns (fun t => V (d :: t))) / n := by
  unfold meanOver
  rw [tapes, Estimate.sum_flatMap, ← tapes, length_tapes, length_tapes, List.prod_cons, ← Finset.sum_div, div_div]
  congr 1
  · show _ = ((List.range n).map _).sum
    congr 1
    apply List.map_congr_left
    intro d _
    rw [List.map_map]
    rfl
  · push_cast
    ring

theorem meanOver_congr {ns : List Nat} {V W : List Nat → ℚ} (h : ∀ t, List.Forall₂ (· < ·) t ns → V t = W t) :
    meanOver ns V = meanOver ns W := by
  unfold meanOver
  congr 2
  apply List.map_congr_left
  intro t ht
  exact h t (mem_tapes.1 ht)

theorem meanOver_add (ns : List Nat) (V W : List Nat → ℚ) : meanOver ns (fun t => V t + W t) = meanOver ns V + meanOver ns W := by
  unfold meanOver
  rw [List.sum_map_add, add_div]

theorem meanOver_zero (ns : List Nat) : meanOver ns (fun _ => 0) = 0 := by
  unfold meanOver
  simp

theorem meanOver_sum {ι : Type} (s : Finset ι) (ns : List Nat) (V : ι → List Nat → ℚ) :
    meanOver ns (fun t => ∑ j ∈ s, V j t) = ∑ j ∈ s, meanOver ns (V j) := by
  classical
  induction s using Finset.induction_on with
  | empty => simp [meanOver_zero]
  | insert a s ha ih =>
    simp only [Finset.sum_insert ha]
    rw [meanOver_add, ih]

theorem meanOver_const {ns : List Nat} (hp : 0 < ns.prod) (x : ℚ) : meanOver ns (fun _ => x) = x := by
  unfold meanOver
  rw [List.map_const', List.sum_replicate, nsmul_eq_mul, length_tapes, mul_comm, mul_div_assoc, div_self, mul_one]
  have : ns.prod ≠ 0 := by omega
  exact_mod_cast this

theorem meanOver_chance (ns : List Nat) (P : List Nat → Prop) [DecidablePred P] :
    meanOver ns (fun t => if P t then 1 else 0) = chance ns P := by
  unfold meanOver chance
  congr 1
  generalize tapes ns = l
  induction l with
  | nil => simp
  | cons t l ih =>
    rw [List.map_cons, List.sum_cons, ih, List.countP_cons]
    by_cases h : P t <;> simp [h, add_comm]

theorem meanOver_take (ns ms : List Nat) (hp : 0 < ms.prod) (V : List Nat → ℚ) :
    meanOver (ns ++ ms) (fun t => V (t.take ns.length)) = meanOver ns V := by
  induction ns generalizing V with
  | nil =>
    simp only [List.nil_append, List.length_nil, List.take_zero, Estimate.meanOver_nil]
    exact meanOver_const hp _
  | cons n ns ih =>
    rw [List.cons_append, meanOver_cons, meanOver_cons]
    congr 1
    refine Finset.sum_congr rfl fun d _ => ?_
    simp only [List.length_cons, List.take_succ_cons]
    exact ih (fun t => V (d :: t))

theorem meanOver_drop (ns ms : List Nat) (hp : 0 < ns.prod) (V : List Nat → ℚ) :
    meanOver (ns ++ ms) (fun t => V (t.drop ns.length)) = meanOver ms V := by
  induction ns with
  | nil => simp only [List.nil_append, List.length_nil, List.drop_zero]
  | cons n ns ih =>
    rw [List.prod_cons] at hp
    have h1 : 0 < n := Nat.pos_of_mul_pos_right hp
    have h2 : 0 < ns.prod := Nat.pos_of_mul_pos_left hp
    rw [List.cons_append, meanOver_cons]
    simp only [List.length_cons, List.drop_succ_cons]
    rw [ih h2, Finset.sum_const, Finset.card_range, nsmul_eq_mul, mul_comm, mul_div_assoc, div_self, mul_one]
    have : n ≠ 0 := by omega
    exact_mod_cast this

theorem expected_of_uses {α : Type} {m : M (List Nat) α} {ns : List Nat} {v : List Nat → α} (h : Uses m ns v) (V : α → ℚ) :
    Expected ns m V (meanOver ns (fun t => V (v t))) := by
  refine ⟨fun t => V (v t), ?_, rfl⟩
  intro t ht x
  constructor
  · rintro ⟨y, h1, rfl⟩
    exact congrArg V ((h.whole (mem_tapes.1 ht) y).1 h1).symm
  · rintro rfl
    exact ⟨_, (h.whole (mem_tapes.1 ht) _).2 rfl, rfl⟩

/-- Repetitions: the means are added. -/
theorem uses_replicate_mean {α : Type} {m : M (List Nat) α} {ns : List Nat} {v : List Nat → α} (h : Uses m ns v) (hp : 0 < ns.prod)
    (V : α → ℚ) (k : Nat) : ∃ u, Uses (M.replicate k m) (List.replicate k ns).flatten u ∧ 0 < (List.replicate k ns).flatten.prod ∧
      meanOver (List.replicate k ns).flatten (fun t => ((u t).map V).sum) = k * meanOver ns (fun t => V (v t)) := by
  induction k with
  | zero => exact ⟨fun _ => [], Uses.pure _, by simp, by simp [Estimate.meanOver_nil]⟩
  | succ k ih =>
    obtain ⟨u, hu, hq, hc⟩ := ih
    have hb := h.bind (k := fun a => (do let as ← M.replicate k m; Pure.pure (a :: as)))
      (u := fun a t => a :: u t) (ms := (List.replicate k ns).flatten) (by
        intro ds _ es rest he
        exact M.bind_eq_ok.2 ⟨_, _, hu _ _ he, rfl⟩)
    refine ⟨_, by simpa [List.replicate_succ, List.flatten_cons, M.replicate] using hb, ?_, ?_⟩
    · rw [List.replicate_succ, List.flatten_cons, List.prod_append]
      exact Nat.mul_pos hp hq
    · rw [List.replicate_succ, List.flatten_cons]
      simp only [List.map_cons, List.sum_cons]
      rw [meanOver_add, meanOver_take _ _ hq (fun t => V (v t)), meanOver_drop _ _ hp (fun t => ((u t).map V).sum), hc]
      push_cast
      ring

end Verif.Spec
