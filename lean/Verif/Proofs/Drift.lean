import Verif.Spec.Drift
import Verif.Proofs.Chance
import Verif.Proofs.Expect
import Verif.Model.Velocity
import Mathlib.Data.Real.Basic

/-!
# Means of vectors of random numbers
-/

namespace Verif.Spec

open Verif

theorem realMean_nil (V : List Nat → ℝ) : realMean [] V = V [] := by
  simp [realMean, tapes]

theorem real_flatMap {α : Type} (f : α → List (List Nat)) (V : List Nat → ℝ) : ∀ l : List α,
    ((l.flatMap f).map V).sum = (l.map fun x => ((f x).map V).sum).sum := by
  intro l
  induction l with
  | nil => rfl
  | cons x l ih => rw [List.flatMap_cons, List.map_append, List.sum_append, ih, List.map_cons, List.sum_cons]

theorem realMean_cons (n : Nat) (ns : List Nat) (V : List Nat → ℝ) :
    realMean (n :: ns) V = (∑ d ∈ Finset.range n, realMean ns (fun t => V (d :: t))) / n := by
  unfold realMean
  rw [tapes, real_flatMap, ← tapes, length_tapes, length_tapes, List.prod_cons, ← Finset.sum_div, div_div]
  congr 1
  · show _ = ((List.range n).map _).sum
    congr 1
    apply List.map_congr_left
    intro d _
    rw [List.map_map]
    rfl
  · push_cast
    ring

theorem realMean_congr {ns : List Nat} {V W : List Nat → ℝ} (h : ∀ t, List.Forall₂ (· < ·) t ns → V t = W t) :
    realMean ns V = realMean ns W := by
  unfold realMean
  congr 2
  apply List.map_congr_left
  intro t ht
  exact h t (mem_tapes.1 ht)

theorem realMean_const {ns : List Nat} (hp : 0 < ns.prod) (x : ℝ) : realMean ns (fun _ => x) = x := by
  unfold realMean
  rw [List.map_const', List.sum_replicate, nsmul_eq_mul, length_tapes, mul_comm, mul_div_assoc, div_self, mul_one]
  have : ns.prod ≠ 0 := by omega
  exact_mod_cast this

theorem realMean_take (ns ms : List Nat) (hp : 0 < ms.prod) (V : List Nat → ℝ) :
    realMean (ns ++ ms) (fun t => V (t.take ns.length)) = realMean ns V := by
  induction ns generalizing V with
  | nil =>
    simp only [List.nil_append, List.length_nil, List.take_zero, realMean_nil]
    exact realMean_const hp _
  | cons n ns ih =>
    rw [List.cons_append, realMean_cons, realMean_cons]
    congr 1
    refine Finset.sum_congr rfl fun d _ => ?_
    simp only [List.length_cons, List.take_succ_cons]
    exact ih (fun t => V (d :: t))

theorem realMean_drop (ns ms : List Nat) (hp : 0 < ns.prod) (V : List Nat → ℝ) :
    realMean (ns ++ ms) (fun t => V (t.drop ns.length)) = realMean ms V := by
  induction ns with
  | nil => simp only [List.nil_append, List.length_nil, List.drop_zero]
  | cons n ns ih =>
    rw [List.prod_cons] at hp
    have h1 : 0 < n := Nat.pos_of_mul_pos_right hp
    have h2 : 0 < ns.prod := Nat.pos_of_mul_pos_left hp
    rw [List.cons_append, realMean_cons]
    simp only [List.length_cons, List.drop_succ_cons]
    rw [ih h2, Finset.sum_const, Finset.card_range, nsmul_eq_mul, mul_comm, mul_div_assoc, div_self, mul_one]
    have : n ≠ 0 := by omega
    exact_mod_cast this

/-- The mean of a linear function of independent draws -/
theorem realMean_linear {g : Fmt} (u : Nat → Fl g) (m : Nat) (hm : 0 < m) (as : List ℝ) (c : ℝ) :
    realMean (List.replicate as.length m) (fun t => c + (List.zipWith (fun a k => a * value (u k)) as t).sum) = c + as.sum * drawMean u m := by
  have hm0 : (m : ℝ) ≠ 0 := by
    have : m ≠ 0 := by omega
    exact_mod_cast this
  induction as generalizing c with
  | nil => simp [realMean_nil]
  | cons a as ih =>
    rw [List.length_cons, List.replicate_succ, realMean_cons]
    simp only [List.zipWith_cons_cons, List.sum_cons, ← add_assoc]
    simp only [ih]
    rw [Finset.sum_add_distrib, Finset.sum_add_distrib, Finset.sum_const, Finset.sum_const, Finset.card_range, ← Finset.mul_sum,
      nsmul_eq_mul, nsmul_eq_mul]
    unfold drawMean
    field_simp
    ring

theorem drawVariance_eq {g : Fmt} (u : Nat → Fl g) (m : Nat) (hm : 0 < m) :
    (∑ k ∈ Finset.range m, value (u k) ^ 2) / m = drawVariance u m + drawMean u m ^ 2 := by
  have hm0 : (m : ℝ) ≠ 0 := by
    have : m ≠ 0 := by omega
    exact_mod_cast this
  have h : (∑ k ∈ Finset.range m, value (u k)) = m * drawMean u m := by unfold drawMean; field_simp
  unfold drawVariance
  have : ∀ k ∈ Finset.range m, (value (u k) - drawMean u m) ^ 2 = value (u k) ^ 2 - 2 * drawMean u m * value (u k) + drawMean u m ^ 2 := by
    intro k _; ring
  rw [Finset.sum_congr rfl this, Finset.sum_add_distrib, Finset.sum_sub_distrib, ← Finset.mul_sum, h, Finset.sum_const, Finset.card_range,
    nsmul_eq_mul]
  field_simp
  ring

theorem realMean_square {g : Fmt} (u : Nat → Fl g) (m : Nat) (hm : 0 < m) (as : List ℝ) (c : ℝ) :
    realMean (List.replicate as.length m) (fun t => (c + (List.zipWith (fun a k => a * value (u k)) as t).sum) ^ 2) =
      (c + as.sum * drawMean u m) ^ 2 + (as.map (· ^ 2)).sum * drawVariance u m := by
  have hm0 : (m : ℝ) ≠ 0 := by
    have : m ≠ 0 := by omega
    exact_mod_cast this
  induction as generalizing c with
  | nil => simp [realMean_nil]
  | cons a as ih =>
    rw [List.length_cons, List.replicate_succ, realMean_cons]
    simp only [List.zipWith_cons_cons, List.sum_cons, List.map_cons, ← add_assoc]
    simp only [ih]
    have h1 : (∑ k ∈ Finset.range m, value (u k)) = m * drawMean u m := by unfold drawMean; field_simp
    have h2 : (∑ k ∈ Finset.range m, value (u k) ^ 2) = m * (drawVariance u m + drawMean u m ^ 2) := by
      rw [← drawVariance_eq u m hm]; field_simp
    generalize drawMean u m = ρ at *
    generalize drawVariance u m = ν at *
    have : ∀ k ∈ Finset.range m, (c + a * value (u k) + as.sum * ρ) ^ 2 + (as.map (· ^ 2)).sum * ν =
        a ^ 2 * value (u k) ^ 2 + 2 * a * (c + as.sum * ρ) * value (u k) + ((c + as.sum * ρ) ^ 2 + (as.map (· ^ 2)).sum * ν) := by
      intro k _; ring
    rw [Finset.sum_congr rfl this, Finset.sum_add_distrib, Finset.sum_add_distrib, ← Finset.mul_sum, ← Finset.mul_sum, h1, h2, Finset.sum_const,
      Finset.card_range, nsmul_eq_mul]
    field_simp
    ring

theorem uses_mapL {ι : Type} {f : ι → M (List Nat) ℝ} {ns : List Nat} (hp : 0 < ns.prod) {v : ι → List Nat → ℝ} (l : List ι)
    (h : ∀ a ∈ l, Uses (f a) ns (v a)) : ∃ u, Uses (M.mapL f l) (List.replicate l.length ns).flatten u ∧ (∀ t, (u t).length = l.length) ∧
      0 < (List.replicate l.length ns).flatten.prod ∧
      ∀ (φ : ℝ → ℝ) (j : Nat) a, l[j]? = some a →
        realMean (List.replicate l.length ns).flatten (fun t => φ ((u t).getD j 0)) = realMean ns (fun t => φ (v a t)) := by
  induction l with
  | nil => exact ⟨fun _ => [], Uses.pure _, fun _ => rfl, by simp, by simp⟩
  | cons a l ih =>
    obtain ⟨u, hu, hl, hq, hc⟩ := ih fun b hb => h b (by simp [hb])
    have ha := h a (by simp)
    refine ⟨fun t => v a (t.take ns.length) :: u (t.drop ns.length), ?_, ?_, ?_, ?_⟩
    · intro ds rest hd
      rw [List.length_cons, List.replicate_succ, List.flatten_cons] at hd
      obtain ⟨h1, h2⟩ := forall₂_split hd
      refine M.mapL_cons_ok.2 ⟨_, _, ds.drop ns.length ++ rest, ?_, hu _ rest h2, rfl⟩
      have := ha _ (ds.drop ns.length ++ rest) h1
      rwa [← List.append_assoc, List.take_append_drop] at this
    · intro t
      simp [hl]
    · rw [List.length_cons, List.replicate_succ, List.flatten_cons, List.prod_append]
      exact Nat.mul_pos hp hq
    · intro φ j b hj
      rw [List.length_cons, List.replicate_succ, List.flatten_cons]
      obtain _ | j := j
      · simp only [List.getElem?_cons_zero, Option.some.injEq] at hj
        subst hj
        simp only [List.getD_cons_zero]
        exact realMean_take _ _ hq (fun t => φ (v a t))
      · simp only [List.getElem?_cons_succ] at hj
        simp only [List.getD_cons_succ]
        rw [realMean_drop _ _ hp (fun t => φ ((u t).getD j 0))]
        exact hc φ j b hj

theorem uses_draw01 {R : Rng (List Nat)} {g : Fmt} {u : Nat → Fl g} (hR : UnitDraws R g u) (h01 : (Fl.zero : Fl g).le Fl.one = true)
    (h1 : (Fl.one : Fl g).isFinite = true) (h0 : (Fl.zero : Fl g).isFinite = true) (k : Nat) (rest : List Nat) :
    (Velocity.draw01 R g : M (List Nat) ℝ) (k :: rest) = .ok (value (u k), rest) := by
  refine M.bind_eq_ok.2 ⟨u k, rest, ?_, rfl⟩
  unfold Rng.uniformFlIncl
  rw [if_pos (by simp [h01, h1, h0])]
  show Except.ok (R.flIncl _ _ _) = _
  rw [hR]

end Verif.Spec
