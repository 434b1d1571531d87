import Verif.Spec.Initial
import Verif.Proofs.Finds
import Verif.Props.ChanceFloat

/-!
# The chance that one of the initial points lies in a region
-/

namespace Verif.Finds

open Verif Spec Creation Props

variable {τ : Type} {f : Fmt} {m : Nat}

open Classical in
theorem mean_initial (dr : Draws) (hf : Fmt.Embeds f Fmt.f64) (hm : 0 < m) (v : ℚ) : ∀ (ivs : List (Fl f × Fl f)), FiniteIncreasing ivs →
    ∀ (A : List (Fl f) → Prop) (u : τ), Mean m user (fun ys _ => ys.length = ivs.length) (fun ys _ => if A ys then 1 else v) ivs.length
      (initialShare dr m ivs A + (1 - initialShare dr m ivs A) * v) (fun t => M.mapL (drawGene (dr.beside τ)) ivs (user u t)) := by
  have hmq : (m : ℚ) ≠ 0 := by exact_mod_cast hm.ne'
  intro ivs
  induction ivs with
  | nil =>
    intro _ A u
    refine .done [] u (fun _ => rfl) rfl ?_
    unfold initialShare
    rw [List.length_nil, List.replicate_zero, chance_eq, cnt_nil]
    have : initialPoint dr ([] : List (Fl f × Fl f)) [] = [] := rfl
    rw [this]
    by_cases h : A [] <;> simp [h]
  | cons iv ivs ih =>
    intro h A u
    have e : initialShare dr m (iv :: ivs) A =
        (∑ k ∈ Finset.range m, initialShare dr m ivs (fun ys => A (geneOf dr iv k :: ys))) / m := by
      unfold initialShare
      rw [List.length_cons, List.replicate_succ, chance_cons]
      rfl
    refine .draw (fun k => initialShare dr m ivs (fun ys => A (geneOf dr iv k :: ys)) +
      (1 - initialShare dr m ivs (fun ys => A (geneOf dr iv k :: ys))) * v) (fun k hk => ?_) ?_
    · have h1 : ∀ t, drawGene (dr.beside τ) iv (user u (k :: t)) = .ok (geneOf dr iv k, user u t) := by
        intro t
        obtain ⟨g1, g2, g3⟩ := h iv (by simp)
        unfold drawGene
        rw [M.bind_run]
        have : (dr.beside τ).uniformFlIncl (iv.1.cast : F64) (iv.2.cast : F64) (user u (k :: t)) =
            .ok (dr.closedVal (iv.1.cast : F64) (iv.2.cast : F64) k, user u t) := by
          unfold Rng.uniformFlIncl
          rw [if_pos, M.ofState_eq_ok]
          · rfl
          · rw [Fl.cast_le hf g1 g2 (Fl.le_of_lt g3), (Fl.cast_exact hf g1).1, (Fl.cast_exact hf g2).1]
            rfl
        rw [this]
        rfl
      have h2 := Mean.bindM (f := fun ys => (Pure.pure (geneOf dr iv k :: ys) : M (List Nat × τ) _))
        (J := fun ys _ => ys.length = (iv :: ivs).length) (ψ := fun ys _ => if A ys then 1 else v) (K' := 0)
        (ih (fun iv h' => h iv (by simp [h'])) (fun ys => A (geneOf dr iv k :: ys)) u)
        (fun ys u' hys => Mean.pure (by simp [hys]) le_rfl)
      rw [Nat.add_zero] at h2
      have e : (fun t => M.mapL (drawGene (dr.beside τ)) (iv :: ivs) (user u (k :: t))) =
          (fun t => (M.mapL (drawGene (dr.beside τ)) ivs >>= fun ys =>
            (Pure.pure (geneOf dr iv k :: ys) : M (List Nat × τ) _)) (user u t)) := by
        funext t
        show (drawGene (dr.beside τ) iv >>= fun b => _) (user u (k :: t)) = _
        rw [M.bind_run, h1]
      rw [e]
      exact h2
    · rw [e, Finset.sum_add_distrib, ← Finset.sum_mul, Finset.sum_sub_distrib, Finset.sum_const, Finset.card_range, nsmul_eq_mul]
      refine le_of_eq ?_
      field_simp

open Classical in
/-- Several points, drawn one after the other -/
theorem mean_replicate {a : M (List Nat × τ) (List (Fl f))} {d : Nat} {A : List (Fl f) → Prop} {c : ℚ} (hm : 0 < m) (hc : 0 ≤ c ∧ c ≤ 1)
    (ha : ∀ (v : ℚ) (u : τ), Mean m user (fun _ _ => True) (fun ys _ => if A ys then 1 else v) d (c + (1 - c) * v) (fun t => a (user u t))) :
    ∀ (n : Nat) (u : τ), Mean m user (fun _ _ => True) (fun xs _ => if ∃ x ∈ xs, A x then (1 : ℚ) else 0) (n * d) (1 - (1 - c) ^ n)
      (fun t => M.replicate n a (user u t)) := by
  intro n
  induction n with
  | zero =>
    intro u
    exact .done [] u (fun _ => rfl) trivial (by simp)
  | succ n ih =>
    intro u
    have hp : (0 : ℚ) ≤ (1 - c) ^ n := pow_nonneg (by linarith [hc.2]) n
    have := Mean.bindM (K' := n * d) (J := fun _ _ => True) (ψ := fun xs _ => if ∃ x ∈ xs, A x then (1 : ℚ) else 0)
      (f := fun x => (M.replicate n a >>= fun xs => (Pure.pure (x :: xs) : M (List Nat × τ) _))) (ha (1 - (1 - c) ^ n) u)
      (fun x u' _ => by
        by_cases hx : A x
        · have h1 := (ih u').const hm (J := fun _ _ => True) (ψ := fun _ _ => (1 : ℚ)) (v := 1) (fun _ _ _ => ⟨trivial, le_rfl⟩)
          have h2 := Mean.bindM (K' := 0) (J := fun _ _ => True) (ψ := fun xs _ => if ∃ x ∈ xs, A x then (1 : ℚ) else 0)
            (f := fun xs => (Pure.pure (x :: xs) : M (List Nat × τ) _)) h1
            (fun xs u2 _ => Mean.pure trivial (by rw [if_pos ⟨x, by simp, hx⟩]))
          rw [Nat.add_zero] at h2
          simpa only [hx, if_true] using h2
        · have h2 := Mean.bindM (K' := 0) (J := fun _ _ => True) (ψ := fun xs _ => if ∃ x ∈ xs, A x then (1 : ℚ) else 0)
            (f := fun xs => (Pure.pure (x :: xs) : M (List Nat × τ) _)) (ih u')
            (fun xs u2 _ => Mean.pure trivial (by simp [hx]))
          rw [Nat.add_zero] at h2
          simpa only [hx, if_false] using h2)
    rw [show (n + 1) * d = d + n * d by ring]
    refine Mean.mono this le_rfl (le_of_eq ?_)
    ring

theorem initialShare_range (dr : Draws) (m : Nat) (ivs : List (Fl f × Fl f)) (A : List (Fl f) → Prop) :
    0 ≤ initialShare dr m ivs A ∧ initialShare dr m ivs A ≤ 1 := chance_range _ _

/-- A creator or initializer that draws `n` points returns a point of the region with a chance of at least `1 - (1 - c) ^ n`. -/
theorem chance_initial {a : M (List Nat × τ) (List (Fl f))} {d : Nat} {A : List (Fl f) → Prop} {c : ℚ} (hm : 0 < m) (hc : 0 ≤ c ∧ c ≤ 1)
    (ha : open Classical in ∀ (v : ℚ) (u : τ), Mean m user (fun _ _ => True) (fun ys _ => if A ys then 1 else v) d (c + (1 - c) * v) (fun t => a (user u t)))
    (n : Nat) (u : τ) (L : Nat) (hL : n * d ≤ L) :
    1 - (1 - c) ^ n ≤ chance (List.replicate L m) (fun t => ∃ xs rest, M.replicate n a (t, u) = .ok (xs, rest) ∧ ∃ x ∈ xs, A x) := by
  classical
  refine ((mean_replicate hm hc ha n u).chance hm (P := fun xs _ => ∃ x ∈ xs, A x) (fun xs _ _ => ⟨by split <;> norm_num, fun h => by simp [h]⟩) L hL).trans
    (chance_mono fun t ht => ?_)
  obtain ⟨xs, u', rest, h, -, hx⟩ := ht
  exact ⟨xs, _, h, hx⟩

theorem chance_randomInit (dr : Draws) (hf : Fmt.Embeds f Fmt.f64) (hm : 0 < m) {ivs : List (Fl f × Fl f)} (hiv : FiniteIncreasing ivs)
    (A : List (Fl f) → Prop) (n : Nat) (u : τ) (L : Nat) (hL : n * ivs.length ≤ L) :
    1 - (1 - initialShare dr m ivs A) ^ n ≤
      chance (List.replicate L m) (fun t => ∃ xs rest, randomInit (dr.beside τ) ivs n (t, u) = .ok (xs, rest) ∧ ∃ x ∈ xs, A x) := by
  classical
  refine chance_initial hm (initialShare_range dr m ivs A) (fun v u => ?_) n u L hL
  have h := (mean_initial dr hf hm v ivs hiv A u).imp (J := fun _ _ => True) (ψ := fun ys _ => if A ys then 1 else v) (fun _ _ _ => trivial)
    (fun _ _ _ => le_rfl)
  have e : (fun t => createVec (dr.beside τ) ivs (user u t)) = (fun t => M.mapL (drawGene (dr.beside τ)) ivs (user u t)) := by
    funext t
    unfold createVec
    have ha : M.assert (ivs.all (fun iv => iv.1.lt iv.2)) (user u t) = .ok ((), user u t) :=
      M.assert_eq_ok.2 ⟨List.all_eq_true.2 fun iv h => (hiv iv h).2.2, rfl⟩
    rw [M.bind_run, ha]
  rw [e]
  exact h

theorem chance_randomCreator (dr : Draws) (hf : Fmt.Embeds f Fmt.f64) (hm : 0 < m) {ivs : List (Fl f × Fl f)} (hiv : FiniteIncreasing ivs)
    (A : List (Fl f) → Prop) (n : Nat) (u : τ) (L : Nat) (hL : n * ivs.length ≤ L) :
    1 - (1 - initialShare dr m ivs A) ^ n ≤
      chance (List.replicate L m) (fun t => ∃ xs rest, RandomCreator.create (dr.beside τ) ⟨n, ivs⟩ (t, u) = .ok (xs, rest) ∧ ∃ x ∈ xs, A x) := by
  classical
  refine chance_initial hm (initialShare_range dr m ivs A) (fun v u => ?_) n u L hL
  exact (mean_initial dr hf hm v ivs hiv A u).imp (J := fun _ _ => True) (ψ := fun ys _ => if A ys then 1 else v) (fun _ _ _ => trivial)
    (fun _ _ _ => le_rfl)

end Verif.Finds
