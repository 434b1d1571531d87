import Verif.Spec.ChanceFloat
import Verif.Proofs.Chance
import Verif.Model.Creation
import Verif.Model.Hooks
import Mathlib.Data.Rat.Floor
import Mathlib.Order.Interval.Finset.Nat

/-!
# Counting sequences of draws of floats
-/

namespace Verif.Spec

open Verif

theorem share_eq (m : Nat) (P : Nat → Prop) [DecidablePred P] : share m P = (((Finset.range m).filter P).card : ℚ) / m := by
  unfold share
  rw [chance_eq, cnt_cons, List.prod_singleton]
  congr 2
  rw [Finset.card_filter]
  refine Finset.sum_congr rfl fun k _ => ?_
  rw [cnt_nil]
  by_cases h : P k <;> simp [h]

theorem share_not (m : Nat) (hm : 0 < m) (P : Nat → Prop) : share m (fun k => ¬ P k) = 1 - share m P := by
  classical
  rw [share_eq, share_eq]
  have hm0 : (m : ℚ) ≠ 0 := by exact_mod_cast hm.ne'
  rw [eq_sub_iff_add_eq, ← add_div, div_eq_one_iff_eq hm0]
  have := Finset.card_filter_add_card_filter_not (s := Finset.range m) P
  rw [Finset.card_range] at this
  exact_mod_cast (Nat.add_comm _ _).trans this

/-- Evenly spread numbers: the share of those below `c` is the share of the interval below `c`. -/
theorem Even.share {m : Nat} (hm : 0 < m) {δ lo hi c : ℚ} (hlt : lo < hi) {v : Nat → ℚ} (he : Even m δ lo hi v) (h0 : lo ≤ c) (h1 : c ≤ hi) :
    (c - lo) / (hi - lo) - δ ≤ Spec.share m (fun k => v k < c) ∧
      Spec.share m (fun k => v k < c) ≤ (c - lo) / (hi - lo) + δ + 1 / m := by
  classical
  have hmq : (0 : ℚ) < m := by exact_mod_cast hm
  have hl : 0 < hi - lo := by linarith
  set p := (c - lo) / (hi - lo) with hp
  have hp0 : 0 ≤ p := div_nonneg (by linarith) hl.le
  have hp1 : p ≤ 1 := (div_le_one hl).2 (by linarith)
  have hc : c = lo + (hi - lo) * p := by rw [hp]; field_simp; ring
  have hδ : 0 ≤ δ := by
    have := (abs_nonneg _).trans (he 0 hm)
    by_contra h
    have := mul_neg_of_neg_of_pos (not_le.1 h) hl
    linarith
  rw [share_eq]
  constructor
  · rw [le_div_iff₀ hmq]
    have hsub : Finset.range ⌈(p - δ) * m⌉₊ ⊆ (Finset.range m).filter (fun k => v k < c) := by
      intro k hk
      rw [Finset.mem_range, Nat.lt_ceil] at hk
      have hkm : k < m := by
        have : (k : ℚ) < m := by
          refine lt_of_lt_of_le hk ?_
          have : (p - δ) * m ≤ 1 * m := mul_le_mul_of_nonneg_right (by linarith) hmq.le
          linarith
        exact_mod_cast this
      rw [Finset.mem_filter, Finset.mem_range]
      refine ⟨hkm, ?_⟩
      have h2 := (abs_le.1 (he k hkm)).2
      have h3 : (k : ℚ) / m < p - δ := (div_lt_iff₀ hmq).2 hk
      have h4 : (hi - lo) * (k / m) < (hi - lo) * (p - δ) := mul_lt_mul_of_pos_left h3 hl
      rw [hc]
      linarith
    have := Finset.card_le_card hsub
    rw [Finset.card_range] at this
    exact (Nat.le_ceil _).trans (by exact_mod_cast this)
  · rw [div_le_iff₀ hmq]
    have hsub : (Finset.range m).filter (fun k => v k < c) ⊆ Finset.range ⌈(p + δ) * m⌉₊ := by
      intro k hk
      rw [Finset.mem_filter, Finset.mem_range] at hk
      rw [Finset.mem_range, Nat.lt_ceil, ← div_lt_iff₀ hmq]
      have h2 := (abs_le.1 (he k hk.1)).1
      have h3 := hk.2
      rw [hc] at h3
      by_contra h
      have h4 : (hi - lo) * (p + δ) ≤ (hi - lo) * (k / m) := mul_le_mul_of_nonneg_left (not_lt.1 h) hl.le
      linarith
    have := Finset.card_le_card hsub
    rw [Finset.card_range] at this
    have h2 : (⌈(p + δ) * m⌉₊ : ℚ) < (p + δ) * m + 1 := Nat.ceil_lt_add_one (by positivity)
    have h3 : ((((Finset.range m).filter (fun k => v k < c)).card : Nat) : ℚ) ≤ (⌈(p + δ) * m⌉₊ : ℚ) := by exact_mod_cast this
    rw [add_mul _ (1 / (m : ℚ)), one_div, inv_mul_cancel₀ hmq.ne']
    linarith

/-! ### Computations that take exactly the given draws -/

theorem Uses.gives {α : Type} {m : M (List Nat) α} {ns : List Nat} {v : List Nat → α} (h : Uses m ns v) {P : α → Prop}
    {ds : List Nat} (hd : List.Forall₂ (· < ·) ds ns) : Gives m P ds ↔ P (v ds) := by
  unfold Gives
  constructor
  · rintro ⟨a, h1, h2⟩
    rwa [(h.whole hd a).1 h1]
  · intro hp
    exact ⟨_, (h.whole hd _).2 rfl, hp⟩

theorem uses_closed (d : Draws) {g : Fmt} {lo hi : Fl g} (m : Nat) (h : (lo.le hi && lo.isFinite && hi.isFinite) = true) :
    Uses (d.source.uniformFlIncl lo hi) [m] (fun t => d.closedVal lo hi (t.headD 0)) := by
  intro ds rest hd
  cases hd with
  | cons hd ht =>
    cases ht
    unfold Rng.uniformFlIncl
    rw [if_pos h, M.ofState_eq_ok]
    rfl

theorem uses_open (d : Draws) {g : Fmt} {lo hi : Fl g} (m : Nat) (h : (lo.lt hi && lo.isFinite && hi.isFinite) = true) :
    Uses (d.source.uniformFl lo hi) [m] (fun t => d.openVal lo hi (t.headD 0)) := by
  intro ds rest hd
  cases hd with
  | cons hd ht =>
    cases ht
    unfold Rng.uniformFl
    rw [if_pos h, M.ofState_eq_ok]
    rfl

theorem Uses.map {α β : Type} {m : M (List Nat) α} {ns : List Nat} {v : List Nat → α} (h : Uses m ns v) (f : α → β) :
    Uses (do let a ← m; Pure.pure (f a)) ns (fun t => f (v t)) := by
  intro ds rest hd
  exact M.bind_eq_ok.2 ⟨_, _, h ds rest hd, rfl⟩

/-- One draw for each member of a list: the values, and the chances are multiplied. -/
theorem Uses.mapL {α β : Type} {f : α → M (List Nat) β} {m : Nat} {v : α → Nat → β} (xs : List α)
    (h : ∀ x ∈ xs, Uses (f x) [m] (fun t => v x (t.headD 0))) :
    ∃ u, Uses (M.mapL f xs) (List.replicate xs.length m) u ∧
      ∀ Ps : List (β → Prop), Ps.length = xs.length →
        Spec.chance (List.replicate xs.length m) (fun t => List.Forall₂ (fun P y => P y) Ps (u t)) =
          (List.zipWith (fun P x => Spec.share m (fun k => P (v x k))) Ps xs).prod := by
  induction xs with
  | nil =>
    refine ⟨fun _ => [], Uses.pure _, ?_⟩
    intro Ps hP
    obtain rfl := List.length_eq_zero_iff.1 hP
    classical
    show Spec.chance [] _ = _
    rw [chance_eq, cnt_nil, if_pos .nil]
    simp
  | cons x xs ih =>
    obtain ⟨u, hu, hc⟩ := ih (fun y hy => h y (by simp [hy]))
    have hb := (h x (by simp)).bind (k := fun b => (do let bs ← M.mapL f xs; Pure.pure (b :: bs)))
      (u := fun b t => b :: u t) (ms := List.replicate xs.length m) (by
        intro ds _ es rest he
        exact M.bind_eq_ok.2 ⟨_, _, hu _ _ he, rfl⟩)
    refine ⟨_, hb, ?_⟩
    intro Ps hP
    obtain _ | ⟨P, Ps⟩ := Ps
    · simp at hP
    rw [List.zipWith_cons_cons, List.prod_cons, ← hc Ps (by simpa using hP)]
    unfold Spec.share
    rw [← chance_append]
    refine chance_congr fun t _ => ?_
    simp only [List.forall₂_cons]

/-- Repetitions of something that takes `n` draws -/
theorem Uses.replicate' {β : Type} {a : M (List Nat) β} {ns : List Nat} {u : List Nat → β} (h : Uses a ns u) (k : Nat) :
    ∃ w, Uses (M.replicate k a) (List.replicate k ns).flatten w ∧
      ∀ Ps : List (β → Prop), Ps.length = k →
        Spec.chance (List.replicate k ns).flatten (fun t => List.Forall₂ (fun P y => P y) Ps (w t)) =
          (Ps.map fun P => Spec.chance ns (fun t => P (u t))).prod := by
  induction k with
  | zero =>
    refine ⟨fun _ => [], Uses.pure _, ?_⟩
    intro Ps hP
    obtain rfl := List.length_eq_zero_iff.1 hP
    classical
    show Spec.chance [] _ = _
    rw [chance_eq, cnt_nil, if_pos .nil]
    simp
  | succ k ih =>
    obtain ⟨w, hw, hc⟩ := ih
    have hb := h.bind (k := fun b => (do let bs ← M.replicate k a; Pure.pure (b :: bs)))
      (u := fun b t => b :: w t) (ms := (List.replicate k ns).flatten) (by
        intro ds _ es rest he
        exact M.bind_eq_ok.2 ⟨_, _, hw _ _ he, rfl⟩)
    refine ⟨_, by simpa [List.replicate_succ, List.flatten_cons, M.replicate] using hb, ?_⟩
    intro Ps hP
    obtain _ | ⟨P, Ps⟩ := Ps
    · simp at hP
    rw [List.replicate_succ, List.flatten_cons, List.map_cons, List.prod_cons, ← hc Ps (by simpa using hP), ← chance_append]
    refine chance_congr fun t _ => ?_
    simp only [List.forall₂_cons]

end Verif.Spec
