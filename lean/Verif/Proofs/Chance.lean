import Verif.Spec.Chance
import Verif.Model.Rng
import Mathlib.Algebra.BigOperators.Group.Finset.Basic
import Mathlib.Algebra.BigOperators.Ring.Finset
import Mathlib.Algebra.BigOperators.Field
import Mathlib.Data.List.Nodup
import Mathlib.Tactic.FieldSimp
import Mathlib.Tactic.Ring
import Mathlib.Tactic.Linarith

/-!
# Counting sequences of draws
-/

namespace Verif.Spec

open Verif

theorem mem_tapes {ns t : List Nat} : t ∈ tapes ns ↔ List.Forall₂ (· < ·) t ns := by
  induction ns generalizing t with
  | nil => simp [tapes]
  | cons n ns ih =>
    simp only [tapes, List.mem_flatMap, List.mem_range, List.mem_map]
    constructor
    · rintro ⟨d, hd, t', ht, rfl⟩; exact .cons hd (ih.1 ht)
    · intro h
      cases h with
      | cons hd ht => exact ⟨_, hd, _, ih.2 ht, rfl⟩

theorem nodup_tapes (ns : List Nat) : (tapes ns).Nodup := by
  induction ns with
  | nil => simp [tapes]
  | cons n ns ih =>
    unfold tapes
    rw [List.nodup_flatMap]
    refine ⟨fun d _ => ih.map (fun a b h => by cases h; rfl), ?_⟩
    refine List.Pairwise.imp ?_ List.nodup_range
    intro a b hab x h1 h2
    simp only [List.mem_map] at h1 h2
    obtain ⟨t1, -, rfl⟩ := h1
    obtain ⟨t2, -, h⟩ := h2
    cases h
    exact hab rfl

open Classical in
/-- The number of sequences of draws that have the property `P` -/
noncomputable def cnt (ns : List Nat) (P : List Nat → Prop) : Nat := (tapes ns).countP (fun t => decide (P t))

theorem cnt_nil (P : List Nat → Prop) [Decidable (P [])] : cnt [] P = if P [] then 1 else 0 := by
  unfold cnt tapes
  by_cases h : P [] <;> simp [h]

theorem cnt_cons (n : Nat) (ns : List Nat) (P : List Nat → Prop) :
    cnt (n :: ns) P = ∑ d ∈ Finset.range n, cnt ns (fun t => P (d :: t)) := by
  unfold cnt
  rw [tapes, List.countP_flatMap]
  show ((List.range n).map _).sum = ((List.range n).map _).sum
  congr 1
  apply List.map_congr_left
  intro d _
  simp only [Function.comp, List.countP_map]
  rfl

theorem length_tapes (ns : List Nat) : (tapes ns).length = ns.prod := by
  induction ns with
  | nil => rfl
  | cons n ns ih => simp [tapes, List.length_flatMap, ih]

theorem chance_eq (ns : List Nat) (P : List Nat → Prop) : chance ns P = (cnt ns P : ℚ) / (ns.prod : Nat) := by
  unfold chance cnt
  rw [length_tapes]

theorem cnt_congr {ns : List Nat} {P Q : List Nat → Prop} (h : ∀ t, List.Forall₂ (· < ·) t ns → (P t ↔ Q t)) :
    cnt ns P = cnt ns Q := by
  unfold cnt
  apply List.countP_congr
  intro t ht
  simp [h t (mem_tapes.1 ht)]

theorem cnt_false (ns : List Nat) : cnt ns (fun _ => False) = 0 := by
  unfold cnt; simp

theorem cnt_true (ns : List Nat) : cnt ns (fun _ => True) = ns.prod := by
  unfold cnt; simp [length_tapes]

theorem cnt_and_const (ns : List Nat) (c : Prop) [Decidable c] (P : List Nat → Prop) :
    cnt ns (fun t => c ∧ P t) = if c then cnt ns P else 0 := by
  by_cases h : c
  · simp [h]
  · simp [h, cnt_false]

theorem cnt_append (ns ms : List Nat) (P Q : List Nat → Prop) :
    cnt (ns ++ ms) (fun t => P (t.take ns.length) ∧ Q (t.drop ns.length)) = cnt ns P * cnt ms Q := by
  induction ns generalizing P with
  | nil =>
    classical
    simp only [List.nil_append, List.length_nil, List.take_zero, List.drop_zero, cnt_and_const, cnt_nil]
    split <;> simp
  | cons n ns ih =>
    rw [List.cons_append, cnt_cons, cnt_cons, Finset.sum_mul]
    refine Finset.sum_congr rfl fun d _ => ?_
    simp only [List.length_cons, List.take_succ_cons, List.drop_succ_cons]
    exact ih (fun t => P (d :: t))

theorem chance_congr {ns : List Nat} {P Q : List Nat → Prop} (h : ∀ t, List.Forall₂ (· < ·) t ns → (P t ↔ Q t)) :
    chance ns P = chance ns Q := by rw [chance_eq, chance_eq, cnt_congr h]

theorem chance_append (ns ms : List Nat) (P Q : List Nat → Prop) :
    chance (ns ++ ms) (fun t => P (t.take ns.length) ∧ Q (t.drop ns.length)) = chance ns P * chance ms Q := by
  rw [chance_eq, chance_eq, chance_eq, cnt_append, List.prod_append]
  push_cast
  rw [mul_div_mul_comm]

theorem chance_cons (n : Nat) (ns : List Nat) (P : List Nat → Prop) :
    chance (n :: ns) P = (∑ d ∈ Finset.range n, chance ns (fun t => P (d :: t))) / n := by
  rw [chance_eq, cnt_cons, List.prod_cons]
  simp only [chance_eq]
  push_cast
  rw [← Finset.sum_div, div_div, mul_comm]

/-- The computation takes exactly the draws `ns`, and its result `v` depends on nothing else. -/
def Uses {α : Type} (m : M (List Nat) α) (ns : List Nat) (v : List Nat → α) : Prop :=
  ∀ ds rest, List.Forall₂ (· < ·) ds ns → m (ds ++ rest) = .ok (v ds, rest)

theorem Uses.whole {α : Type} {m : M (List Nat) α} {ns : List Nat} {v : List Nat → α} (h : Uses m ns v)
    {ds : List Nat} (hd : List.Forall₂ (· < ·) ds ns) (a : α) : m ds = .ok (a, []) ↔ v ds = a := by
  have := h ds [] hd
  rw [List.append_nil] at this
  rw [this]
  simp

theorem Uses.chance {α : Type} {m : M (List Nat) α} {ns : List Nat} {v : List Nat → α} (h : Uses m ns v) (a : α) :
    chance ns (fun t => m t = .ok (a, [])) = chance ns (fun t => v t = a) :=
  chance_congr fun _ ht => h.whole ht a

theorem forall₂_split {t ns ms : List Nat} (h : List.Forall₂ (· < ·) t (ns ++ ms)) :
    List.Forall₂ (· < ·) (t.take ns.length) ns ∧ List.Forall₂ (· < ·) (t.drop ns.length) ms := by
  constructor
  · have := List.forall₂_take ns.length h
    simpa using this
  · have := List.forall₂_drop ns.length h
    simpa using this

theorem Uses.bind {α β : Type} {m : M (List Nat) α} {ns ms : List Nat} {v : List Nat → α} (h : Uses m ns v)
    {k : α → M (List Nat) β} {u : α → List Nat → β} (hk : ∀ ds, List.Forall₂ (· < ·) ds ns → Uses (k (v ds)) ms (u (v ds))) :
    Uses (m >>= k) (ns ++ ms) (fun t => u (v (t.take ns.length)) (t.drop ns.length)) := by
  intro ds rest hd
  obtain ⟨h1, h2⟩ := forall₂_split hd
  refine M.bind_eq_ok.2 ⟨_, _, ?_, hk _ h1 _ rest h2⟩
  have := h _ (ds.drop ns.length ++ rest) h1
  rwa [← List.append_assoc, List.take_append_drop] at this

theorem Uses.pure {α : Type} (a : α) : Uses (pure a) [] (fun _ => a) := by
  intro ds rest hd
  cases hd
  rfl

/-- Independent repetitions: the chances are multiplied. -/
theorem Uses.replicate {α : Type} {m : M (List Nat) α} {ns : List Nat} {v : List Nat → α} (h : Uses m ns v) (k : Nat) :
    ∃ u, Uses (M.replicate k m) (List.replicate k ns).flatten u ∧
      ∀ as : List α, as.length = k → Spec.chance (List.replicate k ns).flatten (fun t => M.replicate k m t = .ok (as, [])) =
        (as.map (fun a => Spec.chance ns (fun t => m t = .ok (a, [])))).prod := by
  induction k with
  | zero =>
    refine ⟨fun _ => [], Uses.pure _, ?_⟩
    intro as ha
    obtain rfl := List.length_eq_zero_iff.1 ha
    classical
    rw [List.replicate_zero, List.flatten_nil, chance_eq, cnt_nil, if_pos (show M.replicate 0 m [] = .ok ([], []) from rfl)]
    simp
  | succ k ih =>
    obtain ⟨u, hu, hc⟩ := ih
    have hb := h.bind (k := fun a => (do let as ← M.replicate k m; Pure.pure (a :: as)))
      (u := fun a t => a :: u t) (ms := (List.replicate k ns).flatten) (by
        intro ds _ es rest he
        exact M.bind_eq_ok.2 ⟨_, _, hu _ _ he, rfl⟩)
    refine ⟨_, by simpa [List.replicate_succ, List.flatten_cons, M.replicate] using hb, ?_⟩
    intro as ha
    obtain _ | ⟨a, as⟩ := as
    · simp at ha
    rw [List.replicate_succ, List.flatten_cons, List.map_cons, List.prod_cons, ← hc as (by simpa using ha), ← chance_append]
    refine chance_congr fun t ht => ?_
    obtain ⟨h1, h2⟩ := forall₂_split ht
    have e := h _ (t.drop ns.length) h1
    rw [List.take_append_drop] at e
    rw [h.whole h1, M.replicate_succ_ok]
    constructor
    · rintro ⟨a', as', s1, g1, g2, g3⟩
      rw [e] at g1
      cases g1
      cases g3
      exact ⟨rfl, g2⟩
    · rintro ⟨rfl, g2⟩
      exact ⟨_, as, _, e, g2, rfl⟩

/-- One draw from the tape -/
theorem uses_uniformNat {lo hi : Nat} (h : lo < hi) : Uses (Rng.script.uniformNat lo hi) [hi - lo] (fun t => lo + t.headD 0) := by
  intro ds rest hd
  cases hd with
  | cons hd ht =>
    cases ht
    unfold Rng.uniformNat
    rw [if_pos h]
    rw [M.ofState_eq_ok]
    simp only [Rng.script, List.cons_append, List.headD_cons, List.tail_cons, List.nil_append, Nat.mod_eq_of_lt hd]

end Verif.Spec
