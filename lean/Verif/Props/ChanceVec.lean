import Verif.Proofs.Chance
import Verif.Props.Mutation
import Mathlib.Data.Rat.Floor
import Mathlib.Order.Interval.Finset.Nat

/-!
# C93: the mutation probability of a vector is the share of mutated genes
-/

namespace Verif.Props

open Verif Spec Mutation

section

variable (val : {g : Fmt} → Fl g → Fl g → Nat → Fl g)
  (h : ∀ {g : Fmt} (lo hi : Fl g) k, lo.lt hi = true → lo.isFinite = true → hi.isFinite = true →
      lo.le (val lo hi k) = true ∧ (val lo hi k).lt hi = true)

/-- The share of the draws between 0 and 100 that are less than the probability -/
noncomputable def below (m : Nat) (prob : F64) : ℚ := chance [m] (fun t => (val (Fl.zero : F64) (Fl.ofNat 100) (t.headD 0)).lt prob = true)

theorem hundred_eq : (Fl.ofNat 100 : F64) = hundred := rfl

theorem vec_cons_run {G : Type} (prob : F64) (g : G → G) (x : G) (xs ys : List G) (d : Nat) (t : List Nat) :
    vec (valued val h) prob (fun x => pure (g x)) (x :: xs) (d :: t) = .ok (ys, []) ↔
      ∃ zs, vec (valued val h) prob (fun x => pure (g x)) xs t = .ok (zs, []) ∧
        ys = (if (val (Fl.zero : F64) hundred d).lt prob then g x else x) :: zs := by
  have hf := hundred_facts
  have hdraw : (valued val h).uniformFl (Fl.zero : F64) hundred (d :: t) = .ok (val (Fl.zero : F64) hundred d, t) := by
    unfold Rng.uniformFl
    rw [if_pos (by simp [hf])]
    rfl
  have hone : ∀ y s', (do
      let z ← (valued val h).uniformFl (Fl.zero : F64) hundred
      if z.lt prob then pure (g x) else pure x : M (List Nat) G) (d :: t) = .ok (y, s') ↔
      y = (if (val (Fl.zero : F64) hundred d).lt prob then g x else x) ∧ s' = t := by
    intro y s'
    rw [M.bind_eq_ok]
    constructor
    · rintro ⟨z, s1, h1, h2⟩
      rw [hdraw] at h1
      cases h1
      split at h2
      · next hz => obtain ⟨rfl, rfl⟩ := M.pure_eq_ok.1 h2; rw [if_pos hz]; exact ⟨rfl, rfl⟩
      · next hz => obtain ⟨rfl, rfl⟩ := M.pure_eq_ok.1 h2; rw [if_neg hz]; exact ⟨rfl, rfl⟩
    · rintro ⟨rfl, rfl⟩
      refine ⟨_, _, hdraw, ?_⟩
      split <;> rfl
  unfold vec
  rw [M.mapL_cons_ok]
  constructor
  · rintro ⟨b, bs, s1, h1, h2, rfl⟩
    obtain ⟨rfl, rfl⟩ := (hone _ _).1 h1
    exact ⟨bs, h2, rfl⟩
  · rintro ⟨zs, h1, rfl⟩
    exact ⟨_, zs, t, (hone _ _).2 ⟨rfl, rfl⟩, h1, rfl⟩

/-- C93: the genes are mutated independently of each other, each with the share of the draws that are less than the probability. -/
theorem C93_independent {G : Type} (m : Nat) (hm : 0 < m) (prob : F64) (g : G → G) (xs : List G) (hg : ∀ x ∈ xs, g x ≠ x)
    (mask : List Bool) (hl : mask.length = xs.length) :
    chance (List.replicate xs.length m)
      (fun draws => vec (valued val h) prob (fun x => pure (g x)) xs draws = .ok (mutant g xs mask, [])) =
    (mask.map (fun b => if b then below val m prob else 1 - below val m prob)).prod := by
  induction xs generalizing mask with
  | nil =>
    obtain rfl := List.length_eq_zero_iff.1 hl
    classical
    show chance [] _ = _
    rw [chance_eq, cnt_nil, if_pos]
    · simp
    · rfl
  | cons x xs ih =>
    obtain _ | ⟨b, mask⟩ := mask
    · simp at hl
    have ih := ih (fun y hy => hg y (by simp [hy])) mask (by simpa using hl)
    have hx := hg x (by simp)
    rw [List.map_cons, List.prod_cons, ← ih]
    have hs : (if b = true then below val m prob else 1 - below val m prob) =
        chance [m] (fun t => (val (Fl.zero : F64) hundred (t.headD 0)).lt prob = b) := by
      cases b with
      | true => rfl
      | false =>
        rw [if_neg (by simp)]
        unfold below; rw [hundred_eq]
        have hsum : ∀ P : List Nat → Bool, cnt [m] (fun t => P t = true) + cnt [m] (fun t => P t = false) = m := by
          intro P
          rw [cnt_cons, cnt_cons, ← Finset.sum_add_distrib]
          simp only [cnt_nil]
          rw [Finset.sum_congr rfl (g := fun _ => 1)]
          · simp
          · intro d _
            cases P [d] <;> simp
        have := congrArg (Nat.cast : ℕ → ℚ) (hsum (fun t => (val (Fl.zero : F64) hundred (t.headD 0)).lt prob))
        have hm0 : (m : ℚ) ≠ 0 := by
          have : m ≠ 0 := by omega
          exact_mod_cast this
        rw [chance_eq, chance_eq, List.prod_singleton]
        push_cast at this
        rw [sub_eq_iff_eq_add, ← add_div, eq_comm, div_eq_one_iff_eq hm0]
        linarith
    rw [hs, List.length_cons, List.replicate_succ, show m :: List.replicate xs.length m = [m] ++ List.replicate xs.length m from rfl,
      ← chance_append]
    refine chance_congr fun t ht => ?_
    cases ht with
    | @cons d _ t _ hd ht =>
      rw [vec_cons_run]
      simp only [List.length_cons, List.length_nil, List.take_succ_cons, List.take_zero, List.drop_succ_cons, List.drop_zero,
        List.headD_cons, mutant]
      constructor
      · rintro ⟨zs, h1, h2⟩
        simp only [List.cons.injEq] at h2
        obtain ⟨h2, rfl⟩ := h2
        refine ⟨?_, h1⟩
        generalize (val (Fl.zero : F64) hundred d).lt prob = c at h2
        cases b <;> cases c <;> simp at h2 ⊢
        · exact hx h2.symm
        · exact hx h2
      · rintro ⟨h1, h2⟩
        exact ⟨_, h2, by rw [h1]⟩

include h in
/-- C93: if the draws are evenly spread between 0 and 100, up to `100 δ`, then this share is the probability in percent, up to
`δ` and one draw. -/
theorem C93_percent (m : Nat) (hm : 0 < m) (δ : ℚ)
    (he : ∀ k, k < m → |ratValue (val (Fl.zero : F64) (Fl.ofNat 100) k) - 100 * k / m| ≤ 100 * δ)
    (prob : F64) (h0 : 0 ≤ ratValue prob) (h1 : ratValue prob ≤ 100) (hp : prob.isNan = false) :
    ratValue prob / 100 - δ ≤ below val m prob ∧ below val m prob ≤ ratValue prob / 100 + δ + 1 / m := by
  rw [hundred_eq] at he
  have hmq : (0 : ℚ) < m := by exact_mod_cast hm
  have hδ : 0 ≤ δ := by
    have := (abs_nonneg _).trans (he 0 hm)
    linarith
  have hD : (0 : ℚ) < Fmt.f64.D := by exact_mod_cast Fmt.f64.D_pos
  have hlt : ∀ k, (val (Fl.zero : F64) hundred k).lt prob = true ↔ ratValue (val (Fl.zero : F64) hundred k) < ratValue prob := by
    intro k
    have hf := hundred_facts
    have hn := (Fl.le_iff.1 (h (Fl.zero : F64) hundred k hf.1 hf.2.1 hf.2.2).1).2.1
    rw [Fl.lt_iff]
    unfold ratValue
    rw [div_lt_div_iff_of_pos_right hD]
    constructor
    · rintro ⟨-, -, h⟩; exact_mod_cast h
    · intro h; exact ⟨hn, hp, by exact_mod_cast h⟩
  have hb : below val m prob = (((Finset.range m).filter (fun k => ratValue (val (Fl.zero : F64) hundred k) < ratValue prob)).card : ℚ) / m := by
    unfold below; rw [hundred_eq]
    rw [chance_eq, cnt_cons, List.prod_singleton]
    have : (∑ d ∈ Finset.range m, cnt [] (fun t => (val (Fl.zero : F64) hundred ((d :: t).headD 0)).lt prob = true)) =
        ((Finset.range m).filter (fun k => ratValue (val (Fl.zero : F64) hundred k) < ratValue prob)).card := by
      rw [Finset.card_filter]
      refine Finset.sum_congr rfl fun k _ => ?_
      rw [cnt_nil]
      simp only [List.headD_cons, hlt]
    rw [this]
  have hfl : ∀ k, k < m → 100 * (k : ℚ) / m - 100 * δ ≤ ratValue (val (Fl.zero : F64) hundred k) ∧
      ratValue (val (Fl.zero : F64) hundred k) ≤ 100 * (k : ℚ) / m + 100 * δ := by
    intro k hk
    have := abs_le.1 (he k hk)
    constructor <;> linarith [this.1, this.2]
  constructor
  · rw [hb, le_div_iff₀ hmq]
    have hsub : Finset.range ⌈(ratValue prob / 100 - δ) * m⌉₊ ⊆
        (Finset.range m).filter (fun k => ratValue (val (Fl.zero : F64) hundred k) < ratValue prob) := by
      intro k hk
      rw [Finset.mem_range, Nat.lt_ceil] at hk
      have hkm : k < m := by
        have : (k : ℚ) < m := by
          refine lt_of_lt_of_le hk ?_
          have : (ratValue prob / 100 - δ) * m ≤ 1 * m := by
            apply mul_le_mul_of_nonneg_right _ hmq.le
            linarith
          linarith
        exact_mod_cast this
      rw [Finset.mem_filter, Finset.mem_range]
      refine ⟨hkm, lt_of_le_of_lt (hfl k hkm).2 ?_⟩
      rw [mul_div_assoc]
      have := (div_lt_iff₀ hmq).2 hk
      linarith
    have := Finset.card_le_card hsub
    rw [Finset.card_range] at this
    exact (Nat.le_ceil _).trans (by exact_mod_cast this)
  · rw [hb, div_le_iff₀ hmq]
    have hsub : (Finset.range m).filter (fun k => ratValue (val (Fl.zero : F64) hundred k) < ratValue prob) ⊆
        Finset.range ⌈(ratValue prob / 100 + δ) * m⌉₊ := by
      intro k hk
      rw [Finset.mem_filter, Finset.mem_range] at hk
      rw [Finset.mem_range, Nat.lt_ceil]
      have := lt_of_le_of_lt (hfl k hk.1).1 hk.2
      rw [← div_lt_iff₀ hmq]
      rw [mul_div_assoc] at this
      linarith
    have := Finset.card_le_card hsub
    rw [Finset.card_range] at this
    have h2 : (⌈(ratValue prob / 100 + δ) * m⌉₊ : ℚ) < (ratValue prob / 100 + δ) * m + 1 := Nat.ceil_lt_add_one (by positivity)
    have h3 : ((((Finset.range m).filter (fun k => ratValue (val (Fl.zero : F64) hundred k) < ratValue prob)).card : Nat) : ℚ) ≤
        (⌈(ratValue prob / 100 + δ) * m⌉₊ : ℚ) := by exact_mod_cast this
    rw [add_mul, one_div, inv_mul_cancel₀ hmq.ne']
    linarith

end

/-- One hundred draws, the integers from 0 to 99, from the interval from 0 to 100; the lower bound from other intervals. -/
def hundredths {g : Fmt} (lo hi : Fl g) (k : Nat) : Fl g :=
  if lo.le (Fl.ofNat (k % 100)) && (Fl.ofNat (k % 100) : Fl g).lt hi then Fl.ofNat (k % 100) else lo

theorem hundredths_range {g : Fmt} (lo hi : Fl g) (k : Nat) (h1 : lo.lt hi = true) (h2 : lo.isFinite = true) (_ : hi.isFinite = true) :
    lo.le (hundredths lo hi k) = true ∧ (hundredths lo hi k).lt hi = true := by
  unfold hundredths
  split
  · next h => simpa using h
  · exact ⟨Fl.le_refl (Fl.isNan_of_isFinite h2), h1⟩

/-- They are spread evenly, without any error. -/
theorem hundredths_even : ∀ k, k < 100 → |ratValue (hundredths (Fl.zero : F64) hundred k) - 100 * k / (100 : Nat)| ≤ 100 * 0 := by
  have h : ∀ k, k < 100 → (hundredths (Fl.zero : F64) hundred k).toInt = k * Fmt.f64.D := by decide +kernel
  intro k hk
  have hD : (Fmt.f64.D : ℚ) ≠ 0 := by
    have := Fmt.f64.D_pos.ne'
    exact_mod_cast this
  unfold ratValue
  rw [h k hk]
  push_cast
  rw [mul_div_assoc, div_self hD]
  simp

/-- 5 percent of the genes, up to one draw -/
example : 5 / 100 - 0 ≤ below hundredths 100 (Fl.ofNat 5) ∧ below hundredths 100 (Fl.ofNat 5) ≤ 5 / 100 + 0 + 1 / (100 : Nat) := by
  have hv : ratValue (Fl.ofNat 5 : F64) = 5 := by
    have h : (Fl.ofNat 5 : F64).toInt = 5 * Fmt.f64.D := by decide +kernel
    have hD : (Fmt.f64.D : ℚ) ≠ 0 := by
      have := Fmt.f64.D_pos.ne'
      exact_mod_cast this
    unfold ratValue
    rw [h]
    push_cast
    rw [mul_div_assoc, div_self hD, mul_one]
  have := C93_percent hundredths hundredths_range 100 (by norm_num) 0 hundredths_even (Fl.ofNat 5) (by rw [hv]; norm_num)
    (by rw [hv]; norm_num) (by decide +kernel)
  rwa [hv] at this

end Verif.Props
