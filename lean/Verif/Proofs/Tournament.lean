import Verif.Proofs.Chance
import Verif.Model.Pairing
import Mathlib.Algebra.Order.BigOperators.Group.Finset
import Mathlib.Data.Finset.Card

/-!
# Counting the draws that make an individual win a tournament
-/

namespace Verif.Pairing

open Verif Spec

/-- One round, as a function -/
def step (fit : Nat → F64) (b c : Nat) : Nat := if (fit c).lt (fit b) then c else b

/-- The rounds -/
def winner (fit : Nat → F64) (b : Nat) (ds : List Nat) : Nat := ds.foldl (step fit) b

section count

variable (fit : Nat → F64) (n i : Nat)

/-- The number of sequences of `k` challengers after which `i` has won, if `b` has been the first. -/
noncomputable def wins (k b : Nat) : Nat := cnt (List.replicate k n) (fun t => winner fit b t = i)

theorem wins_zero (b : Nat) : wins fit n i 0 b = if b = i then 1 else 0 := by
  unfold wins
  rw [List.replicate_zero, cnt_nil]
  rfl

theorem wins_succ (k b : Nat) : wins fit n i (k + 1) b = ∑ c ∈ Finset.range n, wins fit n i k (step fit b c) := by
  unfold wins
  rw [List.replicate_succ, cnt_cons]
  rfl

/-- Who is not to be beaten by `i`, and is not `i`, keeps `i` out. -/
def Blocks (b : Nat) : Prop := b ≠ i ∧ (fit i).lt (fit b) = false

theorem lt_false_of_lt_of_lt_false {x y z : F64} (h1 : x.lt y = false) (h2 : z.lt y = true) : x.lt z = false := by
  rw [← Bool.not_eq_true, Fl.lt_iff] at h1 ⊢
  rw [Fl.lt_iff] at h2
  rintro ⟨a, b, c⟩
  exact h1 ⟨a, h2.2.1, by omega⟩

theorem blocks_step {b : Nat} (h : Blocks fit i b) (c : Nat) : Blocks fit i (step fit b c) := by
  unfold step
  split
  · next hc =>
    refine ⟨?_, lt_false_of_lt_of_lt_false h.2 hc⟩
    rintro rfl
    rw [h.2] at hc
    cases hc
  · exact h

theorem wins_blocked (k b : Nat) (h : Blocks fit i b) : wins fit n i k b = 0 := by
  induction k generalizing b with
  | zero => rw [wins_zero, if_neg h.1]
  | succ k ih =>
    rw [wins_succ]
    exact Finset.sum_eq_zero fun c _ => ih _ (blocks_step fit i h c)

/-- The number of challengers that do not beat `i` -/
def keep : Nat := ((Finset.range n).filter (fun c => (fit c).lt (fit i) = false)).card

theorem wins_self (k : Nat) : wins fit n i k i = keep fit n i ^ k := by
  induction k with
  | zero => rw [wins_zero, if_pos rfl, pow_zero]
  | succ k ih =>
    rw [wins_succ]
    have : ∀ c ∈ Finset.range n, wins fit n i k (step fit i c) = if (fit c).lt (fit i) = false then keep fit n i ^ k else 0 := by
      intro c _
      unfold step
      by_cases hc : (fit c).lt (fit i) = true
      · rw [if_pos hc, if_neg (by simp [hc])]
        refine wins_blocked _ _ _ _ _ ⟨?_, ?_⟩
        · rintro rfl
          rw [Fl.lt_iff] at hc
          omega
        · rw [← Bool.not_eq_true, Fl.lt_iff]
          rw [Fl.lt_iff] at hc
          omega
      · rw [if_neg hc, if_pos (by simpa using hc), ih]
    rw [Finset.sum_congr rfl this, ← Finset.sum_filter, Finset.sum_const, smul_eq_mul]
    show keep fit n i * keep fit n i ^ k = _
    rw [pow_succ, mul_comm]

/-- The number of individuals as good as `i` -/
def equals : Nat := ((Finset.range n).filter (fun c => (fit c).feq (fit i) = true)).card

/-- What remains if somebody worse has been first. -/
def late : Nat → Nat
  | 0 => 0
  | k + 1 => keep fit n i ^ k + (keep fit n i - equals fit n i) * late k

theorem equals_le : equals fit n i ≤ keep fit n i := by
  refine Finset.card_le_card fun c hc => ?_
  simp only [Finset.mem_filter] at hc ⊢
  refine ⟨hc.1, ?_⟩
  have := Fl.feq_iff.1 hc.2
  rw [← Bool.not_eq_true, Fl.lt_iff]
  omega

theorem wins_late (hi : i < n) (k b : Nat) (h : (fit i).lt (fit b) = true) : wins fit n i k b = late fit n i k := by
  induction k generalizing b with
  | zero =>
    rw [wins_zero, if_neg]
    · rfl
    · rintro rfl
      rw [Fl.lt_iff] at h
      omega
  | succ k ih =>
    rw [wins_succ]
    have hb := Fl.lt_iff.1 h
    have : ∀ c ∈ Finset.range n, wins fit n i k (step fit b c) =
        (if c = i then keep fit n i ^ k else 0) +
          if (fit c).lt (fit i) = false ∧ ¬ (fit c).feq (fit i) = true then late fit n i k else 0 := by
      intro c _
      by_cases hc : c = i
      · subst hc
        have : step fit b c = c := by unfold step; rw [if_pos h]
        rw [this, wins_self, if_pos rfl, if_neg, Nat.add_zero]
        rintro ⟨-, h2⟩
        exact h2 (Fl.feq_iff.2 ⟨hb.1, hb.1, rfl⟩)
      · rw [if_neg hc, Nat.zero_add]
        split
        · next hw =>
          refine ih _ ?_
          unfold step
          split
          · next hcb =>
            have h1 := Fl.lt_iff.1 hcb
            rw [Fl.lt_iff]
            refine ⟨hb.1, h1.1, ?_⟩
            obtain ⟨h2, h3⟩ := hw
            rw [← Bool.not_eq_true, Fl.lt_iff] at h2
            rw [Fl.feq_iff] at h3
            by_contra h4
            rcases Nat.lt_or_ge 0 1 with _ | _
            · by_cases h5 : (fit c).toInt = (fit i).toInt
              · exact h3 ⟨h1.1, hb.1, h5⟩
              · exact h2 ⟨h1.1, hb.1, by omega⟩
            · omega
          · exact h
        · next hw =>
          have hle : (fit c).isNan = false ∧ (fit c).toInt ≤ (fit i).toInt := by
            by_contra hn
            apply hw
            constructor
            · rw [← Bool.not_eq_true, Fl.lt_iff]
              rintro ⟨a1, -, a3⟩
              exact hn ⟨a1, by omega⟩
            · rw [Fl.feq_iff]
              rintro ⟨a1, -, a3⟩
              exact hn ⟨a1, by omega⟩
          have hcb : (fit c).lt (fit b) = true := Fl.lt_iff.2 ⟨hle.1, hb.2.1, by omega⟩
          have : step fit b c = c := by unfold step; rw [if_pos hcb]
          rw [this]
          refine wins_blocked _ _ _ _ _ ⟨hc, ?_⟩
          rw [← Bool.not_eq_true, Fl.lt_iff]
          omega
    rw [Finset.sum_congr rfl this, Finset.sum_add_distrib, Finset.sum_ite_eq' _ i, if_pos (Finset.mem_range.2 hi), ← Finset.sum_filter,
      Finset.sum_const, smul_eq_mul, late]
    congr 2
    have hs : ((Finset.range n).filter fun c => (fit c).lt (fit i) = false ∧ ¬ (fit c).feq (fit i) = true) =
        ((Finset.range n).filter fun c => (fit c).lt (fit i) = false) \ ((Finset.range n).filter fun c => (fit c).feq (fit i) = true) := by
      ext c
      simp only [Finset.mem_filter, Finset.mem_sdiff]
      tauto
    rw [hs, Finset.card_sdiff_of_subset]
    · rfl
    · intro c hc
      simp only [Finset.mem_filter] at hc ⊢
      refine ⟨hc.1, ?_⟩
      have := Fl.feq_iff.1 hc.2
      rw [← Bool.not_eq_true, Fl.lt_iff]
      omega

theorem late_mul (k : Nat) : (late fit n i k : ℚ) * equals fit n i =
    (keep fit n i : ℚ) ^ k - ((keep fit n i : ℚ) - equals fit n i) ^ k := by
  have hle := equals_le fit n i
  induction k with
  | zero => simp [late]
  | succ k ih =>
    rw [late]
    push_cast [hle]
    rw [add_mul, mul_assoc, ih, pow_succ, pow_succ]
    ring

/-- The number of individuals worse than `i` -/
def beaten : Nat := ((Finset.range n).filter (fun c => (fit i).lt (fit c) = true)).card

theorem wins_total (hi : i < n) (k : Nat) :
    cnt (List.replicate (k + 1) n) (fun t => winner fit (t.headD 0) t.tail = i) =
      keep fit n i ^ k + beaten fit n i * late fit n i k := by
  rw [List.replicate_succ, cnt_cons]
  show ∑ d ∈ Finset.range n, wins fit n i k d = _
  have : ∀ c ∈ Finset.range n, wins fit n i k c =
      (if c = i then keep fit n i ^ k else 0) + if (fit i).lt (fit c) = true then late fit n i k else 0 := by
    intro c _
    by_cases hc : c = i
    · subst hc
      rw [wins_self, if_pos rfl, if_neg, Nat.add_zero]
      rw [Fl.lt_iff]
      omega
    · rw [if_neg hc, Nat.zero_add]
      split
      · next h => exact wins_late fit n i hi k c h
      · next h => exact wins_blocked _ _ _ _ _ ⟨hc, by simpa using h⟩
  rw [Finset.sum_congr rfl this, Finset.sum_add_distrib, Finset.sum_ite_eq' _ i, if_pos (Finset.mem_range.2 hi), ← Finset.sum_filter,
    Finset.sum_const, smul_eq_mul]
  rfl

end count

variable {T : Type}

/-- The fitness of the individual with a number -/
def fitAt (p : Population T) (i : Nat) : F64 := (p.individuals.map (·.fitness)).getD i Fl.zero

theorem fitAt_eq {p : Population T} {i : Nat} {x : Individual T} (h : p.individuals[i]? = some x) : fitAt p i = x.fitness := by
  unfold fitAt
  simp [List.getD, h]

theorem countP_fit (p : Population T) (q : F64 → Bool) :
    ((Finset.range p.len).filter (fun c => q (fitAt p c) = true)).card = p.individuals.countP (fun j => q j.fitness) := by
  have h : p.individuals.map (·.fitness) = (List.range p.len).map (fitAt p) := by
    apply List.ext_getElem
    · simp [Population.len]
    · intro k h1 h2
      simp only [List.getElem_map, List.getElem_range]
      simp only [List.length_map] at h1
      rw [fitAt_eq (List.getElem?_eq_getElem h1)]
  have : p.individuals.countP (fun j => q j.fitness) = (p.individuals.map (·.fitness)).countP q := by
    rw [List.countP_map]; rfl
  rw [this, h, List.countP_map, List.countP_eq_length_filter, Finset.card_def, Finset.filter_val, Finset.range_val, Multiset.range, Multiset.filter_coe,
    Multiset.coe_card]
  congr 1
  apply List.filter_congr
  simp

theorem uses_rounds (p : Population T) (r b : Nat) (hb : b < p.len) :
    Uses (rounds Rng.script p r b) (List.replicate r p.len) (winner (fitAt p) b) := by
  induction r generalizing b with
  | zero =>
    intro ds rest hd
    cases hd
    rfl
  | succ r ih =>
    intro ds rest hd
    cases hd with
    | @cons d _ ds _ hd ht =>
      have hx := List.getElem?_eq_getElem hd
      have hbx := List.getElem?_eq_getElem hb
      rw [rounds]
      refine M.bind_eq_ok.2 ⟨d, ds ++ rest, ?_, ?_⟩
      · have := uses_uniformNat (lo := 0) (hi := p.len) (by omega) [d] (ds ++ rest) (.cons hd .nil)
        simpa using this
      refine M.bind_eq_ok.2 ⟨_, _, M.index_eq_ok.2 ⟨hx, rfl⟩, ?_⟩
      refine M.bind_eq_ok.2 ⟨_, _, M.index_eq_ok.2 ⟨hbx, rfl⟩, ?_⟩
      rw [← fitAt_eq hx, ← fitAt_eq hbx]
      exact ih (step (fitAt p) b d) (by unfold step; split <;> assumption) ds rest ht

/-- One tournament -/
def slot (p : Population T) (r : Nat) : M (List Nat) Nat := do
  let first ← Rng.script.uniformNat 0 p.len
  rounds Rng.script p r first

theorem uses_slot (p : Population T) (r : Nat) (h : 0 < p.len) :
    Uses (slot p r) (List.replicate (r + 1) p.len) (fun t => winner (fitAt p) (t.headD 0) t.tail) := by
  intro ds rest hd
  rw [List.replicate_succ] at hd
  cases hd with
  | @cons d _ ds _ hd ht =>
    refine M.bind_eq_ok.2 ⟨d, ds ++ rest, ?_, uses_rounds p r d hd ds rest ht⟩
    have := uses_uniformNat (lo := 0) (hi := p.len) h [d] (ds ++ rest) (.cons hd .nil)
    simpa using this

theorem chance_slot (p : Population T) (r i : Nat) (x : Individual T) (hx : p.individuals[i]? = some x) :
    chance (List.replicate (r + 1) p.len) (fun t => slot p r t = .ok (i, [])) = winShare p r x.fitness := by
  have hi : i < p.len := by
    by_contra h
    rw [List.getElem?_eq_none (by unfold Population.len at h; omega)] at hx
    cases hx
  rw [(uses_slot p r (by omega)).chance, chance_eq, wins_total _ _ _ hi, List.prod_replicate]
  have hB : better p x.fitness + keep (fitAt p) p.len i = p.len := by
    unfold better keep
    rw [← fitAt_eq hx, ← countP_fit p (fun y => y.lt (fitAt p i))]
    have := Finset.card_filter_add_card_filter_not (s := Finset.range p.len) (fun c => (fitAt p c).lt (fitAt p i) = true)
    simpa using this
  have hA : beaten (fitAt p) p.len i = worse p x.fitness := by
    unfold beaten worse
    rw [← fitAt_eq hx]
    exact countP_fit p (fun y => (fitAt p i).lt y)
  have hT : equals (fitAt p) p.len i = tied p x.fitness := by
    unfold equals tied
    rw [← fitAt_eq hx]
    exact countP_fit p (fun y => y.feq (fitAt p i))
  have hn0 : (p.len : ℚ) ≠ 0 := by
    have : p.len ≠ 0 := by omega
    exact_mod_cast this
  unfold winShare
  dsimp only
  split
  · next hnan =>
    have hw : worse p x.fitness = 0 := by
      unfold worse
      rw [List.countP_eq_zero]
      intro j _
      rw [Fl.lt_iff]
      simp [hnan]
    have hb0 : better p x.fitness = 0 := by
      unfold better
      rw [List.countP_eq_zero]
      intro j _
      rw [Fl.lt_iff]
      simp [hnan]
    rw [hA, hw, show keep (fitAt p) p.len i = p.len by omega]
    push_cast
    show _ = 1 / (p.len : ℚ)
    rw [pow_succ]
    field_simp
    ring
  · next hnan =>
    have hm := late_mul (fitAt p) p.len i r
    have hk : (keep (fitAt p) p.len i : ℚ) = p.len - better p x.fitness := by
      have := congrArg (Nat.cast : ℕ → ℚ) hB
      push_cast at this
      linarith
    have ht0 : (tied p x.fitness : ℚ) ≠ 0 := by
      have : 0 < tied p x.fitness := by
        unfold tied
        rw [List.countP_pos_iff]
        exact ⟨x, List.mem_of_getElem? hx, Fl.feq_iff.2 ⟨by simpa using hnan, by simpa using hnan, rfl⟩⟩
      have : tied p x.fitness ≠ 0 := by omega
      exact_mod_cast this
    rw [hT, hk] at hm
    have hl := eq_div_of_mul_eq ht0 hm
    push_cast
    rw [hA, hk, hl]
    rfl

end Verif.Pairing
