import Verif.Proofs.Expect
import Verif.Props.Chance
import Verif.Props.ChanceBits
import Verif.Props.ChanceVec

/-!
# C119: what the genetic operations do on average
-/

namespace Verif.Props

open Verif Spec Mutation Cross Pairing

variable {T : Type}

theorem hamming_cast {w : Nat} (a b : BitVec w) :
    (hamming a b : ℚ) = ∑ j ∈ Finset.range w, if a.getLsbD j ≠ b.getLsbD j then (1 : ℚ) else 0 := by
  rw [hamming_eq]
  push_cast
  refine Finset.sum_congr rfl fun j _ => ?_
  simp

theorem uses_bitwise {f : Fmt} (k : Nat) (x : Fl f) :
    Uses (bitwise Rng.script k x) (List.replicate k f.w) (fun t => (⟨flips x.bits t⟩ : Fl f)) := by
  intro ds rest hd
  exact M.bind_eq_ok.2 ⟨_, _, uses_flipLoop k x.bits ds rest hd, rfl⟩

/-- C119: mutation. The mean number of changed bits. -/
theorem C119_mutation {f : Fmt} (k : Nat) (x : Fl f) :
    Expected (List.replicate k f.w) (bitwise Rng.script k x) (fun y => hamming x.bits y.bits)
      (f.w / 2 * (1 - (1 - 2 / f.w : ℚ) ^ k)) := by
  have hw : 0 < f.w := by have := f.hew; have := f.hmw; simp only [Fmt.w]; omega
  have := expected_of_uses (uses_bitwise k x) (fun y => (hamming x.bits y.bits : ℚ))
  have e : meanOver (List.replicate k f.w) (fun t => (hamming x.bits (⟨flips x.bits t⟩ : Fl f).bits : ℚ)) =
      f.w / 2 * (1 - (1 - 2 / f.w : ℚ) ^ k) := by
    simp only [hamming_cast]
    rw [meanOver_sum]
    have h1 : ∀ j ∈ Finset.range f.w, meanOver (List.replicate k f.w)
        (fun t => if x.bits.getLsbD j ≠ (flips x.bits t).getLsbD j then (1 : ℚ) else 0) = (1 - (1 - 2 / f.w : ℚ) ^ k) / 2 := by
      intro j hj
      rw [meanOver_chance]
      have hv : ∀ b v : Bool, b ≠ v ↔ v = !b := by decide
      have := chance_flip_bit (w := f.w) hw j (Finset.mem_range.1 hj) (!(x.bits.getLsbD j)) k x.bits
      rw [if_neg (by simp)] at this
      rw [← this]
      exact chance_congr fun t _ => hv _ _
    rw [Finset.sum_congr rfl h1, Finset.sum_const, Finset.card_range, nsmul_eq_mul]
    ring
  rwa [e] at this

/-- C119: mutation. Several changes change fewer bits on average than there are changes, but more than one. -/
theorem C119_mutation_less (f : Fmt) (k : Nat) (hk : 1 < k) :
    1 < (f.w / 2 * (1 - (1 - 2 / f.w : ℚ) ^ k)) ∧ (f.w / 2 * (1 - (1 - 2 / f.w : ℚ) ^ k)) < k := by
  have hw : 2 < f.w := by have := f.hew; have := f.hmw; simp only [Fmt.w]; omega
  have hwq : (2 : ℚ) < f.w := by exact_mod_cast hw
  have hq0 : (0 : ℚ) < 1 - 2 / f.w := by
    rw [sub_pos, div_lt_one (by linarith)]; exact hwq
  have hq1 : (1 - 2 / f.w : ℚ) < 1 := by
    have : (0 : ℚ) < 2 / f.w := div_pos (by norm_num) (by linarith)
    linarith
  have hw2 : (f.w : ℚ) / 2 * (1 - (1 - 2 / f.w)) = 1 := by field_simp; ring
  induction k with
  | zero => omega
  | succ k ih =>
    have hs : (f.w / 2 * (1 - (1 - 2 / f.w : ℚ) ^ (k + 1))) = (f.w / 2 * (1 - (1 - 2 / f.w : ℚ) ^ k)) + (1 - 2 / f.w : ℚ) ^ k := by
      rw [pow_succ]
      linear_combination (1 - 2 / f.w : ℚ) ^ k * hw2
    have h0 : (0 : ℚ) < (1 - 2 / f.w : ℚ) ^ k := pow_pos hq0 k
    have h1 : (1 - 2 / f.w : ℚ) ^ k < 1 := pow_lt_one₀ hq0.le hq1 (by omega)
    rw [hs, Nat.cast_add k 1, Nat.cast_one]
    by_cases h : k = 1
    · subst h
      rw [pow_one] at h0 h1 ⊢
      rw [hw2, Nat.cast_one]
      constructor <;> linarith
    · obtain ⟨g1, g2⟩ := ih (by omega)
      constructor <;> linarith

theorem share_cut {f : Fmt} (j : Nat) (hj : j < f.w) :
    chance [f.w - 1] (fun draws => ¬ (draws.headD 0 < j)) = ((f.w - 1 : Nat) - j : ℚ) / (f.w - 1 : Nat) ∧
    chance [f.w - 1] (fun draws => draws.headD 0 < j) = (j : ℚ) / (f.w - 1 : Nat) := by
  have h2 : (Finset.range (f.w - 1)).filter (fun d => d < j) = Finset.range j := by
    ext d
    simp only [Finset.mem_filter, Finset.mem_range]
    omega
  have h1 := Finset.card_filter_add_card_filter_not (s := Finset.range (f.w - 1)) (fun d => d < j)
  rw [h2, Finset.card_range, Finset.card_range] at h1
  constructor
  · rw [chance_eq, cnt_cons]
    congr 1
    · simp only [cnt_nil, List.headD_cons]
      rw [← Finset.sum_filter, Finset.sum_const, smul_eq_mul, mul_one]
      have := congrArg (Nat.cast : ℕ → ℚ) h1
      rw [Nat.cast_add] at this
      linarith
    · simp
  · rw [chance_eq, cnt_cons]
    congr 1
    · simp only [cnt_nil, List.headD_cons]
      rw [← Finset.sum_filter, Finset.sum_const, smul_eq_mul, mul_one, h2, Finset.card_range]
    · simp

/-- C119: crossing. The mean numbers of bits in which the child differs from the first and from the second parent: a bit in which the parents
differ counts the more for the first parent, the lower it is. -/
theorem C119_crossing (p : Profile) {f : Fmt} (a b : Fl f) :
    Expected [f.w - 1] (crossBitwise p Rng.script [a, b]) (fun cs => (cs.map fun c => (hamming a.bits c.bits : ℚ)).sum)
      (∑ j ∈ Finset.range f.w, if a.bits.getLsbD j ≠ b.bits.getLsbD j then ((f.w - 1 : Nat) - j : ℚ) / (f.w - 1 : Nat) else 0) ∧
    Expected [f.w - 1] (crossBitwise p Rng.script [a, b]) (fun cs => (cs.map fun c => (hamming b.bits c.bits : ℚ)).sum)
      (∑ j ∈ Finset.range f.w, if a.bits.getLsbD j ≠ b.bits.getLsbD j then (j : ℚ) / (f.w - 1 : Nat) else 0) := by
  obtain ⟨v, hv, hs⟩ := crossBitwise_uses p a b
  have hbit : ∀ t, List.Forall₂ (· < ·) t [f.w - 1] → ∀ j < f.w,
      (v t).bits.getLsbD j = if t.headD 0 < j then a.bits.getLsbD j else b.bits.getLsbD j := by
    intro t ht j hj
    cases ht with
    | @cons d _ ds _ hdd ht =>
      cases ht
      rw [hs d hdd j hj, List.headD_cons]
      by_cases h : d < j
      · rw [if_pos h, if_neg (by omega)]
      · rw [if_neg h, if_pos (by omega)]
  constructor
  · have := expected_of_uses hv (fun cs => (cs.map fun c => (hamming a.bits c.bits : ℚ)).sum)
    simp only [List.map_cons, List.map_nil, List.sum_cons, List.sum_nil, add_zero] at this
    have e : meanOver [f.w - 1] (fun t => (hamming a.bits (v t).bits : ℚ)) =
        ∑ j ∈ Finset.range f.w, if a.bits.getLsbD j ≠ b.bits.getLsbD j then ((f.w - 1 : Nat) - j : ℚ) / (f.w - 1 : Nat) else 0 := by
      simp only [hamming_cast]
      rw [meanOver_sum]
      refine Finset.sum_congr rfl fun j hj => ?_
      have hj := Finset.mem_range.1 hj
      split
      · next hd =>
        rw [← (share_cut (f := f) j hj).1, ← meanOver_chance]
        refine meanOver_congr fun t ht => ?_
        rw [hbit t ht j hj]
        revert hd
        generalize a.bits.getLsbD j = x
        generalize b.bits.getLsbD j = y
        by_cases h : t.headD 0 < j
        · simp only [h]; cases x <;> cases y <;> simp
        · simp only [h]; cases x <;> cases y <;> simp
      · next hd =>
        refine (meanOver_congr (W := fun _ => 0) fun t ht => ?_).trans (meanOver_zero [f.w - 1])
        rw [hbit t ht j hj, if_neg]
        have hd : a.bits.getLsbD j = b.bits.getLsbD j := by simpa using hd
        rw [← hd]; simp
    rwa [e] at this
  · have := expected_of_uses hv (fun cs => (cs.map fun c => (hamming b.bits c.bits : ℚ)).sum)
    simp only [List.map_cons, List.map_nil, List.sum_cons, List.sum_nil, add_zero] at this
    have e : meanOver [f.w - 1] (fun t => (hamming b.bits (v t).bits : ℚ)) =
        ∑ j ∈ Finset.range f.w, if a.bits.getLsbD j ≠ b.bits.getLsbD j then (j : ℚ) / (f.w - 1 : Nat) else 0 := by
      simp only [hamming_cast]
      rw [meanOver_sum]
      refine Finset.sum_congr rfl fun j hj => ?_
      have hj := Finset.mem_range.1 hj
      split
      · next hd =>
        rw [← (share_cut (f := f) j hj).2, ← meanOver_chance]
        refine meanOver_congr fun t ht => ?_
        rw [hbit t ht j hj]
        revert hd
        generalize a.bits.getLsbD j = x
        generalize b.bits.getLsbD j = y
        by_cases h : t.headD 0 < j
        · simp only [h]; cases x <;> cases y <;> simp
        · simp only [h]; cases x <;> cases y <;> simp
      · next hd =>
        refine (meanOver_congr (W := fun _ => 0) fun t ht => ?_).trans (meanOver_zero [f.w - 1])
        rw [hbit t ht j hj, if_neg]
        have hd : a.bits.getLsbD j = b.bits.getLsbD j := by simpa using hd
        rw [← hd]; simp
    rwa [e] at this

theorem count_cast (l : List Nat) (i : Nat) : (l.count i : ℚ) = (l.map fun a => if a = i then (1 : ℚ) else 0).sum := by
  induction l with
  | nil => simp
  | cons a l ih =>
    rw [List.count_cons, List.map_cons, List.sum_cons, ← ih]
    by_cases h : a = i <;> simp [h, add_comm]

theorem timesChosen_cast (l : List (List Nat)) (i : Nat) : (timesChosen l i : ℚ) = (l.map fun f => (f.count i : ℚ)).sum := by
  unfold timesChosen
  induction l with
  | nil => simp
  | cons a l ih => simp only [List.map_cons, List.sum_cons, Nat.cast_add, ih]

/-- C119: tournaments. How often an individual is chosen on average: its share of all the places. -/
theorem C119_tournament (t : Tournament) (p : Population T) (i : Nat) (x : Individual T) (hx : p.individuals[i]? = some x) :
    Expected (List.replicate (t.familiesCount * (t.partnersCount * (t.roundsCount + 1))) p.individuals.length)
      (tournament Rng.script t p) (fun families => timesChosen families i)
      (t.familiesCount * t.partnersCount * winShare p t.roundsCount x.fitness) := by
  have hpos : 0 < p.len := by
    by_contra h
    rw [List.getElem?_eq_none (by unfold Population.len at h; omega)] at hx
    cases hx
  have hq : 0 < (List.replicate (t.roundsCount + 1) p.len).prod := by
    rw [List.prod_replicate]; exact Nat.pow_pos hpos
  obtain ⟨u, hu, hq1, hc⟩ := uses_replicate_mean (uses_slot p t.roundsCount hpos) hq (fun a => if a = i then (1 : ℚ) else 0) t.partnersCount
  obtain ⟨u2, hu2, -, hc2⟩ := uses_replicate_mean hu hq1 (fun f => (f.count i : ℚ)) t.familiesCount
  rw [List.flatten_replicate_replicate, List.flatten_replicate_replicate] at hu2 hc2
  rw [List.flatten_replicate_replicate] at hc
  have ht : tournament Rng.script t p = M.replicate t.familiesCount (M.replicate t.partnersCount (slot p t.roundsCount)) := by
    funext s
    unfold tournament uniformCheck
    rw [if_pos hpos]
    rfl
  rw [ht, show p.individuals.length = p.len from rfl]
  have := expected_of_uses hu2 (fun families => (timesChosen families i : ℚ))
  simp only [timesChosen_cast] at this ⊢
  rw [hc2] at this
  simp only [count_cast] at this ⊢
  rw [hc, meanOver_chance, ← (uses_slot p t.roundsCount hpos).chance, chance_slot p t.roundsCount i x hx] at this
  rw [mul_assoc]
  exact this

/-- C119: random pairs. How often an individual is chosen on average: once, if the number of individuals is even. -/
theorem C119_random_pairs (p : Population T) (i : Nat) (hi : i < p.individuals.length) :
    Expected (List.replicate (p.individuals.length / 2 * 2) p.individuals.length)
      (randomPairing Rng.script p) (fun families => timesChosen families i)
      ((p.individuals.length / 2 * 2 : Nat) / (p.individuals.length : ℚ)) := by
  change i < p.len at hi
  have hpos : 0 < p.len := by omega
  have hpair : Uses (do
      let first ← Rng.script.uniformNat 0 p.len
      let second ← Rng.script.uniformNat 0 p.len
      pure [first, second]) (List.replicate 2 p.len) (fun t => [t.headD 0, t.tail.headD 0]) := by
    intro ds rest hd
    cases hd with
    | @cons a _ ds _ ha hd =>
      cases hd with
      | @cons b _ ds _ hb hd =>
        cases hd
        refine M.bind_eq_ok.2 ⟨a, b :: rest, ?_, M.bind_eq_ok.2 ⟨b, rest, ?_, rfl⟩⟩
        · simpa using uses_uniformNat (lo := 0) (hi := p.len) hpos [a] (b :: rest) (.cons ha .nil)
        · simpa using uses_uniformNat (lo := 0) (hi := p.len) hpos [b] rest (.cons hb .nil)
  have hq : 0 < (List.replicate 2 p.len).prod := by
    rw [List.prod_replicate]; exact Nat.pow_pos hpos
  obtain ⟨u, hu, -, hc⟩ := uses_replicate_mean hpair hq (fun f => (f.count i : ℚ)) (p.len / 2)
  rw [List.flatten_replicate_replicate] at hu hc
  have ht : randomPairing Rng.script p = M.replicate (p.len / 2) (do
      let first ← Rng.script.uniformNat 0 p.len
      let second ← Rng.script.uniformNat 0 p.len
      pure [first, second]) := by
    funext s
    unfold randomPairing uniformCheck
    rw [if_pos hpos]
    rfl
  rw [ht, show p.individuals.length = p.len from rfl]
  have := expected_of_uses hu (fun families => (timesChosen families i : ℚ))
  simp only [timesChosen_cast] at this ⊢
  rw [hc] at this
  have e : meanOver (List.replicate 2 p.len) (fun t => ((([t.headD 0, t.tail.headD 0] : List Nat).count i : Nat) : ℚ)) = 2 / p.len := by
    have hn : (p.len : ℚ) ≠ 0 := by
      have : p.len ≠ 0 := by omega
      exact_mod_cast this
    have e2 : ∀ a b : Nat, (([a, b].count i : Nat) : ℚ) = (if a = i then (1 : ℚ) else 0) + if b = i then (1 : ℚ) else 0 := by
      intro a b
      rw [count_cast]
      simp
    have e3 : ∀ a ∈ Finset.range p.len, meanOver [p.len] (fun t => ((([(a :: t).headD 0, (a :: t).tail.headD 0] : List Nat).count i : Nat) : ℚ)) =
        (if a = i then (1 : ℚ) else 0) + 1 / p.len := by
      intro a _
      rw [meanOver_cons, Finset.sum_congr rfl (g := fun b => (if a = i then (1 : ℚ) else 0) + if b = i then (1 : ℚ) else 0)
        (fun b _ => (Estimate.meanOver_nil _).trans (e2 a b)), Finset.sum_add_distrib, Finset.sum_const, Finset.card_range, nsmul_eq_mul,
        Finset.sum_ite_eq', if_pos (Finset.mem_range.2 hi)]
      field_simp
    rw [show List.replicate 2 p.len = [p.len, p.len] from rfl, meanOver_cons, Finset.sum_congr rfl e3, Finset.sum_add_distrib,
      Finset.sum_ite_eq', if_pos (Finset.mem_range.2 hi), Finset.sum_const, Finset.card_range, nsmul_eq_mul]
    field_simp
    ring
  rw [e] at this
  convert this using 1
  push_cast
  ring

section

variable (val : {g : Fmt} → Fl g → Fl g → Nat → Fl g)
  (h : ∀ {g : Fmt} (lo hi : Fl g) k, lo.lt hi = true → lo.isFinite = true → hi.isFinite = true →
      lo.le (val lo hi k) = true ∧ (val lo hi k).lt hi = true)

/-- C119: the mutation of a vector. The mean number of changed genes is the number of genes times the chance of a single gene. -/
theorem C119_vector {G : Type} [DecidableEq G] (m : Nat) (hm : 0 < m) (prob : F64) (g : G → G) (xs : List G) (hg : ∀ x ∈ xs, g x ≠ x) :
    Expected (List.replicate xs.length m) (vec (valued val h) prob (fun x => pure (g x)) xs) (fun ys => changedGenes xs ys)
      (xs.length * below val m prob) := by
  suffices H : ∃ v, Uses (vec (valued val h) prob (fun x => pure (g x)) xs) (List.replicate xs.length m) v ∧
      meanOver (List.replicate xs.length m) (fun t => (changedGenes xs (v t) : ℚ)) = xs.length * below val m prob by
    obtain ⟨v, h1, h2⟩ := H
    rw [← h2]
    exact expected_of_uses h1 (fun ys => (changedGenes xs ys : ℚ))
  have hf := hundred_facts
  induction xs with
  | nil =>
    refine ⟨fun _ => [], Uses.pure _, ?_⟩
    simp [Estimate.meanOver_nil, changedGenes]
  | cons x xs ih =>
    obtain ⟨v, h1, h2⟩ := ih (fun y hy => hg y (by simp [hy]))
    have hx := hg x (by simp)
    refine ⟨fun t => (if (val (Fl.zero : F64) hundred (t.headD 0)).lt prob then g x else x) :: v t.tail, ?_, ?_⟩
    · intro ds rest hd
      cases hd with
      | @cons d _ ds _ hd ht =>
        refine M.mapL_cons_ok.2 ⟨_, _, ds ++ rest, ?_, h1 ds rest ht, rfl⟩
        have hdraw : (valued val h).uniformFl (Fl.zero : F64) hundred (d :: (ds ++ rest)) = .ok (val (Fl.zero : F64) hundred d, ds ++ rest) := by
          unfold Rng.uniformFl
          rw [if_pos (by simp [hf])]
          rfl
        refine M.bind_eq_ok.2 ⟨_, _, hdraw, ?_⟩
        rw [List.headD_cons]
        split <;> rfl
    · have hp : 0 < (List.replicate xs.length m).prod := by
        rw [List.prod_replicate]; exact Nat.pow_pos hm
      have e : ∀ t, List.Forall₂ (· < ·) t ([m] ++ List.replicate xs.length m) →
          (changedGenes (x :: xs) ((if (val (Fl.zero : F64) hundred (t.headD 0)).lt prob then g x else x) :: v t.tail) : ℚ) =
          (fun t : List Nat => if (val (Fl.zero : F64) hundred (t.headD 0)).lt prob = true then (1 : ℚ) else 0) (t.take [m].length) +
          (fun t => (changedGenes xs (v t) : ℚ)) (t.drop [m].length) := by
        intro t ht
        cases ht with
        | @cons d _ ds _ hd ht =>
          simp only [changedGenes, List.zip_cons_cons, List.countP_cons, List.headD_cons, List.tail_cons, List.length_cons,
            List.length_nil, List.take_succ_cons, List.drop_succ_cons, List.drop_zero]
          by_cases hc : (val (Fl.zero : F64) hundred d).lt prob = true
          · simp [hc, hx.symm, add_comm]
          · simp [hc]
      rw [List.length_cons, List.replicate_succ, show m :: List.replicate xs.length m = [m] ++ List.replicate xs.length m from rfl,
        meanOver_congr e, meanOver_add, meanOver_take [m] _ hp (fun t => if (val (Fl.zero : F64) hundred (t.headD 0)).lt prob = true then (1 : ℚ) else 0),
        meanOver_drop [m] _ (by simpa using hm) (fun t => (changedGenes xs (v t) : ℚ)), h2, meanOver_chance]
      unfold below
      rw [hundred_eq]
      push_cast
      ring

end

/-- One flip changes one bit on average, two flips less than two. -/
example (x : F32) : Expected [32] (bitwise Rng.script 1 x) (fun y => hamming x.bits y.bits) 1 ∧
    Expected [32, 32] (bitwise Rng.script 2 x) (fun y => hamming x.bits y.bits) (31 / 16) := by
  have h1 := C119_mutation 1 x
  have h2 := C119_mutation 2 x
  have e1 : (Fmt.f32.w : ℚ) / 2 * (1 - (1 - 2 / (Fmt.f32.w : ℚ)) ^ 1) = 1 := by decide +kernel
  have e2 : (Fmt.f32.w : ℚ) / 2 * (1 - (1 - 2 / (Fmt.f32.w : ℚ)) ^ 2) = 31 / 16 := by decide +kernel
  rw [e1] at h1
  rw [e2] at h2
  exact ⟨h1, h2⟩

end Verif.Props
