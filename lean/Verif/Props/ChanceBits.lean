import Verif.Proofs.Chance
import Verif.Props.Mutation
import Verif.Props.CrossBits

/-!
# C92: how likely the results of the bitwise mutation and crossing are
-/

namespace Verif.Props

open Verif Spec Mutation Cross

/-- The mutation as a function of the positions drawn -/
def flips {w : Nat} (b : BitVec w) (ds : List Nat) : BitVec w := ds.foldl (fun b pos => b ^^^ (1#w <<< pos)) b

theorem uses_flipLoop {w : Nat} (k : Nat) (b : BitVec w) : Uses (flipLoop Rng.script k b) (List.replicate k w) (flips b) := by
  induction k generalizing b with
  | zero =>
    intro ds rest hd
    cases hd
    rfl
  | succ k ih =>
    intro ds rest hd
    cases hd with
    | @cons d _ ds _ hd ht =>
      rw [flipLoop]
      refine M.bind_eq_ok.2 ⟨d, ds ++ rest, ?_, ih _ ds rest ht⟩
      simpa using uses_uniformNat (lo := 0) (hi := w) (by omega) [d] (ds ++ rest) (.cons hd .nil)

theorem hamming_flip_exact {w : Nat} (a b : BitVec w) {pos : Nat} (hp : pos < w) :
    hamming a (b ^^^ (1#w <<< pos)) = if a.getLsbD pos != b.getLsbD pos then hamming a b - 1 else hamming a b + 1 := by
  rw [hamming_eq, hamming_eq]
  have hm : pos ∈ Finset.range w := Finset.mem_range.2 hp
  rw [← Finset.add_sum_erase _ _ hm, ← Finset.add_sum_erase _ _ hm]
  have he : ∑ x ∈ (Finset.range w).erase pos,
      (if a.getLsbD x != (b ^^^ (1#w <<< pos)).getLsbD x then 1 else 0) =
      ∑ x ∈ (Finset.range w).erase pos, (if a.getLsbD x != b.getLsbD x then 1 else 0) := by
    apply Finset.sum_congr rfl
    intro i hi
    rw [Finset.mem_erase, Finset.mem_range] at hi
    rw [flip_bit b hi.2]
    simp [hi.1]
  rw [he, flip_bit b hp]
  cases a.getLsbD pos <;> cases b.getLsbD pos <;> simp <;> omega

theorem hamming_le {w : Nat} (a b : BitVec w) : hamming a b ≤ w := by
  unfold hamming
  exact (List.length_filter_le _ _).trans (by simp)

theorem chance_flips {w : Nat} (k : Nat) (a b : BitVec w) :
    chance (List.replicate k w) (fun t => flips b t = a) = walk w k (hamming a b) := by
  induction k generalizing b with
  | zero =>
    rw [List.replicate_zero, chance_eq, cnt_nil]
    have : flips b [] = a ↔ hamming a b = 0 := by
      show b = a ↔ _
      constructor
      · rintro rfl; exact hamming_self b
      · intro h
        unfold hamming at h
        rw [List.length_eq_zero_iff, List.filter_eq_nil_iff] at h
        apply BitVec.eq_of_getLsbD_eq
        intro i hi
        have := h i (List.mem_range.2 hi)
        simpa using (by simpa using this : a.getLsbD i = b.getLsbD i).symm
    simp only [this, walk]
    split <;> simp
  | succ k ih =>
    rw [List.replicate_succ, chance_cons, walk]
    congr 1
    have h1 : ∀ d ∈ Finset.range w, chance (List.replicate k w) (fun t => flips b (d :: t) = a) =
        if (a.getLsbD d != b.getLsbD d) = true then walk w k (hamming a b - 1) else walk w k (hamming a b + 1) := by
      intro d hd
      have := ih (b ^^^ (1#w <<< d))
      rw [hamming_flip_exact a b (Finset.mem_range.1 hd)] at this
      refine Eq.trans this ?_
      split <;> rfl
    rw [Finset.sum_congr rfl h1, Finset.sum_ite, Finset.sum_const, Finset.sum_const, nsmul_eq_mul, nsmul_eq_mul]
    have hc : ((Finset.range w).filter (fun d => (a.getLsbD d != b.getLsbD d) = true)).card = hamming a b := by
      rw [hamming_eq, Finset.card_filter]
    have hc2 := Finset.card_filter_add_card_filter_not (s := Finset.range w) (fun d => (a.getLsbD d != b.getLsbD d) = true)
    rw [hc, Finset.card_range] at hc2
    rw [hc]
    congr 2
    have := congrArg (Nat.cast : ℕ → ℚ) hc2
    push_cast at this
    linarith

/-- C92: mutation. All the draws being equally likely, the chance of a result depends only on the number of bits in which it differs from
the gene: it is the chance of a walk from this number to 0. -/
theorem C92_mutation {f : Fmt} (k : Nat) (x y : Fl f) :
    chance (List.replicate k f.w) (fun draws => bitwise Rng.script k x draws = .ok (y, [])) = walk f.w k (hamming y.bits x.bits) := by
  rw [← chance_flips]
  refine chance_congr fun t ht => ?_
  rw [← (uses_flipLoop k x.bits).whole ht]
  unfold bitwise
  rw [M.bind_eq_ok]
  constructor
  · rintro ⟨b, s, h1, h2⟩
    obtain ⟨rfl, rfl⟩ := M.pure_eq_ok.1 h2
    exact h1
  · intro h
    exact ⟨_, _, h, rfl⟩

theorem chance_flip_bit {w : Nat} (hw : 0 < w) (j : Nat) (hj : j < w) (v : Bool) (k : Nat) (b : BitVec w) :
    chance (List.replicate k w) (fun t => (flips b t).getLsbD j = v) =
      if b.getLsbD j = v then (1 + (1 - 2 / w : ℚ) ^ k) / 2 else (1 - (1 - 2 / w : ℚ) ^ k) / 2 := by
  have hw0 : (w : ℚ) ≠ 0 := by
    have : w ≠ 0 := by omega
    exact_mod_cast this
  induction k generalizing b with
  | zero =>
    rw [List.replicate_zero, chance_eq, cnt_nil]
    show (((if b.getLsbD j = v then 1 else 0 : Nat)) : ℚ) / _ = _
    split <;> norm_num
  | succ k ih =>
    rw [List.replicate_succ, chance_cons]
    have h1 : ∀ d ∈ Finset.range w, chance (List.replicate k w) (fun t => (flips b (d :: t)).getLsbD j = v) =
        (if b.getLsbD j = v then (1 + (1 - 2 / w : ℚ) ^ k) / 2 else (1 - (1 - 2 / w : ℚ) ^ k) / 2) +
          if d = j then (if b.getLsbD j = v then -(1 - 2 / w : ℚ) ^ k else (1 - 2 / w : ℚ) ^ k) else 0 := by
      intro d hd
      have := ih (b ^^^ (1#w <<< d))
      rw [flip_bit b hj] at this
      refine Eq.trans this ?_
      by_cases hdj : d = j
      · subst hdj
        rw [if_pos rfl]
        cases b.getLsbD d <;> cases v <;> simp <;> ring
      · rw [if_neg hdj, add_zero]
        have : decide (j = d) = false := by simpa using fun h => hdj h.symm
        rw [this, Bool.xor_false]
    rw [Finset.sum_congr rfl h1, Finset.sum_add_distrib, Finset.sum_const, Finset.card_range, nsmul_eq_mul, Finset.sum_ite_eq',
      if_pos (Finset.mem_range.2 hj)]
    split
    · rw [pow_succ]; field_simp; ring
    · rw [pow_succ]; field_simp; ring

/-- C92: mutation. Every bit is as likely to be changed as any other. -/
theorem C92_mutation_bit {f : Fmt} (k : Nat) (x : Fl f) (j : Nat) (hj : j < f.w) :
    chance (List.replicate k f.w) (fun draws => ∃ y, bitwise Rng.script k x draws = .ok (y, []) ∧ y.bits.getLsbD j ≠ x.bits.getLsbD j) =
      (1 - (1 - 2 / f.w : ℚ) ^ k) / 2 := by
  have hv : ∀ b v : Bool, b ≠ v ↔ b = !v := by decide
  have := chance_flip_bit (w := f.w) (by omega) j hj (!(x.bits.getLsbD j)) k x.bits
  rw [if_neg (by simp)] at this
  rw [← this]
  refine chance_congr fun t ht => ?_
  have hu := uses_flipLoop k x.bits t [] ht
  rw [List.append_nil] at hu
  rw [← hv]
  unfold bitwise
  constructor
  · rintro ⟨y, h1, h2⟩
    obtain ⟨b, s, g1, g2⟩ := M.bind_eq_ok.1 h1
    obtain ⟨rfl, rfl⟩ := M.pure_eq_ok.1 g2
    rw [hu] at g1
    cases g1
    exact h2
  · intro h
    exact ⟨⟨flips x.bits t⟩, M.bind_eq_ok.2 ⟨_, _, hu, rfl⟩, h⟩

theorem crossBitwise_uses (p : Profile) {f : Fmt} (a b : Fl f) : ∃ v : List Nat → Fl f,
    Uses (crossBitwise p Rng.script [a, b]) [f.w - 1] (fun t => [v t]) ∧ ∀ d, d < f.w - 1 → Splice (d + 1) a.bits b.bits (v [d]).bits := by
  have hw : 1 < f.w := by have := f.hew; have := f.hmw; simp only [Fmt.w]; omega
  have key : ∀ d, ∃ c : Fl f, d < f.w - 1 → Splice (d + 1) a.bits b.bits c.bits ∧
      ∀ rest, crossBitwise p Rng.script [a, b] (d :: rest) = .ok ([c], rest) := by
    intro d
    by_cases hd : d < f.w - 1
    · obtain ⟨c, hc, hs⟩ := crossU_splice p a.bits b.bits (pos := d + 1) (by omega) (by omega)
      refine ⟨⟨c⟩, fun _ => ⟨hs, fun rest => ?_⟩⟩
      have hx : (M.ofExcept (cross_fl p a b (d + 1)) : M (List Nat) (Fl f)) rest = .ok (⟨c⟩, rest) := by
        rw [M.ofExcept_eq_ok]; refine ⟨?_, rfl⟩
        unfold cross_fl
        rw [hc]
        rfl
      have hu := uses_uniformNat (lo := 1) (hi := f.w) hw [d] rest (.cons hd .nil)
      unfold crossBitwise
      refine M.bind_eq_ok.2 ⟨(), _, M.assert_eq_ok.2 ⟨rfl, rfl⟩, ?_⟩
      refine M.bind_eq_ok.2 ⟨d + 1, rest, ?_, ?_⟩
      · rw [Nat.add_comm]; exact hu
      refine M.bind_eq_ok.2 ⟨a, rest, M.index_eq_ok.2 ⟨rfl, rfl⟩, ?_⟩
      refine M.bind_eq_ok.2 ⟨b, rest, M.index_eq_ok.2 ⟨rfl, rfl⟩, ?_⟩
      exact M.bind_eq_ok.2 ⟨_, rest, hx, rfl⟩
    · exact ⟨a, fun h => absurd h hd⟩
  choose c hc using key
  refine ⟨fun t => c (t.headD 0), ?_, fun d hd => (hc d hd).1⟩
  intro ds rest hd
  cases hd with
  | cons hd ht =>
    cases ht
    exact (hc _ hd).2 rest

/-- C92: crossing. The `j`-th lowest bit comes from the second parent with the chance `(w - 1 - j) / (w - 1)`: surely for the lowest bit,
never for the highest. -/
theorem C92_crossing_bit (p : Profile) {f : Fmt} (a b : Fl f) (j : Nat) (hj : j < f.w) (hd : a.bits.getLsbD j ≠ b.bits.getLsbD j) :
    chance [f.w - 1] (fun draws => ∃ c, crossBitwise p Rng.script [a, b] draws = .ok ([c], []) ∧ c.bits.getLsbD j = b.bits.getLsbD j) =
      ((f.w - 1 : Nat) - j : ℚ) / (f.w - 1 : Nat) := by
  obtain ⟨v, hv, hs⟩ := crossBitwise_uses p a b
  have e : chance [f.w - 1] (fun draws => ∃ c, crossBitwise p Rng.script [a, b] draws = .ok ([c], []) ∧ c.bits.getLsbD j = b.bits.getLsbD j) =
      chance [f.w - 1] (fun draws => ¬ (draws.headD 0 < j)) := by
    refine chance_congr fun t ht => ?_
    cases ht with
    | @cons d _ ds _ hdd ht =>
      cases ht
      have h1 := hv [d] [] (.cons hdd .nil)
      have h2 := hs d hdd j hj
      simp only [List.append_nil] at h1
      simp only [List.headD_cons]
      constructor
      · rintro ⟨c, g1, g2⟩
        rw [h1] at g1
        cases g1
        rw [h2] at g2
        split at g2
        · omega
        · exact absurd g2 hd
      · intro h
        exact ⟨_, h1, by rw [h2, if_pos (by omega)]⟩
  have hw : 1 < f.w := by have := f.hew; have := f.hmw; simp only [Fmt.w]; omega
  rw [e, chance_eq, cnt_cons]
  congr 1
  · simp only [cnt_nil, List.headD_cons]
    rw [← Finset.sum_filter, Finset.sum_const, smul_eq_mul, mul_one]
    have h1 := Finset.card_filter_add_card_filter_not (s := Finset.range (f.w - 1)) (fun d => d < j)
    have h2 : (Finset.range (f.w - 1)).filter (fun d => d < j) = Finset.range j := by
      ext d
      simp only [Finset.mem_filter, Finset.mem_range]
      omega
    rw [h2, Finset.card_range, Finset.card_range] at h1
    have := congrArg (Nat.cast : ℕ → ℚ) h1
    rw [Nat.cast_add] at this
    linarith
  · simp

/-- One flip in 64 bits, two flips -/
example : walk 64 1 1 = 1 / 64 ∧ walk 64 2 0 = 1 / 64 ∧ walk 64 2 2 = 2 / 64 ^ 2 ∧ walk 64 2 1 = 0 := by decide +kernel

example : chance (List.replicate 2 32) (fun draws => bitwise Rng.script 2 (Fl.one : F32) draws = .ok (Fl.one, [])) = 1 / 32 := by
  rw [show (32 : Nat) = Fmt.f32.w from rfl, C92_mutation, hamming_self]
  decide +kernel

end Verif.Props
