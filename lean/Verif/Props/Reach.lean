import Verif.Props.ChanceBits

/-!
# C105: which values a line of bitwise mutations can reach
-/

namespace Verif.Props

open Verif Spec Mutation

/-- `n` mutations in a row, with the same `BitwiseMutation(k)` object: the child of the child of … of `x` -/
def descend {σ : Type} (R : Rng σ) {f : Fmt} (k n : Nat) (x : Fl f) : M σ (Fl f) :=
  M.foldL (fun x _ => bitwise R k x) x (List.range n)

theorem hamming_symm {w : Nat} (a b : BitVec w) : hamming a b = hamming b a := by
  unfold hamming
  congr 2
  funext i
  cases a.getLsbD i <;> cases b.getLsbD i <;> rfl

theorem hamming_eq_zero {w : Nat} {a b : BitVec w} (h : hamming a b = 0) : a = b := by
  unfold hamming at h
  rw [List.length_eq_zero_iff, List.filter_eq_nil_iff] at h
  apply BitVec.eq_of_getLsbD_eq
  intro i hi
  have := h i (List.mem_range.2 hi)
  simpa using this

theorem flipLoop_add {σ : Type} (R : Rng σ) {w : Nat} (m n : Nat) (b c d : BitVec w) (s t u : σ)
    (h1 : flipLoop R m b s = .ok (c, t)) (h2 : flipLoop R n c t = .ok (d, u)) : flipLoop R (m + n) b s = .ok (d, u) := by
  induction m generalizing b s with
  | zero =>
    obtain ⟨rfl, rfl⟩ := M.pure_eq_ok.1 h1
    rw [Nat.zero_add]; exact h2
  | succ m ih =>
    obtain ⟨p, s1, h3, h4⟩ := M.bind_eq_ok.1 h1
    rw [show m + 1 + n = (m + n) + 1 by omega]
    exact M.bind_eq_ok.2 ⟨p, s1, h3, ih _ _ h4⟩

theorem foldL_bitwise {σ : Type} (R : Rng σ) {f : Fmt} (k : Nat) (l : List Nat) (x : Fl f) (s : σ) :
    M.foldL (fun x _ => bitwise R k x) x l s = bitwise R (l.length * k) x s := by
  induction l generalizing x s with
  | nil => rw [List.length_nil, Nat.zero_mul]; rfl
  | cons a l ih =>
    obtain ⟨y, s1, h1, _, _⟩ := C04_bitwise R k x s
    obtain ⟨z, s2, h2, _, _⟩ := C04_bitwise R (l.length * k) y s1
    have h3 : M.foldL (fun x _ => bitwise R k x) x (a :: l) s = .ok (z, s2) :=
      M.foldL_cons_ok.2 ⟨y, s1, h1, (ih y s1).trans h2⟩
    rw [h3, List.length_cons, show (l.length + 1) * k = k + l.length * k by ring]
    obtain ⟨c, t, h4, h5⟩ := M.bind_eq_ok.1 h1
    obtain ⟨rfl, rfl⟩ := M.pure_eq_ok.1 h5
    obtain ⟨d, u, h6, h7⟩ := M.bind_eq_ok.1 h2
    obtain ⟨rfl, rfl⟩ := M.pure_eq_ok.1 h7
    exact (M.bind_eq_ok.2 ⟨_, _, flipLoop_add R _ _ _ _ _ _ _ _ h4 h6, rfl⟩).symm

/-- C105: `n` mutations of `k` flips each do what one mutation of `n * k` flips does. -/
theorem C105_line {σ : Type} (R : Rng σ) {f : Fmt} (k n : Nat) (x : Fl f) (s : σ) :
    descend R k n x s = bitwise R (n * k) x s := by
  unfold descend
  rw [foldL_bitwise, List.length_range]

theorem flips_reach {w : Nat} (hw : 0 < w) (n : Nat) (a b : BitVec w) (h1 : hamming a b ≤ n) (h2 : hamming a b % 2 = n % 2) :
    ∃ ds : List Nat, List.Forall₂ (fun d n => d < n) ds (List.replicate n w) ∧ flips b ds = a := by
  induction n generalizing b with
  | zero => exact ⟨[], .nil, (hamming_eq_zero (a := a) (b := b) (by omega)).symm⟩
  | succ n ih =>
    have : ∃ pos, pos < w ∧ hamming a (b ^^^ (1#w <<< pos)) ≤ n ∧ hamming a (b ^^^ (1#w <<< pos)) % 2 = n % 2 := by
      by_cases h0 : hamming a b = 0
      · have := hamming_flip a b hw
        exact ⟨0, hw, by omega, by omega⟩
      · have hex : ∃ i, i < w ∧ (a.getLsbD i != b.getLsbD i) = true := by
          by_contra hne
          refine h0 ?_
          unfold hamming
          rw [List.length_eq_zero_iff, List.filter_eq_nil_iff]
          intro i hi hc
          exact hne ⟨i, List.mem_range.1 hi, hc⟩
        obtain ⟨i, hi, hd⟩ := hex
        have := hamming_flip_exact a b hi
        rw [if_pos hd] at this
        exact ⟨i, hi, by omega, by omega⟩
    obtain ⟨pos, hp, h3, h4⟩ := this
    obtain ⟨ds, h5, h6⟩ := ih _ h3 h4
    exact ⟨pos :: ds, .cons hp h5, h6⟩

theorem w_pos (f : Fmt) : 0 < f.w := by simp only [Fmt.w]; omega

/-- C105: the values that `n` mutations in a row can make of `x` are exactly those that differ from it in at most `n * k` bits, and in an
even number of bits if and only if `n * k` is even. The draws that lead there are bit positions. -/
theorem C105_reach {f : Fmt} (k n : Nat) (x y : Fl f) :
    (∃ draws, draws.length = n * k ∧ (∀ d ∈ draws, d < f.w) ∧ descend Rng.script k n x draws = .ok (y, [])) ↔
      hamming x.bits y.bits ≤ n * k ∧ hamming x.bits y.bits % 2 = (n * k) % 2 := by
  constructor
  · rintro ⟨draws, -, -, h⟩
    rw [C105_line] at h
    obtain ⟨z, s, h1, h2, h3⟩ := C04_bitwise Rng.script (n * k) x draws
    rw [h] at h1
    cases h1
    exact ⟨h2, h3⟩
  · rintro ⟨h1, h2⟩
    rw [hamming_symm] at h1 h2
    obtain ⟨ds, h3, h4⟩ := flips_reach (w_pos f) (n * k) y.bits x.bits h1 h2
    refine ⟨ds, by simpa using h3.length_eq, ?_, ?_⟩
    · intro d hd
      obtain ⟨i, hi, rfl⟩ := List.getElem_of_mem hd
      have := h3.get hi (h3.length_eq ▸ hi)
      simpa using this
    · rw [C105_line]
      have := uses_flipLoop (n * k) x.bits ds [] h3
      rw [List.append_nil, h4] at this
      exact M.bind_eq_ok.2 ⟨_, _, this, rfl⟩

/-- C105: with no generator can a line of mutations reach more. -/
theorem C105_only {σ : Type} (R : Rng σ) {f : Fmt} (k n : Nat) (x : Fl f) (s : σ) :
    ∃ y s', descend R k n x s = .ok (y, s') ∧ hamming x.bits y.bits ≤ n * k ∧ hamming x.bits y.bits % 2 = (n * k) % 2 := by
  rw [C105_line]
  exact C04_bitwise R (n * k) x s

/-- C105: an odd number of flips. Every value of the type can be reached from every other, and one mutation per differing bit is enough:
never more than the type has bits. -/
theorem C105_all {f : Fmt} (k : Nat) (hk : k % 2 = 1) (x y : Fl f) :
    ∃ n, n ≤ f.w ∧ ∃ draws, descend Rng.script k n x draws = .ok (y, []) := by
  refine ⟨hamming x.bits y.bits, hamming_le _ _, ?_⟩
  obtain ⟨ds, -, -, h⟩ := (C105_reach k (hamming x.bits y.bits) x y).2
    ⟨Nat.le_mul_of_pos_right _ (by omega), by rw [Nat.mul_mod, hk]; omega⟩
  exact ⟨ds, h⟩

/-- C105: an even number of flips. A value that differs from `x` in an odd number of bits, such as `-x`, is never reached, whatever the generator and however
many the generations: half of the type is closed to the descendants of `x`. -/
theorem C105_even {σ : Type} (R : Rng σ) {f : Fmt} (k : Nat) (hk : k % 2 = 0) (x y : Fl f) (hy : hamming x.bits y.bits % 2 = 1) (n : Nat)
    (s s' : σ) : descend R k n x s ≠ .ok (y, s') := by
  intro h
  obtain ⟨z, t, h1, h2, h3⟩ := C105_only R k n x s
  rw [h] at h1
  cases h1
  rw [Nat.mul_mod, hk] at h3
  omega

/-- C105: an even number of flips, not zero. All the values of the other half are reached. -/
theorem C105_half {f : Fmt} (k : Nat) (hk : k % 2 = 0) (h0 : 0 < k) (x y : Fl f) (hy : hamming x.bits y.bits % 2 = 0) :
    ∃ n, n ≤ f.w ∧ ∃ draws, descend Rng.script k n x draws = .ok (y, []) := by
  refine ⟨hamming x.bits y.bits, hamming_le _ _, ?_⟩
  obtain ⟨ds, -, -, h⟩ := (C105_reach k (hamming x.bits y.bits) x y).2
    ⟨Nat.le_mul_of_pos_right _ (by omega), by rw [Nat.mul_mod, hk]; omega⟩
  exact ⟨ds, h⟩

theorem low_bit {f : Fmt} (x : Fl f) {i : Nat} (hi : i < f.kw) : x.bits.getLsbD i = x.idx.testBit i := by
  unfold Fl.idx
  rw [Nat.testBit_mod_two_pow]
  simp [hi, BitVec.getLsbD]

theorem sign_bit {f : Fmt} (x : Fl f) : x.bits.getLsbD f.kw = x.sgn := by
  show x.bits.toNat.testBit f.kw = _
  rw [Fl.bits_toNat]
  cases x.sgn
  · simpa using Nat.testBit_lt_two_pow x.idx_lt
  · simp only [if_true]
    rw [Nat.testBit_two_pow_add_eq, Nat.testBit_lt_two_pow x.idx_lt]
    rfl

theorem neg_bits {f : Fmt} (x : Fl f) : x.neg.bits = x.bits ^^^ (1#f.w <<< f.kw) := by
  apply BitVec.eq_of_getLsbD_eq
  intro i hi
  rw [flip_bit _ hi]
  by_cases h : i = f.kw
  · subst h
    rw [sign_bit, sign_bit, Fl.sgn_neg]
    simp
  · have : i < f.kw := by simp only [Fmt.w] at hi; simp only [Fmt.kw] at *; omega
    rw [low_bit _ this, low_bit _ this, Fl.idx_neg]
    simp [h]

theorem hamming_neg {f : Fmt} (x : Fl f) : hamming x.bits x.neg.bits = 1 := by
  have := hamming_flip x.bits x.bits (pos := f.kw) (by simp only [Fmt.w, Fmt.kw]; omega)
  rw [← neg_bits, hamming_self] at this
  omega

/-- C105: with an even number of flips the sign alone is never turned. -/
theorem C105_neg {σ : Type} (R : Rng σ) {f : Fmt} (k : Nat) (hk : k % 2 = 0) (x : Fl f) (n : Nat) (s s' : σ) :
    descend R k n x s ≠ .ok (x.neg, s') :=
  C105_even R k hk x _ (by rw [hamming_neg]) n s s'

/-- 1.0 and 2.0 differ in 11 bits, 1.0 and 3.0 in 12: an even number of flips can lead from 1.0 to 3.0 and not to 2.0 … -/
theorem C105_example (k n : Nat) (hk : k % 2 = 0) (h0 : 0 < k) :
    (∃ m ≤ 64, ∃ draws, descend Rng.script k m (Fl.one : F64) draws = .ok (Fl.ofNat 3, [])) ∧
    ∀ draws rest, descend Rng.script k n (Fl.one : F64) draws ≠ .ok (Fl.ofNat 2, rest) :=
  ⟨C105_half (f := Fmt.f64) k hk h0 Fl.one (Fl.ofNat 3) (by decide +kernel), C105_even Rng.script k hk _ _ (by decide +kernel) n⟩

/-- … and an odd one to both. -/
example : ∃ m ≤ 64, ∃ draws, descend Rng.script 3 m (Fl.one : F64) draws = .ok (Fl.ofNat 2, []) :=
  C105_all (f := Fmt.f64) 3 rfl Fl.one (Fl.ofNat 2)

end Verif.Props
