import Verif.Proofs.Mutation

/-!
# C04, C05: mutation
-/

namespace Verif.Props

open Verif Spec Mutation

variable {σ : Type}

/-! ## C04 -/

/-- C04: `BitwiseMutation(k)` never panics; the result differs from the gene in at most `k`
bits, and the number of differing bits has the parity of `k`. -/
theorem C04_bitwise (R : Rng σ) {f : Fmt} (k : Nat) (x : Fl f) (s : σ) :
    ∃ y s', bitwise R k x s = .ok (y, s') ∧
      hamming x.bits y.bits ≤ k ∧ hamming x.bits y.bits % 2 = k % 2 := by
  obtain ⟨c, s', h1, h2, h3⟩ := flipLoop_spec R (w := f.w) (by simp only [Fmt.w]; omega)
    x.bits k x.bits s
  rw [hamming_self, Nat.zero_add] at h2 h3
  exact ⟨⟨c⟩, s', M.bind_eq_ok.2 ⟨c, s', h1, rfl⟩, h2, h3⟩

/-- C04 for one flip: exactly one bit differs. -/
theorem C04_one (R : Rng σ) {f : Fmt} (x : Fl f) (s : σ) :
    ∃ y s', bitwise R 1 x s = .ok (y, s') ∧ hamming x.bits y.bits = 1 := by
  obtain ⟨y, s', h1, h2, h3⟩ := C04_bitwise R 1 x s
  exact ⟨y, s', h1, by omega⟩

/-- C04 for no flip: the gene is returned unchanged and nothing is drawn. -/
theorem C04_zero (R : Rng σ) {f : Fmt} (x : Fl f) (s : σ) : bitwise R 0 x s = .ok (x, s) := rfl

example : ∃ y, bitwise Rng.script 2 (Fl.one : F32) [5, 31] = .ok (y, []) ∧ y.sgn = true ∧
    hamming (Fl.one : F32).bits y.bits = 2 := ⟨_, rfl, by decide +kernel⟩

/-! ## C05 -/

/-- C05: the mutated chromosome has the same length and each gene is the original or a
result of the single-gene mutation on it. -/
theorem C05_vec (R : Rng σ) {G : Type} (prob : F64) (single : G → M σ G) (xs ys : List G)
    (s s' : σ) (h : vec R prob single xs s = .ok (ys, s')) :
    ys.length = xs.length ∧
    List.Forall₂ (fun x y => y = x ∨ ∃ s1 s2, single x s1 = .ok (y, s2)) xs ys := by
  refine ⟨M.mapL_length h, M.mapL_forall₂ ?_ h⟩
  intro x _ s1 y s2 h
  obtain ⟨r, s3, _, h2⟩ := M.bind_eq_ok.1 h
  split at h2
  · exact .inr ⟨s3, s2, h2⟩
  · exact .inl (M.pure_eq_ok.1 h2).1.symm

theorem hundred_facts : (Fl.zero : F64).lt hundred = true ∧ (Fl.zero : F64).isFinite = true ∧
    hundred.isFinite = true := by decide +kernel

/-- C05: with a probability that is NaN or not above zero the chromosome is unchanged; the single-gene
mutation is not called, so this never panics. -/
theorem C05_never (R : Rng σ) {G : Type} (prob : F64) (single : G → M σ G)
    (hp : (Fl.zero : F64).lt prob = false) (xs : List G) (s : σ) :
    ∃ s', vec R prob single xs s = .ok (xs, s') := by
  obtain ⟨ys, s', h, hR⟩ := M.mapL_tot (R := fun (a b : G) => b = a) (f := fun chromo => do
    let x ← R.uniformFl (Fl.zero : F64) hundred
    if x.lt prob then single chromo else pure chromo) xs s (by
      intro a _ s
      obtain ⟨x, s1, h1, h2, h3⟩ := R.uniformFl_tot hundred_facts.1 hundred_facts.2.1
        hundred_facts.2.2 s
      have hx : x.lt prob = false := by
        cases hc : x.lt prob with
        | false => rfl
        | true => rw [Fl.lt_of_le_of_lt h2 hc] at hp; cases hp
      refine ⟨a, s1, M.bind_eq_ok.2 ⟨x, s1, h1, ?_⟩, rfl⟩
      rw [hx]; rfl)
  have : ys = xs := by
    clear h
    induction hR with
    | nil => rfl
    | cons h _ ih => rw [h, ih]
  subst this
  exact ⟨s', h⟩

/-- C05: with a probability of at least 100 every gene goes through the single-gene mutation. -/
theorem C05_always (R : Rng σ) {G : Type} (prob : F64) (single : G → M σ G)
    (hp : (Fl.ofNat 100 : F64).le prob = true) (xs ys : List G) (s s' : σ)
    (h : vec R prob single xs s = .ok (ys, s')) :
    List.Forall₂ (fun x y => ∃ s1 s2, single x s1 = .ok (y, s2)) xs ys := by
  refine M.mapL_forall₂ ?_ h
  intro x _ s1 y s2 h
  obtain ⟨r, s3, h1, h2⟩ := M.bind_eq_ok.1 h
  obtain ⟨_, h4, _⟩ := R.uniformFl_ok h1
  rw [Fl.lt_of_lt_of_le h4 (show hundred.le prob = true from hp)] at h2
  exact ⟨s3, s2, h2⟩

/-- C05: VecMutation panics only if the single-gene mutation does. -/
theorem C05_total (R : Rng σ) {G : Type} (prob : F64) (single : G → M σ G)
    (hs : ∀ x s, ∃ y s', single x s = .ok (y, s')) (xs : List G) (s : σ) :
    ∃ ys s', vec R prob single xs s = .ok (ys, s') := by
  obtain ⟨ys, s', h, _⟩ := M.mapL_tot (R := fun (_ _ : G) => True) (f := fun chromo => do
    let x ← R.uniformFl (Fl.zero : F64) hundred
    if x.lt prob then single chromo else pure chromo) xs s (by
      intro a _ s
      obtain ⟨x, s1, h1, h2, h3⟩ := R.uniformFl_tot hundred_facts.1 hundred_facts.2.1
        hundred_facts.2.2 s
      obtain ⟨y, s2, h4⟩ := hs a s1
      by_cases hx : x.lt prob = true
      · refine ⟨y, s2, M.bind_eq_ok.2 ⟨x, s1, h1, ?_⟩, trivial⟩
        rw [if_pos hx]; exact h4
      · refine ⟨a, s1, M.bind_eq_ok.2 ⟨x, s1, h1, ?_⟩, trivial⟩
        rw [if_neg hx]; rfl)
  exact ⟨ys, s', h⟩

/-- the hypotheses are met: probabilities 0, NaN and -5 for `C05_never`, 100 and inf for `C05_always`. -/
example : (Fl.zero : F64).lt Fl.zero = false ∧ (Fl.zero : F64).lt Fl.nan = false ∧
    (Fl.zero : F64).lt (Fl.ofInt (-5)) = false ∧ (Fl.ofNat 100 : F64).le (Fl.ofNat 100) = true ∧
    (Fl.ofNat 100 : F64).le (Fl.inf false) = true := by decide +kernel

/-- A run: 3 genes, probability 100, one flip each. -/
example : M.okAnd (vec Rng.script (Fl.ofNat 100) (bitwise Rng.script 1)
    [(Fl.one : F32), Fl.zero, Fl.one] [0, 31, 0, 31, 0, 0])
    (fun ys _ => ys.length == 3 && ys != [Fl.one, Fl.zero, Fl.one]) = true := by decide +kernel

end Verif.Props
