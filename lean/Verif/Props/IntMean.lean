import Verif.Spec.IntGenes
import Mathlib.Algebra.Order.BigOperators.Group.List
import Mathlib.Algebra.Order.Ring.Int
import Mathlib.Tactic.Linarith
import Mathlib.Tactic.Ring

/-!
# C79: CrossMean on integer genes
-/

namespace Verif.Props

open Verif Spec IntGenes

variable {σ : Type}

theorem intTy_zero (T : IntTy) : InRange T 0 := by
  unfold InRange IntTy.min IntTy.max
  have h1 : (0 : Int) < 2 ^ (T.width - 1) := by positivity
  have h2 : (0 : Int) < 2 ^ T.width := by positivity
  split <;> constructor <;> omega

theorem add_in {T : IntTy} (p : Profile) {a b : Int} (h : InRange T (a + b)) : T.add p a b = .ok (a + b) := by
  unfold IntTy.add; exact if_pos h

theorem sumLoop_ok (T : IntTy) (p : Profile) : ∀ (xs : List Int) (a : Int) (s : σ),
    (∀ k ≤ xs.length, InRange T (a + (xs.take k).sum)) →
    M.foldL (fun x y => M.ofExcept (T.add p x y)) a xs s = .ok (a + xs.sum, s)
  | [], a, s, _ => by simp [M.foldL, M.pure_run]
  | x :: xs, a, s, h => by
    refine M.foldL_cons_ok.2 ⟨a + x, s, M.ofExcept_eq_ok.2 ⟨add_in p ?_, rfl⟩, ?_⟩
    · have := h 1 (by simp)
      simpa using this
    · rw [sumLoop_ok T p xs (a + x) s, List.sum_cons, Int.add_assoc]
      intro k hk
      have := h (k + 1) (by simpa using hk)
      rw [List.take_succ_cons, List.sum_cons, ← Int.add_assoc] at this
      exact this

theorem tdiv_quotient (sum : Int) {n : Int} (hn : 0 < n) : TruncatedQuotient sum n (sum.tdiv n) := by
  have h1 := Int.mul_tdiv_add_tmod sum n
  have h2 := Int.tmod_lt_of_pos sum hn
  rcases le_total 0 sum with hs | hs
  · have h3 := Int.tmod_nonneg n hs
    have h4 := Int.tdiv_nonneg hs hn.le
    have h5 : 0 ≤ n * sum.tdiv n := mul_nonneg hn.le h4
    refine ⟨?_, ?_, mul_nonneg hs h4⟩
    · rw [abs_of_nonneg h5, abs_of_nonneg hs]; omega
    · rw [abs_of_nonneg (by omega)]; omega
  · have h3 : 0 ≤ (-sum).tmod n := Int.tmod_nonneg n (by omega)
    have h3' := Int.tmod_lt_of_pos (-sum) hn
    rw [Int.neg_tmod] at h3 h3'
    have h4 : 0 ≤ (-sum).tdiv n := Int.tdiv_nonneg (by omega) hn.le
    rw [Int.neg_tdiv] at h4
    have h5 : n * sum.tdiv n ≤ 0 := mul_nonpos_of_nonneg_of_nonpos hn.le (by omega)
    refine ⟨?_, ?_, mul_nonneg_of_nonpos_of_nonpos hs (by omega)⟩
    · rw [abs_of_nonpos h5, abs_of_nonpos hs]; omega
    · rw [abs_of_nonpos (by omega)]; omega

theorem tdiv_between {sum n a b : Int} (hn : 0 < n) (ha : n * a ≤ sum) (hb : sum ≤ n * b) : a ≤ sum.tdiv n ∧ sum.tdiv n ≤ b := by
  have h1 : a ≤ sum.tdiv n := by
    have := Int.tdiv_le_tdiv hn ha
    rwa [Int.mul_tdiv_cancel_left _ hn.ne'] at this
  have h2 : sum.tdiv n ≤ b := by
    have := Int.tdiv_le_tdiv hn hb
    rwa [Int.mul_tdiv_cancel_left _ hn.ne'] at this
  exact ⟨h1, h2⟩

theorem sum_between (xs : List Int) (a b : Int) (h : ∀ x ∈ xs, a ≤ x ∧ x ≤ b) :
    (xs.length : Int) * a ≤ xs.sum ∧ xs.sum ≤ xs.length * b := by
  induction xs with
  | nil => simp
  | cons x xs ih =>
    have h1 := h x (by simp)
    have h2 := ih fun y hy => h y (by simp [hy])
    rw [List.sum_cons, List.length_cons]
    push_cast
    constructor <;> nlinarith

/-- C79: two or more integer parents, as many as the type can count, that can be added without overflow have exactly one child: their
mean without its fractional part, which lies between the least and the greatest parent. No random numbers are drawn. -/
theorem C79_mean (T : IntTy) (p : Profile) (parents : List Int) (h2 : 2 ≤ parents.length) (hn : (parents.length : Int) ≤ T.max)
    (hs : SumsInRange T parents) (s : σ) :
    ∃ c, crossMean T p parents s = .ok ([c], s) ∧ TruncatedQuotient parents.sum parents.length c ∧
      ∀ a b, (∀ x ∈ parents, a ≤ x ∧ x ≤ b) → a ≤ c ∧ c ≤ b := by
  have hpos : (0 : Int) < parents.length := by omega
  refine ⟨parents.sum.tdiv parents.length, ?_, tdiv_quotient _ hpos, fun a b hab => ?_⟩
  · unfold crossMean
    refine M.bind_eq_ok.2 ⟨(), s, M.assert_eq_ok.2 ⟨by simpa using h2, rfl⟩, ?_⟩
    refine M.bind_eq_ok.2 ⟨parents.sum, s, ?_, ?_⟩
    · have := sumLoop_ok T p parents 0 s (by intro k hk; rw [Int.zero_add]; exact hs k hk)
      rwa [Int.zero_add] at this
    · refine M.bind_eq_ok.2 ⟨(parents.length : Int), s, M.unwrap_eq_ok.2 ⟨?_, rfl⟩, rfl⟩
      unfold IntTy.fromUsize; rw [if_pos hn]
  · have := sum_between parents a b hab
    exact tdiv_between hpos this.1 this.2

/-- C79: so it is for genes so small that even as many times each of them as there are parents is in the range. -/
theorem C79_small (T : IntTy) (parents : List Int) (h : ∀ x ∈ parents, InRange T (parents.length * x)) :
    SumsInRange T parents := by
  intro k hk
  rcases Nat.eq_zero_or_pos k with rfl | hk0
  · simpa using intTy_zero T
  have hz := intTy_zero T
  have hpos : (0 : Int) < parents.length := by omega
  have key : ∀ (xs : List Int), (∀ x ∈ xs, InRange T (parents.length * x)) →
      (xs.length : Int) * T.min ≤ parents.length * xs.sum ∧ parents.length * xs.sum ≤ (xs.length : Int) * T.max := by
    intro xs hx
    induction xs with
    | nil => simp
    | cons x xs ih =>
      have h1 := hx x (by simp)
      have h2 := ih fun y hy => hx y (by simp [hy])
      unfold InRange at h1
      rw [List.sum_cons, List.length_cons]
      push_cast
      constructor <;> nlinarith
  have h1 := key (parents.take k) fun x hx => h x (List.mem_of_mem_take hx)
  have hl : ((parents.take k).length : Int) ≤ parents.length := by
    rw [List.length_take]; omega
  have h3 : (parents.length : Int) * T.min ≤ parents.length * (parents.take k).sum := by
    refine le_trans ?_ h1.1
    have := hz.1
    nlinarith
  have h4 : (parents.length : Int) * (parents.take k).sum ≤ parents.length * T.max := by
    refine le_trans h1.2 ?_
    have := hz.2
    nlinarith
  exact ⟨le_of_mul_le_mul_left h3 hpos, le_of_mul_le_mul_left h4 hpos⟩

/-- C79: fewer than two parents: panic. -/
theorem C79_too_few (T : IntTy) (p : Profile) (parents : List Int) (h : parents.length < 2) (s : σ) :
    crossMean T p parents s = .error .assert := by
  unfold crossMean
  rw [M.bind_eq_error]; left
  have : decide (2 ≤ parents.length) = false := by simp; omega
  rw [this]; rfl

theorem sumLoop_overflow (T : IntTy) : ∀ (xs : List Int) (a : Int) (s : σ), InRange T a →
    (∃ k ≤ xs.length, ¬ InRange T (a + (xs.take k).sum)) →
    M.foldL (fun x y => M.ofExcept (T.add .debug x y)) a xs s = .error .arith
  | [], a, s, ha, h => by
    obtain ⟨k, hk, h⟩ := h
    simp at h
    exact absurd ha h
  | x :: xs, a, s, ha, h => by
    rw [M.foldL, M.bind_eq_error]
    by_cases hx : InRange T (a + x)
    · right
      refine ⟨a + x, s, M.ofExcept_eq_ok.2 ⟨add_in .debug hx, rfl⟩, sumLoop_overflow T xs (a + x) s hx ?_⟩
      obtain ⟨k, hk, h⟩ := h
      cases k with
      | zero => simp at h; exact absurd ha h
      | succ k =>
        refine ⟨k, by simpa using hk, ?_⟩
        rwa [List.take_succ_cons, List.sum_cons, ← Int.add_assoc] at h
    · left
      have : T.add .debug a x = .error .arith := by unfold IntTy.add; exact if_neg hx
      rw [this]; rfl

/-- C79: with overflow checks, parents whose sum leaves the range on the way make it panic. -/
theorem C79_overflow_checked (T : IntTy) (parents : List Int) (h2 : 2 ≤ parents.length) (h : ¬ SumsInRange T parents) (s : σ) :
    crossMean T .debug parents s = .error .arith := by
  unfold crossMean
  rw [M.bind_eq_error]; right
  refine ⟨(), s, M.assert_eq_ok.2 ⟨by simpa using h2, rfl⟩, ?_⟩
  rw [M.bind_eq_error]; left
  refine sumLoop_overflow T parents 0 s (intTy_zero T) ?_
  unfold SumsInRange at h
  push Not at h
  simpa using h

/-- C79: more parents than the type can count: panic, in every build. -/
theorem C79_too_many (T : IntTy) (p : Profile) (parents : List Int) (h : T.max < parents.length) (s : σ) :
    ∃ e, crossMean T p parents s = .error e := by
  cases hr : crossMean T p parents s with
  | error e => exact ⟨e, rfl⟩
  | ok r =>
    obtain ⟨cs, s'⟩ := r
    unfold crossMean at hr
    obtain ⟨_, s1, -, hr⟩ := M.bind_eq_ok.1 hr
    obtain ⟨_, s2, -, hr⟩ := M.bind_eq_ok.1 hr
    obtain ⟨_, s3, hr, -⟩ := M.bind_eq_ok.1 hr
    have := (M.unwrap_eq_ok.1 hr).1
    unfold IntTy.fromUsize at this
    rw [if_neg (by omega)] at this
    cases this

theorem wrap_id {T : IntTy} (hw : 1 ≤ T.width) {x : Int} (h : InRange T x) : T.wrap x = x := by
  obtain ⟨w, sg⟩ := T
  simp only at hw
  obtain ⟨n, rfl⟩ : ∃ n, w = n + 1 := ⟨w - 1, by omega⟩
  unfold InRange IntTy.min IntTy.max at h
  unfold IntTy.wrap
  simp only at h ⊢
  have e : (2 : Int) ^ (n + 1) = 2 * 2 ^ n := by ring
  cases sg
  · simp only [Bool.false_eq_true, if_false] at h ⊢
    exact Int.emod_eq_of_lt h.1 (by omega)
  · simp only [if_true, Nat.add_sub_cancel] at h ⊢
    rw [Int.bmod_eq_of_le_mul_two]
    · push_cast; rw [e]; omega
    · push_cast; rw [e]; omega

theorem wrap_add {T : IntTy} (x y : Int) : T.wrap (T.wrap x + y) = T.wrap (x + y) := by
  unfold IntTy.wrap
  split
  · exact Int.bmod_add_bmod
  · exact Int.emod_add_emod x _ y

theorem add_release {T : IntTy} (hw : 1 ≤ T.width) (a b : Int) : T.add .release a b = .ok (T.wrap (a + b)) := by
  unfold IntTy.add
  split
  · next h => rw [wrap_id hw h]
  · rfl

theorem sumLoop_release (T : IntTy) (hw : 1 ≤ T.width) : ∀ (xs : List Int) (a : Int) (s : σ),
    M.foldL (fun x y => M.ofExcept (T.add .release x y)) (T.wrap a) xs s = .ok (T.wrap (a + xs.sum), s)
  | [], a, s => by simp [M.foldL, M.pure_run]
  | x :: xs, a, s => by
    refine M.foldL_cons_ok.2 ⟨T.wrap (a + x), s, M.ofExcept_eq_ok.2 ⟨?_, rfl⟩, ?_⟩
    · rw [add_release hw, wrap_add]
    · rw [sumLoop_release T hw xs (a + x) s, List.sum_cons, Int.add_assoc]

/-- C79: without overflow checks nothing is lost but whole multiples of `2 ^ width`: the child is the quotient of the wrapped sum. -/
theorem C79_overflow_unchecked (T : IntTy) (hw : 1 ≤ T.width) (parents : List Int) (h2 : 2 ≤ parents.length)
    (hn : (parents.length : Int) ≤ T.max) (s : σ) :
    ∃ c w k, crossMean T .release parents s = .ok ([c], s) ∧ TruncatedQuotient w parents.length c ∧
      w = parents.sum + k * 2 ^ T.width ∧ InRange T w := by
  have hpos : (0 : Int) < parents.length := by omega
  have hwrap : ∃ k, T.wrap parents.sum = parents.sum + k * 2 ^ T.width := by
    unfold IntTy.wrap
    split
    · refine ⟨-(parents.sum.bdiv (2 ^ T.width)), ?_⟩
      have := Int.bmod_add_bdiv parents.sum (2 ^ T.width)
      push_cast at this
      linarith
    · refine ⟨-(parents.sum / 2 ^ T.width), ?_⟩
      have := Int.emod_add_mul_ediv parents.sum (2 ^ T.width)
      linarith
  obtain ⟨k, hk⟩ := hwrap
  refine ⟨(T.wrap parents.sum).tdiv parents.length, T.wrap parents.sum, k, ?_, tdiv_quotient _ hpos, hk, ?_⟩
  · unfold crossMean
    refine M.bind_eq_ok.2 ⟨(), s, M.assert_eq_ok.2 ⟨by simpa using h2, rfl⟩, ?_⟩
    refine M.bind_eq_ok.2 ⟨T.wrap parents.sum, s, ?_, ?_⟩
    · have := sumLoop_release T hw parents 0 s
      rwa [Int.zero_add, wrap_id hw (intTy_zero T)] at this
    · refine M.bind_eq_ok.2 ⟨(parents.length : Int), s, M.unwrap_eq_ok.2 ⟨?_, rfl⟩, rfl⟩
      unfold IntTy.fromUsize; rw [if_pos hn]
  · obtain ⟨w, sg⟩ := T
    simp only at hw
    obtain ⟨n, rfl⟩ : ∃ n, w = n + 1 := ⟨w - 1, by omega⟩
    unfold InRange IntTy.min IntTy.max IntTy.wrap
    have e : (2 : Int) ^ (n + 1) = 2 * 2 ^ n := by ring
    have hp : (0 : Int) < 2 ^ n := by positivity
    cases sg
    · simp only [Bool.false_eq_true, if_false]
      have h1 := Int.emod_nonneg parents.sum (show (2 : Int) ^ (n + 1) ≠ 0 by omega)
      have h2 := Int.emod_lt_of_pos parents.sum (show (0 : Int) < 2 ^ (n + 1) by omega)
      omega
    · simp only [if_true, Nat.add_sub_cancel]
      have h1 := Int.le_bmod (x := parents.sum) (m := 2 ^ (n + 1)) (by positivity)
      have h2 := Int.bmod_lt (x := parents.sum) (m := 2 ^ (n + 1)) (by positivity)
      push_cast at h1 h2
      rw [e] at h1 h2
      push_cast [Nat.pow_succ] at *
      omega

/-- `i8` -/
def i8 : IntTy := ⟨8, true⟩
/-- `i32` -/
def i32 : IntTy := ⟨32, true⟩
/-- `i64` -/
def i64 : IntTy := ⟨64, true⟩

/-- C79: such a child can lie far from its parents: -28 from 100 and 100 as `i8`. -/
theorem C79_outside_witness (s : σ) : crossMean i8 .release [100, 100] s = .ok ([-28], s) := rfl

example (p : Profile) (s : σ) : crossMean i32 p [7, -10, 2] s = .ok ([0], s) ∧ crossMean i32 p [-7, -10, 2] s = .ok ([-5], s) :=
  ⟨rfl, rfl⟩

example : SumsInRange i32 [7, -10, 2] ∧ ([7, -10, 2] : List Int).length ≤ i32.max :=
  ⟨C79_small _ _ (by simp only [List.mem_cons, List.not_mem_nil, or_false, forall_eq_or_imp, forall_eq]; unfold InRange; decide), by decide⟩

example : ¬ SumsInRange i8 [100, 100] := by
  intro h
  exact absurd (h 2 (by simp)).2 (by decide)

end Verif.Props
