import Verif.Props.StatVec
import Verif.Props.CallCount
import Verif.Props.Mean
import Verif.Props.HooksNorm

/-!
# C83, C84: averages, rates and deviations in floating point
-/

namespace Verif.Fl

open Spec

variable {f : Fmt}

theorem finite_of_div {x y : Fl f} (h : (x.div y).isFinite = true) (hy : y.isFinite = true) : x.isFinite = true ∧ y.toInt ≠ 0 := by
  unfold div at h
  split_ifs at h with h1 h2 h3 h4 h5 h6
  · rw [not_finite_nan] at h; cases h
  · rw [not_finite_nan] at h; cases h
  · rw [not_finite_inf] at h; cases h
  · rw [isInf_of_isFinite hy] at h4; cases h4
  · rw [not_finite_nan] at h; cases h
  · rw [not_finite_inf] at h; cases h
  · simp only [Bool.or_eq_true, not_or, Bool.not_eq_true] at h1
    refine ⟨finite_of_not h1.1 (by simpa using h2), fun h0 => h5 ?_⟩
    exact isZero_iff.2 (toInt_eq_zero.1 h0)

theorem foldl_add_finite {xs : List (Fl f)} : ∀ {a : Fl f}, (xs.foldl Fl.add a).isFinite = true →
    a.isFinite = true ∧ ∀ x ∈ xs, x.isFinite = true := by
  induction xs with
  | nil => intro a h; exact ⟨h, by simp⟩
  | cons y ys ih =>
    intro a h
    obtain ⟨h1, h2⟩ := ih h
    obtain ⟨h3, h4⟩ := finite_of_add h1
    exact ⟨h3, List.forall_mem_cons.2 ⟨h4, h2⟩⟩

theorem value_ofNat {n : Nat} (h : n ≤ 2 ^ (f.mw + 1)) (hf : (ofNat n : Fl f).isFinite = true) : value (ofNat n : Fl f) = n := by
  have hr := ofNat_rounds (f := f) n
  have hfin := (isFinite_of_rounds hr).1 hf
  have e1 : ((n : ℝ) * f.D) = ((n * f.D : ℕ) : ℝ) := by push_cast; rfl
  have e2 : n * f.D ≤ f.mag f.infIdx := by
    by_contra hc
    have h1 : ((f.mag f.infIdx : ℕ) : ℝ) ≤ (n : ℝ) * f.D := by rw [e1]; exact_mod_cast (not_le.1 hc).le
    have h2 := f.rnd_mono h1
    rw [f.rnd_mag le_rfl] at h2
    omega
  have hD := D_posR (f := f)
  have h3 := f.rnd_short (v := n) (e := f.bias + f.mw - 1) h e2
  have e3 : n * 2 ^ (f.bias + f.mw - 1) = n * f.D := rfl
  rw [e3, ← e1] at h3
  unfold value
  rw [hr.2, h3]
  push_cast
  field_simp

end Verif.Fl

namespace Verif.Props

open Verif Spec Stats Cross

variable {σ T : Type} {f : Fmt}

/-- The error of a sum `S` of `n` numbers, divided by `n`. -/
theorem quotient_err {S : Fl f} {n : Nat} {A B g : ℝ} (hn : n ≤ 2 ^ (f.mw + 1)) (hnf : (Fl.ofNat n : Fl f).isFinite = true)
    (hq : (S.div (Fl.ofNat n)).isFinite = true) (hB : |A| ≤ B) (hS : |value S - A| ≤ (g - 1) * B) :
    |value (S.div (Fl.ofNat n)) - A / n| ≤ (g * (1 + roundoff f) - 1) * (B / n) + tiny f := by
  obtain ⟨hSf, h0⟩ := Fl.finite_of_div hq hnf
  have hv := Fl.value_ofNat hn hnf
  have hnp : (0 : ℝ) < n := by
    rcases Nat.eq_zero_or_pos n with rfl | h
    · exfalso
      apply h0
      have hD := Fl.D_posR (f := f)
      unfold value at hv
      have : ((Fl.ofNat 0 : Fl f).toInt : ℝ) = 0 := by
        rw [div_eq_iff hD.ne'] at hv; simpa using hv
      exact_mod_cast this
    · exact_mod_cast h
  have h1 := Fl.div_err hq hSf hnf h0
  rw [hv] at h1
  have hu := (Fl.roundoff_pos (f := f)).le
  have ht := (Fl.tiny_pos (f := f)).le
  have hSa : |value S| ≤ g * B := by
    have := abs_add_le (value S - A) A
    rw [sub_add_cancel] at this
    linarith
  have h2 : |value (S.div (Fl.ofNat n)) - value S / n| ≤ tiny f + g * B / n * roundoff f := by
    have h3 : |value S / n| * roundoff f ≤ g * B / n * roundoff f := by
      refine mul_le_mul_of_nonneg_right ?_ hu
      rw [abs_div, abs_of_pos hnp]
      exact div_le_div_of_nonneg_right hSa hnp.le
    have h4 : 0 ≤ |value S / n| * roundoff f := by positivity
    rcases h1 with h1 | h1 <;> linarith
  have h5 : |value S / n - A / n| ≤ (g - 1) * B / n := by
    rw [← sub_div, abs_div, abs_of_pos hnp]
    exact div_le_div_of_nonneg_right hS hnp.le
  have h6 := abs_add_le (value (S.div (Fl.ofNat n)) - value S / n) (value S / n - A / n)
  rw [sub_add_sub_cancel] at h6
  have e : (g * (1 + roundoff f) - 1) * (B / n) = (g - 1) * B / n + g * B / n * roundoff f := by ring
  linarith

theorem abs_sum_le {β : Type} (l : List β) (g : β → ℝ) : |(l.map g).sum| ≤ (l.map fun x => |g x|).sum := by
  induction l with
  | nil => simp
  | cons x l ih =>
    rw [List.map_cons, List.map_cons, List.sum_cons, List.sum_cons]
    exact le_trans (abs_add_le _ _) (by linarith)

/-- The numbers added from zero and divided by their number. -/
theorem mean_err {xs : List (Fl f)} (hn : xs.length ≤ 2 ^ (f.mw + 1)) (hnf : (Fl.ofNat xs.length : Fl f).isFinite = true)
    (hq : ((xs.foldl Fl.add Fl.zero).div (Fl.ofNat xs.length)).isFinite = true) :
    |value ((xs.foldl Fl.add Fl.zero).div (Fl.ofNat xs.length)) - mean (xs.map value)| ≤
      ((1 + roundoff f) ^ (xs.length + 1) - 1) * mean (xs.map fun x => |value x|) + tiny f := by
  have h1 := Fl.sum_err (Fl.finite_of_div hq hnf).1
  rw [Fl.value_zero, zero_add, abs_zero, zero_add] at h1
  have hu := (Fl.roundoff_pos (f := f)).le
  have := quotient_err hn hnf hq (abs_sum_le xs value) h1
  unfold mean
  rw [List.length_map, List.length_map, pow_succ]
  exact this

/-- The same with the first number as the start. -/
theorem mean_err_first {a : Fl f} {as : List (Fl f)} (hn : (a :: as).length ≤ 2 ^ (f.mw + 1))
    (hnf : (Fl.ofNat (a :: as).length : Fl f).isFinite = true)
    (hq : ((as.foldl Fl.add a).div (Fl.ofNat (a :: as).length)).isFinite = true) :
    |value ((as.foldl Fl.add a).div (Fl.ofNat (a :: as).length)) - mean ((a :: as).map value)| ≤
      ((1 + roundoff f) ^ (a :: as).length - 1) * mean ((a :: as).map fun x => |value x|) + tiny f := by
  have h1 := Fl.sum_err (Fl.finite_of_div hq hnf).1
  have hu := (Fl.roundoff_pos (f := f)).le
  have hb := abs_sum_le (a :: as) value
  rw [List.map_cons, List.map_cons, List.sum_cons, List.sum_cons] at hb
  have := quotient_err hn hnf hq hb h1
  unfold mean
  rw [List.length_map, List.length_map, List.map_cons, List.map_cons, List.sum_cons, List.sum_cons, List.length_cons, pow_succ]
  rw [List.length_cons] at this
  exact this

/-! ## C83 -/

/-- C83: a finite average goal is the mean of the goals up to a rounding error. The bound on the number of results says that it
is exact in the format; for `f64` it is 2^53. -/
theorem C83_average_goal (rs : List (Option (T × Fl f))) (r : Fl f) (h : averageGoal rs = some r) (hr : r.isFinite = true)
    (hn : (goals rs).length ≤ 2 ^ (f.mw + 1)) (hnf : (Fl.ofNat (goals rs).length : Fl f).isFinite = true) :
    |value r - mean ((goals rs).map value)| ≤
      ((1 + roundoff f) ^ ((goals rs).length + 1) - 1) * mean ((goals rs).map fun x => |value x|) + tiny f := by
  rw [averageGoal_eq] at h
  split at h
  · cases h
  · cases h
    exact mean_err hn hnf hr

/-- C83: so is every finite entry of the average convergence. -/
theorem C83_convergence (conv : List (List (Option (T × Fl f)))) (s s' : σ) (l : List (Option (Fl f)))
    (h : averageConvergence conv s = .ok (l, s')) (i : Nat) (r : Fl f) (hi : l[i]? = some (some r)) (hr : r.isFinite = true)
    (hn : (goals (atIteration i conv)).length ≤ 2 ^ (f.mw + 1))
    (hnf : (Fl.ofNat (goals (atIteration i conv)).length : Fl f).isFinite = true) :
    |value r - mean ((goals (atIteration i conv)).map value)| ≤
      ((1 + roundoff f) ^ ((goals (atIteration i conv)).length + 1) - 1) *
        mean ((goals (atIteration i conv)).map fun x => |value x|) + tiny f := by
  rw [C57_entries] at h
  cases h
  rw [List.getElem?_map] at hi
  obtain ⟨j, hj, hj2⟩ := Option.map_eq_some_iff.1 hi
  obtain rfl : i = j := by
    rw [List.getElem?_eq_some_iff] at hj
    obtain ⟨h1, h2⟩ := hj
    simpa using h2
  exact C83_average_goal _ r hj2 hr hn hnf

/-- C83: and every finite coordinate of the average point. -/
theorem C83_average (rs : List (Option (List (Fl f) × F64))) (d : Nat) (s s' : σ) (v : List (Fl f)) (g : F64)
    (hd : ∀ x ∈ points rs, x.length = d) (h : average rs s = .ok (some (v, g), s')) (i : Nat) (r : Fl f) (hi : v[i]? = some r)
    (hr : r.isFinite = true) (hn : (points rs).length ≤ 2 ^ (f.mw + 1))
    (hnf : (Fl.ofNat (points rs).length : Fl f).isFinite = true) :
    |value r - mean ((coords i (points rs)).map value)| ≤
      ((1 + roundoff f) ^ (points rs).length - 1) * mean ((coords i (points rs)).map fun x => |value x|) + tiny f := by
  have hs : ∃ r ∈ rs, r ≠ none := by
    by_contra hn
    push Not at hn
    rw [(C56_no_success rs s hn).1] at h
    cases h
  obtain ⟨v', g', h1, -, h3, h4⟩ := C56_average rs d s hd hs
  rw [h] at h1
  cases h1
  have hid : i < d := by
    rw [← h3]
    exact (List.getElem?_eq_some_iff.1 hi).1
  obtain ⟨a, as, h5, h6⟩ := h4 i hid
  rw [hi] at h6
  obtain rfl := Option.some.inj h6
  have hl := coords_length i d hid (points rs) hd
  rw [h5] at hl
  rw [h5, ← hl]
  rw [← hl] at hn hnf hr
  exact mean_err_first hn hnf hr

/-- C83: the CrossMean child of any number of parents is their mean, up to a rounding error. -/
theorem C83_cross_mean (xs : List (Fl f)) (c : Fl f) (s s' : σ) (h : crossMean xs s = .ok ([c], s')) (hc : c.isFinite = true)
    (hn : xs.length ≤ 2 ^ (f.mw + 1)) (hnf : (Fl.ofNat xs.length : Fl f).isFinite = true) :
    |value c - mean (xs.map value)| ≤
      ((1 + roundoff f) ^ (xs.length + 1) - 1) * mean (xs.map fun x => |value x|) + tiny f := by
  unfold crossMean at h
  obtain ⟨_, _, -, h2⟩ := M.bind_eq_ok.1 h
  cases h2
  exact mean_err hn hnf hc

/-- C83: the success rate is the quotient of the accepted and all runs, up to a rounding error. -/
theorem C83_success_rate (rs : List (Option (T × F64))) (pred : T × F64 → Bool) (hl : rs.length ≤ 2 ^ 53) (r : F64)
    (h : successRate rs pred = some r) :
    |value r - (accepted rs pred : ℝ) / rs.length| ≤ (accepted rs pred : ℝ) / rs.length * roundoff .f64 + tiny .f64 := by
  have hr := C58_range rs pred (by omega) r h
  obtain ⟨hpos, e⟩ := successRate_eq h
  have hle : accepted rs pred ≤ rs.length := List.countP_le_length
  have hfin := Fl.ofNat_finite (f := Fmt.f64) (n := rs.length) (by omega) (by decide)
  have hfin2 := Fl.ofNat_finite (f := Fmt.f64) (n := accepted rs pred) (by omega) (by decide)
  have hrf : r.isFinite = true := Fl.isFinite_of_between Fl.isFinite_zero Fl.isFinite_one hr.1 hr.2
  have hv1 := Fl.value_ofNat (f := Fmt.f64) (n := rs.length) hl hfin
  have hv2 := Fl.value_ofNat (f := Fmt.f64) (n := accepted rs pred) (by exact le_trans hle hl) hfin2
  rw [e] at hrf ⊢
  have h1 := Fl.div_err hrf hfin2 hfin (Fl.finite_of_div hrf hfin).2
  rw [hv1, hv2] at h1
  have hq : (0 : ℝ) ≤ (accepted rs pred : ℝ) / rs.length := by positivity
  rw [abs_of_nonneg hq] at h1
  have h2 := (Fl.tiny_pos (f := .f64)).le
  have h3 := mul_nonneg hq (Fl.roundoff_pos (f := .f64)).le
  rcases h1 with h1 | h1 <;> linarith

/-! ## Instances -/

/-- Two successes and a failure. -/
def threeRuns : List (Option (List F64 × F64)) :=
  [some ([Fl.ofNat 1, Fl.ofNat 4], Fl.ofNat 3), none, some ([Fl.ofNat 2, Fl.ofNat 5], Fl.ofNat 8)]

example : (averageGoal threeRuns).any (·.isFinite) = true ∧ (goals threeRuns).length ≤ 2 ^ (Fmt.f64.mw + 1) ∧
    (Fl.ofNat (goals threeRuns).length : F64).isFinite = true := by decide +kernel

example : M.okAnd (averageConvergence [[none, some ((), (Fl.ofNat 3 : F64))], [some ((), Fl.ofNat 8), some ((), Fl.ofNat 4)]] ())
    (fun l _ => l.length == 2 && l.all fun r => r.any (·.isFinite)) = true := by decide +kernel

example : (∀ x ∈ points threeRuns, x.length = 2) ∧ M.okAnd (average threeRuns ()) (fun r _ => match r with
    | some (v, _) => v.all (·.isFinite)
    | none => false) = true ∧ (points threeRuns).length ≤ 2 ^ (Fmt.f64.mw + 1) ∧
    (Fl.ofNat (points threeRuns).length : F64).isFinite = true := by decide +kernel

example : M.okAnd (crossMean [(Fl.ofNat 3 : F64), Fl.ofNat 7, Fl.ofNat 8] ()) (fun cs _ => cs.all (·.isFinite)) = true := by
  decide +kernel

example : ∃ r, successRate (γ := F64) threeRuns (fun s => s.2.lt (Fl.ofNat 5)) = some r ∧
    accepted threeRuns (fun s => s.2.lt (Fl.ofNat 5)) = 1 ∧ threeRuns.length ≤ 2 ^ 53 :=
  ⟨_, rfl, by decide +kernel, by decide⟩

end Verif.Props
