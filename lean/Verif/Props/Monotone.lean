import Verif.Spec.Monotone
import Verif.Props.Falling
import Verif.Props.Unite
import Verif.Props.CallCount

/-!
# C118: the statistics respond to better results and larger tolerances as they should
-/

namespace Verif.Fl

/-- The quotient of two natural numbers is rounded once. -/
theorem ratio_rounds {a b : Nat} (ha : a ≤ 2 ^ 53) (hb : b ≤ 2 ^ 53) (h0 : 0 < b) :
    Rounds ((a : ℝ) / b * Fmt.f64.D) (Fl.div (Fl.ofNat a) (Fl.ofNat b) : F64) := by
  have hlt : ∀ n, n ≤ 2 ^ 53 → n < 2 ^ (Fmt.f64.bias + 1) := by
    intro n hn
    exact _root_.lt_of_le_of_lt hn (Nat.pow_lt_pow_right (by decide) (by decide))
  obtain ⟨e1, f1⟩ := Fl.ofNat_exact (f := Fmt.f64) ha (hlt _ ha)
  obtain ⟨e2, f2⟩ := Fl.ofNat_exact (f := Fmt.f64) hb (hlt _ hb)
  have hD : (0 : ℝ) < Fmt.f64.D := by exact_mod_cast Fmt.f64.D_pos
  have := Fl.div_rounds f1 f2 (by
    intro h0
    rw [e2] at h0
    have hD' := Fmt.f64.D_pos
    generalize Fmt.f64.D = D at h0 hD'
    rcases Int.mul_eq_zero.1 h0 with h | h <;> omega)
  rw [e1, e2] at this
  convert this using 1
  have hl' : (b : ℝ) ≠ 0 := by exact_mod_cast h0.ne'
  push_cast
  field_simp

theorem ratio_mono {a b c d : Nat} (ha : a ≤ 2 ^ 53) (hb : b ≤ 2 ^ 53) (hb0 : 0 < b) (hc : c ≤ 2 ^ 53) (hd : d ≤ 2 ^ 53) (hd0 : 0 < d) (h : a * d ≤ c * b) :
    (Fl.div (Fl.ofNat a) (Fl.ofNat b) : F64).le (Fl.div (Fl.ofNat c) (Fl.ofNat d)) = true := by
  refine (ratio_rounds ha hb hb0).mono (ratio_rounds hc hd hd0) ?_
  have hD : (0 : ℝ) < Fmt.f64.D := by exact_mod_cast Fmt.f64.D_pos
  have h1 : (0 : ℝ) < b := by exact_mod_cast hb0
  have h2 : (0 : ℝ) < d := by exact_mod_cast hd0
  have h3 : (a : ℝ) * d ≤ c * b := by exact_mod_cast h
  have h4 : (a : ℝ) / b ≤ c / d := (div_le_div_iff₀ h1 h2).2 h3
  exact mul_le_mul_of_nonneg_right h4 hD.le

theorem sum_keeps₂ {f : Fmt} {l l' : List (Fl f)} (h : List.Forall₂ (fun x y => x.isFinite = true ∧ y.isFinite = true ∧ x.le y = true) l l') :
    ∀ {a b : Fl f}, a.le b = true → (l.foldl Fl.add a).le (l'.foldl Fl.add b) = true := by
  induction h with
  | nil => intro a b h; exact h
  | cons h1 _ ih => intro a b hab; exact ih (add_keeps hab h1.2.2 h1.1 h1.2.1)

end Verif.Fl

namespace Verif.Props

open Verif Spec Stats

variable {σ T : Type}

/-! ## The success rate -/

/-- C118: what accepts more gives a rate that is not smaller. -/
theorem C118_rate (rs : List (Option (T × F64))) (hl : rs.length ≤ 2 ^ 53) (pred pred' : T × F64 → Bool) (h : ∀ a, pred a = true → pred' a = true) (r r' : F64)
    (hr : successRate rs pred = some r) (hr' : successRate rs pred' = some r') : r.le r' = true := by
  obtain ⟨h0, rfl⟩ := successRate_eq hr
  obtain ⟨-, rfl⟩ := successRate_eq hr'
  have h1 : accepted rs pred ≤ accepted rs pred' := by
    unfold accepted
    refine List.countP_mono_left fun x _ hx => ?_
    cases x with
    | none => cases hx
    | some a => exact h a hx
  have h2 : accepted rs pred' ≤ rs.length := List.countP_le_length
  exact Fl.ratio_mono (by omega) hl h0 (by omega) hl h0 (Nat.mul_le_mul_right _ h1)

/-- C118: with a larger tolerance of the goal value the success rate is not smaller. -/
theorem C118_rate_goal (rs : List (Option (T × F64))) (hl : rs.length ≤ 2 ^ 53) (expected delta delta' : F64) (h : delta.le delta' = true) (r r' : F64)
    (hr : successRate rs (predGoal expected delta) = some r) (hr' : successRate rs (predGoal expected delta') = some r') : r.le r' = true := by
  refine C118_rate rs hl _ _ (fun a ha => ?_) r r' hr hr'
  obtain ⟨-, h2, h3⟩ := Fl.le_iff.1 h
  obtain ⟨h4, h5, h6, h7⟩ := (C59_goal expected delta a.1 a.2).1 ha
  exact (C59_goal expected delta' a.1 a.2).2 ⟨h4, h5, h2, by omega⟩

/-- C118: with larger tolerances of the coordinates the success rate is not smaller. -/
theorem C118_rate_vec {f : Fmt} (rs : List (Option (List (Fl f) × F64))) (hl : rs.length ≤ 2 ^ 53) (expected delta delta' : List (Fl f))
    (h : List.Forall₂ (fun d d' => d.le d' = true) delta delta') (s s1 s2 : σ) (pred pred' : List (Fl f) × F64 → Bool)
    (hp : predVec expected delta s = .ok (pred, s1)) (hp' : predVec expected delta' s = .ok (pred', s2)) (r r' : F64)
    (hr : successRate rs pred = some r) (hr' : successRate rs pred' = some r') : r.le r' = true := by
  refine C118_rate rs hl _ _ (fun a ha => ?_) r r' hr hr'
  refine (C59_vec expected delta' s s2 pred' hp' a.1 a.2).2 fun i x e d' hx he hd' => ?_
  obtain ⟨hi, rfl⟩ := List.getElem?_eq_some_iff.1 hd'
  have hi' : i < delta.length := by rw [h.length_eq]; exact hi
  have hle : (delta[i]).le delta'[i] = true := h.get hi' hi
  have h1 := (C59_vec expected delta s s1 pred hp a.1 a.2).1 ha i x e delta[i] hx he (List.getElem?_eq_getElem hi')
  obtain ⟨k1, k2, k3⟩ := Fl.le_iff.1 hle
  rw [Bool.eq_false_iff] at h1 ⊢
  intro hc
  obtain ⟨j1, j2, j3⟩ := Fl.lt_iff.1 hc
  exact h1 (Fl.lt_iff.2 ⟨k1, j2, by omega⟩)

/-- C118: the success rate of united statistics lies between those of the parts. -/
theorem C118_rate_unite (a b : Statistics T) (hl : a.results.length + b.results.length ≤ 2 ^ 53) (pred : T × F64 → Bool) (ra rb r : F64)
    (ha : successRate a.results pred = some ra) (hb : successRate b.results pred = some rb) (h : successRate (a.unite b).results pred = some r) :
    LiesBetween ra r rb := by
  obtain ⟨a0, rfl⟩ := successRate_eq ha
  obtain ⟨b0, rfl⟩ := successRate_eq hb
  obtain ⟨-, rfl⟩ := successRate_eq h
  have e1 : (a.unite b).results = a.results ++ b.results := rfl
  have e2 : accepted (a.unite b).results pred = accepted a.results pred + accepted b.results pred := by
    rw [e1]
    exact List.countP_append
  rw [e2, e1, List.length_append]
  have h1 : accepted a.results pred ≤ a.results.length := List.countP_le_length
  have h2 : accepted b.results pred ≤ b.results.length := List.countP_le_length
  generalize accepted a.results pred = p at *
  generalize accepted b.results pred = q at *
  generalize a.results.length = m at *
  generalize b.results.length = n at *
  rcases Nat.le_total (p * n) (q * m) with h3 | h3
  · left
    constructor <;> refine Fl.ratio_mono (by omega) (by omega) (by omega) (by omega) (by omega) (by omega) ?_ <;> nlinarith
  · right
    constructor <;> refine Fl.ratio_mono (by omega) (by omega) (by omega) (by omega) (by omega) (by omega) ?_ <;> nlinarith

/-! ## The averages -/

theorem goals_noWorse {rs rs' : List (Option (T × F64))} (h : List.Forall₂ NoWorse rs rs') :
    List.Forall₂ (fun x y : F64 => x.isFinite = true ∧ y.isFinite = true ∧ x.le y = true) (goals rs) (goals rs') := by
  induction h with
  | nil => exact .nil
  | @cons a b l l' h1 _ ih =>
    cases a with
    | none => cases b with
      | none => exact ih
      | some b => exact h1.elim
    | some a => cases b with
      | none => exact h1.elim
      | some b => exact .cons h1 ih

/-- C118: if no run is worse, the average goal is not greater, rounding included. -/
theorem C118_average (rs rs' : List (Option (T × F64))) (h : List.Forall₂ NoWorse rs rs') (hl : rs.length ≤ 2 ^ 53) :
    (averageGoal rs = none ↔ averageGoal rs' = none) ∧
    ∀ x y, averageGoal rs = some x → averageGoal rs' = some y → x.le y = true := by
  have hg := goals_noWorse h
  have hlen := hg.length_eq
  have hle : (goals rs).length ≤ rs.length := List.length_filterMap_le ..
  rw [averageGoal_eq, averageGoal_eq]
  by_cases h0 : goals rs = []
  · have h0' : goals rs' = [] := by
      rw [← List.length_eq_zero_iff, ← hlen, h0]; rfl
    simp [h0, h0']
  · have h0' : goals rs' ≠ [] := by
      intro hn
      rw [hn] at hlen
      exact h0 (List.length_eq_zero_iff.1 hlen)
    rw [if_neg h0, if_neg h0']
    refine ⟨by simp, ?_⟩
    rintro x y hx hy
    cases hx
    cases hy
    rw [← hlen]
    have hl1 : (goals rs).length ≤ 2 ^ 53 := by omega
    obtain ⟨e1, f1⟩ := Fl.ofNat_exact (f := Fmt.f64) hl1 (Nat.lt_of_le_of_lt hl1 (Nat.pow_lt_pow_right (by decide) (by decide)))
    refine Fl.div_mono (Fl.sum_keeps₂ hg ?_) f1 ?_
    · exact Fl.le_iff.2 ⟨Fl.isNan_zero, Fl.isNan_zero, Int.le_refl _⟩
    · have hD := Fmt.f64.D_pos
      have hpos : 0 < (goals rs).length := List.length_pos_iff.2 h0
      change 0 < (Fl.ofNat (goals rs).length : F64).toInt
      rw [e1]
      generalize Fmt.f64.D = D at *
      positivity

/-- C118: if no run is worse at any iteration, no entry of the averaged convergence is greater. -/
theorem C118_convergence (c c' : List (List (Option (T × F64)))) (h : List.Forall₂ (List.Forall₂ NoWorse) c c') (hl : c.length ≤ 2 ^ 53) (s : σ) :
    ∃ l l', averageConvergence c s = .ok (l, s) ∧ averageConvergence c' s = .ok (l', s) ∧ l.length = l'.length ∧
      ∀ (i : Nat) (x y : F64), l[i]? = some (some x) → l'[i]? = some (some y) → x.le y = true := by
  have hmin : minIterations c = minIterations c' := by
    have key : c.map List.length = c'.map List.length := by
      clear hl
      induction h with
      | nil => rfl
      | cons h1 _ ih => rw [List.map_cons, List.map_cons, ih, h1.length_eq]
    have e : ∀ c : List (List (Option (T × F64))), minIterations c = match c.map List.length with
        | [] => 0
        | r :: rows => (r :: rows).foldl (fun m n => if n < m then n else m) r := by
      intro c
      cases c with
      | nil => rfl
      | cons r rows =>
        show (r :: rows).foldl _ _ = ((r :: rows).map List.length).foldl _ _
        rw [List.foldl_map]
    rw [e c, e c', key]
  have hat : ∀ i, List.Forall₂ NoWorse (atIteration i c) (atIteration i c') := by
    intro i
    clear hl hmin
    unfold atIteration
    induction h with
    | nil => exact .nil
    | @cons r r' l l' h1 _ ih =>
      rw [List.filterMap_cons, List.filterMap_cons]
      by_cases hi : i < r.length
      · have hi' : i < r'.length := by rw [← h1.length_eq]; exact hi
        rw [List.getElem?_eq_getElem hi, List.getElem?_eq_getElem hi']
        exact .cons (h1.get hi hi') ih
      · have hi' : ¬ i < r'.length := by rw [← h1.length_eq]; exact hi
        rw [List.getElem?_eq_none (by omega), List.getElem?_eq_none (by omega)]
        exact ih
  refine ⟨_, _, C57_entries c s, C57_entries c' s, by simp [hmin], fun i x y hx hy => ?_⟩
  rw [List.getElem?_map] at hx hy
  obtain ⟨j, hj, hx⟩ := Option.map_eq_some_iff.1 hx
  obtain ⟨j', hj', hy⟩ := Option.map_eq_some_iff.1 hy
  rw [← hmin] at hj'
  have := hj.symm.trans hj'
  cases this
  exact (C118_average _ _ (hat j) (Nat.le_trans (List.length_filterMap_le ..) hl)).2 x y hx hy

/-- C118: the average call count lies between the least and the greatest count. -/
theorem C118_calls (p : Profile) (c : CallCount) (hc : c ≠ []) (h : c.sum ≤ 2 ^ 53) (hl : c.length ≤ 2 ^ 53) (lo hi : Nat) (hlo : ∀ n ∈ c, lo ≤ n)
    (hhi : ∀ n ∈ c, n ≤ hi) : ∃ r : F64, CallCount.average p c = .ok (some r) ∧ (Fl.ofNat lo : F64).le r = true ∧ r.le (Fl.ofNat hi) = true := by
  obtain ⟨r, h1, h2⟩ := C53_average_f64 p c hc h hl
  have hD : (0 : ℝ) < Fmt.f64.D := by exact_mod_cast Fmt.f64.D_pos
  have hlen : (0 : ℝ) < c.length := by exact_mod_cast List.length_pos_iff.2 hc
  have k1 : lo * c.length ≤ c.sum := by
    have := List.card_nsmul_le_sum c lo hlo
    simpa [Nat.mul_comm] using this
  have k2 : c.sum ≤ hi * c.length := by
    have := List.sum_le_card_nsmul c hi hhi
    simpa [Nat.mul_comm] using this
  have k1 : (lo : ℝ) * c.length ≤ (c.sum : ℕ) := by exact_mod_cast k1
  have k2 : ((c.sum : ℕ) : ℝ) ≤ hi * c.length := by exact_mod_cast k2
  refine ⟨r, h1, (Fl.ofNat_rounds lo).mono h2 ?_, h2.mono (Fl.ofNat_rounds hi) ?_⟩
  · exact mul_le_mul_of_nonneg_right ((le_div_iff₀ hlen).2 k1) hD.le
  · exact mul_le_mul_of_nonneg_right ((div_le_iff₀ hlen).2 k2) hD.le

/-! ## Instances -/

/-- C118: the average goal need not lie between the least and the greatest goal: that of three times 0.1 is greater than 0.1. -/
theorem C118_average_outside : ∃ r : F64, averageGoal [some ((), (Fl.ofRat false 1 10 : F64)), some ((), Fl.ofRat false 1 10), some ((), Fl.ofRat false 1 10)] = some r ∧
    (Fl.ofRat false 1 10 : F64).lt r = true :=
  ⟨_, rfl, by decide +kernel⟩

/-- Goals 1 and 3, one failure; expected is 1. With the tolerance 2 one run in three is accepted (the goal 3 is not nearer than 2), with 5 two are. -/
example : successRate (γ := F64) [some ((), Fl.ofNat 1), none, some ((), Fl.ofNat 3)] (predGoal (Fl.ofNat 1) (Fl.ofNat 2)) = some (Fl.ofRat false 1 3) ∧
    successRate (γ := F64) [some ((), Fl.ofNat 1), none, some ((), Fl.ofNat 3)] (predGoal (Fl.ofNat 1) (Fl.ofNat 5)) = some (Fl.ofRat false 2 3) := by
  decide +kernel

example : ∃ x y : F64, averageGoal [some ((), Fl.ofNat 1), none, some ((), Fl.ofNat 3)] = some x ∧ averageGoal [some ((), Fl.ofNat 2), none, some ((), Fl.ofNat 3)] = some y ∧
    x.le y = true :=
  ⟨_, _, rfl, rfl, (C118_average [some ((), Fl.ofNat 1), none, some ((), Fl.ofNat 3)] [some ((), Fl.ofNat 2), none, some ((), Fl.ofNat 3)]
    (.cons ⟨by decide +kernel, by decide +kernel, by decide +kernel⟩
      (.cons trivial (.cons ⟨by decide +kernel, by decide +kernel, by decide +kernel⟩ .nil))) (by decide)).2 _ _ rfl rfl⟩

example : ∃ r : F64, CallCount.average .debug [4, 0, 5] = .ok (some r) ∧ (Fl.ofNat 0 : F64).le r = true ∧ r.le (Fl.ofNat 5) = true :=
  C118_calls .debug [4, 0, 5] (by decide) (by decide) (by decide) 0 5 (by decide) (by decide)

end Verif.Props
