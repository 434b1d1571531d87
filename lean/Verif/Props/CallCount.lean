import Verif.Model.Statistics
import Verif.Spec.Stats
import Verif.IEEE.More

/-!
# C53: `CallCountData`
-/

namespace Verif.Props

open Verif Spec Stats

/-- One operation. -/
def countOp (p : Profile) (c : CallCount) : CountOp → Except Err CallCount
  | .nextRun => .ok c.nextRun
  | .increment => c.increment p
  | .add n => c.add p n

/-- A history of operations. -/
def countOps (p : Profile) : CallCount → List CountOp → Except Err CallCount
  | c, [] => .ok c
  | c, op :: ops => match countOp p c op with
    | .ok c' => countOps p c' ops
    | .error e => .error e

theorem addLast_snoc (p : Profile) (init : List Nat) (x n : Nat) :
    CallCount.addLast p (init ++ [x]) n = match usizeAdd p x n with
      | .ok v => .ok (init ++ [v])
      | .error e => .error e := by
  unfold CallCount.addLast
  have h1 : (if ((init ++ [x]).length == 0) = true then init ++ [x] ++ [0] else init ++ [x]) = init ++ [x] := by simp
  have h2 : (init ++ [x]).getD ((init ++ [x]).length - 1) 0 = x := by simp
  have h3 : (init ++ [x]).length - 1 = init.length := by simp
  dsimp only
  rw [h1, h2, h3]
  cases usizeAdd p x n with
  | error e => rfl
  | ok v =>
    show Except.ok ((init ++ [x]).set init.length v) = _
    simp

theorem addLast_nil (p : Profile) (n : Nat) : CallCount.addLast p [] n = CallCount.addLast p ([] ++ [0]) n := rfl

theorem usizeAdd_eq (p : Profile) (a b : Nat) : usizeAdd p a b =
    if p = .release ∨ a + b < usizeSize then .ok ((a + b) % usizeSize) else .error .arith := by
  unfold usizeAdd
  by_cases h : a + b < usizeSize
  · simp [h, Nat.mod_eq_of_lt h]
  · cases p <;> simp [h]

/-- The counts wrap around at 2^64 in an unchecked build. -/
def wrapped (l : List Nat) : List Nat := l.map (· % usizeSize)

theorem countOps_snoc (p : Profile) : ∀ (ops : List CountOp) (init : List Nat) (x : Nat), x < usizeSize →
    countOps p (init ++ [x]) ops =
      if p = .release ∨ (x + (segments ops).1.sum < usizeSize ∧ ∀ t ∈ (segments ops).2, t.sum < usizeSize) then
        .ok (init ++ wrapped ((x + (segments ops).1.sum) :: (segments ops).2.map List.sum))
      else .error .arith := by
  intro ops
  induction ops with
  | nil =>
    intro init x hx
    simp [countOps, segments, wrapped, hx, Nat.mod_eq_of_lt hx]
  | cons op ops ih =>
    intro init x hx
    have step : ∀ n, countOp p (init ++ [x]) op = CallCount.addLast p (init ++ [x]) n →
        segments (op :: ops) = (n :: (segments ops).1, (segments ops).2) →
        countOps p (init ++ [x]) (op :: ops) =
          if p = .release ∨ (x + (segments (op :: ops)).1.sum < usizeSize ∧
              ∀ t ∈ (segments (op :: ops)).2, t.sum < usizeSize) then
            .ok (init ++ wrapped ((x + (segments (op :: ops)).1.sum) :: (segments (op :: ops)).2.map List.sum))
          else .error .arith := by
      intro n h1 h2
      rw [countOps, h1, h2, addLast_snoc, usizeAdd_eq]
      simp only [List.sum_cons]
      by_cases hp : p = .release
      · subst hp
        have hlt : (x + n) % usizeSize < usizeSize := Nat.mod_lt _ (by decide)
        simp only [true_or, ↓reduceIte]
        rw [ih init _ hlt]
        simp only [true_or, ↓reduceIte, wrapped, List.map_cons, Nat.mod_add_mod, Nat.add_assoc]
      · simp only [hp, false_or]
        by_cases hn : x + n < usizeSize
        · simp only [hn, ↓reduceIte, Nat.mod_eq_of_lt hn]
          rw [ih init _ hn]
          simp only [hp, false_or, Nat.add_assoc]
        · simp only [hn, ↓reduceIte]
          rw [if_neg (by omega)]
    cases op with
    | nextRun =>
      rw [countOps]
      show countOps p ((init ++ [x]) ++ [0]) ops = _
      rw [ih (init ++ [x]) 0 (by decide)]
      simp only [segments, List.sum_nil, Nat.add_zero, Nat.zero_add, List.map_cons, wrapped, Nat.mod_eq_of_lt hx,
        List.append_assoc, List.singleton_append, List.mem_cons, forall_eq_or_imp, hx, true_and]
    | increment => exact step 1 rfl rfl
    | add n => exact step n rfl rfl

theorem countOps_nil (p : Profile) : ∀ (ops : List CountOp),
    countOps p [] ops = if p = .release ∨ ∀ t ∈ totals ops, t < usizeSize then .ok (wrapped (totals ops))
      else .error .arith := by
  intro ops
  cases ops with
  | nil => simp [countOps, totals, segments, wrapped]
  | cons op ops =>
    have step : ∀ n, countOp p [] op = CallCount.addLast p [] n →
        segments (op :: ops) = (n :: (segments ops).1, (segments ops).2) →
        countOp p ([] ++ [0]) op = CallCount.addLast p ([] ++ [0]) n →
        countOps p [] (op :: ops) = if p = .release ∨ ∀ t ∈ totals (op :: ops), t < usizeSize then
          .ok (wrapped (totals (op :: ops))) else .error .arith := by
      intro n h1 h2 h3
      have : countOps p [] (op :: ops) = countOps p ([] ++ [0]) (op :: ops) := by
        rw [countOps, countOps, h1, h3, addLast_nil]
      rw [this, countOps_snoc p _ [] 0 (by decide)]
      unfold totals
      rw [h2]
      simp only [Nat.zero_add, List.nil_append, reduceCtorEq, ↓reduceIte, List.singleton_append, List.mem_cons,
        List.mem_map, forall_eq_or_imp, forall_exists_index, and_imp, forall_apply_eq_imp_iff₂]
    cases op with
    | nextRun =>
      rw [countOps]
      show countOps p ([] ++ [0]) ops = _
      rw [countOps_snoc p _ [] 0 (by decide)]
      simp only [totals, segments, ↓reduceIte, List.nil_append, Nat.zero_add, List.map_cons, List.mem_cons, List.mem_map,
        forall_eq_or_imp, forall_exists_index, and_imp, forall_apply_eq_imp_iff₂]
    | increment => exact step 1 rfl rfl rfl
    | add n => exact step n rfl rfl rfl

/-- C53: after any history of a new `CallCountData` whose totals fit in a `usize`, in either build profile, `get_call_count`
lists the totals of the runs in order. -/
theorem C53_totals (p : Profile) (ops : List CountOp) (h : ∀ t ∈ totals ops, t < 2 ^ 64) :
    countOps p CallCount.new ops = .ok (totals ops) := by
  have h' : ∀ t ∈ totals ops, t < usizeSize := h
  show countOps p [] ops = _
  rw [countOps_nil, if_pos (.inr h')]
  congr 1
  unfold wrapped
  conv_rhs => rw [← List.map_id (totals ops)]
  exact List.map_congr_left fun t ht => Nat.mod_eq_of_lt (h' t ht)

/-- C53: with overflow checks the counts are never wrong: a history whose totals do not fit panics. -/
theorem C53_overflow_debug (ops : List CountOp) (h : ∃ t ∈ totals ops, 2 ^ 64 ≤ t) :
    countOps .debug CallCount.new ops = .error .arith := by
  show countOps .debug [] ops = _
  rw [countOps_nil, if_neg]
  rintro (h' | h')
  · cases h'
  · obtain ⟨t, ht, hle⟩ := h
    have : t < 2 ^ 64 := h' t ht
    omega

/-- C53: without overflow checks each count is right modulo 2^64. -/
theorem C53_overflow_release (ops : List CountOp) :
    countOps .release CallCount.new ops = .ok ((totals ops).map (· % 2 ^ 64)) := by
  show countOps .release [] ops = _
  rw [countOps_nil, if_pos (.inl rfl)]
  rfl

/-- Calls before the first `next_run` open a run. -/
example : countOps .debug CallCount.new [.increment, .add 3, .nextRun, .nextRun, .increment, .increment] = .ok [4, 0, 2] :=
  C53_totals _ _ (by decide)

theorem usizeSum_eq (p : Profile) : ∀ (c : List Nat) (acc : Nat), acc + c.sum < usizeSize →
    usizeSum p acc c = .ok (acc + c.sum) := by
  intro c
  induction c with
  | nil => intro acc _; rfl
  | cons x xs ih =>
    intro acc h
    rw [List.sum_cons] at h ⊢
    have h1 : usizeAdd p acc x = .ok (acc + x) := by unfold usizeAdd; rw [if_pos (by omega)]
    show (usizeAdd p acc x >>= fun acc => usizeSum p acc xs) = _
    rw [h1]
    show usizeSum p (acc + x) xs = _
    rw [ih _ (by omega), Nat.add_assoc]

theorem usizeSum_debug : ∀ (c : List Nat) (acc : Nat), acc < usizeSize → usizeSize ≤ acc + c.sum →
    usizeSum .debug acc c = .error .arith := by
  intro c
  induction c with
  | nil => intro acc h1 h2; simp at h2; omega
  | cons x xs ih =>
    intro acc h1 h2
    rw [List.sum_cons] at h2
    show (usizeAdd .debug acc x >>= fun acc => usizeSum .debug acc xs) = _
    unfold usizeAdd
    by_cases h : acc + x < usizeSize
    · rw [if_pos h]
      exact ih _ h (by omega)
    · rw [if_neg h]; rfl

/-- C53: the average is `None` exactly for no runs. -/
theorem C53_average_none {γ : Type} [FloatT γ] (p : Profile) (c : CallCount) (r : Option γ)
    (h : CallCount.average p c = .ok r) : r = none ↔ c = [] := by
  unfold CallCount.average at h
  cases hs : usizeSum p 0 c with
  | error e => rw [hs] at h; cases h
  | ok s =>
    rw [hs] at h
    cases c with
    | nil => cases h; simp
    | cons x xs => cases h; simp

/-- C53: in exact arithmetic the average is the total divided by the number of runs. -/
theorem C53_average_exact (p : Profile) (c : CallCount) (hc : c ≠ []) (h : c.sum < 2 ^ 64) :
    CallCount.average (γ := ℝ) p c = .ok (some ((c.sum : ℝ) / c.length)) := by
  unfold CallCount.average
  rw [usizeSum_eq p c 0 (by rw [Nat.zero_add]; exact h)]
  show Except.ok _ = _
  have : (c.length == 0) = false := by simp [hc]
  simp only [this, Bool.false_eq_true, ↓reduceIte, Nat.zero_add]
  rfl

/-- C53: as a double, the average is the number nearest to the quotient as long as the total and the number of runs are
at most 2^53. (`Rounds q r`: `r` is `q` units rounded to nearest; a unit is the smallest positive double.) -/
theorem C53_average_f64 (p : Profile) (c : CallCount) (hc : c ≠ []) (h : c.sum ≤ 2 ^ 53) (hl : c.length ≤ 2 ^ 53) :
    ∃ r : F64, CallCount.average p c = .ok (some r) ∧ Fl.Rounds ((c.sum : ℝ) / c.length * Fmt.f64.D) r := by
  have h64 : c.sum < usizeSize := lt_of_le_of_lt h (by decide)
  refine ⟨Fl.div (Fl.ofNat c.sum) (Fl.ofNat c.length), ?_, ?_⟩
  · unfold CallCount.average
    rw [usizeSum_eq p c 0 (by rw [Nat.zero_add]; exact h64)]
    show Except.ok _ = _
    have : (c.length == 0) = false := by simp [hc]
    simp only [this, Bool.false_eq_true, ↓reduceIte, Nat.zero_add]
    rfl
  · have hb : ∀ n, n ≤ 2 ^ 53 → n < 2 ^ (Fmt.f64.bias + 1) := by
      intro n hn
      refine lt_of_le_of_lt hn (Nat.pow_lt_pow_right (by decide) (by decide))
    obtain ⟨e1, f1⟩ := Fl.ofNat_exact (f := Fmt.f64) h (hb _ h)
    obtain ⟨e2, f2⟩ := Fl.ofNat_exact (f := Fmt.f64) hl (hb _ hl)
    have hlen : 0 < c.length := List.length_pos_iff.2 hc
    have hD : (0 : ℝ) < Fmt.f64.D := by exact_mod_cast Fmt.f64.D_pos
    generalize c.sum = S at *
    have := Fl.div_rounds f1 f2 (by
      intro h0
      rw [e2] at h0
      have hD' := Fmt.f64.D_pos
      generalize Fmt.f64.D = D at h0 hD'
      rcases Int.mul_eq_zero.1 h0 with h | h <;> omega)
    rw [e1, e2] at this
    convert this using 1
    have hl' : (c.length : ℝ) ≠ 0 := by exact_mod_cast hlen.ne'
    push_cast
    field_simp

/-- C53: with overflow checks the average of counts whose total does not fit panics. -/
theorem C53_average_overflow {γ : Type} [FloatT γ] (c : CallCount) (h : 2 ^ 64 ≤ c.sum) :
    CallCount.average (γ := γ) .debug c = .error .arith := by
  unfold CallCount.average
  rw [usizeSum_debug c 0 (by decide) (by rw [Nat.zero_add]; exact h)]
  rfl

example : ∃ r : F64, CallCount.average .debug [4, 0, 2] = .ok (some r) ∧
    Fl.Rounds (((([4, 0, 2] : List Nat).sum : ℕ) : ℝ) / (([4, 0, 2] : List Nat).length : ℕ) * Fmt.f64.D) r :=
  C53_average_f64 .debug [4, 0, 2] (by decide) (by decide) (by decide)

/-- C53: `unite` concatenates. -/
theorem C53_unite (a b : CallCount) (i : Nat) : (a.unite b).length = a.length + b.length ∧
    (a.unite b)[i]? = if i < a.length then a[i]? else b[i - a.length]? := by
  refine ⟨List.length_append, ?_⟩
  unfold CallCount.unite
  split
  · rw [List.getElem?_append_left (by assumption)]
  · rw [List.getElem?_append_right (by omega)]

end Verif.Props
