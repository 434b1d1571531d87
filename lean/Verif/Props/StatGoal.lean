import Verif.Model.Statistics
import Verif.Spec.Stats
import Verif.IEEE.Algebra
import Verif.IEEE.More
import Verif.Props.Inertia
import Mathlib.Tactic.FieldSimp
import Mathlib.Tactic.Ring
import Mathlib.Tactic.Linarith
import Mathlib.Tactic.Positivity

/-!
# C54, C55, C57, C58, C59: statistics of goal values
-/

namespace Verif.Props

open Verif Spec Stats

variable {σ T γ : Type}

theorem goals_eq (rs : List (Option (T × γ))) : goals rs = (successes rs).map Prod.snd := by
  unfold goals successes
  induction rs with
  | nil => rfl
  | cons r rs ih => cases r <;> simp [ih]

theorem points_eq (rs : List (Option (T × γ))) : points rs = (successes rs).map Prod.fst := by
  unfold points successes
  induction rs with
  | nil => rfl
  | cons r rs ih => cases r <;> simp [ih]

theorem goals_nil (rs : List (Option (T × γ))) : goals rs = [] ↔ ∀ r ∈ rs, r = none := by
  unfold goals
  simp [List.filterMap_eq_nil_iff]

/-- What `get_average_goal` computes, in terms of the goal values. -/
theorem averageGoal_eq [FloatT γ] (rs : List (Option (T × γ))) : averageGoal rs =
    if goals rs = [] then none
    else some (FloatT.div ((goals rs).foldl FloatT.add FloatT.zero) (FloatT.ofNat (goals rs).length)) := by
  unfold averageGoal
  rw [goals_eq]
  simp only [List.length_map, List.foldl_map, beq_iff_eq, List.length_eq_zero_iff, List.map_eq_nil_iff]

/-! ## C54 -/

/-- C54: the average is `None` exactly if there is no successful solution. -/
theorem C54_none [FloatT γ] (rs : List (Option (T × γ))) : averageGoal rs = none ↔ ∀ r ∈ rs, r = none := by
  rw [averageGoal_eq, ← goals_nil]
  split <;> simp_all

/-- C54: failures do not matter. -/
theorem C54_ignores_failures [FloatT γ] (rs : List (Option (T × γ))) :
    averageGoal rs = averageGoal (rs.filter Option.isSome) := by
  have : goals (rs.filter Option.isSome) = goals rs := by
    unfold goals
    induction rs with
    | nil => rfl
    | cons r rs ih => cases r <;> simp [ih]
  rw [averageGoal_eq, averageGoal_eq, this]

theorem foldl_add_real (l : List ℝ) (a : ℝ) : l.foldl FloatT.add a = a + l.sum := by
  induction l generalizing a with
  | nil => simp
  | cons x xs ih =>
    rw [List.foldl_cons, ih, List.sum_cons]
    show a + x + _ = _
    ring

/-- C54: in exact arithmetic it is the mean of the goals of the successful solutions. -/
theorem C54_exact (rs : List (Option (T × ℝ))) (h : ∃ r ∈ rs, r ≠ none) : averageGoal rs = some (mean (goals rs)) := by
  have hg : goals rs ≠ [] := by
    intro h'
    obtain ⟨r, hr, hn⟩ := h
    exact hn ((goals_nil rs).1 h' r hr)
  rw [averageGoal_eq, if_neg hg, foldl_add_real]
  show some ((0 + _) / ((goals rs).length : ℝ)) = _
  rw [zero_add]; rfl

end Verif.Props

namespace Verif.Fl

variable {f : Fmt}

theorem feq_of_exact {x r : Fl f} (hx : x.isNan = false) (hr : r.isNan = false) (h : r.toInt = x.toInt) :
    r.feq x = true := feq_iff.2 ⟨hr, hx, h⟩

theorem ofNat_one_exact : (ofNat 1 : Fl f).toInt = f.D ∧ (ofNat 1 : Fl f).isFinite = true := by
  have := ofNat_exact (f := f) (n := 1) (by have := two_le_pow (f := f); omega) (lt_pow_bias (by omega))
  simpa using this

/-- Dividing by 1. -/
theorem div_ofNat_one {x : Fl f} (hx : x.isNan = false) : (x.div (ofNat 1)).isNan = false ∧
    (x.div (ofNat 1)).toInt = x.toInt := by
  obtain ⟨e, hf⟩ := ofNat_one_exact (f := f)
  have hD := f.D_pos
  cases hi : x.isFinite with
  | true =>
    have := div_rounds hi hf (by rw [e]; omega)
    rw [e] at this
    have h2 : (x.toInt : ℝ) * f.D / ((f.D : Int) : ℝ) = x.toInt := by
      have : (f.D : ℝ) ≠ 0 := by positivity
      push_cast
      field_simp
    rw [h2] at this
    exact ⟨this.1, this.2.trans (rnd_toInt hx)⟩
  | false =>
    rcases isFinite_false_cases hi with h | h
    · rw [h] at hx; cases hx
    · have hs : (ofNat 1 : Fl f).sgn = false := sgn_of_toInt_pos (by rw [e]; omega)
      have : x.div (ofNat 1) = x := by
        unfold div
        simp only [hx, isNan_of_isFinite hf, Bool.or_self, Bool.false_eq_true, ↓reduceIte, h, isInf_of_isFinite hf, hs]
        apply ext'
        · rw [sgn_inf]; simp
        · rw [idx_inf]; exact (isInf_iff.1 h).symm
      rw [this]; exact ⟨hx, rfl⟩

theorem zero_toInt : (zero : Fl f).toInt = 0 := toInt_eq_zero.2 idx_zero

/-- Adding to +0. -/
theorem zero_add_exact {x : Fl f} (hx : x.isNan = false) : ((zero : Fl f).add x).isNan = false ∧
    ((zero : Fl f).add x).toInt = x.toInt := by
  cases hi : x.isFinite with
  | true =>
    have := add_rounds (isFinite_zero (f := f)) hi
    rw [zero_toInt] at this
    simp only [Int.cast_zero, _root_.zero_add] at this
    exact ⟨this.1, this.2.trans (rnd_toInt hx)⟩
  | false =>
    rcases isFinite_false_cases hi with h | h
    · rw [h] at hx; cases hx
    · have : (zero : Fl f).add x = x := by
        unfold add
        simp only [hx, isNan_zero, Bool.or_self, Bool.false_eq_true, ↓reduceIte, h,
          isInf_of_isFinite isFinite_zero]
      rw [this]; exact ⟨hx, rfl⟩

/-- Not a number, or without a sign bit. -/
def Pos (x : Fl f) : Prop := x.isNan = true ∨ x.sgn = false

theorem pos_zero : Pos (zero : Fl f) := .inr (sgn_mk' _ (Nat.two_pow_pos _))

theorem Pos.not_lt {x : Fl f} (h : Pos x) : x.lt zero = false := by
  rw [Bool.eq_false_iff]
  intro hlt
  obtain ⟨h1, -, h2⟩ := lt_iff.1 hlt
  rw [zero_toInt] at h2
  rcases h with h | h
  · rw [h] at h1; cases h1
  · have := toInt_nonneg_of_sgn h; omega

theorem Pos.add {x y : Fl f} (hx : Pos x) (hy : Pos y) : Pos (x.add y) := by
  rcases hx with hx | hx
  · exact .inl (by rw [isNan_add_left _ _ hx]; exact isNan_nan)
  rcases hy with hy | hy
  · exact .inl (by rw [isNan_add_right _ _ hy]; exact isNan_nan)
  have h1 := toInt_nonneg_of_sgn hx
  have h2 := toInt_nonneg_of_sgn hy
  unfold Fl.add
  split
  · exact .inl isNan_nan
  split
  · split
    · exact .inl isNan_nan
    · exact .inr hx
  split
  · exact .inr hy
  dsimp only
  split
  · exact .inr (by rw [sgn_mk' _ (Nat.two_pow_pos _), hx]; rfl)
  · refine .inr ?_
    rw [sgn_round]
    simp only [decide_eq_false_iff_not]
    omega

theorem pos_sq (x : Fl f) : Pos (x.mul x) := by
  cases h : (x.mul x).isNan with
  | true => exact .inl h
  | false => exact .inr (by rw [sgn_mul h]; simp)

theorem sgn_ofNat (n : Nat) : (ofNat n : Fl f).sgn = false := by unfold ofNat; rw [sgn_round]

theorem Pos.div_ofNat {x : Fl f} (hx : Pos x) (n : Nat) : Pos (x.div (ofNat n)) := by
  rcases hx with hx | hx
  · exact .inl (by rw [isNan_div_left _ _ hx]; exact isNan_nan)
  cases h : (x.div (ofNat n)).isNan with
  | true => exact .inl h
  | false => exact .inr (by rw [sgn_div h, hx, sgn_ofNat]; rfl)

theorem Pos.sqrt {x : Fl f} (hx : Pos x) : Pos x.sqrt ∧ (x.isNan = false → x.sqrt.isNan = false) := by
  unfold Fl.sqrt
  split
  · exact ⟨.inl isNan_nan, fun h => by simp_all⟩
  split
  · exact ⟨hx, id⟩
  split
  · rcases hx with hx | hx <;> simp_all
  split
  · exact ⟨hx, id⟩
  · refine ⟨.inr ?_, fun _ => ?_⟩
    · dsimp only; rw [sgn_round]
    · dsimp only; rw [isNan_round]

end Verif.Fl

namespace Verif.Props

open Verif Spec Stats

variable {σ T γ : Type}

/-- C54: a single success is returned exactly (a negative zero comes back as a zero). -/
theorem C54_single {f : Fmt} (rs : List (Option (T × Fl f))) (g : Fl f) (h : goals rs = [g]) :
    ∃ r, averageGoal rs = some r ∧ (g.isNan = true → r.isNan = true) ∧
      (g.isNan = false → r.feq g = true ∧ (g.isZero = false → r = g)) := by
  refine ⟨Fl.div (Fl.add Fl.zero g) (Fl.ofNat 1), ?_, ?_, ?_⟩
  · rw [averageGoal_eq, h]; simp only [reduceCtorEq, ↓reduceIte]; rfl
  · intro hn
    rw [Fl.isNan_div_left _ _ (by rw [Fl.isNan_add_right _ _ hn]; exact Fl.isNan_nan)]
    exact Fl.isNan_nan
  · intro hn
    obtain ⟨h1, h2⟩ := Fl.zero_add_exact hn
    obtain ⟨h3, h4⟩ := Fl.div_ofNat_one h1
    refine ⟨Fl.feq_of_exact hn h3 (h4.trans h2), fun hz => Fl.ext_toInt (h4.trans h2) fun h0 => ?_⟩
    have := Fl.isZero_iff.2 (Fl.toInt_eq_zero.1 h0)
    rw [this] at hz; cases hz

/-- Non-vacuity: two failures and one success. -/
example : ∃ r, averageGoal [none, some ((), (Fl.ofNat 7 : F64)), none] = some r ∧ r = Fl.ofNat 7 := by
  obtain ⟨r, h, -, h2⟩ := C54_single [none, some ((), (Fl.ofNat 7 : F64)), none] (Fl.ofNat 7) rfl
  exact ⟨r, h, (h2 (by decide +kernel)).2 (by decide +kernel)⟩

/-! ## C55 -/

theorem successes_length (rs : List (Option (T × γ))) : (successes rs).length = (goals rs).length := by
  rw [goals_eq, List.length_map]

theorem goals_length_le (rs : List (Option (T × γ))) : (goals rs).length ≤ rs.length := List.length_filterMap_le _ _

/-- What `get_standard_deviation_goal` computes, in terms of the goal values. -/
theorem stdDevGoal_eq [FloatT γ] (rs : List (Option (T × γ))) : stdDevGoal rs =
    if (goals rs).length < 2 then none
    else (averageGoal rs).map fun avg => FloatT.sqrt (FloatT.div ((goals rs).foldl (fun acc g =>
      FloatT.add acc (FloatT.mul (FloatT.sub g avg) (FloatT.sub g avg))) FloatT.zero)
        (FloatT.ofNat ((goals rs).length - 1))) := by
  unfold stdDevGoal
  cases h : averageGoal rs with
  | none => simp
  | some avg =>
    have := goals_length_le rs
    simp only [successes_length, Option.map_some]
    by_cases h2 : (goals rs).length < 2
    · simp only [h2, ↓reduceIte, ite_self]
    · rw [if_neg (by omega), if_neg h2, if_neg h2, goals_eq, List.foldl_map, List.length_map]

/-- C55: the deviation is `None` exactly if fewer than two solutions are successful. -/
theorem C55_none [FloatT γ] (rs : List (Option (T × γ))) :
    stdDevGoal rs = none ↔ (rs.filter Option.isSome).length < 2 := by
  have hl : (rs.filter Option.isSome).length = (goals rs).length := by
    unfold goals
    induction rs with
    | nil => rfl
    | cons r rs ih => cases r <;> simp [ih]
  rw [hl, stdDevGoal_eq]
  by_cases h : (goals rs).length < 2
  · simp [h]
  · have : averageGoal rs ≠ none := by
      rw [averageGoal_eq]
      split
      · next hg => rw [hg] at h; simp at h
      · simp
    simp [h, this]

theorem foldl_sq_real (l : List ℝ) (m a : ℝ) :
    l.foldl (fun acc g => FloatT.add acc (FloatT.mul (FloatT.sub g m) (FloatT.sub g m))) a =
      a + (l.map fun x => (x - m) ^ 2).sum := by
  induction l generalizing a with
  | nil => simp
  | cons x xs ih =>
    rw [List.foldl_cons, ih, List.map_cons, List.sum_cons]
    show a + (x - m) * (x - m) + _ = _
    ring

theorem dev_real (l : List ℝ) (h : 2 ≤ l.length) :
    FloatT.sqrt (FloatT.div (l.foldl (fun acc g =>
      FloatT.add acc (FloatT.mul (FloatT.sub g (mean l)) (FloatT.sub g (mean l)))) FloatT.zero)
        (FloatT.ofNat (l.length - 1))) = Real.sqrt (sampleVariance l) := by
  rw [foldl_sq_real]
  show Real.sqrt ((0 + _) / ((l.length - 1 : ℕ) : ℝ)) = _
  unfold sampleVariance
  rw [zero_add, Nat.cast_sub (by omega), Nat.cast_one]

/-- C55: in exact arithmetic it is the square root of the unbiased sample variance. -/
theorem C55_exact (rs : List (Option (T × ℝ))) (h : 2 ≤ (goals rs).length) :
    stdDevGoal rs = some (Real.sqrt (sampleVariance (goals rs))) := by
  have hs : ∃ r ∈ rs, r ≠ none := by
    by_contra hn
    push Not at hn
    rw [(goals_nil rs).2 hn] at h
    simp at h
  rw [stdDevGoal_eq, if_neg (by omega), C54_exact rs hs, Option.map_some, dev_real _ h]

theorem sampleVariance_zero (l : List ℝ) (h : 2 ≤ l.length) :
    sampleVariance l = 0 ↔ ∀ x ∈ l, ∀ y ∈ l, x = y := by
  have hl : (2 : ℝ) ≤ l.length := by exact_mod_cast h
  unfold sampleVariance
  rw [div_eq_zero_iff]
  have hnn : ∀ a ∈ l.map (fun x => (x - mean l) ^ 2), (0 : ℝ) ≤ a := by
    intro a ha
    obtain ⟨x, -, rfl⟩ := List.mem_map.1 ha
    positivity
  constructor
  · rintro (h0 | h0)
    · have key : ∀ x ∈ l, x = mean l := by
        intro x hx
        have h1 := List.single_le_sum hnn _ (List.mem_map_of_mem (f := fun x => (x - mean l) ^ 2) hx)
        rw [h0] at h1
        have h2 : (x - mean l) ^ 2 = 0 := le_antisymm h1 (by positivity)
        have := pow_eq_zero_iff (two_ne_zero) |>.1 h2
        linarith
      intro x hx y hy
      rw [key x hx, key y hy]
    · linarith
  · intro hall
    left
    have hm : ∀ x ∈ l, x = mean l := by
      intro x hx
      have : l = List.replicate l.length x := List.eq_replicate_iff.2 ⟨rfl, fun y hy => hall y hy x hx⟩
      unfold mean
      have hs : l.sum = l.length * x := by
        conv_lhs => rw [this]
        simp
      rw [hs]
      field_simp
    have : l.map (fun x => (x - mean l) ^ 2) = l.map (fun _ => (0 : ℝ)) :=
      List.map_congr_left fun x hx => by rw [← hm x hx]; ring
    rw [this]
    simp

/-- C55: in exact arithmetic the deviation is zero exactly if all goals are equal. -/
theorem C55_zero (rs : List (Option (T × ℝ))) (r : ℝ) (h : stdDevGoal rs = some r) :
    r = 0 ↔ ∀ x ∈ goals rs, ∀ y ∈ goals rs, x = y := by
  have h2 : 2 ≤ (goals rs).length := by
    by_contra hn
    rw [stdDevGoal_eq, if_pos (by omega)] at h
    cases h
  rw [C55_exact rs h2] at h
  cases h
  rw [← sampleVariance_zero _ h2]
  have : 0 ≤ sampleVariance (goals rs) := by
    unfold sampleVariance
    have hl : (2 : ℝ) ≤ (goals rs).length := by exact_mod_cast h2
    refine div_nonneg (List.sum_nonneg ?_) (by linarith)
    intro a ha
    obtain ⟨x, -, rfl⟩ := List.mem_map.1 ha
    positivity
  exact Real.sqrt_eq_zero this

/-- C55: in floating point it is never negative. -/
theorem C55_nonneg {f : Fmt} (rs : List (Option (T × Fl f))) (r : Fl f) (h : stdDevGoal rs = some r) :
    r.lt Fl.zero = false := by
  rw [stdDevGoal_eq] at h
  split at h
  · cases h
  obtain ⟨avg, -, rfl⟩ := Option.map_eq_some_iff.1 h
  have : ∀ (l : List (Fl f)) (a : Fl f), a.Pos → (l.foldl (fun acc g =>
      Fl.add acc (Fl.mul (Fl.sub g avg) (Fl.sub g avg))) a).Pos := by
    intro l
    induction l with
    | nil => exact fun a ha => ha
    | cons x xs ih => exact fun a ha => ih _ (ha.add (Fl.pos_sq _))
  exact ((this _ _ Fl.pos_zero).div_ofNat _).sqrt.1.not_lt

example : stdDevGoal [some ((), (3 : ℝ)), none, some ((), 5)] = some (Real.sqrt (sampleVariance [3, 5])) :=
  C55_exact _ (by decide)

/-- Two equal goals: the deviation is zero in floating point too. -/
example : ∃ r, stdDevGoal [some ((), (Fl.ofNat 3 : F64)), none, some ((), Fl.ofNat 3)] = some r ∧ r = Fl.zero := by
  refine ⟨_, rfl, ?_⟩
  decide +kernel

/-! ## C57 -/

theorem minIterations_fold {β : Type} (rows : List (List β)) (m : Nat) :
    let r := rows.foldl (fun m x => if x.length < m then x.length else m) m
    (r ≤ m ∧ ∀ row ∈ rows, r ≤ row.length) ∧ (r = m ∨ ∃ row ∈ rows, row.length = r) := by
  induction rows generalizing m with
  | nil => simp
  | cons x xs ih =>
    obtain ⟨⟨h1, h2⟩, h3⟩ := ih (if x.length < m then x.length else m)
    simp only [List.foldl_cons, List.mem_cons, forall_eq_or_imp, exists_eq_or_imp]
    refine ⟨⟨?_, ?_, h2⟩, ?_⟩
    · split at h1 <;> split <;> omega
    · split at h1 <;> split <;> omega
    · rcases h3 with h3 | h3
      · by_cases h : x.length < m
        · rw [if_pos h] at h3
          exact .inr (.inl (by rw [if_pos h, h3]))
        · rw [if_neg h] at h3
          exact .inl (by rw [if_neg h, h3])
      · exact .inr (.inr h3)

/-- C57: `get_min_iterations` is the length of the shortest run, 0 if there are none. -/
theorem C57_min {β : Type} (conv : List (List β)) : (conv = [] → minIterations conv = 0) ∧
    (∀ row ∈ conv, minIterations conv ≤ row.length) ∧ (conv ≠ [] → ∃ row ∈ conv, row.length = minIterations conv) := by
  cases conv with
  | nil => simp [minIterations]
  | cons r rows =>
    obtain ⟨⟨h1, h2⟩, h3⟩ := minIterations_fold (r :: rows) r.length
    refine ⟨by simp, h2, fun _ => ?_⟩
    rcases h3 with h3 | h3
    · exact ⟨r, by simp, h3.symm⟩
    · exact h3

theorem avgStep_fold [FloatT γ] (full : List (List (Option (T × γ)))) (i : Nat) (s : σ) :
    ∀ (post pre : List (List (Option (T × γ)))) (acc : Nat × γ), full = pre ++ post → (∀ row ∈ post, i < row.length) →
      M.foldL (avgStep full i) acc (List.range' pre.length post.length) s =
        .ok (((acc.1 + (goals (atIteration i post)).length),
          (goals (atIteration i post)).foldl FloatT.add acc.2), s) := by
  intro post
  induction post with
  | nil => intro pre acc _ _; rfl
  | cons row post ih =>
    intro pre acc hfull hlen
    have hrow := hlen row (by simp)
    rw [List.length_cons, List.range'_succ]
    refine M.bind_eq_ok.2 ⟨(match row[i] with
      | some sol => (acc.1 + 1, FloatT.add acc.2 sol.2)
      | none => acc), s, ?_, ?_⟩
    · refine M.bind_eq_ok.2 ⟨row, s, M.index_eq_ok.2 ⟨by rw [hfull]; simp, rfl⟩,
        M.bind_eq_ok.2 ⟨row[i], s, M.index_eq_ok.2 ⟨by simp [hrow], rfl⟩, rfl⟩⟩
    · have := ih (pre ++ [row]) (match row[i] with
        | some sol => (acc.1 + 1, FloatT.add acc.2 sol.2)
        | none => acc) (by rw [hfull]; simp) (fun r hr => hlen r (by simp [hr]))
      rw [List.length_append, List.length_singleton] at this
      rw [this]
      have hat : atIteration i (row :: post) = row[i] :: atIteration i post := by
        unfold atIteration
        simp [hrow]
      rw [hat]
      cases row[i] with
      | none => simp [goals]
      | some sol => simp [goals]; omega

/-- C57: there is one entry for each iteration up to the shortest run, and entry `i` is the average goal (as in C54) of
what the runs have at iteration `i`; the function cannot panic. -/
theorem C57_entries [FloatT γ] (conv : List (List (Option (T × γ)))) (s : σ) :
    averageConvergence conv s =
      .ok ((List.range (minIterations conv)).map fun i => averageGoal (atIteration i conv), s) := by
  unfold averageConvergence
  have : ∀ (l : List Nat), (∀ i ∈ l, i < minIterations conv) →
      M.mapL (fun i => do
        let (n, sum) ← M.foldL (avgStep conv i) (0, FloatT.zero) (List.range conv.length)
        pure (if n != 0 then some (FloatT.div sum (FloatT.ofNat n)) else none) : Nat → M σ (Option γ)) l s =
        .ok (l.map fun i => averageGoal (atIteration i conv), s) := by
    intro l
    induction l with
    | nil => intro _; rfl
    | cons i l ih =>
      intro h
      refine M.bind_eq_ok.2 ⟨averageGoal (atIteration i conv), s, ?_, M.bind_eq_ok.2 ⟨_, s,
        ih (fun j hj => h j (by simp [hj])), rfl⟩⟩
      have hi := h i (by simp)
      have := avgStep_fold conv i s conv [] (0, FloatT.zero) rfl
        (fun row hr => lt_of_lt_of_le hi ((C57_min conv).2.1 row hr))
      rw [List.length_nil, ← List.range_eq_range'] at this
      refine M.bind_eq_ok.2 ⟨_, s, this, ?_⟩
      show Except.ok _ = _
      rw [averageGoal_eq]
      simp only [Nat.zero_add]
      by_cases hg : goals (atIteration i conv) = []
      · simp [hg]
      · simp [hg]
  exact this _ (fun i hi => by simpa using hi)

/-- C57: in exact arithmetic each entry is the mean over the runs that have a solution there, and `None` exactly if no
run has one. -/
theorem C57_exact (conv : List (List (Option (T × ℝ)))) (s : σ) (i : Nat) (hi : i < minIterations conv) :
    ∃ l, averageConvergence conv s = .ok (l, s) ∧ l.length = minIterations conv ∧
      (l[i]? = some none ↔ ∀ row ∈ conv, row[i]? = some none) ∧
      ((∃ row ∈ conv, row[i]? ≠ some none) → l[i]? = some (some (mean (goals (atIteration i conv))))) := by
  have hcell : ∀ row ∈ conv, ∃ c, row[i]? = some c := by
    intro row hr
    have := lt_of_lt_of_le hi ((C57_min conv).2.1 row hr)
    exact ⟨row[i], by simp [this]⟩
  have hall : (∀ r ∈ atIteration i conv, r = none) ↔ ∀ row ∈ conv, row[i]? = some none := by
    unfold atIteration
    simp only [List.mem_filterMap]
    constructor
    · intro h row hr
      obtain ⟨c, hc⟩ := hcell row hr
      rw [hc, h c ⟨row, hr, hc⟩]
    · rintro h r ⟨row, hr, hc⟩
      rw [h row hr] at hc
      cases hc; rfl
  refine ⟨_, C57_entries conv s, by simp, ?_, ?_⟩
  · rw [List.getElem?_map, List.getElem?_range hi, Option.map_some, Option.some_inj, C54_none, hall]
  · intro hex
    rw [List.getElem?_map, List.getElem?_range hi, Option.map_some, C54_exact]
    by_contra hn
    push Not at hn
    obtain ⟨row, hr, hne⟩ := hex
    exact hne (hall.1 hn row hr)

/-- C57: the documentation ("`None` if Solution is None for any running") is wrong: one of two runs has no solution, and
the entry is not `None`. -/
theorem C57_docs_wrong : averageConvergence [[none], [some ((), (7 : ℝ))]] () = .ok ([some 7], ()) := by
  obtain ⟨l, h, hl, -, h2⟩ := C57_exact [[none], [some ((), (7 : ℝ))]] () 0 (by decide)
  have := h2 ⟨[some ((), 7)], by simp, by simp⟩
  rw [h]
  have hlen : l.length = 1 := hl
  match l, hlen with
  | [a], _ =>
    simp only [List.getElem?_cons_zero, Option.some_inj] at this
    rw [this]
    have hg : goals (atIteration 0 [[none], [some ((), (7 : ℝ))]]) = [7] := rfl
    rw [hg]
    norm_num [mean]

/-! ## C58 -/

/-- C58: the rate is `None` exactly for no runs. -/
theorem C58_none [FloatT γ] (rs : List (Option (T × F64))) (pred : T × F64 → Bool) :
    successRate (γ := γ) rs pred = none ↔ rs = [] := by
  unfold successRate
  cases rs <;> simp

theorem accepted_eq (rs : List (Option (T × F64))) (pred : T × F64 → Bool) :
    ((rs.filterMap id).filter pred).length = accepted rs pred := by
  unfold accepted
  induction rs with
  | nil => rfl
  | cons r rs ih =>
    cases r with
    | none => rw [List.countP_cons, ← ih]; rfl
    | some s =>
      rw [List.countP_cons, ← ih, show (some s :: rs).filterMap id = s :: rs.filterMap id from rfl, List.filter_cons]
      cases h : pred s <;> simp [h]

/-- C58: in exact arithmetic the rate is the number of accepted runs over the number of all runs. -/
theorem C58_exact (rs : List (Option (T × F64))) (pred : T × F64 → Bool) (h : rs ≠ []) :
    successRate (γ := ℝ) rs pred = some ((accepted rs pred : ℝ) / rs.length) := by
  unfold successRate
  rw [accepted_eq]
  have : (rs.length == 0) = false := by simp [h]
  simp only [this, Bool.false_eq_true, ↓reduceIte]
  rfl

end Verif.Props

namespace Verif.Fl

variable {f : Fmt}

/-- The quotient of two counts is at least 0 and at most 1. -/
theorem ratio_bounds {a b : Nat} (hab : a ≤ b) (hb : 0 < b) (hfin : (ofNat b : Fl f).isFinite = true) :
    (zero : Fl f).le ((ofNat a).div (ofNat b)) = true ∧ ((ofNat a).div (ofNat b) : Fl f).le one = true := by
  have hle := (le_iff.1 (ofNat_mono (f := f) hab)).2.2
  have h0 := ofNat_nonneg (f := f) a
  have hp := ofNat_pos (f := f) hb
  have hafin : (ofNat a : Fl f).isFinite = true := by
    rw [isFinite_iff_toInt] at hfin ⊢
    omega
  have hr := div_rounds hafin hfin (by omega)
  have hD : (0 : ℝ) < f.D := by exact_mod_cast f.D_pos
  have hp' : (0 : ℝ) < (ofNat b : Fl f).toInt := by exact_mod_cast hp
  have h0' : (0 : ℝ) ≤ (ofNat a : Fl f).toInt := by exact_mod_cast h0
  have hle' : ((ofNat a : Fl f).toInt : ℝ) ≤ (ofNat b : Fl f).toInt := by exact_mod_cast hle
  constructor
  · refine hr.ge isNan_zero ?_
    rw [zero_toInt, Int.cast_zero]
    exact div_nonneg (mul_nonneg h0' hD.le) hp'.le
  · refine hr.le isNan_one ?_
    have h1 : (one : Fl f).toInt = f.D := by
      unfold one
      rw [toInt_mk' _ oneIdx_lt, f.mag_oneIdx]; rfl
    rw [h1, div_le_iff₀ hp']
    push_cast
    nlinarith

theorem absDist {a b : Fl f} (ha : a.isFinite = true) (hb : b.isFinite = true) :
    (a.sub b).abs.isNan = false ∧ (a.sub b).abs.toInt = f.rnd |(a.toInt : ℝ) - b.toInt| := by
  have h := sub_rounds ha hb
  refine ⟨by rw [isNan_abs]; exact h.1, ?_⟩
  rw [toInt_abs, h.2]
  rcases le_total 0 ((a.toInt : ℝ) - b.toInt) with h0 | h0
  · rw [_root_.abs_of_nonneg h0]
    have := f.rnd_nonneg h0
    omega
  · rw [_root_.abs_of_nonpos h0, f.rnd_neg]
    have := f.rnd_nonpos h0
    omega

theorem finite_of_sub {a b : Fl f} (h : (a.sub b).isFinite = true) : a.isFinite = true ∧ b.isFinite = true := by
  have hn := isNan_of_isFinite h
  have hi := isInf_of_isFinite h
  unfold sub add at h hn hi
  rw [isNan_neg, isInf_neg] at h hn hi
  have hnn : (nan : Fl f).isNan = true := isNan_nan
  cases ha : a.isNan with
  | true => simp [ha, hnn] at hn
  | false =>
  cases hb : b.isNan with
  | true => simp [hb, hnn] at hn
  | false =>
  cases ha' : a.isInf with
  | true =>
    simp only [ha, hb, ha', Bool.or_self, Bool.false_eq_true, ↓reduceIte] at hn hi
    split at hn
    · rw [hnn] at hn; cases hn
    · simp_all
  | false =>
  cases hb' : b.isInf with
  | true =>
    simp only [ha, hb, ha', hb', Bool.or_self, Bool.false_eq_true, ↓reduceIte] at hi
    rw [isInf_neg, hb'] at hi; cases hi
  | false => exact ⟨finite_of_not ha ha', finite_of_not hb hb'⟩

theorem mag_pred_one (hb2 : 2 ≤ f.bias) : (f.mag (f.oneIdx - 1) : ℝ) = f.D * (1 - 1 / 2 ^ (f.mw + 1)) := by
  have h1 := f.mag_succ (f.oneIdx - 1)
  have h2 : f.oneIdx = f.bias * 2 ^ f.mw := rfl
  have hb := f.bias_pos
  have hm := f.two_pow_mw_pos
  have h0 : 0 < f.oneIdx := by rw [h2]; positivity
  rw [show f.oneIdx - 1 + 1 = f.oneIdx by omega, f.mag_oneIdx] at h1
  have h3 : (f.oneIdx - 1) / 2 ^ f.mw = f.bias - 1 := by
    rw [h2]
    obtain ⟨c, hc⟩ : ∃ c, f.bias = c + 1 := ⟨f.bias - 1, by omega⟩
    rw [hc, Nat.add_sub_cancel]
    rw [show (c + 1) * 2 ^ f.mw - 1 = (2 ^ f.mw - 1) + c * 2 ^ f.mw by rw [Nat.add_mul]; omega]
    rw [Nat.add_mul_div_right _ _ hm, Nat.div_eq_of_lt (by omega), Nat.zero_add]
  rw [h3] at h1
  have hD : f.D = 2 ^ (f.bias - 1 - 1) * 2 ^ (f.mw + 1) := by
    rw [← pow_add]
    show 2 ^ (f.bias + f.mw - 1) = _
    congr 1; omega
  have h4 : (f.D : ℝ) = f.mag (f.oneIdx - 1) + 2 ^ (f.bias - 1 - 1) := by exact_mod_cast h1
  have h5 : (f.D : ℝ) = 2 ^ (f.bias - 1 - 1) * 2 ^ (f.mw + 1) := by exact_mod_cast hD
  have hpw : (2 : ℝ) ^ (f.mw + 1) ≠ 0 := by positivity
  have h6 : (f.mag (f.oneIdx - 1) : ℝ) = f.D - 2 ^ (f.bias - 1 - 1) := by linarith
  rw [h6, h5]
  field_simp

/-- The quotient of two counts is 1 only if they are equal (as long as they are exactly representable). -/
theorem ratio_one {a b : Nat} (hab : a < b) (hb : b ≤ 2 ^ (f.mw + 1)) (hb' : b < 2 ^ (f.bias + 1)) (hb2 : 2 ≤ f.bias) :
    ((ofNat a).div (ofNat b) : Fl f).lt one = true := by
  obtain ⟨ea, fa⟩ := ofNat_exact (f := f) (n := a) (by omega) (by omega)
  obtain ⟨eb, fb⟩ := ofNat_exact (f := f) hb hb'
  have hp := ofNat_pos (f := f) (n := b) (by omega)
  have hr := div_rounds fa fb (by omega)
  have hD : (0 : ℝ) < f.D := by exact_mod_cast f.D_pos
  have hle : f.oneIdx - 1 ≤ f.infIdx := by have := f.oneIdx_lt_inf; omega
  have hz : (mk' false (f.oneIdx - 1) : Fl f).isNan = false := by
    rw [not_isNan_iff, idx_mk' _ (le_inf_lt hle)]; exact hle
  have hzt : (mk' false (f.oneIdx - 1) : Fl f).toInt = f.mag (f.oneIdx - 1) := by
    rw [toInt_mk' _ (le_inf_lt hle)]; rfl
  have h1 : ((ofNat a).div (ofNat b) : Fl f).le (mk' false (f.oneIdx - 1)) = true := by
    refine hr.le hz ?_
    rw [hzt, ea, eb]
    push_cast
    rw [mag_pred_one hb2]
    have hbp : (0 : ℝ) < b := by exact_mod_cast (show 0 < b by omega)
    have ha1 : (a : ℝ) + 1 ≤ b := by exact_mod_cast hab
    have hb3 : (b : ℝ) ≤ 2 ^ (f.mw + 1) := by exact_mod_cast hb
    have hpw : (0 : ℝ) < 2 ^ (f.mw + 1) := by positivity
    have e1 : (a : ℝ) * f.D * f.D / (b * f.D) = f.D * (a / b) := by field_simp
    rw [e1]
    refine mul_le_mul_of_nonneg_left ?_ hD.le
    have e2 : (a : ℝ) / b ≤ (b - 1) / b := by gcongr; linarith
    have e3 : ((b : ℝ) - 1) / b = 1 - 1 / b := by field_simp
    have e4 : 1 / (2 : ℝ) ^ (f.mw + 1) ≤ 1 / b := one_div_le_one_div_of_le hbp hb3
    linarith
  refine lt_of_le_of_lt h1 (lt_iff.2 ⟨hz, isNan_one, ?_⟩)
  rw [hzt, toInt_one, ← f.mag_oneIdx]
  have h2 : f.oneIdx = f.bias * 2 ^ f.mw := rfl
  have h0 : 0 < f.oneIdx := by rw [h2]; have := f.two_pow_mw_pos; positivity
  exact_mod_cast f.mag_lt_mag.2 (show f.oneIdx - 1 < f.oneIdx by omega)

/-- The quotient of two counts is positive if the numerator is. -/
theorem ratio_pos {a b : Nat} (ha : 0 < a) (hab : a ≤ b) (hb : b < 2 ^ 64) (hf : 64 ≤ f.bias) :
    (zero : Fl f).lt ((ofNat a).div (ofNat b)) = true := by
  have hfb := ofNat_finite (f := f) hb hf
  have hp := ofNat_pos (f := f) (n := b) (by omega)
  have hfa := ofNat_finite (f := f) (n := a) (by omega) hf
  have hr := div_rounds hfa hfb (by omega)
  have hone : f.rnd 1 = 1 := by
    have h1 : f.mag 1 = 1 := f.mag_small (by have := two_le_pow (f := f); omega)
    have := f.rnd_mag (k := 1) f.infIdx_pos
    rw [h1] at this
    simpa using this
  refine lt_iff.2 ⟨isNan_zero, hr.1, ?_⟩
  rw [zero_toInt, hr.2]
  have h1 : f.rnd 1 ≤ f.rnd ((ofNat a : Fl f).toInt * f.D / (ofNat b : Fl f).toInt) := by
    apply f.rnd_mono
    have hbp : (0 : ℝ) < (ofNat b : Fl f).toInt := by exact_mod_cast hp
    rw [le_div_iff₀ hbp, one_mul]
    have e1 : ((ofNat b : Fl f).toInt : ℝ) ≤ 2 ^ 64 * f.D := by
      have h2 := (le_iff.1 (ofNat_mono (f := f) hb.le)).2.2
      have h3 : (ofNat (2 ^ 64) : Fl f).toInt = 2 ^ 64 * f.D := by
        have := (ofNat_rounds (f := f) (2 ^ 64)).2
        rw [this]
        have hD : f.D = 2 ^ (f.bias + f.mw - 1) := rfl
        have hle : 1 * 2 ^ (64 + (f.bias + f.mw - 1)) ≤ f.mag f.infIdx := by
          rw [f.mag_inf_eq, hD, _root_.one_mul, ← pow_add]
          exact Nat.pow_le_pow_right (by omega) (by omega)
        have he := f.rnd_short (v := 1) (e := 64 + (f.bias + f.mw - 1)) (by have := two_le_pow (f := f); omega) hle
        have e : (((2 ^ 64 : ℕ) : ℝ) * f.D) = ((1 * 2 ^ (64 + (f.bias + f.mw - 1)) : ℕ) : ℝ) := by
          rw [hD, pow_add]; push_cast; ring
        rw [e]
        refine Eq.trans (by exact_mod_cast he) ?_
        rw [hD, pow_add]; push_cast; ring
      rw [h3] at h2
      exact_mod_cast h2
    have e2 : (f.D : ℝ) ≤ (ofNat a : Fl f).toInt := by
      have h2 := (le_iff.1 (ofNat_mono (f := f) (show 1 ≤ a from ha))).2.2
      rw [ofNat_one_exact.1] at h2
      exact_mod_cast h2
    have e3 : (2 : ℝ) ^ 64 ≤ f.D := by
      have hD : f.D = 2 ^ (f.bias + f.mw - 1) := rfl
      rw [hD]
      push_cast
      exact pow_le_pow_right₀ (by norm_num) (by have := f.hmw; omega)
    have hDp : (0 : ℝ) < f.D := by exact_mod_cast f.D_pos
    generalize (f.D : ℝ) = D at *
    generalize ((ofNat a : Fl f).toInt : ℝ) = A at *
    generalize ((ofNat b : Fl f).toInt : ℝ) = B at *
    calc B ≤ 2 ^ 64 * D := e1
      _ ≤ D * D := by gcongr
      _ ≤ A * D := by gcongr
  omega

end Verif.Fl

namespace Verif.Props

open Verif Spec Stats

variable {σ T γ : Type}

theorem successRate_eq {rs : List (Option (T × F64))} {pred : T × F64 → Bool} {r : F64}
    (h : successRate rs pred = some r) :
    0 < rs.length ∧ r = Fl.div (Fl.ofNat (accepted rs pred)) (Fl.ofNat rs.length) := by
  unfold successRate at h
  rw [accepted_eq] at h
  dsimp only at h
  split at h
  · cases h
  next h0 =>
  cases h
  refine ⟨?_, rfl⟩
  simp at h0
  exact List.length_pos_iff.2 h0

/-- C58: in floating point, too, the rate lies between 0 and 1. (A vector has fewer than 2^64 elements.) -/
theorem C58_range (rs : List (Option (T × F64))) (pred : T × F64 → Bool) (hl : rs.length < 2 ^ 64) (r : F64)
    (h : successRate rs pred = some r) : Fl.zero.le r = true ∧ r.le Fl.one = true := by
  obtain ⟨hpos, rfl⟩ := successRate_eq h
  exact Fl.ratio_bounds List.countP_le_length hpos (Fl.ofNat_finite hl (by decide))

/-- C58: the rate is 0 exactly if no run is accepted, and (up to 2^53 runs) it is 1 exactly if all are. -/
theorem C58_extremes (rs : List (Option (T × F64))) (pred : T × F64 → Bool) (hl : rs.length < 2 ^ 64) (r : F64)
    (h : successRate rs pred = some r) : (r.feq Fl.zero = true ↔ accepted rs pred = 0) ∧
      (rs.length ≤ 2 ^ 53 → (r.feq Fl.one = true ↔ accepted rs pred = rs.length)) := by
  obtain ⟨hpos, rfl⟩ := successRate_eq h
  have hle : accepted rs pred ≤ rs.length := List.countP_le_length
  have hfin := Fl.ofNat_finite (f := Fmt.f64) hl (by decide)
  have hp := Fl.ofNat_pos (f := Fmt.f64) hpos
  generalize accepted rs pred = a at *
  generalize rs.length = b at *
  constructor
  · constructor
    · intro h0
      by_contra hn
      have h1 := Fl.ratio_pos (f := Fmt.f64) (by omega) hle hl (by decide)
      have h2 := (Fl.feq_iff.1 h0).2.2
      have h3 := (Fl.lt_iff.1 h1).2.2
      omega
    · rintro rfl
      have hz : (Fl.ofNat 0 : F64).toInt = 0 := by decide +kernel
      have hr := Fl.div_rounds (x := (Fl.ofNat 0 : F64)) (by decide +kernel) hfin (by omega)
      rw [hz] at hr
      refine Fl.feq_iff.2 ⟨hr.1, Fl.isNan_zero, ?_⟩
      rw [hr.2, Fl.zero_toInt]
      rw [Int.cast_zero, zero_mul, zero_div]
      exact Fmt.rnd_zero _
  · intro h53
    have hb' : b < 2 ^ (Fmt.f64.bias + 1) := lt_of_le_of_lt h53 (Nat.pow_lt_pow_right (by decide) (by decide))
    constructor
    · intro h1
      by_contra hn
      have h2 := Fl.ratio_one (f := Fmt.f64) (a := a) (b := b) (by omega) h53 hb' (by decide)
      have h3 := (Fl.feq_iff.1 h1).2.2
      have h4 := (Fl.lt_iff.1 h2).2.2
      omega
    · rintro rfl
      have hr := Fl.div_rounds hfin hfin (by omega)
      refine Fl.feq_iff.2 ⟨hr.1, Fl.isNan_one, ?_⟩
      rw [hr.2]
      have hne : ((Fl.ofNat a : F64).toInt : ℝ) ≠ 0 := by exact_mod_cast (show (Fl.ofNat a : F64).toInt ≠ 0 by omega)
      rw [mul_div_assoc, mul_div_cancel₀ _ hne]
      have := Fl.rnd_toInt (Fl.isNan_one (f := Fmt.f64))
      rw [Fl.toInt_one] at this ⊢
      exact_mod_cast this

/-- C58: two of three runs are accepted. -/
example : ∃ r : F64, successRate [some ((), Fl.zero), none, some ((), Fl.one)] (fun _ => true) = some r ∧
    Fl.zero.lt r = true ∧ r.lt Fl.one = true := by
  refine ⟨_, rfl, ?_⟩
  decide +kernel

/-! ## C59 -/

/-- C59: the goal predicate accepts exactly if both goals are finite and their distance, rounded, is less than delta (all in the
units of `toInt`). In particular NaN and infinities are never accepted. -/
theorem C59_goal {f : Fmt} (expected delta : Fl f) (x : T) (g : Fl f) : predGoal expected delta (x, g) = true ↔
    g.isFinite = true ∧ expected.isFinite = true ∧ delta.isNan = false ∧
      f.rnd |(g.toInt : ℝ) - expected.toInt| < delta.toInt := by
  have hdist : ∀ (a b : Fl f), a.isFinite = true → b.isFinite = true →
      ((a.sub b).abs.isNan = false ∧ (a.sub b).abs.toInt = f.rnd |(a.toInt : ℝ) - b.toInt|) := fun a b ha hb =>
    Fl.absDist ha hb
  show Fl.lt (Fl.abs (Fl.sub g expected)) delta = true ↔ _
  constructor
  · intro h
    obtain ⟨h1, h2, h3⟩ := Fl.lt_iff.1 h
    have hd := Fl.toInt_abs_le h2
    have hfin : (g.sub expected).abs.isFinite = true := by
      cases hi : (g.sub expected).abs.isFinite with
      | true => rfl
      | false =>
        rcases Fl.isFinite_false_cases hi with h' | h'
        · rw [h'] at h1; cases h1
        · have := Fl.toInt_inf' h'
          have h0 : 0 ≤ (g.sub expected).abs.toInt := Fl.toInt_nonneg_of_sgn (Fl.sgn_abs _)
          omega
    rw [Fl.isFinite_abs] at hfin
    obtain ⟨hg, he⟩ := Fl.finite_of_sub hfin
    exact ⟨hg, he, h2, by rw [← (hdist g expected hg he).2]; exact h3⟩
  · rintro ⟨hg, he, hd, h⟩
    obtain ⟨h1, h2⟩ := hdist g expected hg he
    exact Fl.lt_iff.2 ⟨h1, hd, by rw [h2]; exact h⟩

/-- C59: an accepted goal really is closer than delta, without rounding. -/
theorem C59_goal_sound {f : Fmt} (expected delta : Fl f) (x : T) (g : Fl f) (h : predGoal expected delta (x, g) = true) :
    |(g.toInt : ℝ) - expected.toInt| < delta.toInt := by
  obtain ⟨-, -, h3, h4⟩ := (C59_goal expected delta x g).1 h
  by_contra hn
  push Not at hn
  have := f.rnd_mono hn
  rw [Fl.rnd_toInt h3] at this
  omega

/-- C59: a goal that is at most as far as some float below delta is accepted. -/
theorem C59_goal_complete {f : Fmt} (expected delta d : Fl f) (x : T) (g : Fl f) (hg : g.isFinite = true)
    (he : expected.isFinite = true) (hd : d.lt delta = true) (h : |(g.toInt : ℝ) - expected.toInt| ≤ d.toInt) :
    predGoal expected delta (x, g) = true := by
  obtain ⟨h1, h2, h3⟩ := Fl.lt_iff.1 hd
  refine (C59_goal expected delta x g).2 ⟨hg, he, h2, ?_⟩
  have := f.rnd_mono h
  rw [Fl.rnd_toInt h1] at this
  omega

/-- C59: in exact arithmetic the goal predicate is `|goal - expected| < delta`. -/
theorem C59_goal_exact (expected delta : ℝ) (x : T) (g : ℝ) :
    predGoal expected delta (x, g) = true ↔ |g - expected| < delta := by
  show decide _ = true ↔ _
  rw [decide_eq_true_iff]
  rfl

/-- C59: NaN is never accepted. -/
theorem C59_goal_nan {f : Fmt} (expected delta : Fl f) (x : T) (g : Fl f) (h : g.isNan = true) :
    predGoal expected delta (x, g) = false := by
  rw [Bool.eq_false_iff]
  intro h'
  have := Fl.isNan_of_isFinite ((C59_goal expected delta x g).1 h').1
  rw [h] at this; cases this

theorem predVecLoop_iff {α : Type} [FloatT α] : ∀ (xs es ds : List α), es.length = ds.length →
    (predVecLoop xs (es.zip ds) = true ↔ ∀ (i : Nat) (x e d : α), xs[i]? = some x → es[i]? = some e → ds[i]? = some d →
      FloatT.lt d (FloatT.abs (FloatT.sub x e)) = false) := by
  intro xs
  induction xs with
  | nil => intro es ds _; simp [predVecLoop]
  | cons x xs ih =>
    intro es ds hl
    match es, ds, hl with
    | [], [], _ => simp [predVecLoop]
    | e :: es, d :: ds, hl =>
      rw [List.zip_cons_cons, predVecLoop]
      have hl' : es.length = ds.length := by simpa using hl
      cases h : FloatT.lt d (FloatT.abs (FloatT.sub x e)) with
      | true =>
        simp only [↓reduceIte, Bool.false_eq_true, false_iff]
        intro hall
        have := hall 0 x e d rfl rfl rfl
        rw [h] at this; cases this
      | false =>
        simp only [Bool.false_eq_true, ↓reduceIte]
        rw [ih es ds hl']
        constructor
        · intro hall i
          cases i with
          | zero =>
            intro x' e' d' h1 h2 h3
            simp only [List.getElem?_cons_zero, Option.some_inj] at h1 h2 h3
            subst h1 h2 h3
            exact h
          | succ i => simpa using hall i
        · intro hall i
          simpa using hall (i + 1)

/-- C59: the constructor of the vector predicate panics exactly if the lists have different lengths. -/
theorem C59_vec_new {α : Type} [FloatT α] (expected delta : List α) (s : σ) :
    (expected.length = delta.length → ∃ pred, predVec (γ := γ) expected delta s = .ok (pred, s)) ∧
    (expected.length ≠ delta.length → predVec (γ := γ) expected delta s = .error .assert) := by
  unfold predVec
  constructor
  · intro h
    exact ⟨_, M.bind_eq_ok.2 ⟨(), s, M.assert_eq_ok.2 ⟨by simp [h], rfl⟩, rfl⟩⟩
  · intro h
    rw [M.bind_eq_error]; left
    simp [M.assert, h, M.fail]

theorem predVec_ok {α : Type} [FloatT α] {expected delta : List α} {s s' : σ} {pred : List α × γ → Bool}
    (h : predVec expected delta s = .ok (pred, s')) :
    expected.length = delta.length ∧ pred = fun a => predVecLoop a.1 (expected.zip delta) := by
  obtain ⟨u, s1, h1, h⟩ := M.bind_eq_ok.1 h
  obtain ⟨ha, rfl⟩ := M.assert_eq_ok.1 h1
  obtain ⟨rfl, -⟩ := M.pure_eq_ok.1 h
  exact ⟨by simpa using ha, rfl⟩

/-- C59: in exact arithmetic the vector predicate accepts exactly if no coordinate that both vectors have is farther than
delta from the expected one. -/
theorem C59_vec_exact (expected delta : List ℝ) (s s' : σ) (pred : List ℝ × γ → Bool)
    (h : predVec expected delta s = .ok (pred, s')) (xs : List ℝ) (g : γ) :
    pred (xs, g) = true ↔ ∀ (i : Nat) (x e d : ℝ), xs[i]? = some x → expected[i]? = some e → delta[i]? = some d → |x - e| ≤ d := by
  obtain ⟨hl, rfl⟩ := predVec_ok h
  rw [predVecLoop_iff xs expected delta hl]
  have : ∀ x e d : ℝ, FloatT.lt d (FloatT.abs (FloatT.sub x e)) = false ↔ |x - e| ≤ d := by
    intro x e d
    show decide (d < |x - e|) = false ↔ _
    rw [decide_eq_false_iff_not, not_lt]
  simp only [this]

/-- C59: in floating point the vector predicate accepts exactly if there is no coordinate whose rounded distance exceeds delta. -/
theorem C59_vec {f : Fmt} (expected delta : List (Fl f)) (s s' : σ) (pred : List (Fl f) × γ → Bool)
    (h : predVec expected delta s = .ok (pred, s')) (xs : List (Fl f)) (g : γ) :
    pred (xs, g) = true ↔ ∀ (i : Nat) (x e d : Fl f), xs[i]? = some x → expected[i]? = some e → delta[i]? = some d →
      d.lt (x.sub e).abs = false := by
  obtain ⟨hl, rfl⟩ := predVec_ok h
  exact predVecLoop_iff xs expected delta hl

/-- C59: a rejected vector of finite numbers really has a coordinate farther than delta from the expected one. -/
theorem C59_vec_reject {f : Fmt} (expected delta : List (Fl f)) (s s' : σ) (pred : List (Fl f) × γ → Bool)
    (h : predVec expected delta s = .ok (pred, s')) (xs : List (Fl f)) (g : γ) (hx : ∀ x ∈ xs, x.isFinite = true)
    (he : ∀ x ∈ expected, x.isFinite = true) (hr : pred (xs, g) = false) :
    ∃ (i : Nat) (x e d : Fl f), xs[i]? = some x ∧ expected[i]? = some e ∧ delta[i]? = some d ∧
      (d.toInt : ℝ) < |(x.toInt : ℝ) - e.toInt| := by
  by_contra hn
  push Not at hn
  rw [← Bool.not_eq_true, C59_vec expected delta s s' pred h] at hr
  refine hr fun i x e d h1 h2 h3 => ?_
  rw [Bool.eq_false_iff]
  intro hlt
  obtain ⟨k1, -, k3⟩ := Fl.lt_iff.1 hlt
  have hle := hn i x e d h1 h2 h3
  have := f.rnd_mono hle
  rw [Fl.rnd_toInt k1, ← (Fl.absDist (hx x (List.mem_of_getElem? h1)) (he e (List.mem_of_getElem? h2))).2] at this
  omega

/-- C59: a vector with a coordinate whose distance exceeds some float above delta is rejected. -/
theorem C59_vec_far {f : Fmt} (expected delta : List (Fl f)) (s s' : σ) (pred : List (Fl f) × γ → Bool)
    (h : predVec expected delta s = .ok (pred, s')) (xs : List (Fl f)) (g : γ) (i : Nat) (x e d d' : Fl f)
    (h1 : xs[i]? = some x) (h2 : expected[i]? = some e) (h3 : delta[i]? = some d) (hx : x.isFinite = true)
    (he : e.isFinite = true) (hd : d.lt d' = true) (hfar : (d'.toInt : ℝ) ≤ |(x.toInt : ℝ) - e.toInt|) :
    pred (xs, g) = false := by
  rw [← Bool.not_eq_true, C59_vec expected delta s s' pred h]
  intro hall
  have h0 := hall i x e d h1 h2 h3
  obtain ⟨k1, k2, k3⟩ := Fl.lt_iff.1 hd
  obtain ⟨n1, n2⟩ := Fl.absDist hx he
  have := f.rnd_mono hfar
  rw [Fl.rnd_toInt k2, ← n2] at this
  rw [Fl.lt_iff.2 ⟨k1, n1, by omega⟩] at h0
  cases h0

/-- C59: the vector predicate accepts a NaN coordinate, and a vector that is too short or too long. -/
theorem C59_vec_holes (xs : List F64) (g : γ) :
    ∃ pred, predVec [Fl.one, Fl.one] [Fl.zero, Fl.zero] () = .ok (pred, ()) ∧
      pred ([Fl.nan, Fl.one], g) = true ∧ pred ([], g) = true ∧ pred (Fl.one :: Fl.one :: xs, g) = true := by
  refine ⟨_, rfl, ?_, ?_, ?_⟩
  · show predVecLoop [Fl.nan, Fl.one] [(Fl.one, Fl.zero), (Fl.one, Fl.zero)] = true
    decide +kernel
  · rfl
  · have h1 : Fl.lt (Fl.zero : F64) (Fl.abs (Fl.sub Fl.one Fl.one)) = false := by decide +kernel
    show predVecLoop (Fl.one :: Fl.one :: xs) [(Fl.one, Fl.zero), (Fl.one, Fl.zero)] = true
    unfold predVecLoop
    rw [if_neg (by rw [Bool.not_eq_true]; exact h1)]
    unfold predVecLoop
    rw [if_neg (by rw [Bool.not_eq_true]; exact h1)]
    cases xs <;> rfl

end Verif.Props
