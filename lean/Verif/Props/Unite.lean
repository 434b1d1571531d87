import Verif.Props.StatVec
import Verif.Props.CallCount

/-!
# C60: merging statistics
-/

namespace Verif.Props

open Verif Spec Stats

variable {σ T α γ : Type}

/-- C60: `unite` puts the runs of the other statistics after its own. -/
theorem C60_concat (a b : Statistics T) : (a.unite b).results = a.results ++ b.results ∧
    (a.unite b).convergence = a.convergence ++ b.convergence ∧ (a.unite b).runCount = a.runCount + b.runCount :=
  ⟨rfl, rfl, List.length_append⟩

/-- C60: `unite` is associative and fresh statistics are its unit. -/
theorem C60_monoid (a b c : Statistics T) : (a.unite b).unite c = a.unite (b.unite c) ∧ Statistics.new.unite a = a ∧
    a.unite Statistics.new = a := by
  refine ⟨?_, ?_, ?_⟩
  · simp [Statistics.unite]
  · cases a; rfl
  · simp [Statistics.unite, Statistics.new]

/-- C60: the same for `CallCountData`. -/
theorem C60_monoid_calls (a b c : CallCount) : (a.unite b).unite c = a.unite (b.unite c) ∧ CallCount.new.unite a = a ∧
    a.unite CallCount.new = a :=
  ⟨List.append_assoc _ _ _, rfl, List.append_nil _⟩

/-- Merge parts one after the other into fresh statistics, as the examples do with the results of their threads. -/
def mergeAll (parts : List (Statistics T)) : Statistics T := parts.foldl Statistics.unite Statistics.new

/-- The same for call counts. -/
def mergeCalls (parts : List CallCount) : CallCount := parts.foldl CallCount.unite CallCount.new

theorem mergeAll_eq (parts : List (Statistics T)) : mergeAll parts =
    ⟨(parts.map Statistics.results).flatten, (parts.map Statistics.convergence).flatten⟩ := by
  have : ∀ (parts : List (Statistics T)) (a : Statistics T), parts.foldl Statistics.unite a =
      ⟨a.results ++ (parts.map Statistics.results).flatten, a.convergence ++ (parts.map Statistics.convergence).flatten⟩ := by
    intro parts
    induction parts with
    | nil => intro a; simp
    | cons b parts ih => intro a; rw [List.foldl_cons, ih]; simp [Statistics.unite]
  rw [mergeAll, this]; rfl

theorem mergeCalls_eq (parts : List CallCount) : mergeCalls parts = parts.flatten := by
  have : ∀ (parts : List CallCount) (a : CallCount), parts.foldl CallCount.unite a = a ++ parts.flatten := by
    intro parts
    induction parts with
    | nil => intro a; simp
    | cons b parts ih => intro a; rw [List.foldl_cons, ih]; simp [CallCount.unite]
  rw [mergeCalls, this]; rfl

/-- C60: merging the same parts in another order gives the same runs, in another order; none is lost, none is doubled. -/
theorem C60_perm {p q : List (Statistics T)} (h : p.Perm q) : (mergeAll p).results.Perm (mergeAll q).results ∧
    (mergeAll p).convergence.Perm (mergeAll q).convergence := by
  rw [mergeAll_eq, mergeAll_eq]
  exact ⟨(h.map _).flatten, (h.map _).flatten⟩

theorem accepted_perm {r r' : List (Option (T × γ))} (h : r.Perm r') (pred : T × γ → Bool) :
    accepted r pred = accepted r' pred := h.countP_eq _

theorem successRate_perm [FloatT γ] {r r' : List (Option (T × F64))} (h : r.Perm r') (pred : T × F64 → Bool) :
    successRate (γ := γ) r pred = successRate r' pred := by
  unfold successRate
  rw [accepted_eq, accepted_eq, accepted_perm h pred, h.length_eq]

/-- C60: merging in another order gives the same run count and the same success rate, rounding included. -/
theorem C60_counts {p q : List (Statistics T)} (h : p.Perm q) (pred : T × F64 → Bool) :
    (mergeAll p).runCount = (mergeAll q).runCount ∧
    successRate (γ := F64) (mergeAll p).results pred = successRate (mergeAll q).results pred ∧
    minIterations (mergeAll p).convergence = minIterations (mergeAll q).convergence := by
  obtain ⟨h1, h2⟩ := C60_perm h
  refine ⟨h1.length_eq, successRate_perm h1 pred, ?_⟩
  exact minIterations_perm h2
where
  minIterations_perm {β : Type} {a b : List (List β)} (h : a.Perm b) : minIterations a = minIterations b := by
    have key : ∀ {a b : List (List β)}, a.Perm b → minIterations a ≤ minIterations b := by
      intro a b h
      by_cases hb : b = []
      · subst hb; rw [h.eq_nil]
      obtain ⟨row, hr, he⟩ := (C57_min b).2.2 hb
      rw [← he]
      exact (C57_min a).2.1 row (h.mem_iff.2 hr)
    exact le_antisymm (key h) (key h.symm)

theorem usizeSum_val (p : Profile) (c : List Nat) : usizeSum p 0 c =
    if p = .release ∨ c.sum < usizeSize then .ok (c.sum % usizeSize) else .error .arith := by
  have : ∀ (c : List Nat) (acc : Nat), acc < usizeSize → usizeSum p acc c =
      if p = .release ∨ acc + c.sum < usizeSize then .ok ((acc + c.sum) % usizeSize) else .error .arith := by
    intro c
    induction c with
    | nil => intro acc h; simp [usizeSum, h, Nat.mod_eq_of_lt h]
    | cons x xs ih =>
      intro acc h
      show (usizeAdd p acc x >>= fun acc => usizeSum p acc xs) = _
      rw [usizeAdd_eq, List.sum_cons]
      by_cases h1 : acc + x < usizeSize
      · rw [if_pos (.inr h1)]
        show usizeSum p ((acc + x) % usizeSize) xs = _
        rw [Nat.mod_eq_of_lt h1, ih _ h1, Nat.add_assoc]
      · cases p with
        | debug =>
          rw [if_neg (by simp; omega), if_neg (by simp; omega)]
          rfl
        | release =>
          rw [if_pos (.inl rfl), if_pos (.inl rfl)]
          show usizeSum .release ((acc + x) % usizeSize) xs = _
          rw [ih _ (Nat.mod_lt _ (by decide)), if_pos (.inl rfl), ← Nat.add_assoc, Nat.mod_add_mod]
  rw [this c 0 (by decide), Nat.zero_add]

/-- C60: merging call counts in another order gives the same counts in another order, the same total and the same average
call count (rounding and overflow included). -/
theorem C60_calls {p q : List CallCount} (h : p.Perm q) (prof : Profile) :
    (mergeCalls p).Perm (mergeCalls q) ∧ (mergeCalls p).sum = (mergeCalls q).sum ∧
    CallCount.average (γ := F64) prof (mergeCalls p) = CallCount.average prof (mergeCalls q) := by
  rw [mergeCalls_eq, mergeCalls_eq]
  have h1 := h.flatten
  refine ⟨h1, h1.sum_eq, ?_⟩
  unfold CallCount.average
  rw [usizeSum_val, usizeSum_val, h1.sum_eq, h1.length_eq]

/-! ### Averages, in exact arithmetic -/

theorem goals_perm {r r' : List (Option (T × γ))} (h : r.Perm r') : (goals r).Perm (goals r') := h.filterMap _

theorem points_perm {r r' : List (Option (T × γ))} (h : r.Perm r') : (points r).Perm (points r') := h.filterMap _

theorem mean_perm {l l' : List ℝ} (h : l.Perm l') : mean l = mean l' := by
  unfold mean
  rw [h.sum_eq, h.length_eq]

theorem sampleVariance_perm {l l' : List ℝ} (h : l.Perm l') : sampleVariance l = sampleVariance l' := by
  unfold sampleVariance
  rw [(h.map _).sum_eq, h.length_eq, mean_perm h]

/-- C60: in exact arithmetic the order of the results does not matter to the average and the deviation of the goal. -/
theorem C60_goal_exact {r r' : List (Option (T × ℝ))} (h : r.Perm r') :
    averageGoal r = averageGoal r' ∧ stdDevGoal r = stdDevGoal r' := by
  have ha : averageGoal r = averageGoal r' := by
    by_cases hs : ∃ x ∈ r, x ≠ none
    · obtain ⟨x, hx, hn⟩ := hs
      rw [C54_exact r ⟨x, hx, hn⟩, C54_exact r' ⟨x, h.mem_iff.1 hx, hn⟩, mean_perm (goals_perm h)]
    · push Not at hs
      rw [(C54_none r).2 hs, (C54_none r').2 fun x hx => hs x (h.mem_iff.2 hx)]
  refine ⟨ha, ?_⟩
  by_cases h2 : 2 ≤ (goals r).length
  · rw [C55_exact r h2, C55_exact r' (by rwa [← (goals_perm h).length_eq]), sampleVariance_perm (goals_perm h)]
  · rw [stdDevGoal_eq, if_pos (by omega), stdDevGoal_eq, if_pos (by rw [← (goals_perm h).length_eq]; omega)]

theorem ext_of {d : Nat} {v v' : List ℝ} (h : v.length = d) (h' : v'.length = d) (e : ∀ i < d, v[i]? = v'[i]?) : v = v' := by
  apply List.ext_getElem?
  intro i
  by_cases hi : i < d
  · exact e i hi
  · rw [List.getElem?_eq_none (by omega), List.getElem?_eq_none (by omega)]

/-- C60: the same for solutions, including whether the computation panics. -/
theorem C60_solution_exact {r r' : List (Option (List ℝ × ℝ))} (h : r.Perm r') (s : σ) :
    average r s = average r' s ∧ stdDev r s = stdDev r' s := by
  have hp := points_perm h
  by_cases hs : ∃ x ∈ r, x ≠ none
  swap
  · push Not at hs
    have hs' : ∀ x ∈ r', x = none := fun x hx => hs x (h.mem_iff.2 hx)
    rw [(C56_no_success r s hs).1, (C56_no_success r s hs).2, (C56_no_success r' s hs').1, (C56_no_success r' s hs').2]
    exact ⟨rfl, rfl⟩
  have hs' : ∃ x ∈ r', x ≠ none := by
    obtain ⟨x, hx, hn⟩ := hs
    exact ⟨x, h.mem_iff.1 hx, hn⟩
  by_cases hl : ∃ x ∈ points r, ∃ y ∈ points r, x.length ≠ y.length
  · have hl' : ∃ x ∈ points r', ∃ y ∈ points r', x.length ≠ y.length := by
      obtain ⟨x, hx, y, hy, hn⟩ := hl
      exact ⟨x, hp.mem_iff.1 hx, y, hp.mem_iff.1 hy, hn⟩
    rw [(C56_panic r s hl).1, (C56_panic r s hl).2, (C56_panic r' s hl').1, (C56_panic r' s hl').2]
    exact ⟨rfl, rfl⟩
  push Not at hl
  obtain ⟨z, hz⟩ : ∃ z, z ∈ points r := by
    cases hc : points r with
    | nil =>
      obtain ⟨x, hx, hn⟩ := hs
      exact absurd ((points_nil r).1 hc x hx) hn
    | cons z zs => exact ⟨z, by simp⟩
  have hd : ∀ x ∈ points r, x.length = z.length := fun x hx => hl x hx z hz
  have hd' : ∀ x ∈ points r', x.length = z.length := fun x hx => hd x (hp.mem_iff.2 hx)
  have hco : ∀ i, (coords i (points r)).Perm (coords i (points r')) := fun i => hp.filterMap _
  constructor
  · obtain ⟨v, h1, h2, h3⟩ := C56_average_exact r z.length s hd hs
    obtain ⟨v', h1', h2', h3'⟩ := C56_average_exact r' z.length s hd' hs'
    obtain rfl : v = v' := ext_of h2 h2' fun i hi => by rw [h3 i hi, h3' i hi, mean_perm (hco i)]
    rw [h1, h1', mean_perm (goals_perm h)]
  · by_cases h2 : 2 ≤ (points r).length
    · obtain ⟨v, h1, h2, h3⟩ := C56_dev_exact r z.length s hd h2
      obtain ⟨v', h1', h2', h3'⟩ := C56_dev_exact r' z.length s hd' (by rwa [← hp.length_eq])
      obtain rfl : v = v' := ext_of h2 h2' fun i hi => by rw [h3 i hi, h3' i hi, sampleVariance_perm (hco i)]
      rw [h1, h1', sampleVariance_perm (goals_perm h)]
    · have hn : stdDevGoal r = none := by rw [stdDevGoal_eq, if_pos (by rw [← points_length]; omega)]
      have hn' : stdDevGoal r' = none := by rw [← (C60_goal_exact h).2, hn]
      rw [(C56_dev r z.length s hd).1 hn, (C56_dev r' z.length s hd').1 hn']

/-- C60: the same for the average convergence. -/
theorem C60_convergence_exact {c c' : List (List (Option (T × ℝ)))} (h : c.Perm c') (s : σ) :
    averageConvergence c s = averageConvergence c' s := by
  rw [C57_entries, C57_entries, C60_counts.minIterations_perm h]
  congr 3
  funext i
  exact (C60_goal_exact (h.filterMap _)).1

/-- C60: with rounding, the order does matter to the average goal. -/
theorem C60_rounding_order : ∃ r r' : List (Option (Unit × F64)), r.Perm r' ∧ averageGoal r ≠ averageGoal r' := by
  refine ⟨[some ((), Fl.ofNat (2 ^ 53)), some ((), Fl.one), some ((), Fl.one)],
    [some ((), Fl.one), some ((), Fl.one), some ((), Fl.ofNat (2 ^ 53))], ?_, ?_⟩
  · exact (List.perm_append_comm (l₁ := [some ((), Fl.ofNat (2 ^ 53))])
      (l₂ := [some ((), (Fl.one : F64)), some ((), Fl.one)]))
  · decide +kernel

/-- C60: a case with parts of different sizes. -/
example : (mergeAll [⟨[some ((), (Fl.one : F64))], [[none]]⟩, ⟨[none, none], []⟩]).runCount = 3 := rfl

end Verif.Props
