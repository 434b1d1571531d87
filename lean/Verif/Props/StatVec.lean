import Verif.Props.StatGoal

/-!
# C56: average and standard deviation of solutions
-/

namespace Verif.Props

open Verif Spec Stats

variable {σ α γ : Type}

/-- A fold of componentwise sums, component by component. -/
theorem zipWith_fold [FloatT α] (d i : Nat) (hi : i < d) : ∀ (xs : List (List α)) (v : List α), v.length = d →
    (∀ x ∈ xs, x.length = d) → ((xs.foldl (List.zipWith FloatT.add) v).length = d ∧
      (xs.foldl (List.zipWith FloatT.add) v)[i]? = v[i]?.map fun a => (coords i xs).foldl FloatT.add a) := by
  intro xs
  induction xs with
  | nil => intro v hv _; exact ⟨hv, by simp [coords]⟩
  | cons x xs ih =>
    intro v hv hx
    have hx1 : x.length = d := hx x (by simp)
    obtain ⟨h1, h2⟩ := ih (List.zipWith FloatT.add v x) (by simp [hv, hx1]) fun y hy => hx y (by simp [hy])
    refine ⟨h1, ?_⟩
    rw [List.foldl_cons, h2]
    have e1 : v[i]? = some v[i] := List.getElem?_eq_getElem (by omega)
    have e2 : x[i]? = some x[i] := List.getElem?_eq_getElem (by omega)
    have e3 : coords i (x :: xs) = x[i] :: coords i xs := by simp [coords, e2]
    rw [e3, List.getElem?_zipWith, e1, e2]
    rfl

theorem foldl_length [FloatT α] (d : Nat) (xs : List (List α)) (v : List α) (hv : v.length = d)
    (h : ∀ x ∈ xs, x.length = d) : (xs.foldl (List.zipWith FloatT.add) v).length = d := by
  induction xs generalizing v with
  | nil => exact hv
  | cons x xs ih =>
    exact ih _ (by simp [hv, h x (by simp)]) fun y hy => h y (by simp [hy])

/-- The loops of `get_average` and `get_standard_deviation` have the same shape. -/
theorem loop_ok [FloatT α] (f : Option (List α) → List α × γ → M σ (Option (List α))) (D : List α → List α) (d : Nat)
    (h2 : ∀ (v : List α) (x : List α × γ) (s : σ), v.length = d → x.1.length = d →
      f (some v) x s = .ok (some (List.zipWith FloatT.add v (D x.1)), s))
    (hD : ∀ x : List α, x.length = d → (D x).length = d) : ∀ (ss : List (List α × γ)) (v : List α) (s : σ), v.length = d →
    (∀ x ∈ ss, x.1.length = d) → M.foldL f (some v) ss s =
      .ok (some ((ss.map fun x => D x.1).foldl (List.zipWith FloatT.add) v), s) := by
  intro ss
  induction ss with
  | nil => intro v s _ _; exact M.foldL_nil_ok.2 ⟨rfl, rfl⟩
  | cons x ss ih =>
    intro v s hv hx
    have hx1 : x.1.length = d := hx x (by simp)
    exact M.foldL_cons_ok.2 ⟨_, _, h2 v x s hv hx1,
      ih _ s (by simp [hv, hD x.1 hx1]) fun y hy => hx y (by simp [hy])⟩

theorem avgLoop_some [FloatT α] (d : Nat) (v : List α) (x : List α × γ) (s : σ) (hv : v.length = d) (hx : x.1.length = d) :
    avgLoop (some v) x s = .ok (some (List.zipWith FloatT.add v (id x.1)), s) := by
  unfold avgLoop vectorize
  refine M.bind_eq_ok.2 ⟨(), s, M.assert_eq_ok.2 ⟨by simp [hv, hx], rfl⟩, ?_⟩
  refine M.bind_eq_ok.2 ⟨_, s, M.bind_eq_ok.2 ⟨(), s, M.assert_eq_ok.2 ⟨by simp [hv, hx], rfl⟩, rfl⟩, rfl⟩

/-- The squared componentwise distances. -/
def sqDist [FloatT α] (avg x : List α) : List α :=
  List.zipWith (fun x y => FloatT.mul (FloatT.sub x y) (FloatT.sub x y)) x avg

theorem devLoop_none [FloatT α] (avg : List α) (x : List α × γ) (s : σ) (hx : x.1.length = avg.length) :
    devLoop avg none x s = .ok (some (sqDist avg x.1), s) := by
  unfold devLoop vectorize
  exact M.bind_eq_ok.2 ⟨_, s, M.bind_eq_ok.2 ⟨(), s, M.assert_eq_ok.2 ⟨by simp [hx], rfl⟩, rfl⟩, rfl⟩

theorem devLoop_some [FloatT α] (avg v : List α) (x : List α × γ) (s : σ) (hv : v.length = avg.length)
    (hx : x.1.length = avg.length) :
    devLoop avg (some v) x s = .ok (some (List.zipWith FloatT.add v (sqDist avg x.1)), s) := by
  unfold devLoop vectorize
  refine M.bind_eq_ok.2 ⟨(), s, M.assert_eq_ok.2 ⟨by simp [hv, hx], rfl⟩, ?_⟩
  refine M.bind_eq_ok.2 ⟨_, s, M.bind_eq_ok.2 ⟨(), s, M.assert_eq_ok.2 ⟨by simp [hx], rfl⟩, rfl⟩, ?_⟩
  exact M.bind_eq_ok.2 ⟨_, s, M.bind_eq_ok.2 ⟨(), s, M.assert_eq_ok.2 ⟨by simp [hv, hx], rfl⟩, rfl⟩, rfl⟩

theorem points_nil (rs : List (Option (List α × γ))) : points rs = [] ↔ ∀ r ∈ rs, r = none := by
  unfold points
  simp [List.filterMap_eq_nil_iff]

theorem points_length (rs : List (Option (List α × γ))) : (points rs).length = (goals rs).length := by
  rw [points_eq, goals_eq, List.length_map, List.length_map]

theorem coords_cons (i : Nat) (x : List α) (xs : List (List α)) (h : i < x.length) :
    coords i (x :: xs) = x[i] :: coords i xs := by
  simp [coords, List.getElem?_eq_getElem h]

theorem coords_length (i d : Nat) (hi : i < d) (xs : List (List α)) (h : ∀ x ∈ xs, x.length = d) :
    (coords i xs).length = xs.length := by
  induction xs with
  | nil => rfl
  | cons x xs ih =>
    rw [coords_cons i x xs (by have := h x (by simp); omega), List.length_cons, List.length_cons,
      ih fun y hy => h y (by simp [hy])]

/-- C56: if there is no successful solution, the average is `None`, and so is the deviation. -/
theorem C56_no_success [FloatT α] [FloatT γ] (rs : List (Option (List α × γ))) (s : σ) (h : ∀ r ∈ rs, r = none) :
    average rs s = .ok (none, s) ∧ stdDev rs s = .ok (none, s) := by
  have h1 : average rs s = .ok (none, s) := by
    unfold average
    rw [(C54_none rs).2 h]
    rfl
  refine ⟨h1, ?_⟩
  unfold stdDev
  refine M.bind_eq_ok.2 ⟨_, _, h1, ?_⟩
  cases stdDevGoal rs <;> rfl

/-- C56: if all successful solutions have `d` components, so has the average; each component is the sum, from left to right, of
that component of the successful solutions, divided by their number; the goal is the average goal. -/
theorem C56_average [FloatT α] [FloatT γ] (rs : List (Option (List α × γ))) (d : Nat) (s : σ)
    (hd : ∀ x ∈ points rs, x.length = d) (h : ∃ r ∈ rs, r ≠ none) :
    ∃ v g, average rs s = .ok (some (v, g), s) ∧ averageGoal rs = some g ∧ v.length = d ∧
      ∀ i < d, ∃ a as, coords i (points rs) = a :: as ∧
        v[i]? = some (FloatT.div (as.foldl FloatT.add a) (FloatT.ofNat (points rs).length)) := by
  have hg : averageGoal rs ≠ none := by
    intro h0
    obtain ⟨r, hr, hn⟩ := h
    exact hn ((C54_none rs).1 h0 r hr)
  obtain ⟨g, hg⟩ := Option.ne_none_iff_exists'.1 hg
  have hne : points rs ≠ [] := by
    intro h0
    obtain ⟨r, hr, hn⟩ := h
    exact hn ((points_nil rs).1 h0 r hr)
  unfold average
  rw [hg]
  rw [points_eq] at hd hne ⊢
  cases hss : successes rs with
  | nil => rw [hss] at hne; exact absurd rfl hne
  | cons x ss =>
    rw [hss] at hd
    have hx : x.1.length = d := hd x.1 (by simp)
    have hall : ∀ y ∈ ss, y.1.length = d := fun y hy => hd y.1 (by simp only [List.map_cons, List.mem_cons]; exact .inr (List.mem_map_of_mem hy))
    have hall' : ∀ y ∈ ss.map Prod.fst, y.length = d := by
      intro y hy
      obtain ⟨z, hz, rfl⟩ := List.mem_map.1 hy
      exact hall z hz
    have hl := loop_ok (σ := σ) avgLoop id d (fun v x s => avgLoop_some d v x s) (fun _ h => h) ss x.1 s hx hall
    refine ⟨((ss.map Prod.fst).foldl (List.zipWith FloatT.add) x.1).map
      (fun a => FloatT.div a (FloatT.ofNat (x :: ss).length)), g, ?_, rfl, ?_, ?_⟩
    · refine M.bind_eq_ok.2 ⟨_, s, M.foldL_cons_ok.2 ⟨_, s, rfl, hl⟩, ?_⟩
      rfl
    · rw [List.length_map, foldl_length d _ _ hx hall']
    · intro i hi
      have hxi : i < x.1.length := by omega
      refine ⟨x.1[i], coords i (ss.map Prod.fst), ?_, ?_⟩
      · rw [List.map_cons, coords_cons i _ _ hxi]
      · rw [List.getElem?_map, (zipWith_fold d i hi _ _ hx hall').2, List.getElem?_eq_getElem hxi]
        simp

/-- C56: in exact arithmetic each component of the average is the mean of that component of the successful solutions. -/
theorem C56_average_exact (rs : List (Option (List ℝ × ℝ))) (d : Nat) (s : σ)
    (hd : ∀ x ∈ points rs, x.length = d) (h : ∃ r ∈ rs, r ≠ none) :
    ∃ v, average rs s = .ok (some (v, mean (goals rs)), s) ∧ v.length = d ∧
      ∀ i < d, v[i]? = some (mean (coords i (points rs))) := by
  obtain ⟨v, g, h1, h2, h3, h4⟩ := C56_average rs d s hd h
  rw [C54_exact rs h] at h2
  obtain rfl := Option.some.inj h2
  refine ⟨v, h1, h3, fun i hi => ?_⟩
  obtain ⟨a, as, h5, h6⟩ := h4 i hi
  rw [h6]
  have hl := coords_length i d hi (points rs) hd
  unfold mean
  rw [hl, h5, foldl_add_real, List.sum_cons]
  rfl

/-- C56: with consistent lengths, the deviation of the solutions is `None` in exactly the same cases as that of the goals;
otherwise it has `d` components, each the square root of the sum of squared distances from the average, divided by the number of
successes less one. -/
theorem C56_dev [FloatT α] [FloatT γ] (rs : List (Option (List α × γ))) (d : Nat) (s : σ)
    (hd : ∀ x ∈ points rs, x.length = d) :
    (stdDevGoal rs = none → stdDev rs s = .ok (none, s)) ∧
    (∀ g, stdDevGoal rs = some g → ∃ v avg ga, stdDev rs s = .ok (some (v, g), s) ∧ average rs s = .ok (some (avg, ga), s) ∧
      v.length = d ∧ ∀ i < d, ∃ m a as, avg[i]? = some m ∧ coords i (points rs) = a :: as ∧
        v[i]? = some (FloatT.sqrt (FloatT.div
          ((as.map fun x => FloatT.mul (FloatT.sub x m) (FloatT.sub x m)).foldl FloatT.add
            (FloatT.mul (FloatT.sub a m) (FloatT.sub a m)))
          (FloatT.ofNat ((points rs).length - 1))))) := by
  by_cases h : ∃ r ∈ rs, r ≠ none
  swap
  · push Not at h
    refine ⟨fun _ => (C56_no_success rs s h).2, fun g hg => ?_⟩
    rw [stdDevGoal, (C54_none rs).2 h] at hg
    cases hg
  obtain ⟨avg, ga, h1, h2, h3, h4⟩ := C56_average rs d s hd h
  constructor
  · intro hn
    unfold stdDev
    rw [hn]
    exact M.bind_eq_ok.2 ⟨_, s, h1, rfl⟩
  intro g hg
  have hcount : 2 ≤ (goals rs).length := by
    by_contra hlt
    rw [stdDevGoal_eq, if_pos (by omega)] at hg
    cases hg
  have hc2 : ¬ (successes rs).length < 2 := by rw [successes_length]; omega
  unfold stdDev
  rw [hg]
  have hpl : (points rs).length = (successes rs).length := by rw [points_eq, List.length_map]
  rw [hpl]
  rw [points_eq] at hd h4 ⊢
  cases hss : successes rs with
  | nil => rw [hss] at hc2; simp at hc2
  | cons x ss =>
    rw [hss] at hd hc2 h4
    have hx : x.1.length = d := hd x.1 (by simp)
    have hall : ∀ y ∈ ss, y.1.length = d := fun y hy => hd y.1 (by simp only [List.map_cons, List.mem_cons]; exact .inr (List.mem_map_of_mem hy))
    have hD : ∀ z : List α, z.length = d → (sqDist avg z).length = d := fun z hz => by
      unfold sqDist; rw [List.length_zipWith]; omega
    have hall' : ∀ y ∈ ss.map (fun x => sqDist avg x.1), y.length = d := by
      intro y hy
      obtain ⟨z, hz, rfl⟩ := List.mem_map.1 hy
      exact hD _ (hall z hz)
    have hl := loop_ok (σ := σ) (devLoop avg) (sqDist avg) d
      (fun v x s hv hx => devLoop_some avg v x s (by omega) (by omega)) hD ss (sqDist avg x.1) s (hD _ hx) hall
    refine ⟨((ss.map (fun x => sqDist avg x.1)).foldl (List.zipWith FloatT.add) (sqDist avg x.1)).map
      (fun a => FloatT.sqrt (FloatT.div a (FloatT.ofNat ((x :: ss).length - 1)))), avg, ga, ?_, h1, ?_, ?_⟩
    · refine M.bind_eq_ok.2 ⟨_, s, h1, ?_⟩
      dsimp only
      rw [if_neg hc2]
      exact M.bind_eq_ok.2 ⟨_, s, M.foldL_cons_ok.2 ⟨_, s, devLoop_none avg x s (by omega), hl⟩, rfl⟩
    · rw [List.length_map, foldl_length d _ _ (hD _ hx) hall']
    · intro i hi
      have hxi : i < x.1.length := by omega
      have hai : i < avg.length := by omega
      refine ⟨avg[i], x.1[i], coords i (ss.map Prod.fst), List.getElem?_eq_getElem hai, ?_, ?_⟩
      · rw [List.map_cons, coords_cons i _ _ hxi]
      · have e1 : ∀ z : List α, (sqDist avg z)[i]? =
            z[i]?.map fun x => FloatT.mul (FloatT.sub x avg[i]) (FloatT.sub x avg[i]) := by
          intro z
          unfold sqDist
          rw [List.getElem?_zipWith, List.getElem?_eq_getElem hai]
          cases z[i]? <;> rfl
        have e2 : coords i (ss.map fun x => sqDist avg x.1) =
            (coords i (ss.map Prod.fst)).map fun x => FloatT.mul (FloatT.sub x avg[i]) (FloatT.sub x avg[i]) := by
          unfold coords
          rw [List.filterMap_map, List.filterMap_map, List.map_filterMap]
          congr 1
          funext z
          exact e1 z.1
        rw [List.getElem?_map, (zipWith_fold d i hi _ _ (hD _ hx) hall').2, e1, List.getElem?_eq_getElem hxi, e2]
        simp

/-- C56: in exact arithmetic each component of the deviation is the sample deviation of that component. -/
theorem C56_dev_exact (rs : List (Option (List ℝ × ℝ))) (d : Nat) (s : σ)
    (hd : ∀ x ∈ points rs, x.length = d) (h : 2 ≤ (points rs).length) :
    ∃ v, stdDev rs s = .ok (some (v, Real.sqrt (sampleVariance (goals rs))), s) ∧ v.length = d ∧
      ∀ i < d, v[i]? = some (Real.sqrt (sampleVariance (coords i (points rs)))) := by
  have hs : ∃ r ∈ rs, r ≠ none := by
    by_contra hn
    push Not at hn
    rw [(points_nil rs).2 hn] at h
    simp at h
  obtain ⟨v, avg, ga, h1, h2, h3, h4⟩ := (C56_dev rs d s hd).2 _ (C55_exact rs (by rw [← points_length]; exact h))
  obtain ⟨avg', h5, -, h6⟩ := C56_average_exact rs d s hd hs
  rw [h2] at h5
  have e0 : (some (avg, ga), s) = (some (avg', mean (goals rs)), s) := Except.ok.inj h5
  obtain ⟨rfl, -⟩ := Prod.mk.inj (Option.some.inj (Prod.mk.inj e0).1)
  refine ⟨v, h1, h3, fun i hi => ?_⟩
  obtain ⟨m, a, as, h7, h8, h9⟩ := h4 i hi
  rw [h6 i hi] at h7
  obtain rfl := Option.some.inj h7
  rw [h9]
  have hl := coords_length i d hi (points rs) hd
  unfold sampleVariance
  rw [hl, foldl_add_real]
  have e : ∀ m a : ℝ, FloatT.mul (FloatT.sub a m) (FloatT.sub a m) = (a - m) ^ 2 := fun m a => (pow_two _).symm
  generalize mean (coords i (points rs)) = m
  rw [h8, List.map_cons, List.sum_cons]
  simp only [e]
  have h1' : (((points rs).length - 1 : ℕ) : ℝ) = (points rs).length - 1 := by
    rw [Nat.cast_sub (by omega)]; simp
  rw [← h1']
  rfl

/-- C56: the average is `None` exactly if the average goal is. -/
theorem C56_average_none [FloatT α] [FloatT γ] (rs : List (Option (List α × γ))) (s s' : σ) (r : Option (List α × γ))
    (h : average rs s = .ok (r, s')) : r = none ↔ averageGoal rs = none := by
  unfold average at h
  cases hg : averageGoal rs with
  | none =>
    rw [hg] at h
    simp [(M.pure_eq_ok.1 h).1]
  | some g =>
    rw [hg] at h
    obtain ⟨sol, s1, h1, h2⟩ := M.bind_eq_ok.1 h
    have hne : ∃ x ss, successes rs = x :: ss := by
      cases hss : successes rs with
      | nil =>
        have : goals rs = [] := by rw [goals_eq, hss]; rfl
        rw [averageGoal_eq, if_pos this] at hg; cases hg
      | cons x ss => exact ⟨x, ss, rfl⟩
    obtain ⟨x, ss, hss⟩ := hne
    rw [hss] at h1
    obtain ⟨b1, s2, h3, h4⟩ := M.foldL_cons_ok.1 h1
    have hb1 : b1 ≠ none := by
      have := (M.pure_eq_ok.1 h3).1
      rw [← this]; simp
    have hinv : sol ≠ none := by
      refine M.foldL_inv (I := fun b (_ : σ) => b ≠ none) ?_ hb1 h4
      intro y _ b t b' t' hb hf
      cases b with
      | none => exact absurd rfl hb
      | some v =>
        obtain ⟨_, _, _, hf⟩ := M.bind_eq_ok.1 hf
        obtain ⟨_, _, _, hf⟩ := M.bind_eq_ok.1 hf
        rw [← (M.pure_eq_ok.1 hf).1]; simp
    have := (M.pure_eq_ok.1 h2).1
    cases sol with
    | none => exact absurd rfl hinv
    | some v => rw [← this]; simp

theorem avgLoop_fail [FloatT α] : ∀ (ss : List (List α × γ)) (v : List α) (s : σ), (∃ x ∈ ss, x.1.length ≠ v.length) →
    M.foldL avgLoop (some v) ss s = .error .assert := by
  intro ss
  induction ss with
  | nil => rintro v s ⟨x, hx, -⟩; simp at hx
  | cons x ss ih =>
    intro v s h
    rw [M.foldL, M.bind_eq_error]
    by_cases hx : x.1.length = v.length
    · right
      refine ⟨_, s, avgLoop_some v.length v x s rfl hx, ih _ s ?_⟩
      obtain ⟨y, hy, hne⟩ := h
      rcases List.mem_cons.1 hy with rfl | hy
      · exact absurd hx hne
      · exact ⟨y, hy, by simp only [id, List.length_zipWith, hx]; simpa using hne⟩
    · left
      unfold avgLoop
      rw [M.bind_eq_error]; left
      simp [M.assert, hx, M.fail]

/-- C56: both panic if two successful solutions have different lengths. -/
theorem C56_panic [FloatT α] [FloatT γ] (rs : List (Option (List α × γ))) (s : σ)
    (h : ∃ x ∈ points rs, ∃ y ∈ points rs, x.length ≠ y.length) :
    average rs s = .error .assert ∧ stdDev rs s = .error .assert := by
  have h1 : average rs s = .error .assert := by
    obtain ⟨x, hx, y, hy, hne⟩ := h
    have hg : averageGoal rs ≠ none := by
      intro h0
      rw [(points_nil rs).2 ((C54_none rs).1 h0)] at hx
      simp at hx
    obtain ⟨g, hg⟩ := Option.ne_none_iff_exists'.1 hg
    unfold average
    rw [hg]
    rw [points_eq] at hx hy
    dsimp only
    rw [M.bind_eq_error]; left
    cases hss : successes rs with
    | nil => rw [hss] at hx; simp at hx
    | cons z ss =>
      rw [hss] at hx hy
      rw [M.foldL, M.bind_eq_error]; right
      refine ⟨_, s, rfl, avgLoop_fail ss z.1 s ?_⟩
      by_contra hn
      push Not at hn
      have : ∀ w ∈ (z :: ss).map Prod.fst, w.length = z.1.length := by
        intro w hw
        obtain ⟨q, hq, rfl⟩ := List.mem_map.1 hw
        rcases List.mem_cons.1 hq with rfl | hq
        · rfl
        · exact hn q hq
      exact hne ((this x hx).trans (this y hy).symm)
  refine ⟨h1, ?_⟩
  unfold stdDev
  rw [M.bind_eq_error]; left
  exact h1

/-- C56: with consistent lengths neither panics, so they panic only on solutions of different lengths. -/
theorem C56_ok [FloatT α] [FloatT γ] (rs : List (Option (List α × γ))) (s : σ)
    (h : ∀ x ∈ points rs, ∀ y ∈ points rs, x.length = y.length) :
    (∃ r, average rs s = .ok (r, s)) ∧ ∃ r, stdDev rs s = .ok (r, s) := by
  by_cases hs : ∃ r ∈ rs, r ≠ none
  swap
  · push Not at hs
    exact ⟨⟨_, (C56_no_success rs s hs).1⟩, ⟨_, (C56_no_success rs s hs).2⟩⟩
  cases hp : points rs with
  | nil =>
    obtain ⟨r, hr, hn⟩ := hs
    exact absurd ((points_nil rs).1 hp r hr) hn
  | cons x xs =>
    have hd : ∀ y ∈ points rs, y.length = x.length := fun y hy => h y hy x (by rw [hp]; simp)
    obtain ⟨v, g, h1, -⟩ := C56_average rs x.length s hd hs
    obtain ⟨h2, h3⟩ := C56_dev rs x.length s hd
    refine ⟨⟨_, h1⟩, ?_⟩
    cases hg : stdDevGoal rs with
    | none => exact ⟨_, h2 hg⟩
    | some g' =>
      obtain ⟨v, _, _, h4, -⟩ := h3 g' hg
      exact ⟨_, h4⟩

/-- C56: a non-trivial case. -/
example : ∃ v, stdDev [some ([1, 4], 2), none, some ([3, 8], (6 : ℝ))] () =
    .ok (some (v, Real.sqrt (sampleVariance [2, 6])), ()) ∧ v.length = 2 ∧
    ∀ i < 2, v[i]? = some (Real.sqrt (sampleVariance (coords i [[1, 4], [3, 8]]))) :=
  C56_dev_exact _ 2 () (by simp [points]) (by simp [points])

end Verif.Props
