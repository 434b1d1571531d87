import Verif.Spec.Falling
import Verif.Props.StatWhole
import Verif.Props.Inertia
import Verif.Props.Estimate

/-!
# C116: the averaged convergence of a swarm does not rise
-/

namespace Verif.Fl

variable {f : Fmt}

theorem add_inf {a x : Fl f} (ha : a.isInf = true) (hn : a.isNan = false) (hx : x.isFinite = true) : a.add x = a := by
  unfold add
  simp [hn, ha, isNan_of_isFinite hx, isInf_of_isFinite hx]

theorem add_notNan {a x : Fl f} (hn : a.isNan = false) (hx : x.isFinite = true) : (a.add x).isNan = false := by
  rcases isFinite_or_inf hn with h | h
  · exact (add_rounds h hx).1
  · rw [add_inf h hn hx, hn]

/-- Addition of finite numbers keeps the order. -/
theorem add_keeps {a b x y : Fl f} (h : a.le b = true) (h' : x.le y = true) (hx : x.isFinite = true) (hy : y.isFinite = true) :
    (a.add x).le (b.add y) = true := by
  obtain ⟨ha, hb, hab⟩ := le_iff.1 h
  obtain ⟨-, -, hxy⟩ := le_iff.1 h'
  have na := add_notNan ha hx
  have nb := add_notNan hb hy
  rcases isFinite_or_inf ha with haf | hai <;> rcases isFinite_or_inf hb with hbf | hbi
  · refine (add_rounds haf hx).mono (add_rounds hbf hy) ?_
    have h1 : (a.toInt : ℝ) ≤ b.toInt := by exact_mod_cast hab
    have h2 : (x.toInt : ℝ) ≤ y.toInt := by exact_mod_cast hxy
    linarith
  · rw [add_inf hbi hb hy] at *
    have h1 := toInt_abs_le na
    have h2 := toInt_inf' hbi
    have h3 := isFinite_iff_toInt.1 haf
    exact le_iff.2 ⟨na, hb, by omega⟩
  · rw [add_inf hai ha hx] at *
    have h1 := toInt_abs_le nb
    have h2 := toInt_inf' hai
    have h3 := isFinite_iff_toInt.1 hbf
    exact le_iff.2 ⟨ha, nb, by omega⟩
  · rw [add_inf hai ha hx, add_inf hbi hb hy]
    exact h

theorem sum_keeps {A : Type} (g h : A → Fl f) : ∀ (l : List A) (a b : Fl f), a.le b = true →
    (∀ x ∈ l, (g x).le (h x) = true ∧ (g x).isFinite = true ∧ (h x).isFinite = true) →
    ((l.map g).foldl Fl.add a).le ((l.map h).foldl Fl.add b) = true := by
  intro l
  induction l with
  | nil => intro a b h1 _; exact h1
  | cons x l ih =>
    intro a b h1 h2
    obtain ⟨h3, h4, h5⟩ := h2 x (by simp)
    exact ih _ _ (add_keeps h1 h3 h4 h5) fun y hy => h2 y (by simp [hy])

end Verif.Fl

namespace Verif.Props

open Verif Spec Examples Fl Stats Workers StatPrograms

variable {σ : Type}

/-- The averages of two lists in the same order -/
theorem average_keeps {A : Type} (g h : A → Solution (List F32)) (l : List A) (hl : l.length ≤ 2 ^ 53) (x y : F64)
    (hgh : ∀ a ∈ l, (g a).2.le (h a).2 = true ∧ (g a).2.isFinite = true ∧ (h a).2.isFinite = true)
    (hx : averageGoal (l.map fun a => some (g a)) = some x) (hy : averageGoal (l.map fun a => some (h a)) = some y) : x.le y = true := by
  have hg : ∀ g : A → Solution (List F32), goals (l.map fun a => some (g a)) = l.map fun a => (g a).2 := by
    intro g
    unfold goals
    rw [List.filterMap_map]
    exact congrFun (List.filterMap_eq_map (f := fun a => (g a).2)) l
  rw [averageGoal_eq, hg] at hx hy
  split at hx
  · cases hx
  rename_i hne
  split at hy
  · cases hy
  cases hx
  cases hy
  have hl0 : 0 < l.length := by
    rw [List.length_pos_iff]
    rintro rfl
    exact hne rfl
  rw [List.length_map, List.length_map]
  obtain ⟨e1, f1⟩ := Fl.ofNat_exact (f := Fmt.f64) hl (Nat.lt_of_le_of_lt hl (Nat.pow_lt_pow_right (by decide) (by decide)))
  refine div_mono (sum_keeps _ _ l _ _ ?_ hgh) f1 ?_
  · exact le_iff.2 ⟨isNan_zero, isNan_zero, Int.le_refl _⟩
  · have hD := Fmt.f64.D_pos
    change 0 < (Fl.ofNat l.length : F64).toInt
    rw [e1]
    generalize Fmt.f64.D = D at *
    positivity

/-- The solution at iteration `i` of a run -/
def entryOf (i : Nat) (d : Data (List F32)) : Solution (List F32) := match d.1.convergence with
  | [row] => (row[i]?.join).getD ([], Fl.zero)
  | _ => ([], Fl.zero)

/-- The result of a run -/
def resultOf (d : Data (List F32)) : Solution (List F32) := match d.1.results with
  | [some a] => a
  | _ => ([], Fl.zero)

theorem results_map {n m : Nat} {ivs : List (F32 × F32)} {V : List F32 → F64 → Prop} : ∀ {ds : List (Data (List F32))},
    (∀ d ∈ ds, SwarmRecord n m ivs V d) → ds.flatMap (fun d => d.1.results) = ds.map fun d => some (resultOf d) := by
  intro ds
  induction ds with
  | nil => intro _; rfl
  | cons d ds ih =>
    intro h
    obtain ⟨ps, a, row, rfl, -⟩ := h d (by simp)
    rw [List.flatMap_cons, ih fun d hd => h d (by simp [hd])]
    rfl

theorem entries_map {n m i : Nat} {ivs : List (F32 × F32)} {V : List F32 → F64 → Prop} : ∀ {ds : List (Data (List F32))},
    (∀ d ∈ ds, SwarmRecord n m ivs V d) → (∀ row ∈ ds.flatMap (fun d => d.1.convergence), i < row.length) →
    atIteration i (ds.flatMap fun d => d.1.convergence) = ds.map fun d => some (entryOf i d) := by
  intro ds
  induction ds with
  | nil => intro _ _; rfl
  | cons d ds ih =>
    intro h h2
    have ih := ih (fun d hd => h d (by simp [hd])) fun row hr => h2 row (by rw [List.flatMap_cons]; exact List.mem_append_right _ hr)
    obtain ⟨ps, a, row, rfl, -, -, -, -, hrow⟩ := h d (by simp)
    have hi : i < row.length := h2 row (by rw [List.flatMap_cons]; exact List.mem_append_left _ (by simp))
    obtain ⟨b, hb, -⟩ := hrow i hi
    have hrow' : row[i]? = some (some b) := by rw [List.getElem?_eq_getElem hi, hb]
    rw [List.flatMap_cons]
    unfold atIteration at ih ⊢
    rw [List.filterMap_append, ih, List.map_cons]
    simp only [List.filterMap_cons, hrow', List.filterMap_nil, entryOf, Option.join]
    rfl

/-- The solutions of one run get better. -/
theorem run_falls {n m i j : Nat} {ivs : List (F32 × F32)} {V : List F32 → F64 → Prop} {d : Data (List F32)} (h : SwarmRecord n m ivs V d)
    (hj : ∀ row ∈ d.1.convergence, j < row.length) (hij : i ≤ j) :
    ((entryOf j d).2.le (entryOf i d).2 = true ∧ (entryOf j d).2.isFinite = true ∧ (entryOf i d).2.isFinite = true) ∧
    ((resultOf d).2.le (entryOf i d).2 = true ∧ (resultOf d).2.isFinite = true ∧ (entryOf i d).2.isFinite = true) := by
  obtain ⟨ps, a, row, rfl, -, -, hbest, -, hrow⟩ := h
  have hj : j < row.length := hj row (by simp)
  obtain ⟨b, hb, hb'⟩ := hrow i (by omega)
  obtain ⟨c, hc, hc'⟩ := hrow j hj
  have e1 : entryOf i (⟨[some a], [row]⟩, [n * (row.length + 1)]) = b := by
    simp only [entryOf, List.getElem?_eq_getElem (show i < row.length by omega), hb]
    rfl
  have e2 : entryOf j (⟨[some a], [row]⟩, [n * (row.length + 1)]) = c := by
    simp only [entryOf, List.getElem?_eq_getElem hj, hc]
    rfl
  rw [e1, e2]
  refine ⟨⟨hc'.least b ?_, hc'.finite _ hc'.mem, hb'.finite _ hb'.mem⟩, hbest.least b (List.mem_of_mem_take hb'.mem), hbest.finite _ hbest.mem,
    hb'.finite _ hb'.mem⟩
  have h1 : ps.take (n * (i + 2)) = (ps.take (n * (j + 2))).take (n * (i + 2)) := by
    rw [List.take_take, Nat.min_eq_left (Nat.mul_le_mul_left n (by omega))]
  have := hb'.mem
  rw [h1] at this
  exact List.mem_of_mem_take this

/-- C116: the averaged convergence of faithful records of runs of a swarm does not rise, however the data are merged. -/
theorem C116_falling {n m : Nat} {ivs : List (F32 × F32)} {V : List F32 → F64 → Prop} {ds : List (Data (List F32))} {acc : Data (List F32)}
    (h : ∀ d ∈ ds, SwarmRecord n m ivs V d) (hm : Merged ds acc) (hl : ds.length ≤ 2 ^ 53) : Falling (σ := σ) acc := by
  intro s
  refine ⟨_, M.bind_eq_ok.2 ⟨_, s, mapL_index _ _, M.bind_eq_ok.2 ⟨_, s, C57_entries _ s, rfl⟩⟩, ?_, ?_⟩
  all_goals
    have hat : ∀ i x, ((List.range (minIterations acc.1.convergence)).map fun i => averageGoal (atIteration i acc.1.convergence))[i]? = some (some x) →
        (∀ row ∈ ds.flatMap (fun d => d.1.convergence), i < row.length) ∧ averageGoal (ds.map fun d => some (entryOf i d)) = some x := by
      intro i x hx
      have hi : i < minIterations acc.1.convergence := by
        obtain ⟨hi, -⟩ := List.getElem?_eq_some_iff.1 hx
        simpa using hi
      rw [List.getElem?_map, List.getElem?_range hi] at hx
      have hreach : ∀ row ∈ ds.flatMap (fun d => d.1.convergence), i < row.length := fun row hr =>
        Nat.lt_of_lt_of_le hi ((C57_min acc.1.convergence).2.1 row (by rw [hm.convergence]; exact hr))
      refine ⟨hreach, ?_⟩
      rw [← entries_map h hreach, ← hm.convergence]
      simpa using hx
  · intro i j x y hij hx hy
    obtain ⟨h1, h2⟩ := hat i x hx
    obtain ⟨h3, h4⟩ := hat j y hy
    exact average_keeps _ _ ds hl y x (fun d hd => (run_falls (h d hd) (fun row hr => h3 row (List.mem_flatMap.2 ⟨d, hd, hr⟩)) hij).1) h4 h2
  · intro i x average hx hav
    obtain ⟨h1, h2⟩ := hat i x hx
    rw [hm.results, results_map h] at hav
    exact average_keeps _ _ ds hl average x
      (fun d hd => (run_falls (h d hd) (fun row hr => h1 row (List.mem_flatMap.2 ⟨d, hd, hr⟩)) (Nat.le_refl i)).2) hav h2

/-! ## The statistics programs -/

theorem whole_falls {n m F : Nat} {ivs : List (F32 × F32)} {V : List F32 → F64 → Prop} {job : Nat → M σ (Data (List F32))} (hs : Steady job)
    (hjob : ∀ s, ∃ r s', job F s = .ok (r, s') ∧ SwarmRecord n m ivs V r) (cpu : Nat) (seed : Nat → σ) :
    Reports 1000 cpu job seed (SwarmRecord n m ivs V) (fun _ => Falling (σ := σ)) :=
  whole hs hjob 1000 cpu seed fun ds acc hlen hrec hm => C116_falling hrec hm (by
    have := Nat.mul_div_le 1000 cpu
    omega)

/-- C116: particleswarm-schwefel-statistics.rs -/
theorem C116_swarm_schwefel (P : Platform σ) (hP : Platform.Sound P) (cpu : Nat) (seed : Nat → σ) :
    Reports 1000 cpu (swarmJob P.profile (swarmSchwefel P)) seed (SwarmRecord 30 3000 (box (minus 500 1) (plus 500 1) 3) (fun x v => v = @TestFunc.schwefelF64 _ P.libm x))
      (fun _ => Falling (σ := σ)) :=
  whole_falls (F := 3001) (swarmJob_steady _ _) (Swarm.C77_swarm_schwefel P hP 3001 (by omega)) cpu seed

/-- C116: particleswarm-schwefel-statistics-full.rs -/
theorem C116_swarm_schwefel_full (P : Platform σ) (hP : Platform.Sound P) (L : Lens σ Stop.GNC) (hL : Platform.Leaves L P) (cpu : Nat) (seed : Nat → σ) :
    Reports 1000 cpu (swarmJob P.profile (swarmSchwefelFull P L)) seed (SwarmRecord 50 1000 (box (minus 500 1) (plus 500 1) 3) (fun x v => v = @TestFunc.schwefelF64 _ P.libm x))
      (fun _ => Falling (σ := σ)) :=
  whole_falls (F := 1001) (swarmJob_steady _ _) (Swarm.C77_swarm_schwefel_full P hP L hL 1001 (by omega)) cpu seed

/-- C116: particleswarm-schwefel-statistics-inertia.rs -/
theorem C116_swarm_schwefel_inertia (P : Platform σ) (hP : Platform.Sound P) (L : Lens σ Stop.GNC) (hL : Platform.Leaves L P) (cpu : Nat) (seed : Nat → σ) :
    Reports 1000 cpu (swarmJob P.profile (swarmSchwefelInertia P L)) seed (SwarmRecord 50 400 (box (minus 500 1) (plus 500 1) 3) (fun x v => v = @TestFunc.schwefelF64 _ P.libm x))
      (fun _ => Falling (σ := σ)) :=
  whole_falls (F := 401) (swarmJob_steady _ _) (Swarm.C77_swarm_schwefel_inertia P hP L hL 401 (by omega)) cpu seed

/-- C116: particleswarm-rastrigin-statistics-inertia.rs -/
theorem C116_swarm_rastrigin_inertia (P : Platform σ) (hP : Platform.Sound P) (L : Lens σ Stop.GNC) (hL : Platform.Leaves L P) (cpu : Nat) (seed : Nat → σ) :
    Reports 1000 cpu (swarmJob P.profile (swarmRastriginInertia P L)) seed (SwarmRecord 50 400 (box (minus 512 100) (plus 512 100) 3) (fun x v => v = @TestFunc.rastriginF64 _ P.libm x))
      (fun _ => Falling (σ := σ)) :=
  whole_falls (F := 401) (swarmJob_steady _ _) (Swarm.C77_swarm_rastrigin_inertia P hP L hL 401 (by omega)) cpu seed

/-- C116: particleswarm-rosenbrock-statistics.rs -/
theorem C116_swarm_rosenbrock (P : Platform σ) (L : Lens σ Stop.GNC) (hL : Platform.Leaves L P) (cpu : Nat) (seed : Nat → σ) :
    Reports 1000 cpu (swarmJob P.profile (StatPrograms.swarmRosenbrock P L)) seed (SwarmRecord 20 (10 ^ 17) (box (minus 2 1) (plus 2 1) 3) (fun x v => Returned (TestFunc.rosenbrockF64 P.profile x : M σ F64) v))
      (fun _ => Falling (σ := σ)) :=
  whole_falls (F := 10 ^ 17 + 1) (swarmJob_steady _ _) (Swarm.C77_swarm_rosenbrock P L hL _ (by omega)) cpu seed

/-! ## Instances -/

/-- Two runs: the goals 5, 3, 3 and 4, 2. The averages are 4.5 and 2.5; the average of the results is 2.5. -/
example : M.okAnd (lookups (⟨[some ([], Fl.ofNat 3), some ([], Fl.ofNat 2)],
      [[some ([], Fl.ofNat 5), some ([], Fl.ofNat 3), some ([], Fl.ofNat 3)], [some ([], Fl.ofNat 4), some ([], Fl.ofNat 2)]]⟩, [12, 9]) ())
    (fun r _ => r.2 == [some (Fl.ofRat false 9 2), some (Fl.ofRat false 5 2)]) = true := by decide +kernel

/-- On a machine with eight processors, with draws of four numbers -/
example (seed : Nat → List Nat × Unit) : Reports 1000 8 (swarmJob .debug (swarmSchwefel (tapePlatform quarters Unit .debug))) seed
    (SwarmRecord 30 3000 (box (minus 500 1) (plus 500 1) 3) (fun x v => v = @TestFunc.schwefelF64 _ (tapePlatform quarters Unit .debug).libm x))
    (fun _ => Falling (σ := List Nat × Unit)) :=
  C116_swarm_schwefel (tapePlatform quarters Unit .debug) (tape_sound _ _ _) 8 seed

/-- A genetic optimizer on lists of one number whose goal is the number; the children are read from the state; the population is limited to two. -/
def losing : GA.Opt (List Nat) (List F32) :=
  GA.new (fun x => pure (Fl.cast (x.headD Fl.zero))) (Stop.maxIterations 2) (pure [[Fl.ofNat 5], [Fl.ofNat 1]])
    (fun _ => pure [[0, 1]])
    (fun _ => do
      let s ← get
      match s with
      | a :: b :: rest => do set rest; pure [[Fl.ofNat a], [Fl.ofNat b]]
      | _ => pure [])
    (fun x => pure x) [Selection.killFitnessNaN, Selection.limitPopulation 2] []

/-- C116 fails for the genetic optimizer: a run with the library's LimitPopulation may lose its best solution. The entries for one run are 1 and 2. -/
theorem C116_genetic_witness : M.okAnd ((geneticJob .debug (pure losing) 3 >>= fun d => lookups d : M (List Nat) _) [9, 9, 2, 3, 7, 7])
    (fun r _ => r.2 == [some (Fl.ofNat 1), some (Fl.ofNat 2)]) = true := by decide +kernel

end Verif.Props
