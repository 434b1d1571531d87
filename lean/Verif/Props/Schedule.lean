import Verif.Spec.Schedule
import Verif.Props.StatWhole
import Verif.Props.Unite
import Verif.Props.Rounding
import Verif.Props.RoundingDev
import Verif.Props.Estimate

/-!
# C117: the scheduler changes only the order and the rounding of what is printed
-/

namespace Verif.Props

open Verif Spec Examples Stats Workers StatPrograms

variable {σ : Type}

theorem returns_same {job : Nat → M σ (Data (List F32))} (hs : Steady job) {total cpu : Nat} {seed : Nat → σ} {s s1 s2 : σ} {d1 d2 : Data (List F32)}
    (h1 : (threads total cpu job seed).Returns s d1 s1) (h2 : (threads total cpu job seed).Returns s d2 s2) : d1 = d2 ∧ s1 = s2 := by
  obtain ⟨f1, h1⟩ := h1
  obtain ⟨f2, h2⟩ := h2
  have h1 : job f1 s = .ok (d1, s1) := h1
  have h2 : job f2 s = .ok (d2, s2) := h2
  have := steady_same hs h1 (f := f2) (by rw [h2]; intro h; cases h)
  rw [h2] at this
  cases this
  exact ⟨rfl, rfl⟩

/-- A thread does the same runs in each execution. -/
theorem consecutive_same {job : Nat → M σ (Data (List F32))} (hs : Steady job) {total cpu : Nat} {seed : Nat → σ} {s s1 : σ} {l1 : List (Data (List F32))}
    (h1 : Consecutive (threads total cpu job seed) s l1 s1) : ∀ {l2 s2}, Consecutive (threads total cpu job seed) s l2 s2 → l1.length = l2.length →
    l1 = l2 ∧ s1 = s2 := by
  induction h1 with
  | nil =>
    intro l2 s2 h2 hl
    cases h2 with
    | nil => exact ⟨rfl, rfl⟩
    | snoc => simp at hl
  | snoc hc hr ih =>
    intro l2 s2 h2 hl
    cases h2 with
    | nil => simp at hl
    | snoc hc2 hr2 =>
      obtain ⟨rfl, rfl⟩ := ih hc2 (by simpa using hl)
      obtain ⟨rfl, rfl⟩ := returns_same hs hr hr2
      exact ⟨rfl, rfl⟩

/-- The runs of two executions are the same up to the order of the threads. -/
theorem same_runs {job : Nat → M σ (Data (List F32))} (hs : Steady job) {total cpu : Nat} {seed : Nat → σ} {n n' : Nat} {y y' : Sys σ (List F32)}
    {acc acc' : Data (List F32)} (h : Steps (threads total cpu job seed) n .start y) (h' : Steps (threads total cpu job seed) n' .start y')
    (hf : y.main = .finished acc) (hf' : y'.main = .finished acc') :
    acc.1.results.Perm acc'.1.results ∧ acc.1.convergence.Perm acc'.1.convergence ∧ acc.2.Perm acc'.2 := by
  obtain ⟨o, ho, ds, hds, hm⟩ := Workers.C76_merged _ n y h acc hf
  obtain ⟨o', ho', ds', hds', hm'⟩ := Workers.C76_merged _ n' y' h' acc' hf'
  have hp : o.Perm o' := ho.trans ho'.symm
  have he : o'.flatMap ds' = o'.flatMap ds := by
    refine List.flatMap_congr fun i hi => ?_
    obtain ⟨l1, s1, c1⟩ := hds i (hp.mem_iff.2 hi)
    obtain ⟨l2, s2, c2⟩ := hds' i hi
    exact (consecutive_same hs c2 c1 (by rw [l1, l2])).1
  have hp2 : (o.flatMap ds).Perm (o'.flatMap ds') := by
    rw [he]
    exact hp.flatMap_right ds
  rw [hm.results, hm'.results, hm.convergence, hm'.convergence, hm.calls, hm'.calls]
  exact ⟨hp2.flatMap_right _, hp2.flatMap_right _, hp2.flatMap_right _⟩

/-! ## What is printed for the same runs in another order -/

theorem averageRounding_perm {l l' : List F64} (h : l.Perm l') : averageRounding l = averageRounding l' := by
  unfold averageRounding
  rw [h.length_eq, mean_perm (h.map _)]

theorem deviationRounding_perm {l l' : List F64} (h : l.Perm l') : deviationRounding l = deviationRounding l' := by
  unfold deviationRounding
  rw [h.length_eq, mean_perm (h.map _), sampleVariance_perm (h.map _)]

theorem goals_le {T : Type} (rs : List (Option (T × F64))) : (goals rs).length ≤ rs.length := List.length_filterMap_le ..

theorem average_alike {T : Type} {r r' : List (Option (T × F64))} (h : r.Perm r') (hl : r.length ≤ 2 ^ 49) {x y : F64} (hx : averageGoal r = some x)
    (hy : averageGoal r' = some y) (fx : x.isFinite = true) (fy : y.isFinite = true) : |value x - value y| ≤ 2 * averageRounding (goals r) := by
  have g := goals_perm h
  have l1 := goals_le r
  have l2 : (goals r').length = (goals r).length := g.length_eq.symm
  have e1 := C83_average_goal r x hx fx (by show _ ≤ 2 ^ 53; omega) (Fl.ofNat_finite (by omega) (by decide))
  have e2 := C83_average_goal r' y hy fy (by show _ ≤ 2 ^ 53; omega) (Fl.ofNat_finite (by omega) (by decide))
  change _ ≤ averageRounding (goals r) at e1
  change _ ≤ averageRounding (goals r') at e2
  rw [← averageRounding_perm g, ← mean_perm (g.map value)] at e2
  have := abs_sub_le (value x) (mean ((goals r).map value)) (value y)
  rw [abs_sub_comm (mean ((goals r).map value))] at this
  linarith

theorem deviation_alike {T : Type} {r r' : List (Option (T × F64))} (h : r.Perm r') (hl : r.length ≤ 2 ^ 49) {x y : F64} (hx : stdDevGoal r = some x)
    (hy : stdDevGoal r' = some y) (fx : x.isFinite = true) (fy : y.isFinite = true) : |value x - value y| ≤ 2 * deviationRounding (goals r) := by
  have g := goals_perm h
  have l1 := goals_le r
  have l2 : (goals r').length = (goals r).length := g.length_eq.symm
  have few : ∀ n : Nat, n ≤ 2 ^ 49 → ((n : ℝ) + 10) * roundoff .f64 ≤ 1 / 10 := by
    intro n hn
    have h1 : (n : ℝ) ≤ 2 ^ 49 := by exact_mod_cast hn
    have h2 : roundoff .f64 = 1 / 2 ^ 53 := rfl
    rw [h2]
    linarith
  have e1 := C84_goal r x hx fx (few _ (by omega)) (Fl.ofNat_finite (by omega) (by decide))
  have e2 := C84_goal r' y hy fy (few _ (by omega)) (Fl.ofNat_finite (by omega) (by decide))
  change _ ≤ deviationRounding (goals r) at e1
  change _ ≤ deviationRounding (goals r') at e2
  rw [← deviationRounding_perm g, ← sampleVariance_perm (g.map value)] at e2
  have := abs_sub_le (value x) (Real.sqrt (sampleVariance ((goals r).map value))) (value y)
  rw [abs_sub_comm (Real.sqrt _)] at this
  linarith

theorem average_none_perm {T : Type} {r r' : List (Option (T × F64))} (h : r.Perm r') : averageGoal r = none ↔ averageGoal r' = none := by
  rw [C54_none, C54_none]
  exact ⟨fun k x hx => k x (h.mem_iff.2 hx), fun k x hx => k x (h.mem_iff.1 hx)⟩

theorem deviation_none_perm {T : Type} {r r' : List (Option (T × F64))} (h : r.Perm r') : stdDevGoal r = none ↔ stdDevGoal r' = none := by
  have key : ∀ r : List (Option (T × F64)), stdDevGoal r = none ↔ (goals r).length < 2 := by
    intro r
    rw [stdDevGoal_eq]
    split
    · simp [*]
    · rename_i hl
      have : averageGoal r ≠ none := by
        rw [averageGoal_eq]
        split
        · rename_i h0
          simp [h0] at hl
        · simp
      simp [this]
      omega
  rw [key, key, (goals_perm h).length_eq]

/-- C117: data of the same runs in another order are printed alike. -/
theorem C117_order (profile : Profile) (valid delta : List F32) {d e : Data (List F32)} (h1 : d.1.results.Perm e.1.results)
    (h2 : d.1.convergence.Perm e.1.convergence) (h3 : d.2.Perm e.2) (hl : d.1.results.length ≤ 2 ^ 49) (hl2 : d.1.convergence.length ≤ 2 ^ 49) :
    PrintedAlike σ profile valid delta d e where
  results := h1
  convergence := by
    intro s
    have hmin := C60_counts.minIterations_perm h2
    have hat : ∀ i, (atIteration i d.1.convergence).Perm (atIteration i e.1.convergence) := fun i => h2.filterMap _
    have entry : ∀ (c : List (List (Option (Solution (List F32))))) (i : Nat) (x : Option F64),
        ((List.range (minIterations c)).map fun i => averageGoal (atIteration i c))[i]? = some x ↔ i < minIterations c ∧ averageGoal (atIteration i c) = x := by
      intro c i x
      rw [List.getElem?_map]
      by_cases hi : i < minIterations c
      · rw [List.getElem?_range hi]
        simp [hi]
      · rw [List.getElem?_eq_none (by simpa using hi)]
        simp [hi]
    refine ⟨_, _, M.bind_eq_ok.2 ⟨_, s, mapL_index _ _, M.bind_eq_ok.2 ⟨_, s, C57_entries _ s, rfl⟩⟩,
      M.bind_eq_ok.2 ⟨_, s, mapL_index _ _, M.bind_eq_ok.2 ⟨_, s, C57_entries _ s, rfl⟩⟩, ?_, ?_, ?_⟩
    · simp [hmin]
    · intro i
      rw [entry, entry, hmin, average_none_perm (hat i)]
    · intro i x y hx hy fx fy
      have hx := ((entry _ _ _).1 hx).2
      have hy := ((entry _ _ _).1 hy).2
      refine average_alike (hat i) ?_ hx hy fx fy
      exact Nat.le_trans (List.length_filterMap_le ..) hl2
  report := by
    intro s s1 runs rate average deviation calls h
    unfold report at h ⊢
    obtain ⟨good, s2, hg, h⟩ := M.bind_eq_ok.1 h
    obtain ⟨r1, s3, k1, h⟩ := M.bind_eq_ok.1 h
    obtain ⟨r2, s4, k2, h⟩ := M.bind_eq_ok.1 h
    obtain ⟨r3, s5, k3, h⟩ := M.bind_eq_ok.1 h
    obtain ⟨r4, s6, k4, h⟩ := M.bind_eq_ok.1 h
    obtain ⟨r5, s7, k5, h⟩ := M.bind_eq_ok.1 h
    cases h
    have un : ∀ {A : Type} {o : Option A} {s s' : σ} {a : A}, M.unwrap o s = .ok (a, s') → o = some a ∧ s' = s := by
      intro A o s s' a h
      cases o with
      | none => cases h
      | some b => cases h; exact ⟨rfl, rfl⟩
    obtain ⟨j1, rfl⟩ := un k1
    obtain ⟨j2, rfl⟩ := un k2
    obtain ⟨j3, rfl⟩ := un k3
    obtain ⟨average', j2'⟩ := Option.ne_none_iff_exists'.1 (show averageGoal e.1.results ≠ none from fun hn => by
      rw [(average_none_perm h1).2 hn] at j2
      cases j2)
    obtain ⟨deviation', j3'⟩ := Option.ne_none_iff_exists'.1 (show stdDevGoal e.1.results ≠ none from fun hn => by
      rw [(deviation_none_perm h1).2 hn] at j3
      cases j3)
    have hc : CallCount.average (γ := F64) profile d.2 = CallCount.average profile e.2 := by
      unfold CallCount.average
      rw [usizeSum_val, usizeSum_val, h3.sum_eq, h3.length_eq]
    refine ⟨average', deviation', M.bind_eq_ok.2 ⟨good, _, hg, ?_⟩, average_alike h1 hl j2 j2', deviation_alike h1 hl j3 j3'⟩
    rw [← successRate_perm h1, j1, j2', j3', ← hc]
    refine M.bind_eq_ok.2 ⟨_, _, rfl, M.bind_eq_ok.2 ⟨_, _, rfl, M.bind_eq_ok.2 ⟨_, _, rfl, M.bind_eq_ok.2 ⟨_, _, k4, M.bind_eq_ok.2 ⟨_, _, k5, ?_⟩⟩⟩⟩⟩
    show Except.ok _ = Except.ok _
    rw [show d.1.runCount = e.1.runCount from h1.length_eq]

/-- Each run leaves one result and one row. -/
theorem sizes {job : Nat → M σ (Data (List F32))} (hone : ∀ f s d s', job f s = .ok (d, s') → d.1.results.length = 1 ∧ d.1.convergence.length = 1)
    {total cpu : Nat} {seed : Nat → σ} {n : Nat} {y : Sys σ (List F32)} {acc : Data (List F32)} (h : Steps (threads total cpu job seed) n .start y)
    (hf : y.main = .finished acc) : acc.1.results.length ≤ total ∧ acc.1.convergence.length ≤ total := by
  obtain ⟨o, ho, ds, hds, hm⟩ := Workers.C76_merged _ n y h acc hf
  have h1 : ∀ d ∈ o.flatMap ds, d.1.results.length = 1 ∧ d.1.convergence.length = 1 := by
    intro d hd
    obtain ⟨i, hi, hd⟩ := List.mem_flatMap.1 hd
    obtain ⟨-, s', hc⟩ := hds i hi
    exact consecutive_all (record := fun d => d.1.results.length = 1 ∧ d.1.convergence.length = 1) (fun s d s' ⟨f, hr⟩ => hone f s d s' hr) hc d hd
  have hlen : (o.flatMap ds).length = cpu * (total / cpu) := by
    rw [flatMap_length fun i hi => (hds i hi).1, ho.length_eq, List.length_range]
    rfl
  have := Nat.mul_div_le total cpu
  rw [hm.results, hm.convergence, flatMap_length fun d hd => (h1 d hd).1, flatMap_length fun d hd => (h1 d hd).2]
  omega

/-- C117: two executions of a program with the same random numbers in each thread print the same up to the order of the threads and rounding. -/
theorem C117_schedule {job : Nat → M σ (Data (List F32))} (hs : Steady job)
    (hone : ∀ f s d s', job f s = .ok (d, s') → d.1.results.length = 1 ∧ d.1.convergence.length = 1) (total : Nat) (ht : total ≤ 2 ^ 49) (cpu : Nat)
    (seed : Nat → σ) (profile : Profile) (valid delta : List F32) : IgnoresScheduler total cpu job seed profile valid delta := by
  intro n n' y y' acc acc' h h' hf hf'
  obtain ⟨h1, h2, h3⟩ := same_runs hs h h' hf hf'
  obtain ⟨l1, l2⟩ := sizes hone h hf
  exact C117_order profile valid delta h1 h2 h3 (by omega) (by omega)

/-! ## The statistics programs -/

theorem one_of {job : Nat → M σ (Data (List F32))} {F b : Nat} {record : Data (List F32) → Prop} (hs : Steady job)
    (hjob : ∀ s, ∃ r s', job F s = .ok (r, s') ∧ record r) (hone : ∀ d, record d → OneRun b d) (f : Nat) (s : σ) (d : Data (List F32)) (s' : σ)
    (h : job f s = .ok (d, s')) : d.1.results.length = 1 ∧ d.1.convergence.length = 1 := by
  obtain ⟨r, s1, h1, h2⟩ := hjob s
  have := steady_same hs h1 (f := f) (by rw [h]; intro h2; cases h2)
  rw [h] at this
  cases this
  obtain ⟨a, row, k, rfl, -⟩ := hone _ h2
  exact ⟨rfl, rfl⟩

/-- C117: particleswarm-schwefel-statistics.rs -/
theorem C117_swarm_schwefel (P : Platform σ) (hP : Platform.Sound P) (cpu : Nat) (seed : Nat → σ) :
    IgnoresScheduler 1000 cpu (swarmJob P.profile (swarmSchwefel P)) seed P.profile (List.replicate 3 (plus 4209687 10000)) (List.replicate 3 (plus 1 1)) :=
  C117_schedule (swarmJob_steady _ _)
    (one_of (swarmJob_steady _ _) (Swarm.C77_swarm_schwefel P hP 3001 (by omega)) fun _ => swarm_oneRun) 1000 (by omega) cpu seed _ _ _

/-- C117: particleswarm-schwefel-statistics-full.rs -/
theorem C117_swarm_schwefel_full (P : Platform σ) (hP : Platform.Sound P) (L : Lens σ Stop.GNC) (hL : Platform.Leaves L P) (cpu : Nat) (seed : Nat → σ) :
    IgnoresScheduler 1000 cpu (swarmJob P.profile (swarmSchwefelFull P L)) seed P.profile (List.replicate 3 (plus 4209687 10000)) (List.replicate 3 (plus 1 1)) :=
  C117_schedule (swarmJob_steady _ _)
    (one_of (swarmJob_steady _ _) (Swarm.C77_swarm_schwefel_full P hP L hL 1001 (by omega)) fun _ => swarm_oneRun) 1000 (by omega) cpu seed _ _ _

/-- C117: particleswarm-schwefel-statistics-inertia.rs -/
theorem C117_swarm_schwefel_inertia (P : Platform σ) (hP : Platform.Sound P) (L : Lens σ Stop.GNC) (hL : Platform.Leaves L P) (cpu : Nat) (seed : Nat → σ) :
    IgnoresScheduler 1000 cpu (swarmJob P.profile (swarmSchwefelInertia P L)) seed P.profile (List.replicate 3 (plus 4209687 10000)) (List.replicate 3 (plus 1 1)) :=
  C117_schedule (swarmJob_steady _ _)
    (one_of (swarmJob_steady _ _) (Swarm.C77_swarm_schwefel_inertia P hP L hL 401 (by omega)) fun _ => swarm_oneRun) 1000 (by omega) cpu seed _ _ _

/-- C117: particleswarm-rastrigin-statistics-inertia.rs -/
theorem C117_swarm_rastrigin_inertia (P : Platform σ) (hP : Platform.Sound P) (L : Lens σ Stop.GNC) (hL : Platform.Leaves L P) (cpu : Nat) (seed : Nat → σ) :
    IgnoresScheduler 1000 cpu (swarmJob P.profile (swarmRastriginInertia P L)) seed P.profile (List.replicate 3 (plus 0 1)) (List.replicate 3 (plus 1 10)) :=
  C117_schedule (swarmJob_steady _ _)
    (one_of (swarmJob_steady _ _) (Swarm.C77_swarm_rastrigin_inertia P hP L hL 401 (by omega)) fun _ => swarm_oneRun) 1000 (by omega) cpu seed _ _ _

/-- C117: particleswarm-rosenbrock-statistics.rs -/
theorem C117_swarm_rosenbrock (P : Platform σ) (L : Lens σ Stop.GNC) (hL : Platform.Leaves L P) (cpu : Nat) (seed : Nat → σ) :
    IgnoresScheduler 1000 cpu (swarmJob P.profile (StatPrograms.swarmRosenbrock P L)) seed P.profile (List.replicate 3 (plus 1 1)) (List.replicate 3 (plus 1 100)) :=
  C117_schedule (swarmJob_steady _ _)
    (one_of (swarmJob_steady _ _) (Swarm.C77_swarm_rosenbrock P L hL (10 ^ 17 + 1) (by omega)) fun _ => swarm_oneRun) 1000 (by omega) cpu seed _ _ _

/-- C117: genetic-schwefel-statistics.rs -/
theorem C117_genetic_schwefel (P : Platform σ) (hP : Platform.Sound P) (cpu : Nat) (seed : Nat → σ) :
    IgnoresScheduler 1000 cpu (geneticJob P.profile (StatPrograms.geneticSchwefel P)) seed P.profile (List.replicate 3 (plus 4209687 10000)) (List.replicate 3 (plus 1 1)) :=
  C117_schedule (geneticJob_steady _ _) (one_of (geneticJob_steady _ _) (fun s => by
      obtain ⟨r, s', k1, k2, -⟩ := C77_genetic_schwefel P hP 3001 (by omega) s
      exact ⟨r, s', k1, k2⟩) fun _ => genetic_oneRun) 1000 (by omega) cpu seed _ _ _

/-- C117: genetic-rosenbrock-statistics.rs, if each run ends within `m` generations. -/
theorem C117_genetic_rosenbrock (P : Platform σ) (hP : Platform.Sound P) (L : Lens σ Stop.GNC) (hL : Platform.Leaves L P) (cpu : Nat) (seed : Nat → σ) (m : Nat)
    (hm : m ≤ 2 ^ 55) (hend : ∀ s, geneticJob P.profile (StatPrograms.geneticRosenbrock P L) m s ≠ .error .fuel) :
    IgnoresScheduler 100 cpu (geneticJob P.profile (StatPrograms.geneticRosenbrock P L)) seed P.profile (List.replicate 3 (plus 1 1)) (List.replicate 3 (plus 1 100)) :=
  C117_schedule (geneticJob_steady _ _) (one_of (F := m) (geneticJob_steady _ _) (fun s => by
      rcases C77_genetic_rosenbrock P hP L hL m hm s with h | h
      · exact h
      · exact absurd h (hend s)) fun _ => genetic_oneRun) 100 (by omega) cpu seed _ _ _

/-! ## Instances -/

/-- On a machine with eight processors, with draws of four numbers: there is an execution that comes to its end, and each other one prints the same. -/
example (seed : Nat → List Nat × Unit) : let job := swarmJob .debug (swarmSchwefel (tapePlatform quarters Unit .debug))
    ∃ n y acc, Steps (threads 1000 8 job seed) n .start y ∧ y.main = .finished acc ∧
      ∀ n' y' acc', Steps (threads 1000 8 job seed) n' .start y' → y'.main = .finished acc' →
        PrintedAlike (List Nat × Unit) .debug (List.replicate 3 (plus 4209687 10000)) (List.replicate 3 (plus 1 1)) acc acc' := by
  have hsafe := (job_safe (swarmJob_steady _ _) (Swarm.C77_swarm_schwefel (tapePlatform quarters Unit .debug) (tape_sound _ _ _) 3001 (by omega)) 1000 8 seed).1
  obtain ⟨n, y, acc, h1, h2, -⟩ := Workers.C76_any_order _ hsafe (List.range 8) (List.Perm.refl _)
  exact ⟨n, y, acc, h1, h2, fun n' y' acc' h1' h2' =>
    C117_swarm_schwefel (tapePlatform quarters Unit .debug) (tape_sound _ _ _) 8 seed n n' y y' acc acc' h1 h1' h2 h2'⟩

/-- Each run returns the number it begins with. -/
def echo (_ : Nat) : M F64 (Data (List F32)) := fun s => .ok ((⟨[some ([], s)], [[]]⟩, [1]), s)

/-- The first thread has `2 ^ 53`, the others 1. -/
def echoSeed (i : Nat) : F64 := if i = 0 then Fl.ofNat (2 ^ 53) else Fl.one

theorem echo_steady : Steady echo := fun _ _ _ _ => rfl

theorem echo_safe : (threads 3 3 echo echoSeed).Safe := fun s => ⟨⟨_, _, 0, rfl⟩, by rintro ⟨fuel, e, -, h⟩; cases h⟩

theorem echo_order (order : List Nat) (ho : order.Perm (List.range 3)) : ∃ n y acc, Steps (threads 3 3 echo echoSeed) n .start y ∧ y.main = .finished acc ∧
    acc.1.results = order.map fun i => some ([], echoSeed i) := by
  obtain ⟨n, y, acc, h1, h2, ds, h3, h4⟩ := Workers.C76_any_order _ echo_safe order ho
  refine ⟨n, y, acc, h1, h2, ?_⟩
  rw [h4.results]
  clear h4 ho
  induction order with
  | nil => rfl
  | cons i l ih =>
    rw [List.flatMap_cons, List.flatMap_append, ih fun j hj => h3 j (by simp [hj]), List.map_cons]
    obtain ⟨hl, s', hc⟩ := h3 i (by simp)
    have : Consecutive (threads 3 3 echo echoSeed) (echoSeed i) ([] ++ [(⟨[some ([], echoSeed i)], [[]]⟩, [1])]) (echoSeed i) :=
      .snoc .nil ⟨0, rfl⟩
    rw [(consecutive_same echo_steady hc this (by rw [hl]; rfl)).1]
    rfl

/-- C117: the rounding may differ: two executions of a program with the same random numbers print different averages. -/
theorem C117_rounding_witness : ∃ (n n' : Nat) (y y' : Sys F64 (List F32)) (acc acc' : Data (List F32)), Steps (threads 3 3 echo echoSeed) n .start y ∧
    Steps (threads 3 3 echo echoSeed) n' .start y' ∧ y.main = .finished acc ∧ y'.main = .finished acc' ∧
    averageGoal acc.1.results ≠ averageGoal acc'.1.results := by
  obtain ⟨n, y, acc, h1, h2, h3⟩ := echo_order [0, 1, 2] (by decide)
  obtain ⟨n', y', acc', h1', h2', h3'⟩ := echo_order [1, 2, 0] (by decide)
  refine ⟨n, n', y, y', acc, acc', h1, h1', h2, h2', ?_⟩
  rw [h3, h3']
  decide +kernel

end Verif.Props
