import Verif.Spec.Averaged
import Verif.Props.Calls

/-!
# C115: the averaged convergence estimates the progress of the runs that last
-/

namespace Verif.Props

open Verif Spec Examples Fl Stats Workers StatPrograms Estimate

variable {τ T : Type} {m K : Nat}

/-- The rows -/
abbrev tableRows (T : Type) : Part T (Row T) := fun d => d.1.convergence

theorem additive_rows : Additive (tableRows T) := fun _ _ h => h.convergence

section

variable {job : Nat → M (List Nat × τ) (Data T)}

/-- What the theorems below need -/
theorem sampled_rows (hm : 0 < m) (h : Trial m K job) (hb : RowRuns job) {cpu runs N : Nat} (hN : runs * K ≤ N) (hK : K ≤ N) (u : Nat → τ) :
    ∃ (E : (Row T → ℚ) → ℚ) (S : List Nat → List (Row T)),
      (∀ w μ, RowMean m N job (u 0) w μ ↔ μ = E w) ∧
      (∀ x y g h, E (fun b => x * g b + y * h b) = x * E g + y * E h) ∧
      (∀ t acc, Finishes ⟨cpu, runs, job, pieces N u t⟩ acc → acc.1.convergence.Perm (S t) ∧ ∀ row ∈ acc.1.convergence, none ∉ row) ∧
      (∀ t, (S t).length = cpu * runs) ∧ (∀ t, ∃ acc, Finishes ⟨cpu, runs, job, pieces N u t⟩ acc) ∧
      ∀ H : List (Row T) → ℚ, Estimate.mean m (cpu * N) (fun t => H (S t)) = seqMean E (cpu * runs) H := by
  obtain ⟨F, hok, hE⟩ := h.runs
  obtain ⟨F', hb⟩ := hb
  have hj : ∀ f s d s', job f s = .ok (d, s') → ∃ row, d.1.convergence = [row] ∧ none ∉ row := by
    intro f s d s' hf
    obtain ⟨d', s'', row, h9, h10⟩ := hb s
    have := same_run h.steady h9 (f := f) (by rw [hf]; intro he; cases he)
    rw [hf] at this
    cases this
    exact ⟨row, h10⟩
  have hok2 : ∀ s, ∃ d s', job F s = .ok (d, s') ∧ One (tableRows T) d := fun s => by
    obtain ⟨d, s', a, h1, -⟩ := hok s
    obtain ⟨row, h2, -⟩ := hj _ _ _ _ h1
    exact ⟨d, s', h1, row, h2⟩
  have hE2 : ∀ u, Ends m (fun d _ => One (tableRows T) d) K (fun t => job F (t, u)) := fun u => ends_part (hE u) fun t d s he => by
    obtain ⟨row, h2, -⟩ := hj _ _ _ _ he
    exact ⟨row, h2⟩
  obtain ⟨E, S, h1, h2, h3, h4, h5, h6, h7⟩ := sampled_part (out := tableRows T) hm h.steady h.fresh hok2 hE2 additive_rows (cpu := cpu) hN hK u
  refine ⟨E, S, fun v μ => by rw [h1]; exact runMean_iff (out := tableRows T) h.steady hE2 hK (u 0) v μ, h2,
    fun t acc hf => ⟨h4 t acc hf, finishes_all (out := tableRows T) additive_rows (Q := fun row => none ∉ row) (fun f s d s' hf' row hr => ?_)
      (P := ⟨cpu, runs, job, pieces N u t⟩) rfl hf⟩, h5, h6, h7⟩
  obtain ⟨row', h8, h9⟩ := hj _ _ _ _ hf'
  rw [tableRows, h8] at hr
  obtain rfl := List.mem_singleton.1 hr
  exact h9

theorem reaches_goalAt (i : Nat) (row : Row T) : reaches i row * goalAt i row = goalAt i row := by
  unfold reaches goalAt
  split
  · rw [one_mul]
  · rename_i h
    rw [List.getElem?_eq_none (by omega)]
    simp

theorem prod_reaches (i : Nat) : ∀ l : List (Row T), (l.map (reaches i)).prod = ifAllReach i l 1 := by
  intro l
  induction l with
  | nil => simp [ifAllReach]
  | cons row l ih =>
    rw [List.map_cons, List.prod_cons, ih]
    unfold ifAllReach reaches
    by_cases h1 : i < row.length <;> by_cases h2 : ∀ row ∈ l, i < row.length <;> simp [h1, h2]

theorem ifAllReach_eq (i : Nat) (l : List (Row T)) (x : ℚ) : ifAllReach i l x = (l.map (reaches i)).prod * x := by
  rw [prod_reaches]
  unfold ifAllReach
  split <;> simp

theorem perm_reach {i : Nat} {l l' : List (Row T)} (h : l.Perm l') : (∀ row ∈ l, i < row.length) ↔ ∀ row ∈ l', i < row.length :=
  ⟨fun h1 row hr => h1 row (h.mem_iff.2 hr), fun h1 row hr => h1 row (h.mem_iff.1 hr)⟩

/-- C115: the chance that all runs of a program last beyond iteration `i` -/
theorem C115_all (hm : 0 < m) (h : Trial m K job) (hb : RowRuns job) (cpu runs N : Nat) (hN : runs * K ≤ N) (hK : K ≤ N)
    (u : Nat → τ) (i : Nat) (p : ℚ) (hp : RowMean m N job (u 0) (reaches i) p) :
    chance (List.replicate (cpu * N) m) (fun t => ∃ acc, Finishes ⟨cpu, runs, job, pieces N u t⟩ acc ∧ ∀ row ∈ acc.1.convergence, i < row.length) =
      p ^ (cpu * runs) := by
  classical
  obtain ⟨E, S, h1, h2, h3, h4, h5, h6⟩ := sampled_rows hm h hb (cpu := cpu) hN hK u
  rw [chance_mean, (h1 _ p).1 hp, ← seqMean_prod h2, ← h6]
  congr 1
  funext t
  have h7 : (∃ acc, Finishes ⟨cpu, runs, job, pieces N u t⟩ acc ∧ ∀ row ∈ acc.1.convergence, i < row.length) ↔ ∀ row ∈ S t, i < row.length := by
    constructor
    · rintro ⟨acc, hf, hr⟩
      exact (perm_reach (h3 t acc hf).1).1 hr
    · intro hr
      obtain ⟨acc, hf⟩ := h5 t
      exact ⟨acc, hf, (perm_reach (h3 t acc hf).1).2 hr⟩
  rw [prod_reaches, ifAllReach]
  simp only [h7]

/-- C115: the mean goal at iteration `i` of the runs that last beyond it, and the variance -/
theorem C115_single (hm : 0 < m) (h : Trial m K job) (hb : RowRuns job) (N : Nat) (hK : K ≤ N) (u : τ) (i : Nat) :
    ∃ p : ℚ, (∀ p', RowMean m N job u (reaches i) p' ↔ p' = p) ∧ (p ≠ 0 → ∃ μ s : ℚ, RowMean m N job u (goalAt i) (p * μ) ∧
      RowMean m N job u (fun row => reaches i row * (goalAt i row - μ) ^ 2) (p * s)) := by
  obtain ⟨E, S, h1, h2, -⟩ := sampled_rows hm h hb (cpu := 0) (runs := 1) (N := N) (by omega) hK (fun _ => u)
  refine ⟨E (reaches i), fun p' => h1 _ p', fun h0 => ⟨E (goalAt i) / E (reaches i),
    E (fun row => reaches i row * (goalAt i row - E (goalAt i) / E (reaches i)) ^ 2) / E (reaches i), (h1 _ _).2 ?_, (h1 _ _).2 ?_⟩⟩
  · rw [mul_div_cancel₀ _ h0]
  · rw [mul_div_cancel₀ _ h0]

/-- C115: the exact average at iteration `i` in the cases where all runs last beyond it: its mean value, that of the square of its error, and how likely it
is to be far off -/
theorem C115_average (hm : 0 < m) (h : Trial m K job) (hb : RowRuns job) (cpu runs N : Nat) (hN : runs * K ≤ N) (hK : K ≤ N)
    (hn : cpu * runs ≠ 0) (u : Nat → τ) (i : Nat) (p μ s : ℚ) (h0 : p ≠ 0) (hp : RowMean m N job (u 0) (reaches i) p)
    (hμ : RowMean m N job (u 0) (goalAt i) (p * μ)) (hs : RowMean m N job (u 0) (fun row => reaches i row * (goalAt i row - μ) ^ 2) (p * s)) :
    ProgramRows m N cpu runs job u (fun c => ifAllReach i c (averageAt i c)) (p ^ (cpu * runs) * μ) ∧
    ProgramRows m N cpu runs job u (fun c => ifAllReach i c ((averageAt i c - μ) ^ 2)) (p ^ (cpu * runs) * (s / (cpu * runs : Nat))) ∧
    ∀ δ : ℚ, 0 < δ → chance (List.replicate (cpu * N) m) (fun t => ∃ acc, Finishes ⟨cpu, runs, job, pieces N u t⟩ acc ∧
      (∀ row ∈ acc.1.convergence, i < row.length) ∧ δ ≤ |averageAt i acc.1.convergence - μ|) ≤
      p ^ (cpu * runs) * (s / ((cpu * runs : Nat) * δ ^ 2)) := by
  classical
  obtain ⟨E, S, h1, h2, h3, h4, h5, h6⟩ := sampled_rows hm h hb (cpu := cpu) hN hK u
  obtain rfl := (h1 _ p).1 hp
  have hl := given_linear h2 (reaches i)
  have hc := given_const h2 h0
  have hμ' : μ = given E (reaches i) (goalAt i) := by
    unfold given
    rw [eq_div_iff h0, mul_comm, (h1 _ _).1 hμ]
    congr 1
    funext row
    exact (reaches_goalAt i row).symm
  have hs' : s = given E (reaches i) (fun row => (goalAt i row - μ) ^ 2) := by
    unfold given
    rw [eq_div_iff h0, mul_comm, (h1 _ _).1 hs]
  have hperm : ∀ {l l' : List (Row T)}, l.Perm l' → (l.map (reaches i)).prod = (l'.map (reaches i)).prod ∧ averageAt i l = averageAt i l' :=
    fun hp => ⟨(hp.map _).prod_eq, perm_average (hp.map _)⟩
  have herr : Estimate.mean m (cpu * N) (fun t => ((S t).map (reaches i)).prod * (averageAt i (S t) - μ) ^ 2) =
      E (reaches i) ^ (cpu * runs) * (s / (cpu * runs : Nat)) :=
    (h6 fun l => (l.map (reaches i)).prod * (averageAt i l - μ) ^ 2).trans
      ((seqMean_given h2 h0 _ fun l => (averageAt i l - μ) ^ 2).trans (congrArg _ (seqMean_error hl hc hμ' hs' hn)))
  refine ⟨?_, ?_, fun δ hδ => ?_⟩
  · exact programMean_part (out := tableRows T) (fun t acc hf => (h3 t acc hf).1) h5 (H := fun d => ifAllReach i d.1.convergence (averageAt i d.1.convergence))
      (G := fun l => (l.map (reaches i)).prod * averageAt i l)
      (fun d l hp => by rw [ifAllReach_eq, (hperm hp).1, (hperm hp).2])
      ((h6 fun l => (l.map (reaches i)).prod * averageAt i l).trans
        ((seqMean_given h2 h0 _ (averageAt i)).trans (congrArg _ (seqMean_average hl hc hμ' hn))))
  · exact programMean_part (out := tableRows T) (fun t acc hf => (h3 t acc hf).1) h5
      (H := fun d => ifAllReach i d.1.convergence ((averageAt i d.1.convergence - μ) ^ 2))
      (G := fun l => (l.map (reaches i)).prod * (averageAt i l - μ) ^ 2)
      (fun d l hp => by rw [ifAllReach_eq, (hperm hp).1, (hperm hp).2]) herr
  · have h7 : Estimate.mean m (cpu * N) (fun t => (δ ^ 2)⁻¹ * (((S t).map (reaches i)).prod * (averageAt i (S t) - μ) ^ 2) + 0 * 0) =
        E (reaches i) ^ (cpu * runs) * (s / ((cpu * runs : Nat) * δ ^ 2)) :=
      (mean_linear (m := m) (δ ^ 2)⁻¹ 0 (fun t => ((S t).map (reaches i)).prod * (averageAt i (S t) - μ) ^ 2) (fun _ => 0) (cpu * N)).trans (by
        rw [herr, zero_mul, add_zero, ← div_div, div_eq_inv_mul _ (δ ^ 2)]
        ring)
    rw [chance_mean, ← h7]
    refine mean_le fun t => ?_
    rw [zero_mul, add_zero, prod_reaches]
    split
    · rename_i hex
      obtain ⟨acc, hf, hr, hd⟩ := hex
      have hp := (h3 t acc hf).1
      rw [ifAllReach, if_pos ((perm_reach hp).1 hr), one_mul, inv_mul_eq_div, le_div_iff₀ (by positivity), one_mul]
      rw [(hperm hp).2] at hd
      rw [← sq_abs (averageAt i (S t) - μ)]
      exact pow_le_pow_left₀ hδ.le hd 2
    · unfold ifAllReach
      split <;> positivity

end

section

variable {job : Nat → M (List Nat × τ) (Data (List F32))}

/-- What is printed for the convergence -/
theorem lookups_ok {σ : Type} {d : Data (List F32)} {s s' : σ} {results : Row (List F32)} {conv : List (Option F64)}
    (h : lookups d s = .ok ((results, conv), s')) :
    conv = (List.range (minIterations d.1.convergence)).map fun i => averageGoal (atIteration i d.1.convergence) := by
  obtain ⟨rs, s1, h1, h⟩ := M.bind_eq_ok.1 h
  obtain ⟨c, s2, h2, h⟩ := M.bind_eq_ok.1 h
  obtain ⟨he, -⟩ := M.pure_eq_ok.1 h
  rw [C57_entries] at h2
  cases h2
  cases he
  rfl

theorem min_iff {c : List (Row T)} (hc : c ≠ []) (i : Nat) : i < minIterations c ↔ ∀ row ∈ c, i < row.length := by
  obtain ⟨-, h1, h2⟩ := C57_min c
  refine ⟨fun h row hr => Nat.lt_of_lt_of_le h (h1 row hr), fun h => ?_⟩
  obtain ⟨row, hr, he⟩ := h2 hc
  rw [← he]
  exact h row hr

theorem values_at {i : Nat} : ∀ {c : List (Row T)}, (∀ row ∈ c, none ∉ row) → (∀ row ∈ c, i < row.length) →
    valuesOf goalValue (atIteration i c) = c.map (goalAt i) := by
  intro c
  induction c with
  | nil => intro _ _; rfl
  | cons row c ih =>
    intro h1 h2
    have hi := h2 row (by simp)
    have h3 := ih (fun r hr => h1 r (by simp [hr])) (fun r hr => h2 r (by simp [hr]))
    have hrow : ∃ a, row[i]? = some (some a) := by
      rw [List.getElem?_eq_getElem hi]
      cases he : row[i] with
      | none => exact absurd (he ▸ List.getElem_mem hi) (h1 row (by simp))
      | some a => exact ⟨a, rfl⟩
    obtain ⟨a, ha⟩ := hrow
    unfold valuesOf atIteration at h3 ⊢
    rw [List.filterMap_cons_some (f := fun x : Row T => x[i]?) ha, List.filterMap_cons_some (f := id) (a := some a) (b := a) rfl, List.map_cons, h3, List.map_cons, goalAt, ha]

/-- C115: the averaged convergence that a statistics program prints is an estimate of the progress of the runs that last. -/
theorem C115_estimates (hm : 0 < m) (h : Trial m K job) (hb : RowRuns job) (total cpu : Nat) (h1 : 1 ≤ cpu) (h2 : cpu ≤ total)
    (h3 : total ≤ 2 ^ 53) : ConvergesWell m total cpu job := by
  refine ⟨total * K, fun N hN u i => ?_⟩
  have hr : 1 ≤ total / cpu := (Nat.one_le_div_iff (by omega)).2 h2
  have hrt : total / cpu ≤ total := Nat.div_le_self _ _
  have hall : cpu * (total / cpu) ≤ total := Nat.mul_div_le _ _
  have hne : cpu * (total / cpu) ≠ 0 := Nat.mul_ne_zero (by omega) (by omega)
  have hK : K ≤ N := Nat.le_trans (Nat.le_mul_of_pos_left K (by omega)) hN
  have hN' : total / cpu * K ≤ N := Nat.le_trans (Nat.mul_le_mul_right K hrt) hN
  obtain ⟨p, hp, hrest⟩ := C115_single hm h hb N hK (u 0) i
  have hp := (hp p).2 rfl
  obtain ⟨E, S, -, -, h4, h5, -⟩ := sampled_rows hm h hb (cpu := cpu) hN' hK u
  have hcne : ∀ t acc, Finishes ⟨cpu, total / cpu, job, pieces N u t⟩ acc → acc.1.convergence ≠ [] := fun t acc hf he => by
    have := (h4 t acc hf).1.length_eq
    rw [h5, he] at this
    exact hne this.symm
  refine ⟨p, hp, ?_, fun h0 => ?_⟩
  · rw [← C115_all hm h hb cpu (total / cpu) N hN' hK u i p hp]
    congr 1
    funext t
    refine propext ⟨?_, ?_⟩
    · rintro ⟨acc, s, results, conv, s', hf, hlook, hi⟩
      refine ⟨acc, hf, (min_iff (hcne t acc hf) i).1 ?_⟩
      rw [lookups_ok hlook, List.length_map, List.length_range] at hi
      exact hi
    · rintro ⟨acc, hf, hi⟩
      refine ⟨acc, (t, u 0), _, _, _, hf, M.bind_eq_ok.2 ⟨_, _, mapL_index _ _, M.bind_eq_ok.2 ⟨_, _, C57_entries _ _, rfl⟩⟩, ?_⟩
      rw [List.length_map, List.length_range]
      exact (min_iff (hcne t acc hf) i).2 hi
  · obtain ⟨μ, s, hμ, hs⟩ := hrest h0
    obtain ⟨h6, h7, h8⟩ := C115_average hm h hb cpu (total / cpu) N hN' hK hne u i p μ s h0 hp hμ hs
    refine ⟨μ, s, hμ, hs, h6, h7, fun δ hδ => ?_⟩
    refine _root_.le_trans (Finds.chance_mono fun t => ?_) (h8 δ hδ)
    rintro ⟨acc, s1, results, conv, s', x, hf, hlook, hx, hfin, hd⟩
    rw [lookups_ok hlook] at hx
    have hi : i < minIterations acc.1.convergence := by
      obtain ⟨hi, -⟩ := List.getElem?_eq_some_iff.1 hx
      simpa using hi
    have hreach := (min_iff (hcne t acc hf) i).1 hi
    obtain ⟨hperm, hnone⟩ := h4 t acc hf
    rw [List.getElem?_map, List.getElem?_range hi] at hx
    have havg : averageGoal (atIteration i acc.1.convergence) = some x := by
      simpa using hx
    have hval := values_at hnone hreach
    have hlen : (goals (atIteration i acc.1.convergence)).length = cpu * (total / cpu) := by
      have := congrArg List.length hval
      rw [valuesOf, List.length_map, List.length_map, hperm.length_eq, h5] at this
      rw [goals_values, List.length_map, this]
    have hnf : (Fl.ofNat (goals (atIteration i acc.1.convergence)).length : F64).isFinite = true := by
      rw [hlen]
      exact Fl.ofNat_finite (f := Fmt.f64) (by omega) (by decide)
    have h9 := C83_average_goal _ x havg hfin (by rw [hlen]; exact Nat.le_trans hall h3) hnf
    rw [← average_exact havg hfin hnf, hval] at h9
    have h10 : |value x - averageAt i acc.1.convergence| ≤ averageError (atIteration i acc.1.convergence) := h9
    refine ⟨acc, hf, hreach, ?_⟩
    refine (Rat.cast_le (K := ℝ)).1 ?_
    rw [Rat.cast_abs, Rat.cast_sub]
    have h11 := abs_sub_le (value x) (averageAt i acc.1.convergence : ℚ) μ
    generalize averageError (atIteration i acc.1.convergence) = e at *
    linarith

end

/-! ## The statistics programs -/

open Swarm

variable (dr : Draws)

theorem rowed {b F : Nat} {job : Nat → M (List Nat × τ) (Data (List F32))} (hok : ∀ s, ∃ d s', job F s = .ok (d, s') ∧ OneRun b d) : RowRuns job :=
  ⟨F, fun s => by
    obtain ⟨d, s', h1, a, row, k, rfl, h2, -⟩ := hok s
    exact ⟨_, s', row, h1, rfl, h2⟩⟩

theorem converges_well {job : Nat → M (List Nat × τ) (Data (List F32))} (hm : 0 < m) (h : ∃ K, Trial m K job) (hb : RowRuns job) (cpu : Nat)
    (h1 : 1 ≤ cpu) (h2 : cpu ≤ 1000) : ConvergesWell m 1000 cpu job := by
  obtain ⟨K, h⟩ := h
  exact C115_estimates hm h hb 1000 cpu h1 h2 (by norm_num)

/-- C115: particleswarm-schwefel-statistics.rs -/
theorem C115_swarm_schwefel (hm : 0 < m) (P : Platform (List Nat × Unit)) (hP : Platform.Sound P) (hr : P.rng = dr.beside Unit) (cpu : Nat) (h1 : 1 ≤ cpu) (h2 : cpu ≤ 1000) :
    ConvergesWell m 1000 cpu (swarmJob P.profile (swarmSchwefel P)) :=
  converges_well hm (swarm_schwefel_runs dr P hP hr) (rowed (F := 3001) fun s => by
    obtain ⟨d, s', h3, h4⟩ := C77_swarm_schwefel P hP 3001 (by omega) s
    exact ⟨d, s', h3, swarm_oneRun h4⟩) cpu h1 h2

/-- C115: particleswarm-schwefel-statistics-full.rs -/
theorem C115_swarm_schwefel_full (hm : 0 < m) (P : Platform (List Nat × Stop.GNC)) (hP : Platform.Sound P) (hr : P.rng = dr.beside Stop.GNC)
    (hL : Platform.Leaves (Lens.snd (List Nat) Stop.GNC) P) (cpu : Nat) (h1 : 1 ≤ cpu) (h2 : cpu ≤ 1000) :
    ConvergesWell m 1000 cpu (swarmJob P.profile (swarmSchwefelFull P (Lens.snd _ _))) :=
  converges_well hm (swarm_schwefel_full_runs dr P hP hr hL) (rowed (F := 1001) fun s => by
    obtain ⟨d, s', h3, h4⟩ := C77_swarm_schwefel_full P hP _ hL 1001 (by omega) s
    exact ⟨d, s', h3, swarm_oneRun h4⟩) cpu h1 h2

/-- C115: particleswarm-schwefel-statistics-inertia.rs -/
theorem C115_swarm_schwefel_inertia (hm : 0 < m) (P : Platform (List Nat × Stop.GNC)) (hP : Platform.Sound P) (hr : P.rng = dr.beside Stop.GNC)
    (hL : Platform.Leaves (Lens.snd (List Nat) Stop.GNC) P) (cpu : Nat) (h1 : 1 ≤ cpu) (h2 : cpu ≤ 1000) :
    ConvergesWell m 1000 cpu (swarmJob P.profile (swarmSchwefelInertia P (Lens.snd _ _))) :=
  converges_well hm (swarm_schwefel_inertia_runs dr P hP hr hL) (rowed (F := 401) fun s => by
    obtain ⟨d, s', h3, h4⟩ := C77_swarm_schwefel_inertia P hP _ hL 401 (by omega) s
    exact ⟨d, s', h3, swarm_oneRun h4⟩) cpu h1 h2

/-- C115: particleswarm-rastrigin-statistics-inertia.rs -/
theorem C115_swarm_rastrigin_inertia (hm : 0 < m) (P : Platform (List Nat × Stop.GNC)) (hP : Platform.Sound P) (hr : P.rng = dr.beside Stop.GNC)
    (hL : Platform.Leaves (Lens.snd (List Nat) Stop.GNC) P) (cpu : Nat) (h1 : 1 ≤ cpu) (h2 : cpu ≤ 1000) :
    ConvergesWell m 1000 cpu (swarmJob P.profile (swarmRastriginInertia P (Lens.snd _ _))) :=
  converges_well hm (swarm_rastrigin_inertia_runs dr P hP hr hL) (rowed (F := 401) fun s => by
    obtain ⟨d, s', h3, h4⟩ := C77_swarm_rastrigin_inertia P hP _ hL 401 (by omega) s
    exact ⟨d, s', h3, swarm_oneRun h4⟩) cpu h1 h2

/-- C115: particleswarm-rosenbrock-statistics.rs -/
theorem C115_swarm_rosenbrock (hm : 0 < m) (P : Platform (List Nat × Stop.GNC)) (hr : P.rng = dr.beside Stop.GNC)
    (hL : Platform.Leaves (Lens.snd (List Nat) Stop.GNC) P) (cpu : Nat) (h1 : 1 ≤ cpu) (h2 : cpu ≤ 1000) :
    ConvergesWell m 1000 cpu (swarmJob P.profile (StatPrograms.swarmRosenbrock P (Lens.snd _ _))) :=
  converges_well hm (swarm_rosenbrock_runs dr P hr hL) (rowed (F := (10 ^ 17 + 1)) fun s => by
    obtain ⟨d, s', h3, h4⟩ := C77_swarm_rosenbrock P _ hL (10 ^ 17 + 1) (by omega) s
    exact ⟨d, s', h3, swarm_oneRun h4⟩) cpu h1 h2

/-- C115: genetic-schwefel-statistics.rs -/
theorem C115_genetic_schwefel (hm : 0 < m) (P : Platform (List Nat × Unit)) (hP : Platform.Sound P) (hr : P.rng = dr.beside Unit) (cpu : Nat) (h1 : 1 ≤ cpu) (h2 : cpu ≤ 1000) :
    ConvergesWell m 1000 cpu (geneticJob P.profile (StatPrograms.geneticSchwefel P)) :=
  converges_well hm (genetic_schwefel_runs dr P hP hr) (rowed (F := 3001) fun s => by
    obtain ⟨d, s', h3, h4, -⟩ := C77_genetic_schwefel P hP 3001 (by omega) s
    exact ⟨d, s', h3, genetic_oneRun h4⟩) cpu h1 h2

/-- If every run lasts beyond iteration `i` the chance is one. -/
theorem reaches_always {F N i : Nat} {job : Nat → M (List Nat × τ) (Data T)} (hm : 0 < m)
    (hs : ∀ f d s, job f s ≠ .error .fuel → job (f + d) s = job f s)
    (hok : ∀ s, ∃ d s' row, job F s = .ok (d, s') ∧ d.1.convergence = [row] ∧ i < row.length) (u : τ) : RowMean m N job u (reaches i) 1 := by
  refine ⟨fun _ => 1, fun t _ x => ⟨?_, ?_⟩, ?_⟩
  · rintro ⟨f, d, s', row, h1, h2, rfl⟩
    obtain ⟨d', s'', row', h3, h4, h5⟩ := hok (t, u)
    have := same_run hs h3 (f := f) (by rw [h1]; intro he; cases he)
    rw [h1] at this
    cases this
    rw [h2] at h4
    cases h4
    rw [reaches, if_pos h5]
  · rintro rfl
    obtain ⟨d, s', row, h3, h4, h5⟩ := hok (t, u)
    exact ⟨F, d, s', row, h3, h4, by rw [reaches, if_pos h5]⟩
  · rw [meanOver_eq, mean_constant hm]

/-- C115: all runs of genetic-schwefel-statistics.rs last for 3000 iterations, so each of the entries 0 to 2999 is always printed. -/
theorem C115_genetic_schwefel_rows (hm : 0 < m) (P : Platform (List Nat × Unit)) (hP : Platform.Sound P) (N i : Nat) (hi : i < 3000) :
    RowMean m N (geneticJob P.profile (StatPrograms.geneticSchwefel P)) () (reaches i) 1 :=
  reaches_always hm (geneticJob_steady _ _) (F := 3001) (fun s => by
    obtain ⟨d, s', h3, h4, h5⟩ := C77_genetic_schwefel P hP 3001 (by omega) s
    obtain ⟨ps, a, row, rfl, -⟩ := h4
    refine ⟨_, s', row, h3, rfl, ?_⟩
    simp only [List.map_cons, List.map_nil, List.cons.injEq, and_true] at h5
    omega) ()

/-! ## Instances -/

/-- A run that reaches the goal zero at once if the number is even, otherwise stays at one for two iterations -/
def luck (_ : Nat) : M (List Nat × Unit) (Data (List F32)) := fun s =>
  .ok (if s.1.headD 0 % 2 = 0 then (⟨[some ([], Fl.zero)], [[some ([], Fl.zero)]]⟩, [1])
    else (⟨[some ([], Fl.one)], [[some ([], Fl.one), some ([], Fl.one)]]⟩, [2]), (s.1.tail, s.2))

theorem luck_trial : Trial m 1 luck where
  steady _ _ _ _ := rfl
  fresh _ _ _ _ := rfl
  runs := ⟨0, fun s => by
      by_cases h : s.1.headD 0 % 2 = 0
      · exact ⟨_, _, _, by simp only [luck, h, if_true]; rfl, rfl⟩
      · exact ⟨_, _, _, by simp only [luck, h, if_false]; rfl, rfl⟩,
    fun u => .draw fun k _ => .done (if k % 2 = 0 then (⟨[some ([], Fl.zero)], [[some ([], Fl.zero)]]⟩, [1])
      else (⟨[some ([], Fl.one)], [[some ([], Fl.one), some ([], Fl.one)]]⟩, [2])) u (fun _ => rfl) (by split <;> exact ⟨_, rfl⟩)⟩

theorem luck_rows : RowRuns luck := ⟨0, fun s => by
  by_cases h : s.1.headD 0 % 2 = 0
  · exact ⟨_, _, _, by simp only [luck, h, if_true]; rfl, rfl, by simp⟩
  · exact ⟨_, _, _, by simp only [luck, h, if_false]; rfl, rfl, by simp⟩⟩

example : ConvergesWell 2 4 2 luck := C115_estimates (by omega) luck_trial luck_rows 4 2 (by omega) (by omega) (by norm_num)

theorem luck_mean (w : Row (List F32) → ℚ) :
    RowMean 2 1 luck () w ((w [some ([], Fl.zero)] + w [some ([], Fl.one), some ([], Fl.one)]) / 2) := by
  refine ⟨fun t => if t.headD 0 % 2 = 0 then w [some ([], Fl.zero)] else w [some ([], Fl.one), some ([], Fl.one)], fun t _ x => ?_, ?_⟩
  · by_cases h : t.headD 0 % 2 = 0
    · simp only [luck, h, if_true]
      constructor
      · rintro ⟨f, d, s', row, h1, h2, rfl⟩
        cases h1
        cases h2
        rfl
      · rintro rfl
        exact ⟨0, _, _, _, rfl, rfl, rfl⟩
    · simp only [luck, h, if_false]
      constructor
      · rintro ⟨f, d, s', row, h1, h2, rfl⟩
        cases h1
        cases h2
        rfl
      · rintro rfl
        exact ⟨0, _, _, _, rfl, rfl, rfl⟩
  · have ht : tapes (List.replicate 1 2) = [[0], [1]] := rfl
    unfold meanOver
    rw [ht]
    norm_num

/-- C115: the averaged convergence does not tell how a typical run goes on. Half of the runs reach zero and stop at once. The mean goal after the first
iteration is 1/2, but what is printed for the second iteration estimates 1. -/
theorem C115_early_witness : RowMean 2 1 luck () (goalAt 0) (1 / 2) ∧ RowMean 2 1 luck () (reaches 0) 1 ∧
    RowMean 2 1 luck () (reaches 1) (1 / 2) ∧ RowMean 2 1 luck () (goalAt 1) (1 / 2 * 1) ∧
    ProgramRows 2 1 2 1 luck (fun _ => ()) (fun c => ifAllReach 1 c (averageAt 1 c)) ((1 / 2) ^ 2 * 1) := by
  have h1 := luck_mean (goalAt 0)
  have h2 := luck_mean (reaches 0)
  have h3 := luck_mean (reaches 1)
  have h4 := luck_mean (goalAt 1)
  have h5 : RowMean 2 1 luck () (fun row => reaches 1 row * (goalAt 1 row - 1) ^ 2) 0 := by
    have := luck_mean fun row => reaches 1 row * (goalAt 1 row - 1) ^ 2
    have e : (reaches 1 [some (([], Fl.zero) : Solution (List F32))] * (goalAt 1 [some (([], Fl.zero) : Solution (List F32))] - 1) ^ 2 +
        reaches 1 [some (([], Fl.one) : Solution (List F32)), some ([], Fl.one)] *
          (goalAt 1 [some (([], Fl.one) : Solution (List F32)), some ([], Fl.one)] - 1) ^ 2) / 2 = 0 := by
      norm_num [goalAt, reaches, toss_values.1, toss_values.2]
    rwa [e] at this
  norm_num [goalAt, reaches, toss_values.1, toss_values.2] at h1 h2 h3 h4
  rw [mul_one]
  refine ⟨h1, h2, h3, h4, ?_⟩
  have := (C115_average (m := 2) (by omega) luck_trial luck_rows 2 1 1 (by omega) (by omega) (by omega) (fun _ => ()) 1 (1 / 2) 1 0 (by norm_num) h3
    (by rw [mul_one]; exact h4) (by rw [mul_zero]; exact h5)).1
  exact this

/-- Programs on a machine with eight processors; draws of four numbers -/
example : ConvergesWell 4 1000 8 (swarmJob .debug (swarmSchwefel (tapePlatform quarters Unit .debug))) ∧
    ConvergesWell 4 1000 8 (geneticJob .debug (StatPrograms.geneticSchwefel (tapePlatform quarters Unit .debug))) :=
  ⟨C115_swarm_schwefel quarters (by omega) (tapePlatform quarters Unit .debug) (tape_sound _ _ _) rfl 8 (by omega) (by omega),
    C115_genetic_schwefel quarters (by omega) (tapePlatform quarters Unit .debug) (tape_sound _ _ _) rfl 8 (by omega) (by omega)⟩

end Verif.Props
