import Verif.Proofs.Average
import Verif.Props.Estimate
import Verif.Props.RoundingDev

/-!
# C113: the reported average goal and standard deviation estimate those of a single run
-/

namespace Verif.Props

open Verif Spec Examples Fl Stats Workers StatPrograms Estimate

variable {τ T : Type} {m K : Nat}

section

variable {job : Nat → M (List Nat × τ) (Data T)} (v : Solution T → ℚ)

/-- C113: a number that is computed from the solution of a single run has exactly one mean value. The mean value does not depend on what other runs have
left behind, nor on how many draws there are if only there are enough of them. -/
theorem C113_single (hm : 0 < m) (h : Trial m K job) : ∃ μ, ∀ N, K ≤ N → ∀ (u : τ) μ', RunMean m N job u v μ' ↔ μ' = μ := by
  obtain ⟨F, hok, hE⟩ := h.runs
  rcases isEmpty_or_nonempty τ with he | ⟨⟨u0⟩⟩
  · exact ⟨0, fun N _ u => he.elim u⟩
  refine ⟨runMean (solutions T) m K (job F) u0 v, fun N hN u μ' => ?_⟩
  rw [runMean_solutions h.steady hok hE hN]
  unfold runMean
  rw [mean_longer hm (hE u) _ N K hN (Nat.le_refl K)]
  simp only [h.fresh F _ u u0]

/-- C113: the mean value of the average over all runs of a program is the mean value of a single run, whatever the scheduler does. -/
theorem C113_average (hm : 0 < m) (h : Trial m K job) (cpu runs N : Nat) (hN : runs * K ≤ N) (hK : K ≤ N) (hn : cpu * runs ≠ 0) (u : Nat → τ) (μ : ℚ)
    (hμ : RunMean m N job (u 0) v μ) : ProgramMean m N cpu runs job u (fun rs => exactAverage (valuesOf v rs)) μ := by
  obtain ⟨E, S, h1, h2, h3, h4, h5, h6, h7⟩ := sampled hm h (cpu := cpu) hN hK u
  exact programMean_part (out := solutions T) h4 h6 (G := fun l => exactAverage (l.map v)) (fun d l hp => perm_average (hp.map v))
    ((h7 fun l => exactAverage (l.map v)).trans (seqMean_average h2 h3 ((h1 v μ).1 hμ) hn))

/-- C113: the mean value of the square of the error of the average is the variance of a single run, divided by the number of runs. -/
theorem C113_error (hm : 0 < m) (h : Trial m K job) (cpu runs N : Nat) (hN : runs * K ≤ N) (hK : K ≤ N) (hn : cpu * runs ≠ 0) (u : Nat → τ) (μ s : ℚ)
    (hμ : RunMean m N job (u 0) v μ) (hs : RunMean m N job (u 0) (fun a => (v a - μ) ^ 2) s) :
    ProgramMean m N cpu runs job u (fun rs => (exactAverage (valuesOf v rs) - μ) ^ 2) (s / (cpu * runs : Nat)) := by
  obtain ⟨E, S, h1, h2, h3, h4, h5, h6, h7⟩ := sampled hm h (cpu := cpu) hN hK u
  exact programMean_part (out := solutions T) h4 h6 (G := fun l => (exactAverage (l.map v) - μ) ^ 2)
    (fun d l hp => by rw [← perm_average (hp.map v)]; rfl)
    ((h7 fun l => (exactAverage (l.map v) - μ) ^ 2).trans (seqMean_error h2 h3 ((h1 v μ).1 hμ) ((h1 _ s).1 hs) hn))

/-- C113: the mean value of the sample variance is the variance of a single run: the divisor, one less than the number of runs, is the right one. -/
theorem C113_variance (hm : 0 < m) (h : Trial m K job) (cpu runs N : Nat) (hN : runs * K ≤ N) (hK : K ≤ N) (hn : 2 ≤ cpu * runs) (u : Nat → τ)
    (μ s : ℚ) (hμ : RunMean m N job (u 0) v μ) (hs : RunMean m N job (u 0) (fun a => (v a - μ) ^ 2) s) :
    ProgramMean m N cpu runs job u (fun rs => exactVariance (valuesOf v rs)) s := by
  obtain ⟨E, S, h1, h2, h3, h4, h5, h6, h7⟩ := sampled hm h (cpu := cpu) hN hK u
  exact programMean_part (out := solutions T) h4 h6 (G := fun l => exactVariance (l.map v)) (fun d l hp => perm_variance (hp.map v))
    ((h7 fun l => exactVariance (l.map v)).trans (seqMean_variance h2 h3 ((h1 v μ).1 hμ) ((h1 _ s).1 hs) hn))

/-- C113: how likely it is that the average over all runs of a program is far from the mean value of a single run -/
theorem C113_near (hm : 0 < m) (h : Trial m K job) (cpu runs N : Nat) (hN : runs * K ≤ N) (hK : K ≤ N) (hn : cpu * runs ≠ 0) (u : Nat → τ)
    (μ s δ : ℚ) (hδ : 0 < δ) (hμ : RunMean m N job (u 0) v μ) (hs : RunMean m N job (u 0) (fun a => (v a - μ) ^ 2) s) :
    chance (List.replicate (cpu * N) m) (fun t => ∃ acc, Finishes ⟨cpu, runs, job, pieces N u t⟩ acc ∧
      δ ≤ |exactAverage (valuesOf v acc.1.results) - μ|) ≤ s / ((cpu * runs : Nat) * δ ^ 2) := by
  obtain ⟨E, S, h1, h2, h3, h4, h5, h6, h7⟩ := sampled hm h (cpu := cpu) hN hK u
  refine chance_far h7 h2 h3 ((h1 v μ).1 hμ) ((h1 _ s).1 hs) hn hδ ?_
  rintro t ⟨acc, hf, hd⟩
  rw [valuesOf, perm_average ((h4 t acc hf).map v)] at hd
  exact hd

end

section

variable {job : Nat → M (List Nat × τ) (Data (List F32))}

theorem report_average {σ : Type} {p : Profile} {valid delta : List F32} {d : Data (List F32)} {s s' : σ} {x : Nat × F64 × F64 × F64 × F64}
    (h : report p valid delta d s = .ok (x, s')) : averageGoal d.1.results = some x.2.2.1 := by
  obtain ⟨good, s1, h1, h⟩ := M.bind_eq_ok.1 h
  obtain ⟨rate, s2, h2, h⟩ := M.bind_eq_ok.1 h
  obtain ⟨avg, s3, h3, h⟩ := M.bind_eq_ok.1 h
  obtain ⟨dev, s4, h4, h⟩ := M.bind_eq_ok.1 h
  obtain ⟨c, s5, h5, h⟩ := M.bind_eq_ok.1 h
  obtain ⟨c, s6, h6, h⟩ := M.bind_eq_ok.1 h
  obtain ⟨rfl, rfl⟩ := M.pure_eq_ok.1 h
  exact (M.unwrap_eq_ok.1 h3).1

theorem report_deviation {σ : Type} {p : Profile} {valid delta : List F32} {d : Data (List F32)} {s s' : σ} {x : Nat × F64 × F64 × F64 × F64}
    (h : report p valid delta d s = .ok (x, s')) : stdDevGoal d.1.results = some x.2.2.2.1 := by
  obtain ⟨good, s1, h1, h⟩ := M.bind_eq_ok.1 h
  obtain ⟨rate, s2, h2, h⟩ := M.bind_eq_ok.1 h
  obtain ⟨avg, s3, h3, h⟩ := M.bind_eq_ok.1 h
  obtain ⟨dev, s4, h4, h⟩ := M.bind_eq_ok.1 h
  obtain ⟨c, s5, h5, h⟩ := M.bind_eq_ok.1 h
  obtain ⟨c, s6, h6, h⟩ := M.bind_eq_ok.1 h
  obtain ⟨rfl, rfl⟩ := M.pure_eq_ok.1 h
  exact (M.unwrap_eq_ok.1 h4).1

theorem goals_values (rs : List (Option (Solution T))) : goals rs = (rs.filterMap id).map Prod.snd := by
  unfold goals
  rw [List.map_filterMap]
  rfl

theorem sum_finite {f : Fmt} : ∀ (xs : List (Fl f)) (a : Fl f), (xs.foldl Fl.add a).isFinite = true → a.isFinite = true ∧ ∀ x ∈ xs, x.isFinite = true := by
  intro xs
  induction xs with
  | nil => intro a h; exact ⟨h, by simp⟩
  | cons x xs ih =>
    intro a h
    obtain ⟨h1, h2⟩ := ih _ h
    obtain ⟨h3, h4⟩ := Fl.finite_of_add h1
    exact ⟨h3, by simpa [h4] using h2⟩

/-- If the printed average is finite, all goals are. -/
theorem values_exact {rs : List (Option (Solution T))} {r : F64} (h : averageGoal rs = some r) (hr : r.isFinite = true)
    (hnf : (Fl.ofNat (goals rs).length : F64).isFinite = true) :
    (valuesOf goalValue rs).map (fun x : ℚ => (x : ℝ)) = (goals rs).map value := by
  rw [averageGoal_eq] at h
  split at h
  · cases h
  cases h
  have hall := (sum_finite _ _ (Fl.finite_of_div hr hnf).1).2
  rw [goals_values] at hall ⊢
  unfold valuesOf
  rw [List.map_map, List.map_map]
  refine List.map_congr_left fun a ha => ?_
  have := hall a.2 (List.mem_map_of_mem ha)
  simp only [Function.comp, goalValue]
  rw [if_pos this]
  unfold ratValue value
  push_cast
  rfl

theorem cast_sum (g : ℚ → ℚ) : ∀ l : List ℚ, (((l.map g).sum : ℚ) : ℝ) = (l.map fun x => ((g x : ℚ) : ℝ)).sum := by
  intro l
  induction l with
  | nil => simp
  | cons x l ih => rw [List.map_cons, List.sum_cons, List.map_cons, List.sum_cons, Rat.cast_add, ih]

theorem cast_average (l : List ℚ) : ((exactAverage l : ℚ) : ℝ) = Spec.mean (l.map fun x : ℚ => (x : ℝ)) := by
  unfold exactAverage Spec.mean
  rw [Rat.cast_div, Rat.cast_natCast, List.length_map, ← cast_sum (fun x => x), List.map_id']

theorem cast_variance (l : List ℚ) : ((exactVariance l : ℚ) : ℝ) = sampleVariance (l.map fun x : ℚ => (x : ℝ)) := by
  unfold exactVariance sampleVariance
  rw [← cast_average, Rat.cast_div, cast_sum, List.length_map, List.map_map, Rat.cast_sub, Rat.cast_natCast, Rat.cast_one]
  congr 2
  refine List.map_congr_left fun x _ => ?_
  simp only [Function.comp]
  push_cast
  rfl

theorem average_exact {rs : List (Option (Solution T))} {r : F64} (h : averageGoal rs = some r) (hr : r.isFinite = true)
    (hnf : (Fl.ofNat (goals rs).length : F64).isFinite = true) :
    ((exactAverage (valuesOf goalValue rs) : ℚ) : ℝ) = Spec.mean ((goals rs).map value) := by
  rw [cast_average, values_exact h hr hnf]

/-- C113: what is printed, if it is finite, is the exact average and the root of the exact sample variance up to rounding errors. -/
theorem C113_printed {σ : Type} (p : Profile) (valid delta : List F32) (d : Data (List F32)) (s s' : σ) (x : Nat × F64 × F64 × F64 × F64)
    (h : report p valid delta d s = .ok (x, s')) (hfew : (goals d.1.results).length ≤ 2 ^ 49) (h1 : x.2.2.1.isFinite = true)
    (h2 : x.2.2.2.1.isFinite = true) :
    |value x.2.2.1 - exactAverage (valuesOf goalValue d.1.results)| ≤ averageError d.1.results ∧
    |value x.2.2.2.1 - Real.sqrt (exactVariance (valuesOf goalValue d.1.results))| ≤ deviationError d.1.results := by
  have hnf : (Fl.ofNat (goals d.1.results).length : F64).isFinite = true := Fl.ofNat_finite (f := Fmt.f64) (by omega) (by decide)
  have havg := report_average h
  have hv := values_exact havg h1 hnf
  have h3 : (((goals d.1.results).length : ℝ) + 10) * roundoff .f64 ≤ 1 / 10 := by
    have h4 : ((goals d.1.results).length : ℝ) ≤ 2 ^ 49 := by exact_mod_cast hfew
    have h5 : roundoff .f64 = 1 / 2 ^ 53 := rfl
    rw [h5]
    generalize ((goals d.1.results).length : ℝ) = n at h4
    norm_num at h4 ⊢
    linarith
  rw [cast_average, hv]
  refine ⟨C83_average_goal _ _ havg h1 (by exact Nat.le_trans hfew (by decide)) hnf, ?_⟩
  unfold deviationError
  rw [cast_variance, hv]
  exact C84_goal _ _ (report_deviation h) h2 h3 hnf

/-- C113: the average goal that a statistics program prints is an estimate of the mean goal of a single run. -/
theorem C113_estimates (hm : 0 < m) (h : Trial m K job) (total cpu : Nat) (h1 : 1 ≤ cpu) (h2 : cpu ≤ total) (h3 : total ≤ 2 ^ 53)
    (profile : Profile) (valid delta : List F32) : AveragesWell m total cpu job profile valid delta := by
  refine ⟨total * K, fun N hN u => ?_⟩
  have hr : 1 ≤ total / cpu := (Nat.one_le_div_iff (by omega)).2 h2
  have hrt : total / cpu ≤ total := Nat.div_le_self _ _
  have hall : cpu * (total / cpu) ≤ total := Nat.mul_div_le _ _
  have hne : cpu * (total / cpu) ≠ 0 := Nat.mul_ne_zero (by omega) (by omega)
  have hK : K ≤ N := Nat.le_trans (Nat.le_mul_of_pos_left K (by omega)) hN
  have hN' : total / cpu * K ≤ N := Nat.le_trans (Nat.mul_le_mul_right K hrt) hN
  obtain ⟨μ, hμ⟩ := C113_single goalValue hm h
  have hμ := (hμ N hK (u 0) μ).2 rfl
  obtain ⟨s, hs⟩ := C113_single (fun a => (goalValue a - μ) ^ 2) hm h
  have hs := (hs N hK (u 0) s).2 rfl
  refine ⟨μ, s, hμ, hs, C113_average goalValue hm h cpu _ N hN' hK hne u μ hμ, C113_error goalValue hm h cpu _ N hN' hK hne u μ s hμ hs,
    fun hn => C113_variance goalValue hm h cpu _ N hN' hK hn u μ s hμ hs, fun δ hδ => ?_⟩
  refine _root_.le_trans (Finds.chance_mono fun t => ?_) (C113_near goalValue hm h cpu (total / cpu) N hN' hK hne u μ s δ hδ hμ hs)
  rintro ⟨acc, s1, x, s', hf, hrep, hfin, hd⟩
  refine ⟨acc, hf, ?_⟩
  have havg := report_average hrep
  obtain ⟨E, S, -, -, -, h4, h5, -⟩ := sampled hm h (cpu := cpu) hN' hK u
  have hlen : (goals acc.1.results).length = cpu * (total / cpu) := by
    rw [goals_values, List.length_map, (h4 t acc hf).length_eq, h5]
  have hnf : (Fl.ofNat (goals acc.1.results).length : F64).isFinite = true := by
    rw [hlen]
    exact Fl.ofNat_finite (f := Fmt.f64) (by omega) (by decide)
  have h6 := C83_average_goal acc.1.results x.2.2.1 havg hfin (by rw [hlen]; exact Nat.le_trans hall h3) hnf
  rw [← average_exact havg hfin hnf] at h6
  have h7 : |value x.2.2.1 - exactAverage (valuesOf goalValue acc.1.results)| ≤ averageError acc.1.results := h6
  refine (Rat.cast_le (K := ℝ)).1 ?_
  rw [Rat.cast_abs, Rat.cast_sub]
  have h8 := abs_sub_le (value x.2.2.1) (exactAverage (valuesOf goalValue acc.1.results) : ℚ) μ
  generalize averageError acc.1.results = e at *
  linarith

end

/-! ### The standard deviation -/

theorem root_sum : ∀ (l : List ℚ) (a : ℝ), (∀ x ∈ l, 0 ≤ x) →
    2 * a * (l.map fun x : ℚ => Real.sqrt x).sum ≤ (l.sum : ℚ) + l.length * a ^ 2 := by
  intro l a
  induction l with
  | nil => intro _; simp
  | cons x l ih =>
    intro h
    have h1 := ih fun y hy => h y (by simp [hy])
    have h2 : (0 : ℝ) ≤ x := by exact_mod_cast h x (by simp)
    have h3 := Real.sq_sqrt h2
    have h4 := sq_nonneg (Real.sqrt x - a)
    simp only [List.map_cons, List.sum_cons, List.length_cons, Rat.cast_add, Nat.cast_add, Nat.cast_one]
    nlinarith

theorem variance_nonneg (l : List ℚ) (h : 2 ≤ l.length) : 0 ≤ exactVariance l := by
  unfold exactVariance
  have h1 : (2 : ℚ) ≤ l.length := by exact_mod_cast h
  refine div_nonneg (List.sum_nonneg fun x hx => ?_) (by linarith)
  obtain ⟨y, -, rfl⟩ := List.mem_map.1 hx
  positivity

/-- C113: on average the standard deviation, the root of the sample variance, is at most the standard deviation of a single run. It may be less: see the
witness. -/
theorem C113_deviation {job : Nat → M (List Nat × τ) (Data T)} (v : Solution T → ℚ) (hm : 0 < m) (h : Trial m K job) (cpu runs N : Nat)
    (hN : runs * K ≤ N) (hK : K ≤ N) (hn : 2 ≤ cpu * runs) (u : Nat → τ) (μ s : ℚ) (hμ : RunMean m N job (u 0) v μ)
    (hs : RunMean m N job (u 0) (fun a => (v a - μ) ^ 2) s) :
    ∃ V : List Nat → ℚ, (∀ t ∈ tapes (List.replicate (cpu * N) m), Yields ⟨cpu, runs, job, pieces N u t⟩ (fun rs => exactVariance (valuesOf v rs)) (V t)) ∧
      ((tapes (List.replicate (cpu * N) m)).map fun t => Real.sqrt (V t)).sum / (tapes (List.replicate (cpu * N) m)).length ≤ Real.sqrt s := by
  obtain ⟨V, h1, h2⟩ := C113_variance v hm h cpu runs N hN hK hn u μ s hμ hs
  obtain ⟨E, S, -, -, -, h4, h5, h6, -⟩ := sampled hm h (cpu := cpu) hN hK u
  have h3 : ∀ t ∈ tapes (List.replicate (cpu * N) m), Yields ⟨cpu, runs, job, pieces N u t⟩ (fun rs => exactVariance (valuesOf v rs)) (V t) :=
    fun t ht => (h1 t ht _).2 rfl
  refine ⟨V, h3, ?_⟩
  have h7 : ∀ x ∈ (tapes (List.replicate (cpu * N) m)).map V, 0 ≤ x := by
    intro x hx
    obtain ⟨t, ht, rfl⟩ := List.mem_map.1 hx
    obtain ⟨acc, hacc⟩ := h6 t
    rw [← (h3 t ht).2 acc hacc]
    refine variance_nonneg _ ?_
    rw [valuesOf, List.length_map, (h4 t acc hacc).length_eq, h5]
    exact hn
  unfold meanOver at h2
  have hpos : 0 < (tapes (List.replicate (cpu * N) m)).length := by
    rw [length_tapes, List.prod_replicate]
    exact Nat.pow_pos hm
  generalize tapes (List.replicate (cpu * N) m) = ts at *
  have hp : (0 : ℝ) < ts.length := by exact_mod_cast hpos
  refine Real.le_sqrt_of_sq_le ?_
  have h8 := root_sum (ts.map V) ((ts.map fun t => Real.sqrt (V t)).sum / ts.length) h7
  rw [List.map_map, List.length_map] at h8
  have h9 : (s : ℝ) = ((ts.map V).sum : ℚ) / ts.length := by
    rw [h2, Rat.cast_div, Rat.cast_natCast]
  rw [h9, le_div_iff₀ hp]
  change 2 * _ * (ts.map fun t => Real.sqrt (V t)).sum ≤ _ at h8
  generalize hA : (ts.map fun t => Real.sqrt (V t)).sum = A at *
  have h10 : A = A / ts.length * ts.length := by field_simp
  generalize A / (ts.length : ℝ) = a at *
  rw [h10] at h8
  nlinarith

/-! ### The programs -/

section

variable (dr : Draws)

/-- C113: particleswarm-schwefel-statistics.rs -/
theorem C113_swarm_schwefel (hm : 0 < m) (P : Platform (List Nat × Unit)) (hP : Platform.Sound P) (hr : P.rng = dr.beside Unit)
    (cpu : Nat) (h1 : 1 ≤ cpu) (h2 : cpu ≤ 1000) :
    AveragesWell m 1000 cpu (swarmJob P.profile (swarmSchwefel P)) P.profile (List.replicate 3 (plus 4209687 10000)) (List.replicate 3 (plus 1 1)) := by
  obtain ⟨K, h⟩ := swarm_schwefel_runs (m := m) dr P hP hr
  exact C113_estimates hm h 1000 cpu h1 h2 (by norm_num) _ _ _

/-- C113: particleswarm-schwefel-statistics-full.rs -/
theorem C113_swarm_schwefel_full (hm : 0 < m) (P : Platform (List Nat × Stop.GNC)) (hP : Platform.Sound P) (hr : P.rng = dr.beside Stop.GNC)
    (hL : Platform.Leaves (Lens.snd (List Nat) Stop.GNC) P) (cpu : Nat) (h1 : 1 ≤ cpu) (h2 : cpu ≤ 1000) :
    AveragesWell m 1000 cpu (swarmJob P.profile (swarmSchwefelFull P (Lens.snd _ _))) P.profile (List.replicate 3 (plus 4209687 10000))
      (List.replicate 3 (plus 1 1)) := by
  obtain ⟨K, h⟩ := swarm_schwefel_full_runs (m := m) dr P hP hr hL
  exact C113_estimates hm h 1000 cpu h1 h2 (by norm_num) _ _ _

/-- C113: particleswarm-schwefel-statistics-inertia.rs -/
theorem C113_swarm_schwefel_inertia (hm : 0 < m) (P : Platform (List Nat × Stop.GNC)) (hP : Platform.Sound P) (hr : P.rng = dr.beside Stop.GNC)
    (hL : Platform.Leaves (Lens.snd (List Nat) Stop.GNC) P) (cpu : Nat) (h1 : 1 ≤ cpu) (h2 : cpu ≤ 1000) :
    AveragesWell m 1000 cpu (swarmJob P.profile (swarmSchwefelInertia P (Lens.snd _ _))) P.profile (List.replicate 3 (plus 4209687 10000))
      (List.replicate 3 (plus 1 1)) := by
  obtain ⟨K, h⟩ := swarm_schwefel_inertia_runs (m := m) dr P hP hr hL
  exact C113_estimates hm h 1000 cpu h1 h2 (by norm_num) _ _ _

/-- C113: particleswarm-rastrigin-statistics-inertia.rs -/
theorem C113_swarm_rastrigin_inertia (hm : 0 < m) (P : Platform (List Nat × Stop.GNC)) (hP : Platform.Sound P) (hr : P.rng = dr.beside Stop.GNC)
    (hL : Platform.Leaves (Lens.snd (List Nat) Stop.GNC) P) (cpu : Nat) (h1 : 1 ≤ cpu) (h2 : cpu ≤ 1000) :
    AveragesWell m 1000 cpu (swarmJob P.profile (swarmRastriginInertia P (Lens.snd _ _))) P.profile (List.replicate 3 (plus 0 1))
      (List.replicate 3 (plus 1 10)) := by
  obtain ⟨K, h⟩ := swarm_rastrigin_inertia_runs (m := m) dr P hP hr hL
  exact C113_estimates hm h 1000 cpu h1 h2 (by norm_num) _ _ _

/-- C113: particleswarm-rosenbrock-statistics.rs -/
theorem C113_swarm_rosenbrock (hm : 0 < m) (P : Platform (List Nat × Stop.GNC)) (hr : P.rng = dr.beside Stop.GNC)
    (hL : Platform.Leaves (Lens.snd (List Nat) Stop.GNC) P) (cpu : Nat) (h1 : 1 ≤ cpu) (h2 : cpu ≤ 1000) :
    AveragesWell m 1000 cpu (swarmJob P.profile (StatPrograms.swarmRosenbrock P (Lens.snd _ _))) P.profile (List.replicate 3 (plus 1 1))
      (List.replicate 3 (plus 1 100)) := by
  obtain ⟨K, h⟩ := swarm_rosenbrock_runs (m := m) dr P hr hL
  exact C113_estimates hm h 1000 cpu h1 h2 (by norm_num) _ _ _

/-- C113: genetic-schwefel-statistics.rs -/
theorem C113_genetic_schwefel (hm : 0 < m) (P : Platform (List Nat × Unit)) (hP : Platform.Sound P) (hr : P.rng = dr.beside Unit)
    (cpu : Nat) (h1 : 1 ≤ cpu) (h2 : cpu ≤ 1000) :
    AveragesWell m 1000 cpu (geneticJob P.profile (StatPrograms.geneticSchwefel P)) P.profile (List.replicate 3 (plus 4209687 10000))
      (List.replicate 3 (plus 1 1)) := by
  obtain ⟨K, h⟩ := genetic_schwefel_runs (m := m) dr P hP hr
  exact C113_estimates hm h 1000 cpu h1 h2 (by norm_num) _ _ _

end

/-! ### Concrete cases -/

/-- A run that throws a coin: the goal of the result is zero if the number is even, otherwise one. -/
def toss (_ : Nat) : M (List Nat × Unit) (Data (List F32)) := fun s =>
  .ok ((⟨[some ([], if s.1.headD 0 % 2 = 0 then Fl.zero else Fl.one)], [[]]⟩, [1]), (s.1.tail, s.2))

theorem toss_ends (u : Unit) : Ends m (fun d _ => ∃ a, d.1.results = [some a]) 1 (fun t => toss 0 (t, u)) :=
  .draw fun k _ => .done (⟨[some ([], if k % 2 = 0 then Fl.zero else Fl.one)], [[]]⟩, [1]) u (fun _ => rfl) ⟨_, rfl⟩

theorem toss_trial : Trial m 1 toss where
  steady _ _ _ _ := rfl
  fresh _ _ _ _ := rfl
  runs := ⟨0, fun _ => ⟨_, _, _, rfl, rfl⟩, toss_ends⟩

theorem toss_values : goalValue (([], Fl.zero) : Solution (List F32)) = 0 ∧ goalValue (([], Fl.one) : Solution (List F32)) = 1 := by
  have h1 : goalValue (([], Fl.zero) : Solution (List F32)) = 0 := by
    unfold goalValue
    rw [if_pos Fl.isFinite_zero]
    decide +kernel
  have h2 : goalValue (([], Fl.one) : Solution (List F32)) = 1 := by
    unfold goalValue
    rw [if_pos Fl.isFinite_one]
    decide +kernel
  exact ⟨h1, h2⟩

/-- A throw of a coin has the mean value 1/2 and the variance 1/4. -/
theorem toss_means : RunMean 2 1 toss () goalValue (1 / 2) ∧ RunMean 2 1 toss () (fun a => (goalValue a - 1 / 2) ^ 2) (1 / 4) := by
  rw [runMean_solutions (toss_trial (m := 2)).steady (F := 0) (fun _ => ⟨_, _, _, rfl, rfl⟩) toss_ends (Nat.le_refl 1),
    runMean_solutions (toss_trial (m := 2)).steady (F := 0) (fun _ => ⟨_, _, _, rfl, rfl⟩) toss_ends (Nat.le_refl 1)]
  constructor <;>
  · simp only [runMean, Estimate.mean, pay, toss, first, solutions, List.filterMap_cons, id_eq, List.filterMap_nil, List.headD_cons, Finset.sum_range_succ, Finset.sum_range_zero]
    norm_num [toss_values.1, toss_values.2]

/-- Two throws on two processors: the mean value of the average is 1/2, that of the square of its error is 1/8, and that of the sample variance is 1/4. -/
example : ProgramMean 2 1 2 1 toss (fun _ => ()) (fun rs => exactAverage (valuesOf goalValue rs)) (1 / 2) ∧
    ProgramMean 2 1 2 1 toss (fun _ => ()) (fun rs => (exactAverage (valuesOf goalValue rs) - 1 / 2) ^ 2) (1 / 8) ∧
    ProgramMean 2 1 2 1 toss (fun _ => ()) (fun rs => exactVariance (valuesOf goalValue rs)) (1 / 4) := by
  refine ⟨C113_average goalValue (by omega) toss_trial 2 1 1 (by omega) (by omega) (by omega) _ _ toss_means.1, ?_,
    C113_variance goalValue (by omega) toss_trial 2 1 1 (by omega) (by omega) (by omega) _ _ _ toss_means.1 toss_means.2⟩
  have := C113_error goalValue (by omega) toss_trial 2 1 1 (by omega) (by omega) (by omega) (fun _ => ()) _ _ toss_means.1 toss_means.2
  norm_num at this ⊢
  exact this

/-- Programs on a machine with eight processors; draws of four numbers -/
example : AveragesWell 4 1000 8 (swarmJob .debug (swarmSchwefel (tapePlatform quarters Unit .debug))) .debug
      (List.replicate 3 (plus 4209687 10000)) (List.replicate 3 (plus 1 1)) ∧
    AveragesWell 4 1000 8 (swarmJob .release (swarmSchwefelFull (tapePlatform quarters Stop.GNC .release) (Lens.snd _ _))) .release
      (List.replicate 3 (plus 4209687 10000)) (List.replicate 3 (plus 1 1)) ∧
    AveragesWell 4 1000 8 (geneticJob .debug (StatPrograms.geneticSchwefel (tapePlatform quarters Unit .debug))) .debug
      (List.replicate 3 (plus 4209687 10000)) (List.replicate 3 (plus 1 1)) :=
  ⟨C113_swarm_schwefel quarters (by omega) (tapePlatform quarters Unit .debug) (tape_sound _ _ _) rfl 8 (by omega) (by omega),
    C113_swarm_schwefel_full quarters (by omega) (tapePlatform quarters Stop.GNC .release) (tape_sound _ _ _) rfl (tape_leaves _ _) 8 (by omega) (by omega),
    C113_genetic_schwefel quarters (by omega) (tapePlatform quarters Unit .debug) (tape_sound _ _ _) rfl 8 (by omega) (by omega)⟩

theorem two_tosses (a b : Nat) : Yields ⟨2, 1, toss, pieces 1 (fun _ => ()) [a, b]⟩ (fun rs => exactVariance (valuesOf goalValue rs))
    (exactVariance [goalValue (([], if a % 2 = 0 then Fl.zero else Fl.one) : Solution (List F32)),
      goalValue (([], if b % 2 = 0 then Fl.zero else Fl.one) : Solution (List F32))]) := by
  refine ⟨finishes (toss_trial (m := 2)).steady (F := 0) (fun s => ⟨_, rfl⟩) rfl, fun acc h => ?_⟩
  have := finishes_outs additive_solutions (toss_trial (m := 2)).steady (F := 0) (fun s => ⟨_, rfl⟩) rfl h
  exact perm_variance (this.map goalValue)

/-- C113: the standard deviation of two throws of a coin is less than that of a single throw on average: the root of 1/8 and not 1/2. -/
theorem C113_deviation_witness : ∃ V : List Nat → ℚ, (∀ t ∈ tapes (List.replicate (2 * 1) 2),
      Yields ⟨2, 1, toss, pieces 1 (fun _ => ()) t⟩ (fun rs => exactVariance (valuesOf goalValue rs)) (V t)) ∧
    ((tapes (List.replicate (2 * 1) 2)).map fun t => Real.sqrt (V t)).sum / (tapes (List.replicate (2 * 1) 2)).length = Real.sqrt (1 / 8) ∧
    Real.sqrt (1 / 8) < Real.sqrt (1 / 4) := by
  have ht : tapes (List.replicate (2 * 1) 2) = [[0, 0], [0, 1], [1, 0], [1, 1]] := rfl
  rw [ht]
  refine ⟨fun t => if t = [0, 0] ∨ t = [1, 1] then 0 else 1 / 2, fun t h => ?_, ?_, Real.sqrt_lt_sqrt (by norm_num) (by norm_num)⟩
  · simp only [List.mem_cons, List.not_mem_nil, or_false] at h
    rcases h with rfl | rfl | rfl | rfl
    · have := two_tosses 0 0
      norm_num [toss_values.1, toss_values.2, exactVariance, exactAverage] at this ⊢
      exact this
    · have := two_tosses 0 1
      norm_num [toss_values.1, toss_values.2, exactVariance, exactAverage] at this ⊢
      exact this
    · have := two_tosses 1 0
      norm_num [toss_values.1, toss_values.2, exactVariance, exactAverage] at this ⊢
      exact this
    · have := two_tosses 1 1
      norm_num [toss_values.1, toss_values.2, exactVariance, exactAverage] at this ⊢
      exact this
  · have h1 : Real.sqrt (1 / 8) = Real.sqrt (1 / 2) / 2 := by
      rw [show (1 : ℝ) / 8 = 1 / 2 / 2 ^ 2 by norm_num, Real.sqrt_div (by norm_num), Real.sqrt_sq (by norm_num)]
    rw [h1]
    norm_num
    ring

end Verif.Props
