import Verif.Spec.Calls
import Verif.Props.Average

/-!
# C114: the reported call count estimates the mean number of calls of a single run
-/

namespace Verif.Props

open Verif Spec Examples Fl Stats Workers StatPrograms Estimate

variable {τ T : Type} {m K b : Nat}

/-- The counters -/
abbrev counters (T : Type) : Part T Nat := fun d => d.2

theorem additive_counters : Additive (counters T) := fun _ _ h => h.calls

section

variable {job : Nat → M (List Nat × τ) (Data T)}

/-- What the theorems below need -/
theorem sampled_calls (hm : 0 < m) (h : Trial m K job) (hb : CountedRuns job b) {cpu runs N : Nat} (hN : runs * K ≤ N) (hK : K ≤ N) (u : Nat → τ) :
    ∃ (E : (Nat → ℚ) → ℚ) (S : List Nat → List Nat),
      (∀ v μ, CallsMean m N job (u 0) v μ ↔ μ = E v) ∧ (∀ g h, (∀ k, k ≤ b → g k ≤ h k) → E g ≤ E h) ∧
      (∀ x y g h, E (fun b => x * g b + y * h b) = x * E g + y * E h) ∧ (∀ x, E (fun _ => x) = x) ∧
      (∀ t acc, Finishes ⟨cpu, runs, job, pieces N u t⟩ acc → acc.2.Perm (S t)) ∧
      (∀ t, (S t).length = cpu * runs ∧ ∀ k ∈ S t, k ≤ b) ∧ (∀ t, ∃ acc, Finishes ⟨cpu, runs, job, pieces N u t⟩ acc) ∧
      ∀ H : List Nat → ℚ, Estimate.mean m (cpu * N) (fun t => H (S t)) = seqMean E (cpu * runs) H := by
  obtain ⟨F, hok, hE⟩ := h.runs
  obtain ⟨F', hb⟩ := hb
  have hok1 : ∀ s, ∃ d s' k, job F s = .ok (d, s') ∧ d.2 = [k] ∧ k ≤ b := by
    intro s
    obtain ⟨d, s', a, h1, -⟩ := hok s
    obtain ⟨d', s'', k, h2, h3⟩ := hb s
    have := same_run h.steady h1 (f := F') (by rw [h2]; intro he; cases he)
    rw [h2] at this
    cases this
    exact ⟨d, s', k, h1, h3⟩
  have hj : ∀ f s d s', job f s = .ok (d, s') → ∃ k, d.2 = [k] ∧ k ≤ b := by
    intro f s d s' hf
    obtain ⟨d', s'', k, h9, h10⟩ := hok1 s
    have := same_run h.steady h9 (f := f) (by rw [hf]; intro he; cases he)
    rw [hf] at this
    cases this
    exact ⟨k, h10⟩
  have hok2 : ∀ s, ∃ d s', job F s = .ok (d, s') ∧ One (counters T) d := fun s => by
    obtain ⟨d, s', k, h1, h2, -⟩ := hok1 s
    exact ⟨d, s', h1, k, h2⟩
  have hE2 : ∀ u, Ends m (fun d _ => One (counters T) d) K (fun t => job F (t, u)) := fun u => ends_part (hE u) fun t d s he => by
    obtain ⟨d', s', h1, h2⟩ := hok2 (t, u)
    rw [he] at h1
    cases h1
    exact h2
  obtain ⟨E, S, h1, h2, h3, h4, h5, h6⟩ := sampled_part (out := counters T) hm h.steady h.fresh hok2 hE2 additive_counters (cpu := cpu) hN hK u
  refine ⟨E, S, fun v μ => by rw [h1]; exact runMean_iff (out := counters T) h.steady hE2 hK (u 0) v μ, ?_, h2, h3, h4, ?_, h6⟩
  · intro g h hgh
    rw [h1]
    unfold runMean
    refine mean_le fun t => ?_
    obtain ⟨d, s', k, h7, h8, h9⟩ := hok1 (t, u 0)
    rw [h7, pay, pay, first_eq (out := counters T) h8, first_eq (out := counters T) h8]
    exact hgh k h9
  · refine fun t => ⟨h5 t, fun k hk => ?_⟩
    obtain ⟨acc, n, y, hn, hy⟩ := h6.1 t
    have hk' := (h4 t acc ⟨n, y, hn, hy⟩).mem_iff.2 hk
    refine finishes_all (out := counters T) additive_counters (Q := fun k => k ≤ b) (fun f s d s' hf k hk => ?_)
      (P := ⟨cpu, runs, job, pieces N u t⟩) rfl ⟨n, y, hn, hy⟩ k hk'
    obtain ⟨k', h7, h8⟩ := hj f s d s' hf
    rw [counters, h7] at hk
    obtain rfl := List.mem_singleton.1 hk
    exact h8

theorem average_counters (l : List Nat) : averageCalls l = exactAverage (l.map fun k : Nat => (k : ℚ)) := by
  unfold averageCalls exactAverage
  rw [List.length_map]
  congr 1
  induction l with
  | nil => rfl
  | cons k l ih => rw [List.sum_cons, List.map_cons, List.sum_cons, ← ih]; push_cast; rfl

/-- C114: the number of calls of a single run has exactly one mean value, between 0 and the bound. -/
theorem C114_single (hm : 0 < m) (h : Trial m K job) (hb : CountedRuns job b) (N : Nat) (hK : K ≤ N) (u : τ) :
    ∃ μ : ℚ, 0 ≤ μ ∧ μ ≤ b ∧ ∀ μ', CallsMean m N job u (fun k => k) μ' ↔ μ' = μ := by
  obtain ⟨E, S, h1, h2, h3, h4, -⟩ := sampled_calls hm h hb (cpu := 0) (runs := 1) (N := N) (by omega) hK (fun _ => u)
  refine ⟨E fun k => k, ?_, ?_, fun μ' => h1 _ μ'⟩
  · have := h2 (fun _ => 0) (fun k => (k : ℚ)) (fun k _ => Nat.cast_nonneg k)
    rwa [h4] at this
  · have := h2 (fun k => (k : ℚ)) (fun _ => (b : ℚ)) (fun k hk => by exact_mod_cast hk)
    rwa [h4] at this

/-- C114: the mean value of the average call count of a program is that of the number of calls of a single run, whatever the scheduler does. -/
theorem C114_average (hm : 0 < m) (h : Trial m K job) (hb : CountedRuns job b) (cpu runs N : Nat) (hN : runs * K ≤ N) (hK : K ≤ N)
    (hn : cpu * runs ≠ 0) (u : Nat → τ) (μ : ℚ) (hμ : CallsMean m N job (u 0) (fun k => k) μ) : ProgramCalls m N cpu runs job u averageCalls μ := by
  obtain ⟨E, S, h1, h2, h3, h4, h5, h6, h7, h8⟩ := sampled_calls hm h hb (cpu := cpu) hN hK u
  exact programMean_part (out := counters T) h5 h7 (H := fun d => averageCalls d.2) (G := fun l => exactAverage (l.map fun k : Nat => (k : ℚ)))
    (fun d l hp => by rw [average_counters]; exact perm_average (hp.map _))
    ((h8 fun l => exactAverage (l.map fun k : Nat => (k : ℚ))).trans (seqMean_average h3 h4 ((h1 _ μ).1 hμ) hn))

/-- C114: the mean value of the total number of calls of a program is that of a single run times the number of runs. -/
theorem C114_total (hm : 0 < m) (h : Trial m K job) (hb : CountedRuns job b) (cpu runs N : Nat) (hN : runs * K ≤ N) (hK : K ≤ N)
    (hn : cpu * runs ≠ 0) (u : Nat → τ) (μ : ℚ) (hμ : CallsMean m N job (u 0) (fun k => k) μ) :
    ProgramCalls m N cpu runs job u (fun c => (c.sum : ℚ)) ((cpu * runs : Nat) * μ) := by
  obtain ⟨E, S, h1, h2, h3, h4, h5, h6, h7, h8⟩ := sampled_calls hm h hb (cpu := cpu) hN hK u
  have hn' : ((cpu * runs : Nat) : ℚ) ≠ 0 := by exact_mod_cast hn
  refine programMean_part (out := counters T) h5 h7 (H := fun d => (d.2.sum : ℚ)) (G := fun l => (l.sum : ℚ))
    (fun d l hp => by rw [hp.sum_eq]) ?_
  have h9 := (h8 fun l => exactAverage (l.map fun k : Nat => (k : ℚ))).trans (seqMean_average h3 h4 ((h1 _ μ).1 hμ) hn)
  have h10 := mean_linear (m := m) ((cpu * runs : Nat) : ℚ) 0 (fun t => exactAverage ((S t).map fun k : Nat => (k : ℚ))) (fun _ => 0) (cpu * N)
  have h11 : ∀ t, ((S t).sum : ℚ) = (cpu * runs : Nat) * exactAverage ((S t).map fun k : Nat => (k : ℚ)) + 0 * 0 := fun t => by
    rw [← average_counters, averageCalls, (h6 t).1, mul_div_cancel₀ _ hn', zero_mul, add_zero]
  simp only [h11]
  refine h10.trans ?_
  rw [h9, zero_mul, add_zero]

/-- C114: how likely it is that the average call count is far from the mean value of a single run -/
theorem C114_near (hm : 0 < m) (h : Trial m K job) (hb : CountedRuns job b) (cpu runs N : Nat) (hN : runs * K ≤ N) (hK : K ≤ N)
    (hn : cpu * runs ≠ 0) (u : Nat → τ) (μ δ : ℚ) (hδ : 0 < δ) (hμ : CallsMean m N job (u 0) (fun k => k) μ) :
    chance (List.replicate (cpu * N) m) (fun t => ∃ acc, Finishes ⟨cpu, runs, job, pieces N u t⟩ acc ∧ δ ≤ |averageCalls acc.2 - μ|) ≤
      μ * (b - μ) / ((cpu * runs : Nat) * δ ^ 2) := by
  obtain ⟨E, S, h1, h2, h3, h4, h5, h6, h7, h8⟩ := sampled_calls hm h hb (cpu := cpu) hN hK u
  have hE := (h1 _ μ).1 hμ
  have hvar : E (fun k : Nat => ((k : ℚ) - μ) ^ 2) ≤ μ * (b - μ) := by
    have h9 := h2 (fun k => ((k : ℚ) - μ) ^ 2) (fun k => (b - 2 * μ) * (k : ℚ) + μ ^ 2 * 1) (fun k hk => by
      have h10 : (k : ℚ) ≤ b := by exact_mod_cast hk
      have h11 : (0 : ℚ) ≤ k := Nat.cast_nonneg k
      nlinarith)
    rw [h3 (b - 2 * μ) (μ ^ 2) (fun k => (k : ℚ)) (fun _ => 1), h4, ← hE] at h9
    linarith
  refine _root_.le_trans (chance_far h8 h3 h4 hE rfl hn hδ ?_) (div_le_div_of_nonneg_right hvar (by positivity))
  rintro t ⟨acc, hf, hd⟩
  rw [average_counters, perm_average ((h5 t acc hf).map _)] at hd
  exact hd

end

section

variable {job : Nat → M (List Nat × τ) (Data (List F32))}

theorem report_calls {σ : Type} {p : Profile} {valid delta : List F32} {d : Data (List F32)} {s s' : σ} {x : Nat × F64 × F64 × F64 × F64}
    (h : report p valid delta d s = .ok (x, s')) : CallCount.average p d.2 = .ok (some x.2.2.2.2) := by
  obtain ⟨good, s1, h1, h⟩ := M.bind_eq_ok.1 h
  obtain ⟨rate, s2, h2, h⟩ := M.bind_eq_ok.1 h
  obtain ⟨avg, s3, h3, h⟩ := M.bind_eq_ok.1 h
  obtain ⟨dev, s4, h4, h⟩ := M.bind_eq_ok.1 h
  obtain ⟨c, s5, h5, h⟩ := M.bind_eq_ok.1 h
  obtain ⟨c', s6, h6, h⟩ := M.bind_eq_ok.1 h
  obtain ⟨rfl, rfl⟩ := M.pure_eq_ok.1 h
  obtain ⟨rfl, -⟩ := M.unwrap_eq_ok.1 h6
  revert h5
  cases CallCount.average (γ := F64) p d.2 with
  | error e => intro h5; cases h5
  | ok r => intro h5; cases h5; rfl

theorem tiny_small : tiny .f64 ≤ 1 / 2 ^ 53 := by
  have h2 : (2 : ℝ) ^ 53 ≤ 2 * (Fmt.f64.D : ℝ) := by
    have : 2 ^ 53 ≤ 2 * Fmt.f64.D := by decide +kernel
    exact_mod_cast this
  unfold tiny
  exact one_div_le_one_div_of_le (by positivity) h2

/-- The printed average call count up to rounding -/
theorem calls_exact {p : Profile} {c : List Nat} {r : F64} (h : CallCount.average p c = .ok (some r)) (hb : ∀ k ∈ c, k ≤ b) (hc : c.length * b ≤ 2 ^ 53)
    (hl : c.length ≤ 2 ^ 53) : |value r - (averageCalls c : ℚ)| ≤ (b + 1) / 2 ^ 53 := by
  have hne : c ≠ [] := fun he => by
    rw [he] at h
    cases h
  have hsum : c.sum ≤ c.length * b := by
    have := List.sum_le_card_nsmul c b hb
    simpa using this
  have hs : c.sum ≤ 2 ^ 53 := Nat.le_trans hsum hc
  obtain ⟨r', h', hR⟩ := C53_average_f64 p c hne hs hl
  rw [h] at h'
  obtain rfl : r = r' := by injection h' with h'; injection h'
  have hpos : (0 : ℝ) < c.length := by exact_mod_cast List.length_pos_iff.2 hne
  have hone : (1 : ℝ) ≤ c.length := by exact_mod_cast List.length_pos_iff.2 hne
  have hq0 : (0 : ℝ) ≤ (c.sum : ℝ) / c.length := by positivity
  have hqb : (c.sum : ℝ) / c.length ≤ b := by
    rw [div_le_iff₀ hpos, mul_comm]
    exact_mod_cast hsum
  have hqs : (c.sum : ℝ) / c.length ≤ c.sum := div_le_self (Nat.cast_nonneg _) hone
  have hcast : ((averageCalls c : ℚ) : ℝ) = (c.sum : ℝ) / c.length := by
    unfold averageCalls
    rw [Rat.cast_div, Rat.cast_natCast, Rat.cast_natCast]
  rw [hcast]
  obtain ⟨e1, f1⟩ := Fl.ofNat_exact (f := Fmt.f64) hs (Nat.lt_of_le_of_lt hs (Nat.pow_lt_pow_right (by decide) (by decide)))
  have hD := Fl.D_posR (f := Fmt.f64)
  have hfin : r.isFinite = true := by
    refine Fl.isFinite_of_between Fl.isFinite_zero f1 (hR.ge (Fl.isNan_of_isFinite Fl.isFinite_zero) ?_) (hR.le (Fl.isNan_of_isFinite f1) ?_)
    · have h0 : (Fl.zero : F64).toInt = 0 := by simp
      rw [h0, Int.cast_zero]
      exact mul_nonneg hq0 hD.le
    · rw [e1, Int.cast_mul, Int.cast_natCast, Int.cast_natCast]
      exact mul_le_mul_of_nonneg_right hqs hD.le
  have h1 := Fl.rounds_err hR hfin
  rw [abs_of_nonneg hq0] at h1
  have h2 : roundoff .f64 = 1 / 2 ^ 53 := rfl
  have h3 := tiny_small
  rw [h2] at h1
  generalize tiny .f64 = e at *
  generalize (c.sum : ℝ) / c.length = q at *
  generalize value r = w at *
  rcases h1 with h1 | h1
  · have hb0 := _root_.le_trans hq0 hqb
    refine _root_.le_trans h1 (_root_.le_trans h3 (div_le_div_of_nonneg_right (by linarith) (by positivity)))
  · refine _root_.le_trans h1 ?_
    rw [mul_one_div]
    exact div_le_div_of_nonneg_right (by linarith) (by positivity)

/-- C114: the average call count that a statistics program prints is an estimate of the mean number of calls of a single run. -/
theorem C114_estimates (hm : 0 < m) (h : Trial m K job) (hb : CountedRuns job b) (total cpu : Nat) (h1 : 1 ≤ cpu) (h2 : cpu ≤ total)
    (h3 : total ≤ 2 ^ 53) (h4 : total * b ≤ 2 ^ 53) (profile : Profile) (valid delta : List F32) :
    CountsCallsWell m total cpu b job profile valid delta := by
  refine ⟨total * K, fun N hN u => ?_⟩
  have hr : 1 ≤ total / cpu := (Nat.one_le_div_iff (by omega)).2 h2
  have hrt : total / cpu ≤ total := Nat.div_le_self _ _
  have hall : cpu * (total / cpu) ≤ total := Nat.mul_div_le _ _
  have hne : cpu * (total / cpu) ≠ 0 := Nat.mul_ne_zero (by omega) (by omega)
  have hK : K ≤ N := Nat.le_trans (Nat.le_mul_of_pos_left K (by omega)) hN
  have hN' : total / cpu * K ≤ N := Nat.le_trans (Nat.mul_le_mul_right K hrt) hN
  obtain ⟨μ, h5, h6, h7⟩ := C114_single hm h hb N hK (u 0)
  have hμ := (h7 μ).2 rfl
  refine ⟨μ, hμ, h5, h6, C114_average hm h hb cpu _ N hN' hK hne u μ hμ, C114_total hm h hb cpu _ N hN' hK hne u μ hμ, fun δ hδ => ?_⟩
  refine _root_.le_trans (Finds.chance_mono fun t => ?_) (C114_near hm h hb cpu (total / cpu) N hN' hK hne u μ δ hδ hμ)
  rintro ⟨acc, s1, x, s', hf, hrep, hd⟩
  refine ⟨acc, hf, ?_⟩
  obtain ⟨E, S, -, -, -, -, h8, h9, -⟩ := sampled_calls hm h hb (cpu := cpu) hN' hK u
  have hp := h8 t acc hf
  have hlen : acc.2.length = cpu * (total / cpu) := by rw [hp.length_eq, (h9 t).1]
  have h10 := calls_exact (b := b) (report_calls hrep) (fun k hk => (h9 t).2 k (hp.mem_iff.1 hk))
    (by rw [hlen]; exact Nat.le_trans (Nat.mul_le_mul_right b hall) h4) (by omega)
  refine (Rat.cast_le (K := ℝ)).1 ?_
  rw [Rat.cast_abs, Rat.cast_sub]
  have h11 := abs_sub_le (value x.2.2.2.2) (averageCalls acc.2 : ℚ) μ
  linarith

end

/-! ## The statistics programs -/

open Swarm

variable (dr : Draws)

theorem counted {job : Nat → M (List Nat × τ) (Data (List F32))} {F : Nat} (hok : ∀ s, ∃ d s', job F s = .ok (d, s') ∧ OneRun b d) : CountedRuns job b :=
  ⟨F, fun s => by
    obtain ⟨d, s', h1, a, row, k, rfl, -, h2⟩ := hok s
    exact ⟨_, s', k, h1, rfl, h2⟩⟩

theorem counts_well {job : Nat → M (List Nat × τ) (Data (List F32))} (hm : 0 < m) (h : ∃ K, Trial m K job) (hb : CountedRuns job b) (cpu : Nat)
    (h1 : 1 ≤ cpu) (h2 : cpu ≤ 1000) (h3 : b ≤ 10 ^ 9) (profile : Profile) (valid delta : List F32) : CountsCallsWell m 1000 cpu b job profile valid delta := by
  obtain ⟨K, h⟩ := h
  exact C114_estimates hm h hb 1000 cpu h1 h2 (by norm_num) (by omega) _ _ _

/-- C114: particleswarm-schwefel-statistics.rs -/
theorem C114_swarm_schwefel (hm : 0 < m) (P : Platform (List Nat × Unit)) (hP : Platform.Sound P) (hr : P.rng = dr.beside Unit)
    (cpu : Nat) (h1 : 1 ≤ cpu) (h2 : cpu ≤ 1000) :
    CountsCallsWell m 1000 cpu (30 * 3001) (swarmJob P.profile (swarmSchwefel P)) P.profile (List.replicate 3 (plus 4209687 10000)) (List.replicate 3 (plus 1 1)) :=
  counts_well hm (swarm_schwefel_runs dr P hP hr) (counted (F := 3001) fun s => by
    obtain ⟨d, s', h3, h4⟩ := C77_swarm_schwefel P hP 3001 (by omega) s
    exact ⟨d, s', h3, swarm_oneRun h4⟩) cpu h1 h2 (by norm_num) _ _ _

/-- C114: particleswarm-schwefel-statistics-full.rs -/
theorem C114_swarm_schwefel_full (hm : 0 < m) (P : Platform (List Nat × Stop.GNC)) (hP : Platform.Sound P) (hr : P.rng = dr.beside Stop.GNC)
    (hL : Platform.Leaves (Lens.snd (List Nat) Stop.GNC) P) (cpu : Nat) (h1 : 1 ≤ cpu) (h2 : cpu ≤ 1000) :
    CountsCallsWell m 1000 cpu (50 * 1001) (swarmJob P.profile (swarmSchwefelFull P (Lens.snd _ _))) P.profile (List.replicate 3 (plus 4209687 10000))
      (List.replicate 3 (plus 1 1)) :=
  counts_well hm (swarm_schwefel_full_runs dr P hP hr hL) (counted (F := 1001) fun s => by
    obtain ⟨d, s', h3, h4⟩ := C77_swarm_schwefel_full P hP _ hL 1001 (by omega) s
    exact ⟨d, s', h3, swarm_oneRun h4⟩) cpu h1 h2 (by norm_num) _ _ _

/-- C114: particleswarm-schwefel-statistics-inertia.rs -/
theorem C114_swarm_schwefel_inertia (hm : 0 < m) (P : Platform (List Nat × Stop.GNC)) (hP : Platform.Sound P) (hr : P.rng = dr.beside Stop.GNC)
    (hL : Platform.Leaves (Lens.snd (List Nat) Stop.GNC) P) (cpu : Nat) (h1 : 1 ≤ cpu) (h2 : cpu ≤ 1000) :
    CountsCallsWell m 1000 cpu (50 * 401) (swarmJob P.profile (swarmSchwefelInertia P (Lens.snd _ _))) P.profile (List.replicate 3 (plus 4209687 10000))
      (List.replicate 3 (plus 1 1)) :=
  counts_well hm (swarm_schwefel_inertia_runs dr P hP hr hL) (counted (F := 401) fun s => by
    obtain ⟨d, s', h3, h4⟩ := C77_swarm_schwefel_inertia P hP _ hL 401 (by omega) s
    exact ⟨d, s', h3, swarm_oneRun h4⟩) cpu h1 h2 (by norm_num) _ _ _

/-- C114: particleswarm-rastrigin-statistics-inertia.rs -/
theorem C114_swarm_rastrigin_inertia (hm : 0 < m) (P : Platform (List Nat × Stop.GNC)) (hP : Platform.Sound P) (hr : P.rng = dr.beside Stop.GNC)
    (hL : Platform.Leaves (Lens.snd (List Nat) Stop.GNC) P) (cpu : Nat) (h1 : 1 ≤ cpu) (h2 : cpu ≤ 1000) :
    CountsCallsWell m 1000 cpu (50 * 401) (swarmJob P.profile (swarmRastriginInertia P (Lens.snd _ _))) P.profile (List.replicate 3 (plus 0 1))
      (List.replicate 3 (plus 1 10)) :=
  counts_well hm (swarm_rastrigin_inertia_runs dr P hP hr hL) (counted (F := 401) fun s => by
    obtain ⟨d, s', h3, h4⟩ := C77_swarm_rastrigin_inertia P hP _ hL 401 (by omega) s
    exact ⟨d, s', h3, swarm_oneRun h4⟩) cpu h1 h2 (by norm_num) _ _ _

/-- C114: genetic-schwefel-statistics.rs -/
theorem C114_genetic_schwefel (hm : 0 < m) (P : Platform (List Nat × Unit)) (hP : Platform.Sound P) (hr : P.rng = dr.beside Unit)
    (cpu : Nat) (h1 : 1 ≤ cpu) (h2 : cpu ≤ 1000) :
    CountsCallsWell m 1000 cpu (100 + 50 * 3000) (geneticJob P.profile (StatPrograms.geneticSchwefel P)) P.profile
      (List.replicate 3 (plus 4209687 10000)) (List.replicate 3 (plus 1 1)) :=
  counts_well hm (genetic_schwefel_runs dr P hP hr) (counted (F := 3001) fun s => by
    obtain ⟨d, s', h3, h4, -⟩ := C77_genetic_schwefel P hP 3001 (by omega) s
    exact ⟨d, s', h3, genetic_oneRun h4⟩) cpu h1 h2 (by norm_num) _ _ _

/-- C114: particleswarm-rosenbrock-statistics.rs. Its runs are bounded by the precision of the numbers only (C77), so nothing is said about the rounded
average. -/
theorem C114_swarm_rosenbrock (hm : 0 < m) (P : Platform (List Nat × Stop.GNC)) (hr : P.rng = dr.beside Stop.GNC)
    (hL : Platform.Leaves (Lens.snd (List Nat) Stop.GNC) P) (cpu : Nat) (h1 : 1 ≤ cpu) (h2 : cpu ≤ 1000) :
    ∃ K, ∀ N, K ≤ N → ∀ u, ∃ μ : ℚ, CallsMean m N (swarmJob P.profile (StatPrograms.swarmRosenbrock P (Lens.snd _ _))) (u 0) (fun k => k) μ ∧
      0 ≤ μ ∧ μ ≤ (20 * (10 ^ 17 + 1) : Nat) ∧
      ProgramCalls m N cpu (1000 / cpu) (swarmJob P.profile (StatPrograms.swarmRosenbrock P (Lens.snd _ _))) u averageCalls μ ∧
      ProgramCalls m N cpu (1000 / cpu) (swarmJob P.profile (StatPrograms.swarmRosenbrock P (Lens.snd _ _))) u (fun c => (c.sum : ℚ))
        ((cpu * (1000 / cpu) : Nat) * μ) := by
  obtain ⟨K, h⟩ := swarm_rosenbrock_runs (m := m) dr P hr hL
  have hb : CountedRuns (swarmJob P.profile (StatPrograms.swarmRosenbrock P (Lens.snd _ _))) (20 * (10 ^ 17 + 1)) := counted (F := 10 ^ 17 + 1) fun s => by
    obtain ⟨d, s', h3, h4⟩ := C77_swarm_rosenbrock P _ hL (10 ^ 17 + 1) (by omega) s
    exact ⟨d, s', h3, swarm_oneRun h4⟩
  refine ⟨1000 * K, fun N hN u => ?_⟩
  have hr : 1 ≤ 1000 / cpu := (Nat.one_le_div_iff (by omega)).2 h2
  have hne : cpu * (1000 / cpu) ≠ 0 := Nat.mul_ne_zero (by omega) (by omega)
  have hN' : 1000 / cpu * K ≤ N := Nat.le_trans (Nat.mul_le_mul_right K (Nat.div_le_self _ _)) hN
  obtain ⟨μ, h5, h6, h7⟩ := C114_single hm h hb N (by omega) (u 0)
  have hμ := (h7 μ).2 rfl
  exact ⟨μ, hμ, h5, h6, C114_average hm h hb cpu _ N hN' (by omega) hne u μ hμ, C114_total hm h hb cpu _ N hN' (by omega) hne u μ hμ⟩

/-! ## Instances -/

/-- A run that calls the goal function once if the number is even, otherwise three times -/
def tries (_ : Nat) : M (List Nat × Unit) (Data (List F32)) := fun s =>
  .ok ((⟨[some ([], Fl.zero)], [[]]⟩, [if s.1.headD 0 % 2 = 0 then 1 else 3]), (s.1.tail, s.2))

theorem tries_trial : Trial m 1 tries where
  steady _ _ _ _ := rfl
  fresh _ _ _ _ := rfl
  runs := ⟨0, fun _ => ⟨_, _, _, rfl, rfl⟩, fun u =>
    .draw fun k _ => .done (⟨[some ([], Fl.zero)], [[]]⟩, [if k % 2 = 0 then 1 else 3]) u (fun _ => rfl) ⟨_, rfl⟩⟩

theorem tries_counted : CountedRuns tries 3 := ⟨0, fun s => ⟨_, _, _, rfl, rfl, by split <;> omega⟩⟩

/-- Four runs on two processors: two calls on average, eight in total. -/
example : ProgramCalls 2 2 2 2 tries (fun _ => ()) averageCalls 2 ∧ ProgramCalls 2 2 2 2 tries (fun _ => ()) (fun c => (c.sum : ℚ)) 8 ∧
    CountsCallsWell 2 4 2 3 tries .debug [] [] := by
  have hc : ∀ a : Nat, (((if a % 2 = 0 then 1 else 3 : Nat) : ℚ)) = if a % 2 = 0 then 1 else 3 := fun a => by split <;> rfl
  have h2 : CallsMean 2 2 tries () (fun k => k) 2 := by
    refine ⟨fun t => if t.headD 0 % 2 = 0 then 1 else 3, fun t _ x => ⟨?_, ?_⟩, ?_⟩
    · rintro ⟨fuel, d, s', k, h1, h2, rfl⟩
      cases h1
      obtain ⟨rfl, -⟩ := List.cons.inj h2
      exact hc _
    · rintro rfl
      exact ⟨0, _, _, _, rfl, rfl, hc _⟩
    · have ht : tapes (List.replicate 2 2) = [[0, 0], [0, 1], [1, 0], [1, 1]] := rfl
      unfold meanOver
      rw [ht]
      norm_num
  refine ⟨C114_average (by omega) tries_trial tries_counted 2 2 2 (by omega) (by omega) (by omega) _ _ h2, ?_,
    C114_estimates (by omega) tries_trial tries_counted 4 2 (by omega) (by omega) (by norm_num) (by norm_num) _ _ _⟩
  have := C114_total (by omega) tries_trial tries_counted 2 2 2 (by omega) (by omega) (by omega) (fun _ => ()) _ h2
  norm_num at this ⊢
  exact this

/-- Programs on a machine with eight processors; draws of four numbers -/
example : CountsCallsWell 4 1000 8 (30 * 3001) (swarmJob .debug (swarmSchwefel (tapePlatform quarters Unit .debug))) .debug
      (List.replicate 3 (plus 4209687 10000)) (List.replicate 3 (plus 1 1)) ∧
    CountsCallsWell 4 1000 8 (100 + 50 * 3000) (geneticJob .debug (StatPrograms.geneticSchwefel (tapePlatform quarters Unit .debug))) .debug
      (List.replicate 3 (plus 4209687 10000)) (List.replicate 3 (plus 1 1)) :=
  ⟨C114_swarm_schwefel quarters (by omega) (tapePlatform quarters Unit .debug) (tape_sound _ _ _) rfl 8 (by omega) (by omega),
    C114_genetic_schwefel quarters (by omega) (tapePlatform quarters Unit .debug) (tape_sound _ _ _) rfl 8 (by omega) (by omega)⟩

end Verif.Props
