import Verif.Proofs.Estimate
import Verif.Proofs.Scan
import Verif.Props.Rounding
import Mathlib.Data.Finset.Lattice.Fold

/-!
# C110: the reported success rate is an estimate of the chance of success
-/

namespace Verif.Props

open Verif Spec Examples Fl Stats Workers StatPrograms Estimate

variable {τ T : Type} {m K : Nat}

section

variable {job : Nat → M (List Nat × τ) (Data T)} (good : Solution T → Bool)

theorem sure {F : Nat} (h : ∀ s, ∃ d s' a, job F s = .ok (d, s') ∧ d.1.results = [some a]) (s : List Nat × τ) : ∃ r, job F s = .ok r := by
  obtain ⟨d, s', _, h, -⟩ := h s
  exact ⟨_, h⟩

/-- C110: what the chance of success of a single run is does not depend on what is left behind by other runs, nor on how many draws there are if only
there are enough of them. -/
theorem C110_chance (hm : 0 < m) (h : Trial m K job) (N N' : Nat) (hN : K ≤ N) (hN' : K ≤ N') (u u' : τ) :
    successChance m N job u (fun a => good a = true) = successChance m N' job u' (fun a => good a = true) ∧
      0 ≤ successChance m N job u (fun a => good a = true) ∧ successChance m N job u (fun a => good a = true) ≤ 1 := by
  obtain ⟨F, hok1, hE⟩ := h.runs
  have hok := sure hok1
  have h1 : winRate m N' (job F) good u' = winRate m N' (job F) good u := by
    unfold winRate
    simp only [h.fresh F _ u' u]
  rw [successChance_eq h.steady hok hE hN u, successChance_eq h.steady hok hE hN' u', h1]
  exact ⟨mean_longer hm (hE u) (fun d => (accepted d.1.results good : ℚ)) N N' hN hN', winRate_range hm hE hN u⟩

/-- The mean value of any function of the number of good results -/
theorem counted_mean (hm : 0 < m) (h : Trial m K job) {cpu runs N : Nat} (hN : runs * K ≤ N) (hK : K ≤ N) (u : Nat → τ) (p : ℚ)
    (hp : p = successChance m N job (u 0) (fun a => good a = true)) (g : Nat → ℚ) :
    ∃ S : List Nat → Nat, (∀ t k, Counts ⟨cpu, runs, job, pieces N u t⟩ good k ↔ S t = k) ∧
      (∀ t acc, Finishes ⟨cpu, runs, job, pieces N u t⟩ acc → accepted acc.1.results good = S t) ∧
      mean m (cpu * N) (fun t => g (S t)) = trials p (cpu * runs) g 0 := by
  obtain ⟨F, hok1, hE⟩ := h.runs
  have hok := sure hok1
  refine ⟨fun t => ∑ i ∈ Finset.range cpu, wins (job F) good runs (pieces N u t i), fun t k => ?_, fun t acc hf => ?_, ?_⟩
  · exact counts_iff h.steady hok (P := ⟨cpu, runs, job, pieces N u t⟩) rfl k
  · exact finishes_wins h.steady hok (P := ⟨cpu, runs, job, pieces N u t⟩) rfl hf
  · have := threads_mean hm hE (good := good) (p := p) (fun v => by
      rw [hp, ← successChance_eq h.steady hok hE le_rfl v]
      exact (C110_chance good hm h K N le_rfl hK v (u 0)).1) g runs N hN cpu u 0
    simpa only [Nat.zero_add] using this

/-- C110: the number of good results that the program counts has the binomial distribution, whatever the scheduler does: with `cpu` threads that do
`runs` runs each and have enough draws, the chance of exactly `k` good results is that of `k` successes in `cpu * runs` independent trials. -/
theorem C110_binomial (hm : 0 < m) (h : Trial m K job) (cpu runs N : Nat) (hN : runs * K ≤ N) (hK : K ≤ N) (u : Nat → τ) (k : Nat) :
    chance (List.replicate (cpu * N) m) (fun t => Counts ⟨cpu, runs, job, pieces N u t⟩ good k) =
      binomial (cpu * runs) k (successChance m N job (u 0) (fun a => good a = true)) := by
  classical
  obtain ⟨S, h1, -, h2⟩ := counted_mean good hm h (cpu := cpu) hN hK u _ rfl (fun j => if j = k then 1 else 0)
  rw [chance_mean]
  simp only [h1]
  rw [h2, trials_eq]
  rcases Nat.lt_or_ge (cpu * runs) k with hk | hk
  · rw [binomial, Nat.choose_eq_zero_of_lt hk, Nat.cast_zero, zero_mul, zero_mul]
    refine Finset.sum_eq_zero fun j hj => ?_
    have := Finset.mem_range.1 hj
    rw [if_neg (by omega), mul_zero]
  · rw [Finset.sum_eq_single k]
    · rw [if_pos (by omega), mul_one]
    · intro j _ hj
      rw [if_neg (by omega), mul_zero]
    · intro hk'
      exact absurd (Finset.mem_range.2 (by omega)) hk'

/-- C110: the mean value of the share of good results is the chance of success. -/
theorem C110_mean (hm : 0 < m) (h : Trial m K job) (cpu runs N : Nat) (hN : runs * K ≤ N) (hK : K ≤ N) (hn : cpu * runs ≠ 0) (u : Nat → τ) :
    ∑ k ∈ Finset.range (cpu * runs + 1), (k : ℚ) / (cpu * runs : Nat) *
      chance (List.replicate (cpu * N) m) (fun t => Counts ⟨cpu, runs, job, pieces N u t⟩ good k) =
    successChance m N job (u 0) (fun a => good a = true) := by
  simp only [C110_binomial good hm h cpu runs N hN hK u]
  have hn' : ((cpu * runs : Nat) : ℚ) ≠ 0 := by exact_mod_cast hn
  have h1 := trials_id (successChance m N job (u 0) (fun a => good a = true)) (cpu * runs) 0
  rw [trials_eq] at h1
  rw [Nat.cast_zero, zero_add] at h1
  rw [← mul_right_inj' hn', ← h1, Finset.mul_sum]
  refine Finset.sum_congr rfl fun k _ => ?_
  rw [Nat.zero_add]
  field_simp

/-- C110: how likely it is that the share of good results is far from the chance of success -/
theorem C110_deviation (hm : 0 < m) (h : Trial m K job) (cpu runs N : Nat) (hN : runs * K ≤ N) (hK : K ≤ N) (hn : cpu * runs ≠ 0) (u : Nat → τ)
    (δ p : ℚ) (hδ : 0 < δ) (hp : p = successChance m N job (u 0) (fun a => good a = true)) :
    chance (List.replicate (cpu * N) m) (fun t => ∃ acc, Finishes ⟨cpu, runs, job, pieces N u t⟩ acc ∧
      δ ≤ |(accepted acc.1.results good : ℚ) / (cpu * runs : Nat) - p|) ≤ p * (1 - p) / ((cpu * runs : Nat) * δ ^ 2) := by
  classical
  have hn' : (0 : ℚ) < (cpu * runs : Nat) := by exact_mod_cast Nat.pos_of_ne_zero hn
  generalize hnn : ((cpu * runs : Nat) : ℚ) = n at *
  obtain ⟨S, h1, h2, h3⟩ := counted_mean good hm h (cpu := cpu) hN hK u p hp (fun j => 1 / (n * δ) ^ 2 * ((j : ℚ) - n * p) ^ 2)
  rw [trials_mul, trials_square, hnn] at h3
  have h4 : 1 / (n * δ) ^ 2 * ((((0 : Nat) : ℚ) + n * p - n * p) ^ 2 + n * (p * (1 - p))) = p * (1 - p) / (n * δ ^ 2) := by
    field_simp
    ring
  rw [← h4, ← h3, chance_mean]
  refine mean_le fun t => ?_
  split
  · rename_i hex
    obtain ⟨acc, hf, hd⟩ := hex
    rw [h2 t acc hf] at hd
    have h5 : ((S t : ℚ) - n * p) = n * ((S t : ℚ) / n - p) := by field_simp
    have h6 : δ ^ 2 ≤ ((S t : ℚ) / n - p) ^ 2 := by
      rw [← sq_abs ((S t : ℚ) / n - p)]
      exact pow_le_pow_left₀ hδ.le hd 2
    show (1 : ℚ) ≤ 1 / (n * δ) ^ 2 * ((S t : ℚ) - n * p) ^ 2
    rw [h5, mul_pow, mul_pow, one_div_mul_eq_div, mul_div_mul_left _ _ (by positivity), le_div_iff₀ (by positivity), one_mul]
    exact h6
  · positivity

end

section

variable {job : Nat → M (List Nat × τ) (Data (List F32))}

theorem report_rate {σ : Type} {p : Profile} {valid delta : List F32} {d : Data (List F32)} {s s' : σ} {x : Nat × F64 × F64 × F64 × F64}
    (h : report p valid delta d s = .ok (x, s')) : ∃ good s1, predVec valid delta s = .ok (good, s1) ∧ successRate d.1.results good = some x.2.1 := by
  obtain ⟨good, s1, h1, h⟩ := M.bind_eq_ok.1 h
  obtain ⟨rate, s2, h2, h⟩ := M.bind_eq_ok.1 h
  obtain ⟨avg, s3, h3, h⟩ := M.bind_eq_ok.1 h
  obtain ⟨dev, s4, h4, h⟩ := M.bind_eq_ok.1 h
  obtain ⟨c, s5, h5, h⟩ := M.bind_eq_ok.1 h
  obtain ⟨c, s6, h6, h⟩ := M.bind_eq_ok.1 h
  obtain ⟨rfl, rfl⟩ := M.pure_eq_ok.1 h
  refine ⟨good, s1, h1, ?_⟩
  exact (M.unwrap_eq_ok.1 h2).1

theorem small_error : roundoff .f64 + tiny .f64 ≤ 1 / 2 ^ 52 := by
  have h1 : roundoff .f64 = 1 / 2 ^ 53 := rfl
  have h2 : (2 : ℝ) ^ 53 ≤ 2 * (Fmt.f64.D : ℝ) := by
    have : 2 ^ 53 ≤ 2 * Fmt.f64.D := by decide +kernel
    exact_mod_cast this
  have h3 : tiny .f64 ≤ 1 / 2 ^ 53 := by
    unfold tiny
    exact one_div_le_one_div_of_le (by positivity) h2
  rw [h1]
  calc _ ≤ (1 : ℝ) / 2 ^ 53 + 1 / 2 ^ 53 := by linarith
    _ = _ := by norm_num

/-- C110: the success rate that a statistics program prints differs from the chance of success by `δ` or more, apart from the rounding error, with a
chance of at most `p (1 - p) / (n δ ^ 2)` in `n` runs. -/
theorem C110_estimates (hm : 0 < m) (h : Trial m K job) (total cpu : Nat) (h1 : 1 ≤ cpu) (h2 : cpu ≤ total) (h3 : total ≤ 2 ^ 53)
    (profile : Profile) (valid delta : List F32) : Estimates m total cpu job profile valid delta := by
  classical
  refine ⟨total * K, fun N hN u δ p hδ hp => ?_⟩
  have hr : 1 ≤ total / cpu := (Nat.one_le_div_iff (by omega)).2 h2
  have hrt : total / cpu ≤ total := Nat.div_le_self _ _
  have hall : cpu * (total / cpu) ≤ total := Nat.mul_div_le _ _
  have hne : cpu * (total / cpu) ≠ 0 := Nat.mul_ne_zero (by omega) (by omega)
  have hK : K ≤ N := Nat.le_trans (Nat.le_mul_of_pos_left K (by omega)) hN
  let good : Solution (List F32) → Bool := fun a => decide (Close valid delta a.1)
  have hgood : ∀ a, good a = true ↔ Close valid delta a.1 := fun a => decide_eq_true_iff
  have hp' : p = successChance m N job (u 0) (fun a => good a = true) := by
    rw [hp]
    simp only [hgood]
  refine _root_.le_trans (Finds.chance_mono fun t => ?_) (C110_deviation good hm h cpu (total / cpu) N
    (Nat.le_trans (Nat.mul_le_mul_right K hrt) hN) hK hne u δ p hδ hp')
  rintro ⟨acc, s, x, s', hf, hrep, hd⟩
  refine ⟨acc, hf, ?_⟩
  obtain ⟨good', s1, hg, hrate⟩ := report_rate hrep
  have heq : good' = good := by
    funext a
    have h4 := C59_vec valid delta s s1 good' hg a.1 a.2
    rw [Bool.eq_iff_iff, hgood]
    exact h4
  rw [heq] at hrate
  obtain ⟨F, hok, hE⟩ := h.runs
  have hlen : acc.1.results.length = cpu * (total / cpu) := by
    obtain ⟨n, y, hy, hfin⟩ := hf
    have h6 := whole (record := fun d => ∃ a, d.1.results = [some a]) (output := fun runs d => d.1.results.length = runs)
      (fun f d s => h.steady f d s) (fun s => by
        obtain ⟨d, s', a, h7, h8⟩ := hok s
        exact ⟨d, s', h7, a, h8⟩) total cpu (pieces N u t) (fun ds acc _ hrec hm => by
        rw [hm.results, List.length_flatMap]
        have : ds.map (fun d => d.1.results.length) = ds.map (fun _ => 1) := by
          refine List.map_congr_left fun d hd => ?_
          obtain ⟨a, ha⟩ := hrec d hd
          rw [ha]
          rfl
        rw [this]
        simp) n y hy
    exact (h6.2.2 acc hfin).2
  have h5 := C83_success_rate acc.1.results good (by omega) _ hrate
  rw [hlen] at h5
  have hle : accepted acc.1.results good ≤ cpu * (total / cpu) := hlen ▸ List.countP_le_length
  have hpos : (0 : ℝ) < (cpu * (total / cpu) : Nat) := by exact_mod_cast Nat.pos_of_ne_zero hne
  have h6 : (accepted acc.1.results good : ℝ) / (cpu * (total / cpu) : Nat) ≤ 1 := by
    rw [div_le_one hpos]
    exact_mod_cast hle
  have h7 := small_error
  have h8 : 0 ≤ roundoff .f64 := by
    unfold roundoff
    positivity
  have h9 := mul_le_of_le_one_left h8 h6
  generalize hsh : (accepted acc.1.results good : ℝ) / (cpu * (total / cpu) : Nat) = share at *
  have h10 : (δ : ℝ) ≤ |share - p| := by
    have := abs_sub_le (value x.2.1) share p
    generalize roundoff .f64 = r at *
    generalize tiny .f64 = r' at *
    linarith
  rw [← hsh] at h10
  refine (Rat.cast_le (K := ℝ)).1 ?_
  rw [Rat.cast_abs, Rat.cast_sub, Rat.cast_div, Rat.cast_natCast, Rat.cast_natCast]
  exact h10

theorem both (hm : 0 < m) (h : ∃ K, Trial m K job) (cpu : Nat) (h1 : 1 ≤ cpu) (h2 : cpu ≤ 1000) (profile : Profile) (valid delta : List F32) :
    CountsBinomially m 1000 cpu job ∧ Estimates m 1000 cpu job profile valid delta := by
  obtain ⟨K, h⟩ := h
  refine ⟨⟨1000 * K, fun N hN u good k => ?_⟩, C110_estimates hm h 1000 cpu h1 h2 (by norm_num) _ _ _⟩
  exact C110_binomial good hm h cpu (1000 / cpu) N (Nat.le_trans (Nat.mul_le_mul_right K (Nat.div_le_self _ _)) hN) (by omega) u k

end

/-! ### The programs -/

section

variable {β : Type} {p : Profile}

theorem ends_more {I : β → τ → Prop} {K : Nat} {c : List Nat → Except Err (β × (List Nat × τ))} (h : Ends m I K c) :
    ∀ {K'}, K ≤ K' → Ends m I K' c := by
  induction h with
  | done b u h hI => exact fun _ => .done b u h hI
  | draw h ih =>
    intro K' hK
    obtain ⟨n, rfl⟩ := Nat.exists_eq_add_of_le' (Nat.le_trans (Nat.le_add_left 1 _) hK)
    exact .draw fun k hk => ih k hk (by omega)

theorem tree_ends {I : β → Prop} {c : List Nat → Except Err (β × (List Nat × τ))} (h : Tree m (Lens.fst (List Nat) τ) c) :
    (∀ t, ∃ b s, c t = .ok (b, s) ∧ I b) → ∃ K, Ends m (fun b _ => I b) K c := by
  induction h with
  | ok b w h =>
    intro hc
    obtain ⟨b', s, h1, h2⟩ := hc []
    rw [h] at h1
    cases h1
    exact ⟨0, .done b w.2 h h2⟩
  | fail e h =>
    intro hc
    obtain ⟨b', s, h1, h2⟩ := hc []
    rw [h] at h1
    cases h1
  | draw h ih =>
    intro hc
    have h1 : ∀ k : Fin m, ∃ K, Ends m (fun b _ => I b) K _ := fun k => ih k.1 k.2 fun t => hc (k.1 :: t)
    choose Ks hKs using h1
    exact ⟨Finset.univ.sup Ks + 1, .draw fun k hk => ends_more (hKs ⟨k, hk⟩) (Finset.le_sup (f := Ks) (Finset.mem_univ _))⟩

/-- A run that begins anew each time -/
theorem trial_of {job : Nat → M (List Nat × τ) (Data T)} (hs : ∀ f d s, job f s ≠ .error .fuel → job (f + d) s = job f s)
    {c : Nat → List Nat → Except Err (Data T × (List Nat × τ))} (hc : ∀ f t u, job f (t, u) = c f t) {F : Nat}
    (ht : Tree m (Lens.fst (List Nat) τ) (c F)) (hok : ∀ s, ∃ d s' a, job F s = .ok (d, s') ∧ d.1.results = [some a]) : ∃ K, Trial m K job := by
  rcases isEmpty_or_nonempty τ with he | ⟨⟨u0⟩⟩
  · exact ⟨0, hs, fun f t u u' => by rw [hc, hc], F, hok, fun u => he.elim u⟩
  obtain ⟨K, hK⟩ := tree_ends (I := fun d => ∃ a, d.1.results = [some a]) ht fun t => by
    obtain ⟨d, s', a, h1, h2⟩ := hok (t, u0)
    exact ⟨d, s', by rw [← hc F t u0, h1], a, h2⟩
  exact ⟨K, hs, fun f t u u' => by rw [hc, hc], F, hok, fun u => by simpa only [hc] using hK⟩

/-- What is left of the world after a run -/
def leave {σ α : Type} : Except Err (α × World ((σ × CallCount) × Statistics T) T) → Except Err (Data T × σ)
  | .ok (_, w) => .ok ((w.user.2, w.user.1.2), w.user.1.1)
  | .error e => .error e

theorem leave_tree {α : Type} {c : List Nat → Except Err (α × World (((List Nat × τ) × CallCount) × Statistics T) T)}
    (h : Tree m ((((Lens.fst (List Nat) τ).left CallCount).left (Statistics T)).inWorld T) c) :
    Tree m (Lens.fst (List Nat) τ) (fun t => leave (c t)) := by
  induction h with
  | ok b w h => exact .ok (w.user.2, w.user.1.2) w.user.1.1 fun t => by rw [h]; rfl
  | fail e h => exact .fail e fun t => by rw [h]; rfl
  | draw h ih => exact .draw ih

theorem swarm_trial {make : M (List Nat × τ) (PSO.Opt (List Nat × τ) F32)} {o : PSO.Opt (List Nat × τ) F32} {u' : τ}
    (hmake : ∀ t u, make (t, u) = .ok (o, (t, u'))) (hscan : PSO.Scan m (Lens.fst (List Nat) τ) o.comps) {F b : Nat}
    (hok : ∀ s, ∃ d s', swarmJob p make F s = .ok (d, s') ∧ OneRun b d) : ∃ K, Trial m K (swarmJob p make) := by
  refine trial_of (F := F) (fun f d s => swarmJob_steady p make f d s) (c := fun f t => leave (PSO.findMin f ((o.counted p).attach 0 (Stats.logger p))
    ⟨(((t, u'), CallCount.new), Statistics.new), []⟩)) (fun f t u => ?_) ?_ fun s => ?_
  · unfold swarmJob
    rw [M.bind_run, hmake]
    dsimp only
    generalize PSO.findMin (α := F32) f _ _ = r
    rcases r with e | ⟨_, w⟩ <;> rfl
  · exact leave_tree (PSO.scans_findMin (PSO.scan_attach (PSO.scan_counted hscan p) 0 _) F ⟨((([], u'), CallCount.new), Statistics.new), []⟩)
  · obtain ⟨d, s', h1, a, row, k, rfl, -⟩ := hok s
    exact ⟨_, s', a, h1, rfl⟩

theorem genetic_trial {make : M (List Nat × τ) (GA.Opt (List Nat × τ) (List F32))} {o : GA.Opt (List Nat × τ) (List F32)} {u' : τ}
    (hmake : ∀ t u, make (t, u) = .ok (o, (t, u'))) (hscan : GA.Scan m (Lens.fst (List Nat) τ) o.comps) {F b : Nat}
    (hok : ∀ s, ∃ d s', geneticJob p make F s = .ok (d, s') ∧ OneRun b d) : ∃ K, Trial m K (geneticJob p make) := by
  refine trial_of (F := F) (fun f d s => geneticJob_steady p make f d s) (c := fun f t => leave (GA.findMin f ((o.counted p).attach 0 (Stats.logger p))
    ⟨(((t, u'), CallCount.new), Statistics.new), []⟩)) (fun f t u => ?_) ?_ fun s => ?_
  · unfold geneticJob
    rw [M.bind_run, hmake]
    dsimp only
    generalize GA.findMin f _ _ = r
    rcases r with e | ⟨_, w⟩ <;> rfl
  · exact leave_tree (GA.scans_findMin (GA.scan_attach (GA.scan_counted hscan p) 0 _) F ⟨((([], u'), CallCount.new), Statistics.new), []⟩)
  · obtain ⟨d, s', h1, a, row, k, rfl, -⟩ := hok s
    exact ⟨_, s', a, h1, rfl⟩

theorem threshold_scans {ω : Type} {L : Lens ω (List Nat)} (t : F64) (s : AlgState (List F32)) : Scans m L (Stop.threshold t s : M ω Bool) := by
  unfold Stop.threshold
  split <;> exact .pure _

section

open Swarm

variable {P : Platform (List Nat × τ)} {dr : Draws}

theorem statMade_scan (hr : P.rng = dr.beside τ) {goal : List F32 → M (List Nat × τ) F64} {n d : Nat} {lo hi v : F32}
    {posts : List (List F32 → M (List Nat × τ) (List F32))} {vel : PSO.Swarm F32 → PSO.Particle F32 → M (List Nat × τ) (List F32)}
    {stop : AlgState (List F32) → M (List Nat × τ) Bool} (hg : ∀ x, Scans m (Lens.fst (List Nat) τ) (goal x))
    (hp : ∀ f ∈ posts, ∀ x, Scans m (Lens.fst (List Nat) τ) (f x)) (hv : ∀ s q, Scans m (Lens.fst (List Nat) τ) (vel s q))
    (hs : ∀ s, Scans m (Lens.fst (List Nat) τ) (stop s)) :
    PSO.Scan m (Lens.fst (List Nat) τ) (statMade P goal n lo hi d v posts vel stop).comps where
  goal := hg
  stop := hs
  coordInit := .randomInit (hr ▸ dr.onTape τ) _ _
  velInit := .zeroInit _ _
  velCalc := hv
  postVel f hf x := by
    rw [List.mem_singleton.1 hf]
    exact .maxVelocityAbs _ _
  postMove := hp
  loggers l hl := absurd hl List.not_mem_nil

theorem bound_posts {ω : Type} {L : Lens ω (List Nat)} {ivs : List (F32 × F32)} :
    ∀ f ∈ [(Hooks.moveToBoundary ivs : List F32 → M ω (List F32))], ∀ x, Scans m L (f x) := by
  intro f hf x
  rw [List.mem_singleton.1 hf]
  exact .moveToBoundary _ _

theorem teleport_made {lo hi p : F32} {d : Nat} (h1 : (Fl.zero : F32).le p = true) (h2 : p.le Fl.one = true)
    (h3 : (box lo hi d).all (fun iv => iv.1.le iv.2 && iv.1.isFinite && iv.2.isFinite) = true) (s : List Nat × τ) :
    StatPrograms.teleportAndBound P (box lo hi d) p s =
      .ok ([Hooks.teleport P.rng ⟨box lo hi d, p⟩, Hooks.moveToBoundary (box lo hi d)], s) := by
  have ht : Hooks.Teleport.new (box lo hi d) p s = .ok (⟨box lo hi d, p⟩, s) :=
    M.bind_eq_ok.2 ⟨(), s, M.assert_eq_ok.2 ⟨h1, rfl⟩, M.bind_eq_ok.2 ⟨(), s, M.assert_eq_ok.2 ⟨h2, rfl⟩, by rw [if_pos h3]; rfl⟩⟩
  exact M.bind_eq_ok.2 ⟨_, _, ht, rfl⟩

theorem teleport_posts (hr : P.rng = dr.beside τ) {ivs : List (F32 × F32)} {p : F32} :
    ∀ f ∈ [Hooks.teleport P.rng ⟨ivs, p⟩, Hooks.moveToBoundary ivs], ∀ x, Scans m (Lens.fst (List Nat) τ) (f x) := by
  intro f hf x
  simp only [List.mem_cons, List.not_mem_nil, or_false] at hf
  rcases hf with rfl | rfl
  · exact .teleport (hr ▸ dr.onTape τ) _ _
  · exact .moveToBoundary _ _

theorem canonical_sure {phiP phiG k : F32} (h1 : FloatT.lt (FloatT.lit 4 1) (FloatT.add phiP phiG) = true)
    (h2 : FloatT.lt FloatT.zero k = true) (h3 : FloatT.lt k FloatT.one = true) :
    ∃ c, ∀ s, StatPrograms.canonical P phiP phiG k s = .ok (Velocity.canonical P.rng c, s) :=
  ⟨_, fun s => M.bind_eq_ok.2 ⟨_, s, M.bind_eq_ok.2 ⟨(), s, M.assert_eq_ok.2 ⟨h1, rfl⟩, M.bind_eq_ok.2 ⟨(), s, M.assert_eq_ok.2 ⟨h2, rfl⟩,
      M.bind_eq_ok.2 ⟨(), s, M.assert_eq_ok.2 ⟨h3, rfl⟩, rfl⟩⟩⟩, rfl⟩⟩

theorem swarm_made {goal : List F32 → M (List Nat × τ) F64} {n d : Nat} {lo hi v : F32}
    {posts : List (List F32 → M (List Nat × τ) (List F32))} {vel : PSO.Swarm F32 → PSO.Particle F32 → M (List Nat × τ) (List F32)}
    {stop : AlgState (List F32) → M (List Nat × τ) Bool} {makePosts makeVel makeStop} {s s1 : List Nat × τ}
    (h1 : makePosts s = .ok (posts, s)) (h2 : makeVel s = .ok (vel, s)) (h3 : makeStop s = .ok (stop, s1)) :
    StatPrograms.swarm P goal n lo hi d v makePosts makeVel makeStop s = .ok (statMade P goal n lo hi d v posts vel stop, s1) :=
  M.bind_eq_ok.2 ⟨_, _, h1, M.bind_eq_ok.2 ⟨_, _, h2, M.bind_eq_ok.2 ⟨_, _, h3, rfl⟩⟩⟩

end

section

open Swarm

variable (dr : Draws)

/-- The runs of particleswarm-schwefel-statistics.rs are trials. -/
theorem swarm_schwefel_runs (P : Platform (List Nat × Unit)) (hP : Platform.Sound P) (hr : P.rng = dr.beside Unit) :
    ∃ K, Trial m K (swarmJob P.profile (swarmSchwefel P)) := by
  obtain ⟨c, hc⟩ := canonical_sure (P := P) (phiP := plus 32 10) (phiG := plus 1 1) (k := plus 9 10) (by decide +kernel)
    (by decide +kernel) (by decide +kernel)
  exact (swarm_trial (m := m) (p := P.profile) (make := swarmSchwefel P) (u' := ()) (F := 3001) (b := 30 * (3000 + 1))
    (fun t _ => swarm_made (teleport_made (by decide +kernel) (by decide +kernel) (by decide +kernel) _) (hc _) (anyOf_ok (by simp) _))
    (statMade_scan hr (fun _ => .pure _) (teleport_posts hr) (fun _ _ => .canonical (hr ▸ dr.onTape Unit) _ _ _) fun s => .any s _ fun c hc s => by
      simp only [List.mem_cons, List.not_mem_nil, or_false] at hc
      rcases hc with rfl | rfl
      · exact threshold_scans _ _
      · exact .pure _)
    (fun s => by
      obtain ⟨d, s', h3, h4⟩ := C77_swarm_schwefel P hP 3001 (by omega) s
      exact ⟨d, s', h3, swarm_oneRun h4⟩))

/-- C110: particleswarm-schwefel-statistics.rs -/
theorem C110_swarm_schwefel (hm : 0 < m) (P : Platform (List Nat × Unit)) (hP : Platform.Sound P) (hr : P.rng = dr.beside Unit)
    (cpu : Nat) (h1 : 1 ≤ cpu) (h2 : cpu ≤ 1000) :
    CountsBinomially m 1000 cpu (swarmJob P.profile (swarmSchwefel P)) ∧
    Estimates m 1000 cpu (swarmJob P.profile (swarmSchwefel P)) P.profile (List.replicate 3 (plus 4209687 10000)) (List.replicate 3 (plus 1 1)) :=
  both hm (swarm_schwefel_runs dr P hP hr) cpu h1 h2 _ _ _

theorem gnc_scans (p : Profile) (s : AlgState (List F32)) :
    Scans m (Lens.fst (List Nat) Stop.GNC) ((Lens.snd (List Nat) Stop.GNC).zoom (Stop.goalNotChange p s)) :=
  .zoom (fun _ _ => rfl) (fun _ _ _ => rfl) _

theorem three_trial {P : Platform (List Nat × Stop.GNC)} (hr : P.rng = dr.beside Stop.GNC) {goal : List F32 → M (List Nat × Stop.GNC) F64} {n d : Nat}
    {lo hi v : F32} {vel : PSO.Swarm F32 → PSO.Particle F32 → M (List Nat × Stop.GNC) (List F32)}
    (hg : ∀ x, Scans m (Lens.fst (List Nat) Stop.GNC) (goal x)) (hv : ∀ s q, Scans m (Lens.fst (List Nat) Stop.GNC) (vel s q)) {t de : F64} {mi mx F b : Nat}
    (hok : ∀ s, ∃ r s', swarmJob P.profile (StatPrograms.swarm P goal n lo hi d v (pure [Hooks.moveToBoundary (box lo hi d)]) (pure vel)
      (threeStops (Lens.snd (List Nat) Stop.GNC) P.profile t mi de mx)) F s = .ok (r, s') ∧ OneRun b r) :
    ∃ K, Trial m K (swarmJob P.profile (StatPrograms.swarm P goal n lo hi d v (pure [Hooks.moveToBoundary (box lo hi d)]) (pure vel)
      (threeStops (Lens.snd (List Nat) Stop.GNC) P.profile t mi de mx))) := by
  refine swarm_trial (u' := Stop.GNC.new mi de) (fun t _ => swarm_made rfl rfl (M.bind_eq_ok.2 ⟨(), _, rfl, anyOf_ok (by simp) _⟩))
    (statMade_scan hr hg bound_posts hv fun s => .any s _ fun c hc s => ?_) hok
  simp only [List.mem_cons, List.not_mem_nil, or_false] at hc
  rcases hc with rfl | rfl | rfl
  · exact threshold_scans _ _
  · exact gnc_scans _ _
  · exact .pure _

/-- The runs of particleswarm-schwefel-statistics-full.rs are trials. -/
theorem swarm_schwefel_full_runs (P : Platform (List Nat × Stop.GNC)) (hP : Platform.Sound P) (hr : P.rng = dr.beside Stop.GNC)
    (hL : Platform.Leaves (Lens.snd (List Nat) Stop.GNC) P) :
    ∃ K, Trial m K (swarmJob P.profile (swarmSchwefelFull P (Lens.snd _ _))) := by
  exact (three_trial (m := m) dr hr (F := 1001) (fun _ => .pure _) (fun _ _ => .negReinf (hr ▸ dr.onTape Stop.GNC) _ _ _) (fun s => by
      obtain ⟨d, s', h3, h4⟩ := C77_swarm_schwefel_full P hP _ hL 1001 (by omega) s
      exact ⟨d, s', h3, swarm_oneRun h4⟩))

/-- C110: particleswarm-schwefel-statistics-full.rs -/
theorem C110_swarm_schwefel_full (hm : 0 < m) (P : Platform (List Nat × Stop.GNC)) (hP : Platform.Sound P) (hr : P.rng = dr.beside Stop.GNC)
    (hL : Platform.Leaves (Lens.snd (List Nat) Stop.GNC) P) (cpu : Nat) (h1 : 1 ≤ cpu) (h2 : cpu ≤ 1000) :
    CountsBinomially m 1000 cpu (swarmJob P.profile (swarmSchwefelFull P (Lens.snd _ _))) ∧
    Estimates m 1000 cpu (swarmJob P.profile (swarmSchwefelFull P (Lens.snd _ _))) P.profile (List.replicate 3 (plus 4209687 10000))
      (List.replicate 3 (plus 1 1)) :=
  both hm (swarm_schwefel_full_runs dr P hP hr hL) cpu h1 h2 _ _ _

/-- The runs of particleswarm-schwefel-statistics-inertia.rs are trials. -/
theorem swarm_schwefel_inertia_runs (P : Platform (List Nat × Stop.GNC)) (hP : Platform.Sound P) (hr : P.rng = dr.beside Stop.GNC)
    (hL : Platform.Leaves (Lens.snd (List Nat) Stop.GNC) P) :
    ∃ K, Trial m K (swarmJob P.profile (swarmSchwefelInertia P (Lens.snd _ _))) := by
  exact (three_trial (m := m) dr hr (F := 401) (fun _ => .pure _)
    (fun _ _ => .inertia (hr ▸ dr.onTape Stop.GNC) _ _ (fun _ => .pure _) _ _) (fun s => by
      obtain ⟨d, s', h3, h4⟩ := C77_swarm_schwefel_inertia P hP _ hL 401 (by omega) s
      exact ⟨d, s', h3, swarm_oneRun h4⟩))

/-- C110: particleswarm-schwefel-statistics-inertia.rs -/
theorem C110_swarm_schwefel_inertia (hm : 0 < m) (P : Platform (List Nat × Stop.GNC)) (hP : Platform.Sound P) (hr : P.rng = dr.beside Stop.GNC)
    (hL : Platform.Leaves (Lens.snd (List Nat) Stop.GNC) P) (cpu : Nat) (h1 : 1 ≤ cpu) (h2 : cpu ≤ 1000) :
    CountsBinomially m 1000 cpu (swarmJob P.profile (swarmSchwefelInertia P (Lens.snd _ _))) ∧
    Estimates m 1000 cpu (swarmJob P.profile (swarmSchwefelInertia P (Lens.snd _ _))) P.profile (List.replicate 3 (plus 4209687 10000))
      (List.replicate 3 (plus 1 1)) :=
  both hm (swarm_schwefel_inertia_runs dr P hP hr hL) cpu h1 h2 _ _ _

/-- The runs of particleswarm-rastrigin-statistics-inertia.rs are trials. -/
theorem swarm_rastrigin_inertia_runs (P : Platform (List Nat × Stop.GNC)) (hP : Platform.Sound P) (hr : P.rng = dr.beside Stop.GNC)
    (hL : Platform.Leaves (Lens.snd (List Nat) Stop.GNC) P) :
    ∃ K, Trial m K (swarmJob P.profile (swarmRastriginInertia P (Lens.snd _ _))) := by
  exact (three_trial (m := m) dr hr (F := 401) (fun _ => .pure _)
    (fun _ _ => .inertia (hr ▸ dr.onTape Stop.GNC) _ _ (fun _ => .pure _) _ _) (fun s => by
      obtain ⟨d, s', h3, h4⟩ := C77_swarm_rastrigin_inertia P hP _ hL 401 (by omega) s
      exact ⟨d, s', h3, swarm_oneRun h4⟩))

/-- C110: particleswarm-rastrigin-statistics-inertia.rs -/
theorem C110_swarm_rastrigin_inertia (hm : 0 < m) (P : Platform (List Nat × Stop.GNC)) (hP : Platform.Sound P) (hr : P.rng = dr.beside Stop.GNC)
    (hL : Platform.Leaves (Lens.snd (List Nat) Stop.GNC) P) (cpu : Nat) (h1 : 1 ≤ cpu) (h2 : cpu ≤ 1000) :
    CountsBinomially m 1000 cpu (swarmJob P.profile (swarmRastriginInertia P (Lens.snd _ _))) ∧
    Estimates m 1000 cpu (swarmJob P.profile (swarmRastriginInertia P (Lens.snd _ _))) P.profile (List.replicate 3 (plus 0 1))
      (List.replicate 3 (plus 1 10)) :=
  both hm (swarm_rastrigin_inertia_runs dr P hP hr hL) cpu h1 h2 _ _ _

/-- The runs of particleswarm-rosenbrock-statistics.rs are trials. -/
theorem swarm_rosenbrock_runs (P : Platform (List Nat × Stop.GNC)) (hr : P.rng = dr.beside Stop.GNC)
    (hL : Platform.Leaves (Lens.snd (List Nat) Stop.GNC) P) :
    ∃ K, Trial m K (swarmJob P.profile (StatPrograms.swarmRosenbrock P (Lens.snd _ _))) := by
  obtain ⟨c, hc⟩ := canonical_sure (P := P) (phiP := plus 34 10) (phiG := plus 1 1) (k := plus 9 10) (by decide +kernel)
    (by decide +kernel) (by decide +kernel)
  exact (swarm_trial (m := m) (p := P.profile) (make := StatPrograms.swarmRosenbrock P (Lens.snd _ _))
    (u' := Stop.GNC.new 500 (Fl.ofRat false 1 10000000000)) (F := 10 ^ 17 + 1)
    (fun t _ => swarm_made (teleport_made (by decide +kernel) (by decide +kernel) (by decide +kernel) _) (hc _)
      (M.bind_eq_ok.2 ⟨(), _, rfl, anyOf_ok (by simp) _⟩))
    (statMade_scan hr (fun _ => .rosenbrockF64 _ _) (teleport_posts hr) (fun _ _ => .canonical (hr ▸ dr.onTape Stop.GNC) _ _ _) fun s =>
      .any s _ fun c hc s => by
        simp only [List.mem_cons, List.not_mem_nil, or_false] at hc
        rcases hc with rfl | rfl
        · exact threshold_scans _ _
        · exact gnc_scans _ _)
    (fun s => by
      obtain ⟨d, s', h3, h4⟩ := C77_swarm_rosenbrock P _ hL (10 ^ 17 + 1) (by omega) s
      exact ⟨d, s', h3, swarm_oneRun h4⟩))

/-- C110: particleswarm-rosenbrock-statistics.rs -/
theorem C110_swarm_rosenbrock (hm : 0 < m) (P : Platform (List Nat × Stop.GNC)) (hr : P.rng = dr.beside Stop.GNC)
    (hL : Platform.Leaves (Lens.snd (List Nat) Stop.GNC) P) (cpu : Nat) (h1 : 1 ≤ cpu) (h2 : cpu ≤ 1000) :
    CountsBinomially m 1000 cpu (swarmJob P.profile (StatPrograms.swarmRosenbrock P (Lens.snd _ _))) ∧
    Estimates m 1000 cpu (swarmJob P.profile (StatPrograms.swarmRosenbrock P (Lens.snd _ _))) P.profile (List.replicate 3 (plus 1 1))
      (List.replicate 3 (plus 1 100)) :=
  both hm (swarm_rosenbrock_runs dr P hr hL) cpu h1 h2 _ _ _

/-- The runs of genetic-schwefel-statistics.rs are trials. -/
theorem genetic_schwefel_runs (P : Platform (List Nat × Unit)) (hP : Platform.Sound P) (hr : P.rng = dr.beside Unit) :
    ∃ K, Trial m K (geneticJob P.profile (StatPrograms.geneticSchwefel P)) := by
  have hR := hr ▸ dr.onTape Unit
  exact (genetic_trial (m := m) (p := P.profile) (make := StatPrograms.geneticSchwefel P) (u' := ()) (F := 3001)
    (o := geneticMade P (TestFunc.goalFromFunction (@TestFunc.schwefelF64 _ P.libm)) (Stop.any [Stop.maxIterations 3000]) 100
      (box (minus 500 1) (plus 500 1) 3) 5 (Fl.ofNat 10) [])
    (fun t _ => genetic_ok (anyOf_ok (by simp) _) (by omega) (by omega) (by decide +kernel) _ _ _)
    { goal := fun _ => .pure _
      stop := fun s => .any s _ fun c hc s => by
        rw [List.mem_singleton.1 hc]
        exact .pure _
      creator := .randomCreator hR _
      pairing := fun _ => .tournament hR _ _
      cross := fun _ => .vecCrossAllGenes (fun _ => .floatCrossExp _ hR _ _) _
      mutation := fun _ => .vecMutation hR _ (fun _ => .bitwise hR _ _) _
      selections := fun f hf x => by
        simp only [geneticMade, List.mem_cons, List.not_mem_nil, or_false] at hf
        rcases hf with rfl | rfl
        · exact .killFitnessNaN _
        · exact .limitPopulation _ _
      preBirths := fun f hf x cs => by
        simp only [geneticMade, List.mem_cons, List.not_mem_nil, or_false] at hf
        rw [hf]
        exact .preBirthInterval _ _ _
      loggers := fun l hl => absurd hl List.not_mem_nil }
    (fun s => by
      obtain ⟨d, s', h3, h4, -⟩ := C77_genetic_schwefel P hP 3001 (by omega) s
      exact ⟨d, s', h3, genetic_oneRun h4⟩))

/-- C110: genetic-schwefel-statistics.rs -/
theorem C110_genetic_schwefel (hm : 0 < m) (P : Platform (List Nat × Unit)) (hP : Platform.Sound P) (hr : P.rng = dr.beside Unit)
    (cpu : Nat) (h1 : 1 ≤ cpu) (h2 : cpu ≤ 1000) :
    CountsBinomially m 1000 cpu (geneticJob P.profile (StatPrograms.geneticSchwefel P)) ∧
    Estimates m 1000 cpu (geneticJob P.profile (StatPrograms.geneticSchwefel P)) P.profile (List.replicate 3 (plus 4209687 10000))
      (List.replicate 3 (plus 1 1)) :=
  both hm (genetic_schwefel_runs dr P hP hr) cpu h1 h2 _ _ _

end

end

/-! ### Concrete cases -/

/-- A platform with random numbers from a tape -/
def tapePlatform (dr : Draws) (τ : Type) (p : Profile) : Platform (List Nat × τ) where
  rng := dr.beside τ
  profile := p
  libm := ⟨id, fun x _ => x, fun _ => Fl.zero, fun _ => Fl.one⟩
  print := fun _ s => .ok ((), s)
  showGene := fun _ _ => "x"
  showGoal := fun _ _ => "v"

theorem tape_sound (dr : Draws) (τ : Type) (p : Profile) : Platform.Sound (tapePlatform dr τ p) :=
  ⟨fun _ s => ⟨(), _, rfl, trivial⟩, fun _ _ => ⟨(by decide +kernel : Within 1 (Fl.zero : F32)),
    (by decide +kernel : Within 1 (Fl.one : F32))⟩⟩

theorem tape_leaves (dr : Draws) (p : Profile) : Platform.Leaves (Lens.snd _ _) (tapePlatform dr Stop.GNC p) :=
  ⟨⟨fun _ _ _ => rfl, fun _ _ _ => rfl, fun _ _ _ => rfl, fun _ _ _ => rfl⟩, fun x s a s' h => by cases h; rfl⟩

/-- The programs on a machine with eight processors; draws of four numbers -/
example : Estimates 4 1000 8 (swarmJob .debug (swarmSchwefel (tapePlatform quarters Unit .debug))) .debug
      (List.replicate 3 (plus 4209687 10000)) (List.replicate 3 (plus 1 1)) ∧
    Estimates 4 1000 8 (swarmJob .release (swarmSchwefelFull (tapePlatform quarters Stop.GNC .release) (Lens.snd _ _))) .release
      (List.replicate 3 (plus 4209687 10000)) (List.replicate 3 (plus 1 1)) ∧
    Estimates 4 1000 8 (geneticJob .debug (StatPrograms.geneticSchwefel (tapePlatform quarters Unit .debug))) .debug
      (List.replicate 3 (plus 4209687 10000)) (List.replicate 3 (plus 1 1)) :=
  ⟨(C110_swarm_schwefel quarters (by omega) (tapePlatform quarters Unit .debug) (tape_sound _ _ _) rfl 8 (by omega) (by omega)).2,
    (C110_swarm_schwefel_full quarters (by omega) (tapePlatform quarters Stop.GNC .release) (tape_sound _ _ _) rfl (tape_leaves _ _) 8 (by omega) (by omega)).2,
    (C110_genetic_schwefel quarters (by omega) (tapePlatform quarters Unit .debug) (tape_sound _ _ _) rfl 8 (by omega) (by omega)).2⟩

/-- A run that throws a coin: the result is close to zero if the number is even. -/
def coin (_ : Nat) : M (List Nat × Unit) (Data (List F32)) := fun s =>
  .ok ((⟨[some ([if s.1.headD 0 % 2 = 0 then Fl.zero else Fl.one], Fl.zero)], [[]]⟩, [1]), (s.1.tail, s.2))

theorem coin_ends (u : Unit) : Ends m (fun d _ => ∃ a, d.1.results = [some a]) 1 (fun t => coin 0 (t, u)) :=
  .draw fun k _ => .done (⟨[some ([if k % 2 = 0 then Fl.zero else Fl.one], Fl.zero)], [[]]⟩, [1]) u (fun _ => rfl) ⟨_, rfl⟩

theorem coin_trial : Trial m 1 coin where
  steady _ _ _ _ := rfl
  fresh _ _ _ _ := rfl
  runs := ⟨0, fun s => ⟨_, _, _, rfl, rfl⟩, coin_ends⟩

def even (a : Solution (List F32)) : Bool := match a.1 with
  | [x] => x.le Fl.zero
  | _ => false

theorem coin_chance : successChance 2 1 coin () (fun a => even a = true) = 1 / 2 := by
  rw [successChance_eq (good := even) (coin_trial (m := 2)).steady (F := 0) (fun s => ⟨_, rfl⟩) (K := 1) coin_ends
    (Nat.le_refl 1) ()]
  have h1 : even ([Fl.zero], Fl.zero) = true := by decide +kernel
  have h2 : even ([Fl.one], Fl.zero) = false := by decide +kernel
  have h3 : ∀ k, even ([if k % 2 = 0 then Fl.zero else Fl.one], Fl.zero) = decide (k % 2 = 0) := by
    intro k
    by_cases hk : k % 2 = 0
    · rw [if_pos hk, h1, decide_eq_true hk]
    · rw [if_neg hk, h2, decide_eq_false hk]
  have h4 : (Finset.range 2).filter (fun k => k % 2 = 0) = {0} := by decide
  simp [winRate, Estimate.mean, pay, coin, accepted, h3, h4]

/-- C110: the rate need not be near the chance if there are few runs: two runs of a coin, on two processors, are both good or both bad with a chance
of one half. -/
theorem C110_spread_witness : chance (List.replicate (2 * 1) 2) (fun t => Counts ⟨2, 1, coin, pieces 1 (fun _ => ()) t⟩ even 0) = 1 / 4 ∧
    chance (List.replicate (2 * 1) 2) (fun t => Counts ⟨2, 1, coin, pieces 1 (fun _ => ()) t⟩ even 1) = 1 / 2 ∧
    chance (List.replicate (2 * 1) 2) (fun t => Counts ⟨2, 1, coin, pieces 1 (fun _ => ()) t⟩ even 2) = 1 / 4 := by
  refine ⟨?_, ?_, ?_⟩ <;>
  · rw [C110_binomial even (by omega) coin_trial 2 1 1 (by omega) (by omega), coin_chance]
    norm_num [binomial, Nat.choose]

end Verif.Props
