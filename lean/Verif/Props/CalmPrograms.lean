import Verif.Props.CalmStuck
import Verif.Props.SwarmDemo
import Verif.Props.SwarmExamples
import Verif.Model.StatPrograms

/-!
# C106: the programs that keep their velocities finite
-/

set_option linter.unusedSectionVars false

namespace Verif.Props.Swarm

open Verif Spec Spec.Swarm PSO Examples

variable {σ : Type} {f : Fmt}

/-- Zero velocities to start with. -/
theorem zero_start {B : Fl f} (hB : Fl.zero.le B = true) {d n : Nat} (vs : List (List (Fl f)))
    (h : Returned (Creation.zeroInit d n : M σ (List (List (Fl f)))) vs) : ∀ v ∈ vs, ∀ x ∈ v, Within B x := by
  obtain ⟨s, s', h⟩ := h
  unfold Creation.zeroInit at h
  induction n generalizing s vs with
  | zero =>
    obtain ⟨rfl, -⟩ := M.pure_eq_ok.1 h
    simp
  | succ n ih =>
    obtain ⟨v, vs', t, k1, k2, rfl⟩ := M.replicate_succ_ok.1 h
    obtain ⟨rfl, rfl⟩ := M.pure_eq_ok.1 k1
    intro v hv x hx
    rcases List.mem_cons.1 hv with rfl | hv
    · rw [(List.mem_replicate.1 hx).2]
      exact Fl.within_zero hB
    · exact ih vs' _ k2 v hv x hx

/-- The demo optimizer meets the conditions: velocities of at most 4 in the box [0, 10], at most 24 before the corrector. -/
example : Calm Rng.script SwarmDemo.ivs (Fl.ofNat 4) (Fl.ofNat 10) (Fl.ofNat 24) SwarmDemo.opt.comps ∧
    FiniteIncreasing SwarmDemo.ivs ∧ WideAtMost SwarmDemo.ivs (Fl.ofNat 10) ∧ (Fl.ofNat 24 : F64).isFinite = true := by
  refine ⟨⟨⟨[], rfl⟩, ?_, ?_, ?_⟩, ?_, ⟨by decide +kernel, ?_⟩, by decide +kernel⟩
  · exact zero_start (by decide +kernel)
  · have : (Fl.ofNat 24 : F64) = topClassic Fl.one Fl.one (Fl.ofNat 4) (Fl.ofNat 10) := by decide +kernel
    rw [this]
    exact .classic _ _
  · refine .dimensions _ fun m hm => ?_
    rw [List.mem_singleton.1 hm]
    exact ⟨by decide +kernel, by decide +kernel⟩
  · intro iv hiv
    rw [List.mem_singleton.1 hiv]
    exact ⟨by decide +kernel, by decide +kernel, by decide +kernel⟩
  · intro iv hiv
    rw [List.mem_singleton.1 hiv]
    exact ⟨by decide +kernel, by decide +kernel⟩

/-- Its initial coordinates are within 10 + 4, as C106_moved wants them. -/
example : (∀ iv ∈ SwarmDemo.ivs, Within (Fl.ofNat 10) iv.1 ∧ Within (Fl.ofNat 10) iv.2) ∧
    ((Fl.ofNat 10 : F64).add (Fl.ofNat 4)).isFinite = true ∧
    ∀ xs, Returned SwarmDemo.opt.comps.coordInit xs → ∀ x ∈ xs, ∀ y ∈ x, Within ((Fl.ofNat 10).add (Fl.ofNat 4)) y := by
  refine ⟨?_, by decide +kernel, ?_⟩
  · intro iv hiv
    rw [List.mem_singleton.1 hiv]
    exact ⟨⟨by decide +kernel, by decide +kernel⟩, by decide +kernel, by decide +kernel⟩
  · rintro xs ⟨s, s', h⟩ x hx y hy
    have hi : FiniteIncreasing SwarmDemo.ivs := by
      intro iv hiv
      rw [List.mem_singleton.1 hiv]
      exact ⟨by decide +kernel, by decide +kernel, by decide +kernel⟩
    obtain ⟨xs', s1, h1, -, h2⟩ := C11_random Rng.script embeds_both.2 SwarmDemo.ivs 3 hi s
    have h : Creation.randomInit Rng.script SwarmDemo.ivs 3 s = .ok (xs, s') := h
    rw [h] at h1; cases h1
    have hb := h2 x hx
    cases hb with
    | cons hy' hb =>
      cases hb
      rw [List.mem_singleton.1 hy]
      obtain ⟨g1, g2, g3⟩ := hy'
      have e1 := (Fl.le_iff.1 g2).2.2
      have e2 := (Fl.le_iff.1 (Fl.le_trans g3 (show (Fl.ofNat 10 : F64).le ((Fl.ofNat 10).add (Fl.ofNat 4)) = true by decide +kernel))).2
      rw [Fl.toInt_zero] at e1
      exact Fl.within_iff.2 ⟨g1, e2.1, by omega⟩

/-- The demo optimizer with very large coefficients and MaxVelocityAbs as the only corrector. -/
def wild : PSO.Opt (List Nat) F64 :=
  { SwarmDemo.opt with comps := { SwarmDemo.opt.comps with
      velCalc := Velocity.classic Rng.script Fl.maxFinite Fl.maxFinite
      postVel := [Hooks.maxVelocityAbs Fl.one] } }

/-- C106: without the condition on `V` it can happen: with coefficients so large that the computed velocity overflows, MaxVelocityAbs turns
it into NaN. The components are the library's. -/
theorem C106_wild_witness : LibCalc Rng.script wild.comps.velCalc ∧ wild.comps.postVel = [Hooks.maxVelocityAbs Fl.one] ∧
    wild.comps.postMove = [Hooks.moveToBoundary SwarmDemo.ivs] ∧
    ∃ o' w', runTo wild [] (.inFindMin 1) SwarmDemo.world = .ok (o', w') ∧ ∃ p ∈ o'.swarm.particles, NanAt 0 p := by
  refine ⟨.classic _ _, rfl, rfl, ?_⟩
  have : M.okAnd (runTo wild [] (.inFindMin 1) SwarmDemo.world) (fun o' _ =>
      o'.swarm.particles.any fun p => match p.velocity with | v :: _ => v.isNan | [] => false) = true := by decide +kernel
  obtain ⟨o', w', h, hp⟩ := M.okAnd_iff.1 this
  refine ⟨o', w', h, ?_⟩
  rw [List.any_eq_true] at hp
  obtain ⟨p, hp, hn⟩ := hp
  refine ⟨p, hp, ?_⟩
  cases hv : p.velocity with
  | nil => rw [hv] at hn; cases hn
  | cons v vs => rw [hv] at hn; exact ⟨v, by rw [hv]; rfl, hn⟩

/-- From there one more turn is possible: the hypotheses of C106_stuck are met, with a particle that is stuck. -/
example : FiniteIncreasing SwarmDemo.ivs ∧ (∀ k ∈ wild.comps.postVel, LibPostVel 1 k) ∧
    M.okAnd ((do
      let o1 ← runTo wild [] (.inFindMin 1)
      let s' ← turns o1.comps 1 o1.swarm
      pure (o1, s') : M _ _) SwarmDemo.world) (fun r _ => r.2.particles.length == 3) = true := by
  refine ⟨?_, ?_, by decide +kernel⟩
  · intro iv hiv
    rw [List.mem_singleton.1 hiv]
    exact ⟨by decide +kernel, by decide +kernel, by decide +kernel⟩
  · intro k hk
    rw [List.mem_singleton.1 hk]
    exact .abs _

/-! ## The example programs -/

/-- The fields of `CanonicalVelocityCalculator::new(phi_personal, phi_global, k)`. -/
def fields (phiP phiG k : F32) : Velocity.Canonical F32 :=
  ⟨phiP, phiG, ((Fl.ofNat 2).mul k).div ((phiG.add phiP).sub (Fl.ofNat 2))⟩

theorem canonical_fields {phiP phiG k : F32} {c : Velocity.Canonical F32} {s s' : σ}
    (h : Velocity.Canonical.new phiP phiG k s = .ok (c, s')) : c = fields phiP phiG k ∧ s' = s := by
  have two : (FloatT.lit 2 1 : F32) = Fl.ofNat 2 := by decide +kernel
  unfold Velocity.Canonical.new at h
  obtain ⟨u1, t1, k1, h⟩ := M.bind_eq_ok.1 h
  obtain ⟨u2, t2, k2, h⟩ := M.bind_eq_ok.1 h
  obtain ⟨u3, t3, k3, h⟩ := M.bind_eq_ok.1 h
  obtain ⟨-, rfl⟩ := M.assert_eq_ok.1 k1
  obtain ⟨-, rfl⟩ := M.assert_eq_ok.1 k2
  obtain ⟨-, rfl⟩ := M.assert_eq_ok.1 k3
  obtain ⟨rfl, rfl⟩ := M.pure_eq_ok.1 h
  rw [two]
  exact ⟨rfl, rfl⟩

/-- Every velocity that the program computes is finite, and every velocity that it gives to a particle is at most `B`: at the end, and
after any number of turns of the loop inside the last call. -/
def VelocitiesWithin (B : F32) (ks : List (Call σ F32)) (o : Opt σ F32) (s : σ) : Prop :=
  ∀ pt o' w', runTo o ks pt ⟨s, []⟩ = .ok (o', w') →
    (∀ p ∈ o'.swarm.particles, ∀ x ∈ p.velocity, Within B x) ∧
    ∀ raw v, .velocity raw v ∈ w'.trace → (∀ x ∈ raw, x.isFinite = true) ∧ ∀ x ∈ v, Within B x

theorem box_wide {lo hi : F32} (d : Nat) (h : (hi.sub lo).isFinite = true) (hlt : lo.lt hi = true) (hl : lo.isFinite = true)
    (hh : hi.isFinite = true) : WideAtMost (box lo hi d) (hi.sub lo) := by
  refine ⟨h, fun iv hiv => ?_⟩
  unfold box at hiv
  have := (List.mem_replicate.1 hiv).2
  rw [this]
  have := Fl.within_interval (iv := (lo, hi)) (a := hi) (b := lo) ⟨hh, Fl.le_of_lt hlt, Fl.le_refl (Fl.isNan_of_isFinite hh)⟩
    ⟨hl, Fl.le_refl (Fl.isNan_of_isFinite hl), Fl.le_of_lt hlt⟩ h
  exact this

theorem within_of_calm {P : Platform σ} {lo hi B V : F32} {d : Nat} {o : Opt σ F32} {s : σ} {ks : List (Call σ F32)}
    (hl : lo.isFinite = true) (hh : hi.isFinite = true) (hlt : lo.lt hi = true) (hw : (hi.sub lo).isFinite = true)
    (hB : B.isFinite = true) (hV : V.isFinite = true) (h0 : o.swarm = ⟨[], none, none, 0⟩)
    (hc : Always (Calm P.rng (box lo hi d) B (hi.sub lo) V) o.comps ks) : VelocitiesWithin B ks o s := by
  intro pt o' w' hr
  obtain ⟨h1, h2⟩ := C106_finite P.rng (box lo hi d) B (hi.sub lo) V o o' ⟨s, []⟩ w' ks pt (box_increasing hl hh hlt) hB hV
    (box_wide d hw hlt hl hh) ⟨h0, rfl⟩ hc hr
  exact ⟨h1, fun raw v hv => ⟨fun x hx => ((h2 raw v hv).1 x hx).1, (h2 raw v hv).2⟩⟩

/-- A program with CanonicalVelocityCalculator. -/
theorem calm_program {P : Platform σ} {goal : List F32 → M σ F64} {makeStop : M σ (AlgState (List F32) → M σ Bool)} {n : Nat}
    {lo hi : F32} {d : Nat} {phiP phiG k : F32} {postVel : List (List F32 → M σ (List F32))} {s s' : σ} {o : Opt σ F32}
    (h : swarm P goal makeStop n lo hi d phiP phiG k postVel s = .ok (o, s')) {B : F32} (hB : Fl.zero.le B = true)
    (hb : Brakes d (topCanonical (fields phiP phiG k) B (hi.sub lo)) B postVel) :
    o.swarm = ⟨[], none, none, 0⟩ ∧
    ∀ stop, Calm P.rng (box lo hi d) B (hi.sub lo) (topCanonical (fields phiP phiG k) B (hi.sub lo)) { o.comps with stop := stop } := by
  unfold swarm at h
  obtain ⟨c, t1, k1, h⟩ := M.bind_eq_ok.1 h
  obtain ⟨st, t2, k2, h⟩ := M.bind_eq_ok.1 h
  obtain ⟨rfl, -⟩ := M.pure_eq_ok.1 h
  obtain ⟨rfl, -⟩ := canonical_fields k1
  refine ⟨rfl, fun stop => ⟨⟨[], rfl⟩, fun vs hv => zero_start hB vs hv, .canonical _, ?_⟩⟩
  show Brakes (box lo hi d).length _ _ postVel
  rw [show (box lo hi d).length = d from List.length_replicate]
  exact hb

/-- MaxVelocityAbs with a limit `m` in `f32`, given as a whole number, for at most 100 dimensions. -/
theorem brakes_abs {d m b : Nat} {V M B : F32} (hd : d ≤ 100) (hm : M.toInt = m * Fmt.f32.D) (hb : B.toInt = b * Fmt.f32.D)
    (hmf : M.isFinite = true) (h1 : 1 ≤ m) (hmb : m * 101 ≤ b * 100) (hV : (V.mul M).isFinite = true) :
    Brakes (σ := σ) d V B [Hooks.maxVelocityAbs M] := by
  have hD := Fl.D_posR (f := Fmt.f32)
  have vm : value M = m := by
    unfold value; rw [hm]; push_cast; exact mul_div_cancel_right₀ _ (ne_of_gt hD)
  have vb : value B = b := by
    unfold value; rw [hb]; push_cast; exact mul_div_cancel_right₀ _ (ne_of_gt hD)
  have hu : roundoff .f32 ≤ 1 / 10000000 := by unfold roundoff; norm_num [Fmt.f32]
  have hu0 := Fl.roundoff_pos (f := Fmt.f32)
  have hd' : (d : ℝ) ≤ 100 := by exact_mod_cast hd
  have hd0 : (0 : ℝ) ≤ d := Nat.cast_nonneg d
  have h1' : (1 : ℝ) ≤ m := by exact_mod_cast h1
  refine .abs M ⟨?_, hmf, ?_⟩ ?_ ?_ hV
  · refine Fl.le_iff.2 ⟨Fl.isNan_zero, Fl.isNan_of_isFinite hmf, ?_⟩
    rw [Fl.toInt_zero, hm]
    exact mul_nonneg (Int.natCast_nonneg _) (Int.natCast_nonneg _)
  · rw [vm]
    have : minNormal .f32 ≤ 1 := by
      unfold minNormal
      rw [div_le_one hD]
      have : 2 ^ Fmt.f32.mw ≤ Fmt.f32.D := Nat.pow_le_pow_right (by norm_num) (by decide)
      exact_mod_cast this
    nlinarith
  · unfold Few
    nlinarith
  · unfold speedLimit
    rw [vm, vb]
    have h2 : (m : ℝ) * 101 ≤ b * 100 := by exact_mod_cast hmb
    have h3 : 4 * ((d : ℝ) + 2) * roundoff .f32 ≤ 1 / 100 := by nlinarith
    nlinarith

/-- C106: the velocities of the example programs are finite, whatever the random source delivers: those of particleswarm-paraboloid are
at most 11, of particleswarm-schwefel and particleswarm-schwefel-iterative at most 707, and without any corrector those of
particleswarm-rastrigin are at most 10 and those of particleswarm-rosenbrock at most 6. -/
theorem C106_examples (P : Platform σ) (L : Lens σ Stop.GNC) (s s' : σ) (o : Opt σ F32) (fuel : Nat) :
    (swarmParaboloid P L s = .ok (o, s') → VelocitiesWithin (Fl.ofNat 11) [.findMin fuel] o s') ∧
    (swarmRastrigin P L s = .ok (o, s') → VelocitiesWithin (Fl.ofNat 10) [.findMin fuel] o s') ∧
    (swarmRosenbrock P L s = .ok (o, s') → VelocitiesWithin (Fl.ofNat 6) [.findMin fuel] o s') ∧
    (swarmSchwefel P L s = .ok (o, s') → VelocitiesWithin (Fl.ofNat 707) [.findMin fuel] o s') ∧
    (swarmSchwefelIterative P s = .ok (o, s') → VelocitiesWithin (Fl.ofNat 707) (swarmIterativeCalls fuel) o s') := by
  refine ⟨fun h => ?_, fun h => ?_, fun h => ?_, fun h => ?_, fun h => ?_⟩
  · obtain ⟨h0, hc⟩ := calm_program h (B := Fl.ofNat 11) (by decide +kernel)
      (brakes_abs (m := 10) (b := 11) (by norm_num) (by decide +kernel) (by decide +kernel) (by decide +kernel) (by norm_num) (by norm_num)
        (by decide +kernel))
    exact within_of_calm (by decide +kernel) (by decide +kernel) (by decide +kernel) (by decide +kernel) (by decide +kernel)
      (by decide +kernel) h0 ⟨hc _, hc _⟩
  · obtain ⟨h0, hc⟩ := calm_program h (B := Fl.ofNat 10) (by decide +kernel) (.none (by decide +kernel))
    exact within_of_calm (by decide +kernel) (by decide +kernel) (by decide +kernel) (by decide +kernel) (by decide +kernel)
      (by decide +kernel) h0 ⟨hc _, hc _⟩
  · obtain ⟨h0, hc⟩ := calm_program h (B := Fl.ofNat 6) (by decide +kernel) (.none (by decide +kernel))
    exact within_of_calm (by decide +kernel) (by decide +kernel) (by decide +kernel) (by decide +kernel) (by decide +kernel)
      (by decide +kernel) h0 ⟨hc _, hc _⟩
  · obtain ⟨h0, hc⟩ := calm_program h (B := Fl.ofNat 707) (by decide +kernel)
      (brakes_abs (m := 700) (b := 707) (by norm_num) (by decide +kernel) (by decide +kernel) (by decide +kernel) (by norm_num) (by norm_num)
        (by decide +kernel))
    exact within_of_calm (by decide +kernel) (by decide +kernel) (by decide +kernel) (by decide +kernel) (by decide +kernel)
      (by decide +kernel) h0 ⟨hc _, hc _⟩
  · obtain ⟨h0, hc⟩ := calm_program h (B := Fl.ofNat 707) (by decide +kernel)
      (brakes_abs (m := 700) (b := 707) (by norm_num) (by decide +kernel) (by decide +kernel) (by decide +kernel) (by norm_num) (by norm_num)
        (by decide +kernel))
    exact within_of_calm (by decide +kernel) (by decide +kernel) (by decide +kernel) (by decide +kernel) (by decide +kernel)
      (by decide +kernel) h0 ⟨hc _, hc _, hc _, hc _⟩

/-! ## The statistics programs -/

/-- A statistics program, with its calculator and its post-move hooks. -/
theorem calm_stat {P : Platform σ} {goal : List F32 → M σ F64} {n : Nat} {lo hi : F32} {d : Nat} {lim V B : F32}
    {makePostMoves : M σ (List (List F32 → M σ (List F32)))}
    {makeVelocity : M σ (PSO.Swarm F32 → PSO.Particle F32 → M σ (List F32))} {makeStop : M σ (AlgState (List F32) → M σ Bool)}
    {s s' : σ} {o : Opt σ F32} (h : StatPrograms.swarm P goal n lo hi d lim makePostMoves makeVelocity makeStop s = .ok (o, s'))
    (hp : ∀ hs, Returned makePostMoves hs → ∃ pre, hs = pre ++ [Hooks.moveToBoundary (box lo hi d)])
    (hv : ∀ calc', Returned makeVelocity calc' → TopSpeed P.rng B (hi.sub lo) calc' V) (hB : Fl.zero.le B = true)
    (hb : Brakes (σ := σ) d V B [Hooks.maxVelocityAbs lim]) :
    o.swarm = ⟨[], none, none, 0⟩ ∧ Calm P.rng (box lo hi d) B (hi.sub lo) V o.comps := by
  unfold StatPrograms.swarm at h
  obtain ⟨hs, t1, k1, h⟩ := M.bind_eq_ok.1 h
  obtain ⟨cl, t2, k2, h⟩ := M.bind_eq_ok.1 h
  obtain ⟨st, t3, k3, h⟩ := M.bind_eq_ok.1 h
  obtain ⟨rfl, -⟩ := M.pure_eq_ok.1 h
  refine ⟨rfl, hp _ ⟨_, _, k1⟩, fun vs hv => zero_start hB vs hv, hv _ ⟨_, _, k2⟩, ?_⟩
  show Brakes (box lo hi d).length _ _ _
  rw [show (box lo hi d).length = d from List.length_replicate]
  exact hb

theorem bound_last {P : Platform σ} {ivs : List (F32 × F32)} {q : F32} (hs : List (List F32 → M σ (List F32)))
    (h : Returned (StatPrograms.teleportAndBound P ivs q) hs) : ∃ pre, hs = pre ++ [Hooks.moveToBoundary ivs] := by
  obtain ⟨s, s', h⟩ := h
  unfold StatPrograms.teleportAndBound at h
  obtain ⟨t, t1, k1, h⟩ := M.bind_eq_ok.1 h
  exact ⟨[Hooks.teleport P.rng t], (M.pure_eq_ok.1 h).1.symm⟩

theorem bound_only {ivs : List (F32 × F32)} (hs : List (List F32 → M σ (List F32)))
    (h : Returned (pure [Hooks.moveToBoundary ivs] : M σ (List (List F32 → M σ (List F32)))) hs) :
    ∃ pre, hs = pre ++ [Hooks.moveToBoundary ivs] := by
  obtain ⟨s, s', h⟩ := h
  exact ⟨[], (M.pure_eq_ok.1 h).1.symm⟩

theorem canonical_speed {P : Platform σ} {phiP phiG k B W : F32} (cl : PSO.Swarm F32 → PSO.Particle F32 → M σ (List F32))
    (h : Returned (StatPrograms.canonical P phiP phiG k) cl) : TopSpeed P.rng B W cl (topCanonical (fields phiP phiG k) B W) := by
  obtain ⟨s, s', h⟩ := h
  unfold StatPrograms.canonical at h
  obtain ⟨c, t1, k1, h⟩ := M.bind_eq_ok.1 h
  obtain ⟨rfl, -⟩ := canonical_fields k1
  rw [← (M.pure_eq_ok.1 h).1]
  exact .canonical _

theorem negative_speed {P : Platform σ} {c : Velocity.NegReinf F32} {B W : F32} (cl : PSO.Swarm F32 → PSO.Particle F32 → M σ (List F32))
    (h : Returned (pure (Velocity.negReinf P.rng c) : M σ (PSO.Swarm F32 → PSO.Particle F32 → M σ (List F32))) cl) :
    TopSpeed P.rng B W cl (topNegative c B W) := by
  obtain ⟨s, s', h⟩ := h
  rw [← (M.pure_eq_ok.1 h).1]
  exact .negative _

theorem inertia_speed {P : Platform σ} {phiP phiG w B W : F32} (hw : Within w w) (cl : PSO.Swarm F32 → PSO.Particle F32 → M σ (List F32))
    (h : Returned (pure (Velocity.inertia P.rng phiP phiG (Velocity.constInertia w)) :
      M σ (PSO.Swarm F32 → PSO.Particle F32 → M σ (List F32))) cl) :
    TopSpeed P.rng B W cl (topInertia w phiP phiG B W) := by
  obtain ⟨s, s', h⟩ := h
  rw [← (M.pure_eq_ok.1 h).1]
  refine .inertia _ _ _ _ fun i x hx => ?_
  obtain ⟨t, t', hx⟩ := hx
  rw [← (M.pure_eq_ok.1 hx).1]
  exact hw

/-- C106: the same for the optimizers of the swarm statistics programs: velocities of at most 707, in particleswarm-rosenbrock-statistics
of at most 3. -/
theorem C106_statistics (P : Platform σ) (L : Lens σ Stop.GNC) (s s' : σ) (o : Opt σ F32) (fuel : Nat) :
    (StatPrograms.swarmSchwefel P s = .ok (o, s') → VelocitiesWithin (Fl.ofNat 707) [.findMin fuel] o s') ∧
    (StatPrograms.swarmRosenbrock P L s = .ok (o, s') → VelocitiesWithin (Fl.ofNat 3) [.findMin fuel] o s') ∧
    (StatPrograms.swarmSchwefelFull P L s = .ok (o, s') → VelocitiesWithin (Fl.ofNat 707) [.findMin fuel] o s') ∧
    (StatPrograms.swarmSchwefelInertia P L s = .ok (o, s') → VelocitiesWithin (Fl.ofNat 707) [.findMin fuel] o s') ∧
    (StatPrograms.swarmRastriginInertia P L s = .ok (o, s') → VelocitiesWithin (Fl.ofNat 707) [.findMin fuel] o s') := by
  refine ⟨fun h => ?_, fun h => ?_, fun h => ?_, fun h => ?_, fun h => ?_⟩
  · obtain ⟨h0, hc⟩ := calm_stat h (B := Fl.ofNat 707) bound_last canonical_speed (by decide +kernel)
      (brakes_abs (m := 700) (b := 707) (by norm_num) (by decide +kernel) (by decide +kernel) (by decide +kernel) (by norm_num) (by norm_num)
        (by decide +kernel))
    exact within_of_calm (by decide +kernel) (by decide +kernel) (by decide +kernel) (by decide +kernel) (by decide +kernel)
      (by decide +kernel) h0 ⟨hc, hc⟩
  · obtain ⟨h0, hc⟩ := calm_stat h (B := Fl.ofNat 3) bound_last canonical_speed (by decide +kernel)
      (brakes_abs (m := 2) (b := 3) (by norm_num) (by decide +kernel) (by decide +kernel) (by decide +kernel) (by norm_num) (by norm_num)
        (by decide +kernel))
    exact within_of_calm (by decide +kernel) (by decide +kernel) (by decide +kernel) (by decide +kernel) (by decide +kernel)
      (by decide +kernel) h0 ⟨hc, hc⟩
  · obtain ⟨h0, hc⟩ := calm_stat h (B := Fl.ofNat 707) bound_only negative_speed (by decide +kernel)
      (brakes_abs (m := 700) (b := 707) (by norm_num) (by decide +kernel) (by decide +kernel) (by decide +kernel) (by norm_num) (by norm_num)
        (by decide +kernel))
    exact within_of_calm (by decide +kernel) (by decide +kernel) (by decide +kernel) (by decide +kernel) (by decide +kernel)
      (by decide +kernel) h0 ⟨hc, hc⟩
  · obtain ⟨h0, hc⟩ := calm_stat h (B := Fl.ofNat 707) bound_only (inertia_speed ⟨by decide +kernel, by decide +kernel⟩) (by decide +kernel)
      (brakes_abs (m := 700) (b := 707) (by norm_num) (by decide +kernel) (by decide +kernel) (by decide +kernel) (by norm_num) (by norm_num)
        (by decide +kernel))
    exact within_of_calm (by decide +kernel) (by decide +kernel) (by decide +kernel) (by decide +kernel) (by decide +kernel)
      (by decide +kernel) h0 ⟨hc, hc⟩
  · obtain ⟨h0, hc⟩ := calm_stat h (B := Fl.ofNat 707) bound_only (inertia_speed ⟨by decide +kernel, by decide +kernel⟩) (by decide +kernel)
      (brakes_abs (m := 700) (b := 707) (by norm_num) (by decide +kernel) (by decide +kernel) (by decide +kernel) (by norm_num) (by norm_num)
        (by decide +kernel))
    exact within_of_calm (by decide +kernel) (by decide +kernel) (by decide +kernel) (by decide +kernel) (by decide +kernel)
      (by decide +kernel) h0 ⟨hc, hc⟩

end Verif.Props.Swarm
