import Verif.Proofs.Watched
import Verif.Props.Inertia

/-!
# C95: whether a particle settles

In exact arithmetic, without hooks, while the bests a particle is drawn to stay where they are.
-/

namespace Verif.Props

open Verif Spec Spec.Swarm Velocity Filter Topology
open Verif.PSO (Opt Particle)
open Verif.Dynamics

variable {σ : Type}

theorem steady_le {R : Rng σ} {r : ℝ} (hR : Steady R r) (s : σ) : 0 ≤ r ∧ r ≤ 1 := by
  obtain ⟨u, s1⟩ : F32 × σ := R.flIncl (Fl.zero : F32) Fl.one s
  refine C45_factors_exact R s (R.flIncl (Fl.zero : F32) Fl.one s).2 [(R.flIncl (Fl.zero : F32) Fl.one s).1]
    (.cons rfl .nil) 0 r ?_
  show some _ = some r
  rw [hR s]

theorem inertia_orbit {R : Rng σ} {r : ℝ} (hR : Steady R r) {wt phiP phiG : ℝ} (hne : phiP + phiG ≠ 0) {o : Opt σ ℝ}
    (hb : Bare o.comps) (hv : o.comps.velCalc = inertia R phiP phiG (constInertia wt)) {w : World σ (List ℝ)} {n i : Nat}
    {x v : Nat → ℝ} {b g : ℝ} (hw : Watched o w n i x v b g) :
    Orbit wt ((phiP + phiG) * r) ((phiP * b + phiG * g) / (phiP + phiG)) x v := by
  have h := PSO.watched_formula (form := inertiaFormula wt phiP phiG) hR hb (by
    intro S p s s' raw h
    rw [hv] at h
    obtain ⟨q, wt', s1, h1, h2, h3⟩ := C45_inertia _ _ _ _ _ _ _ _ _ h
    obtain ⟨rfl, rfl⟩ := M.pure_eq_ok.1 h2
    exact ⟨q, _, h1, h3⟩) hw
  refine ⟨fun t => ?_, fun t => (h t).2⟩
  rw [(h t).1]
  show wt * v t + phiP * r * (b - x t) + phiG * r * (g - x t) = _
  field_simp
  ring

theorem canonical_orbit {R : Rng σ} {r : ℝ} (hR : Steady R r) {c : Canonical ℝ} (hne : c.phiP + c.phiG ≠ 0) {o : Opt σ ℝ}
    (hb : Bare o.comps) (hv : o.comps.velCalc = canonical R c) {w : World σ (List ℝ)} {n i : Nat} {x v : Nat → ℝ} {b g : ℝ}
    (hw : Watched o w n i x v b g) :
    Orbit c.xi (c.xi * (c.phiP + c.phiG) * r) ((c.phiP * b + c.phiG * g) / (c.phiP + c.phiG)) x v := by
  have h := PSO.watched_formula (form := canonicalFormula c.xi c.phiP c.phiG) hR hb (by
    intro S p s s' raw h
    rw [hv] at h
    obtain ⟨q, h1, h3⟩ := C45_canonical _ _ _ _ _ _ _ h
    exact ⟨q, _, h1, h3⟩) hw
  refine ⟨fun t => ?_, fun t => (h t).2⟩
  rw [(h t).1]
  show c.xi * (v t + c.phiP * r * (b - x t) + c.phiG * r * (g - x t)) = _
  field_simp
  ring

/-- C95, CanonicalVelocityCalculator: with any accepted parameters and steady random factors (not zero), the particle converges
to the mean of its own best and the best of the swarm, weighted with phi_p and phi_g, and its velocity to zero. -/
theorem C95_canonical (R : Rng σ) (r : ℝ) (hR : Steady R r) (hr : 0 < r) (phiP phiG alpha : ℝ) (c : Canonical ℝ)
    (s s' : σ) (hc : Canonical.new phiP phiG alpha s = .ok (c, s')) (o : Opt σ ℝ) (hb : Bare o.comps)
    (hv : o.comps.velCalc = canonical R c) (w : World σ (List ℝ)) (n i : Nat) (x v : Nat → ℝ) (b g : ℝ)
    (hw : Watched o w n i x v b g) :
    Tendsto x atTop (𝓝 ((phiP * b + phiG * g) / (phiP + phiG))) ∧ Tendsto v atTop (𝓝 0) := by
  obtain ⟨h4, ha0, ha1, hxi, hx0, hxa⟩ := C47_exact phiP phiG alpha s s' c hc
  have hP : c.phiP = phiP ∧ c.phiG = phiG := by
    unfold Canonical.new at hc
    obtain ⟨_, _, _, hc⟩ := M.bind_eq_ok.1 hc
    obtain ⟨_, _, _, hc⟩ := M.bind_eq_ok.1 hc
    obtain ⟨_, _, _, hc⟩ := M.bind_eq_ok.1 hc
    obtain ⟨rfl, -⟩ := M.pure_eq_ok.1 hc
    exact ⟨rfl, rfl⟩
  have ho := canonical_orbit hR (by rw [hP.1, hP.2]; linarith) hb hv hw
  rw [hP.1, hP.2] at ho
  obtain ⟨-, hr1⟩ := steady_le hR s
  have e : c.xi * (phiP + phiG) = 2 * alpha + 2 * c.xi := by
    rw [hxi]
    have : phiP + phiG - 2 ≠ 0 := by linarith
    field_simp
    ring
  refine ho.settles hx0.le (by linarith) (mul_pos (mul_pos hx0 (by linarith)) hr) ?_
  rw [e]
  nlinarith

/-- C95, InertiaVelocityCalculator with ConstInertia below 1: the same as long as the pull is below `2 (1 + w)`. -/
theorem C95_inertia (R : Rng σ) (r : ℝ) (hR : Steady R r) (wt phiP phiG : ℝ) (hw0 : 0 ≤ wt) (hw1 : wt < 1)
    (hphi : 0 < (phiP + phiG) * r) (hphi2 : (phiP + phiG) * r < 2 * (1 + wt)) (o : Opt σ ℝ) (hb : Bare o.comps)
    (hv : o.comps.velCalc = inertia R phiP phiG (constInertia wt)) (w : World σ (List ℝ)) (n i : Nat) (x v : Nat → ℝ)
    (b g : ℝ) (hw : Watched o w n i x v b g) :
    Tendsto x atTop (𝓝 ((phiP * b + phiG * g) / (phiP + phiG))) ∧ Tendsto v atTop (𝓝 0) :=
  (inertia_orbit hR (by rintro h; rw [h, zero_mul] at hphi; exact lt_irrefl _ hphi) hb hv hw).settles hw0 hw1 hphi hphi2

/-- C95, the same calculator pulled harder: a particle that is at rest away from that mean runs away geometrically. -/
theorem C95_inertia_escapes (R : Rng σ) (r : ℝ) (hR : Steady R r) (wt phiP phiG : ℝ) (hw0 : 0 ≤ wt)
    (hphi : 2 * (1 + wt) < (phiP + phiG) * r) (o : Opt σ ℝ) (hb : Bare o.comps)
    (hv : o.comps.velCalc = inertia R phiP phiG (constInertia wt)) (w : World σ (List ℝ)) (n i : Nat) (x v : Nat → ℝ)
    (b g : ℝ) (hw : Watched o w n i x v b g) (hrest : v 0 = 0) (t : Nat) :
    1 < (phiP + phiG) * r - 1 - 2 * wt ∧
      ((phiP + phiG) * r - 1 - 2 * wt) ^ t * |x 0 - (phiP * b + phiG * g) / (phiP + phiG)| ≤
        |x t - (phiP * b + phiG * g) / (phiP + phiG)| := by
  have hne : phiP + phiG ≠ 0 := by
    rintro h; rw [h, zero_mul] at hphi; linarith
  exact ⟨by linarith, (inertia_orbit hR hne hb hv hw).escapes hw0 hphi hrest t⟩

/-- C95, ClassicVelocityCalculator below the pull 4: the particle stays within a bound and does not converge to anything, unless
it is at rest on the mean from the start. -/
theorem C95_classic (R : Rng σ) (r : ℝ) (hR : Steady R r) (phiP phiG : ℝ)
    (hphi : 0 < (phiP + phiG) * r) (hphi2 : (phiP + phiG) * r < 4) (o : Opt σ ℝ) (hb : Bare o.comps)
    (hv : o.comps.velCalc = classic R phiP phiG) (w : World σ (List ℝ)) (n i : Nat) (x v : Nat → ℝ)
    (b g : ℝ) (hw : Watched o w n i x v b g) :
    (∃ B, ∀ t, |x t| ≤ B) ∧ ((∃ L, Tendsto x atTop (𝓝 L)) → x 0 = (phiP * b + phiG * g) / (phiP + phiG) ∧ v 0 = 0) := by
  have hv' : o.comps.velCalc = inertia R phiP phiG (constInertia 1) := by
    rw [hv]; funext S p s; exact (C45_inertia_one_exact R phiP phiG S p s).symm
  have ho := inertia_orbit hR (by rintro h; rw [h, zero_mul] at hphi; exact lt_irrefl _ hphi) hb hv' hw
  obtain ⟨⟨B, hB⟩, h2⟩ := ho.circles hphi hphi2
  refine ⟨⟨B + |(phiP * b + phiG * g) / (phiP + phiG)|, fun t => ?_⟩, h2⟩
  have := abs_sub_abs_le_abs_sub (x t) ((phiP * b + phiG * g) / (phiP + phiG))
  linarith [hB t]

/-- C95, ClassicVelocityCalculator above the pull 4: a particle at rest away from the mean runs away geometrically. -/
theorem C95_classic_escapes (R : Rng σ) (r : ℝ) (hR : Steady R r) (phiP phiG : ℝ)
    (hphi : 4 < (phiP + phiG) * r) (o : Opt σ ℝ) (hb : Bare o.comps)
    (hv : o.comps.velCalc = classic R phiP phiG) (w : World σ (List ℝ)) (n i : Nat) (x v : Nat → ℝ)
    (b g : ℝ) (hw : Watched o w n i x v b g) (hrest : v 0 = 0) (t : Nat) :
    ((phiP + phiG) * r - 3) ^ t * |x 0 - (phiP * b + phiG * g) / (phiP + phiG)| ≤
        |x t - (phiP * b + phiG * g) / (phiP + phiG)| := by
  have hv' : o.comps.velCalc = inertia R phiP phiG (constInertia 1) := by
    rw [hv]; funext S p s; exact (C45_inertia_one_exact R phiP phiG S p s).symm
  have := (C95_inertia_escapes R r hR 1 phiP phiG zero_le_one (by linarith) o hb hv' w n i x v b g hw hrest t).2
  rw [show (phiP + phiG) * r - 3 = (phiP + phiG) * r - 1 - 2 * 1 by ring]
  exact this

/-! ### A single particle and a constant goal -/

/-- A random source whose float draws are end points of the interval: the upper one where `f` says so. -/
def ends (f : Nat → Bool) : Rng Nat where
  nat lo _ s := (lo, s + 1)
  natIncl lo _ s := (lo, s + 1)
  fl lo _ s := (lo, s + 1)
  flIncl lo hi s := (bif f s then hi else lo, s + 1)
  nat_range lo hi s h := ⟨Nat.le_refl _, h⟩
  natIncl_range lo hi s h := ⟨Nat.le_refl _, h⟩
  fl_range lo hi s h _ _ := ⟨Fl.le_refl (Fl.lt_iff.1 h).1, h⟩
  flIncl_range lo hi s h h1 h2 := by
    have := Fl.le_iff.1 h
    cases f s
    · exact ⟨Fl.le_refl this.1, h⟩
    · exact ⟨h, Fl.le_refl this.2.1⟩

/-- The factor of the draw number `k` of `ends f` -/
def endFactor (f : Nat → Bool) (k : Nat) : ℝ := bif f k then 1 else 0

/-- A swarm of one particle in one dimension, which starts on 0 with velocity 1; the goal is constant and no run ever stops. -/
def lone (V : PSO.Swarm ℝ → Particle ℝ → M Nat (List ℝ)) : Opt Nat ℝ :=
  PSO.new (fun _ => pure Fl.zero) (fun _ => pure false) (pure [[0]]) (pure [[1]]) V

/-- Its particle on `x` with velocity `v` -/
def loneAt (x v : ℝ) : Particle ℝ := ⟨[x], [v], Fl.zero, [0], Fl.zero, [0], Fl.zero⟩

/-- Its swarm in iteration `k` -/
def loneSwarm (x v : ℝ) (k : Nat) : PSO.Swarm ℝ := ⟨[loneAt x v], some (loneAt 0 1), some (loneAt 0 1), k⟩

theorem compare_zero : PSO.compareFloats (Fl.zero : F64) Fl.zero = .eq := by decide +kernel

theorem lone_moveTo (x v v' : ℝ) :
    ((loneAt x v).setVelocity [v']).moveTo [x + v'] Fl.zero = loneAt (x + v') v' := by
  simp [loneAt, Particle.setVelocity, Particle.moveTo, compare_zero]

theorem lone_move {V : PSO.Swarm ℝ → Particle ℝ → M Nat (List ℝ)} {x v v' : ℝ} {k : Nat} {w : World Nat (List ℝ)} {s' : Nat}
    (h : V (loneSwarm x v k) (loneAt x v) w.user = .ok ([v'], s')) :
    PSO.moveParticle (lone V).comps (loneSwarm x v k) 0 w = .ok (loneSwarm (x + v') v' k, ⟨s', w.trace ++
      [.velocity [v'] [v']] ++ [.moved [x + v'] [x + v']] ++ [.goal [x + v'] Fl.zero]⟩) := by
  have hl : World.lift (V (loneSwarm x v k) (loneAt x v)) w = .ok ([v'], ⟨s', w.trace⟩) := by
    unfold World.lift; rw [h]
  unfold PSO.moveParticle
  rw [show M.index (loneSwarm x v k).particles 0 = pure (loneAt x v) from rfl]
  refine M.bind_eq_ok.2 ⟨_, w, rfl, M.bind_eq_ok.2 ⟨[v'], _, hl, ?_⟩⟩
  refine M.bind_eq_ok.2 ⟨[v'], ⟨s', w.trace⟩, rfl, M.bind_eq_ok.2 ⟨(), _, rfl, ?_⟩⟩
  refine M.bind_eq_ok.2 ⟨[x + v'], _, rfl, M.bind_eq_ok.2 ⟨(), _, rfl, M.bind_eq_ok.2 ⟨Fl.zero, _, rfl,
    M.bind_eq_ok.2 ⟨(), _, rfl, ?_⟩⟩⟩⟩
  rw [lone_moveTo]
  rfl

theorem lone_step {V : PSO.Swarm ℝ → Particle ℝ → M Nat (List ℝ)} {x v v' : ℝ} {k : Nat} {w : World Nat (List ℝ)} {s' : Nat}
    (h : V (loneSwarm x v k) (loneAt x v) w.user = .ok ([v'], s')) :
    ∃ w', PSO.step (lone V).comps (loneSwarm x v k) w = .ok (loneSwarm (x + v') v' (k + 1), w') ∧ w'.user = s' := by
  have hu : (loneSwarm (x + v') v' k).updateBest.updateWorst.nextIteration = loneSwarm (x + v') v' (k + 1) := by
    simp [loneSwarm, PSO.Swarm.updateBest, PSO.Swarm.updateWorst, PSO.findBest, PSO.findWorst, PSO.minLoop, PSO.maxLoop,
      loneAt, compare_zero, PSO.Swarm.nextIteration]
  have key : ∀ w1 : World Nat (List ℝ), ∃ w', (do
      World.emit (.generation (PSO.agents (loneSwarm (x + v') v' (k + 1))) (loneSwarm (x + v') v' (k + 1)).state.best
        ((loneSwarm (x + v') v' (k + 1)).worst.map Particle.sol) (loneSwarm (x + v') v' (k + 1)).iteration)
      callLoggers .next (loneSwarm (x + v') v' (k + 1)).state 0 (lone V).comps.loggers
      pure (loneSwarm (x + v') v' (k + 1)) : M (World Nat (List ℝ)) (PSO.Swarm ℝ)) w1 =
        .ok (loneSwarm (x + v') v' (k + 1), w') ∧ w'.user = w1.user := fun w1 => ⟨_, rfl, rfl⟩
  obtain ⟨w', e1, e2⟩ := key ⟨s', w.trace ++ [.velocity [v'] [v']] ++ [.moved [x + v'] [x + v']] ++ [.goal [x + v'] Fl.zero]⟩
  refine ⟨w', M.bind_eq_ok.2 ⟨_, _, M.foldL_cons_ok.2 ⟨_, _, lone_move h, rfl⟩, ?_⟩, e2⟩
  rw [hu]
  exact e1

/-- The head of the loop of its find_min. -/
theorem lone_head (V : PSO.Swarm ℝ → Particle ℝ → M Nat (List ℝ)) (w : World Nat (List ℝ)) :
    ∃ w', PSO.findMinHead (lone V) w = .ok (⟨(lone V).comps, loneSwarm 0 1 0⟩, w') ∧ w'.user = w.user :=
  ⟨_, rfl, rfl⟩

/-- A run of it, given what the velocity calculator answers. -/
theorem lone_turns {V : PSO.Swarm ℝ → Particle ℝ → M Nat (List ℝ)} {x v : Nat → ℝ} {u : Nat → Nat}
    (h : ∀ t, V (loneSwarm (x t) (v t) t) (loneAt (x t) (v t)) (u t) = .ok ([v (t + 1)], u (t + 1)))
    (hx : ∀ t, x (t + 1) = x t + v (t + 1)) : ∀ (n t : Nat) (w : World Nat (List ℝ)), w.user = u t →
      ∃ w', PSO.turns (lone V).comps n (loneSwarm (x t) (v t) t) w = .ok (loneSwarm (x (t + n)) (v (t + n)) (t + n), w') := by
  intro n
  induction n with
  | zero => intro t w _; exact ⟨w, rfl⟩
  | succ n ih =>
    intro t w hw
    obtain ⟨w1, h1, h2⟩ := lone_step (V := V) (w := ⟨w.user, w.trace ++ [.check (loneSwarm (x t) (v t) t).state false]⟩)
      (by rw [show (⟨w.user, w.trace ++ [.check (loneSwarm (x t) (v t) t).state false]⟩ : World Nat (List ℝ)).user = u t
            from hw]; exact h t)
    rw [← hx] at h1
    obtain ⟨w2, h3⟩ := ih (t + 1) w1 h2
    refine ⟨w2, PSO.turns_succ_ok.2 ⟨w.user, rfl, _, w1, h1, ?_⟩⟩
    rw [show t + (n + 1) = t + 1 + n by omega]
    exact h3

theorem lone_runTo {V : PSO.Swarm ℝ → Particle ℝ → M Nat (List ℝ)} {x v : Nat → ℝ} {u : Nat → Nat}
    (h : ∀ t, V (loneSwarm (x t) (v t) t) (loneAt (x t) (v t)) (u t) = .ok ([v (t + 1)], u (t + 1)))
    (hx : ∀ t, x (t + 1) = x t + v (t + 1)) (h0 : x 0 = 0) (h1 : v 0 = 1) (n : Nat) (w : World Nat (List ℝ))
    (hw : w.user = u 0) :
    ∃ w', PSO.runTo (lone V) [] (.inFindMin n) w = .ok (⟨(lone V).comps, loneSwarm (x n) (v n) n⟩, w') := by
  obtain ⟨w1, e1, e2⟩ := lone_head V w
  obtain ⟨w2, e3⟩ := lone_turns h hx n 0 w1 (by rw [e2, hw])
  rw [h0, h1, Nat.zero_add] at e3
  exact ⟨w2, M.bind_eq_ok.2 ⟨_, w, rfl, M.bind_eq_ok.2 ⟨_, w1, e1, M.bind_eq_ok.2 ⟨_, w2, e3, rfl⟩⟩⟩⟩

theorem lone_watched {V : PSO.Swarm ℝ → Particle ℝ → M Nat (List ℝ)} {x v : Nat → ℝ} {u : Nat → Nat}
    (h : ∀ t, V (loneSwarm (x t) (v t) t) (loneAt (x t) (v t)) (u t) = .ok ([v (t + 1)], u (t + 1)))
    (hx : ∀ t, x (t + 1) = x t + v (t + 1)) (h0 : x 0 = 0) (h1 : v 0 = 1) (w : World Nat (List ℝ)) (hw : w.user = u 0) :
    Watched (lone V) w 0 0 x v 0 0 := by
  refine ⟨0, _, .findMin, fun t => ?_⟩
  obtain ⟨w', e⟩ := lone_runTo h hx h0 h1 (0 + t) w hw
  refine ⟨_, w', _, _, e, rfl, ?_, ?_, rfl, rfl, rfl⟩ <;> simp [loneAt]

/-- The canonical calculator on it. -/
theorem lone_canonical (f : Nat → Bool) (c : Canonical ℝ) (x v : ℝ) (k s : Nat) :
    canonical (ends f) c (loneSwarm x v k) (loneAt x v) s =
      .ok ([c.xi * (v + c.phiP * endFactor f s * (0 - x) + c.phiG * endFactor f (s + 1) * (0 - x))], s + 2) := by
  have hd : ∀ s, (draw01 (ends f) Fmt.f32 : M Nat ℝ) s = .ok (endFactor f s, s + 1) := by
    intro s
    have hr : (ends f).uniformFlIncl (Fl.zero : F32) Fl.one s = .ok ((bif f s then Fl.one else Fl.zero), s + 1) := by
      unfold Rng.uniformFlIncl
      rw [if_pos (by decide +kernel)]
      rfl
    refine M.bind_eq_ok.2 ⟨_, _, hr, M.pure_eq_ok.2 ⟨?_, rfl⟩⟩
    unfold endFactor
    have hD : ((Fmt.f32.D : ℕ) : ℝ) ≠ 0 := by exact_mod_cast Fmt.f32.D_pos.ne'
    cases f s
    · show ((Fl.zero : F32).toInt : ℝ) / Fmt.f32.D = 0
      rw [Fl.toInt_zero]; simp
    · show ((Fl.one : F32).toInt : ℝ) / Fmt.f32.D = 1
      rw [Fl.toInt_one]
      push_cast
      rw [div_self hD]
  refine M.bind_eq_ok.2 ⟨loneAt 0 1, s, rfl, M.mapL_cons_ok.2 ⟨_, [], s + 2, ?_, rfl, rfl⟩⟩
  exact M.bind_eq_ok.2 ⟨_, _, hd s, M.bind_eq_ok.2 ⟨_, _, hd (s + 1), rfl⟩⟩

/-- The positions and velocities of the lone particle with the canonical calculator. -/
noncomputable def lonePath (f : Nat → Bool) (c : Canonical ℝ) : Nat → ℝ × ℝ
  | 0 => (0, 1)
  | t + 1 =>
    let q := lonePath f c t
    let v' := c.xi * (q.2 + c.phiP * endFactor f (2 * t) * (0 - q.1) + c.phiG * endFactor f (2 * t + 1) * (0 - q.1))
    (q.1 + v', v')

/-- The factor the values of the pso examples give: phi_p = 3.2, phi_g = 1, alpha = 0.9. -/
noncomputable def exampleCanonical : Canonical ℝ := ⟨32 / 10, 1, 9 / 11⟩

theorem exampleCanonical_new (s : Nat) :
    Canonical.new (32 / 10 : ℝ) 1 (9 / 10) s = .ok (exampleCanonical, s) := by
  unfold Canonical.new exampleCanonical
  refine M.bind_eq_ok.2 ⟨(), s, M.assert_eq_ok.2 ⟨?_, rfl⟩, M.bind_eq_ok.2 ⟨(), s, M.assert_eq_ok.2 ⟨?_, rfl⟩,
    M.bind_eq_ok.2 ⟨(), s, M.assert_eq_ok.2 ⟨?_, rfl⟩, M.pure_eq_ok.2 ⟨?_, rfl⟩⟩⟩⟩
  all_goals simp only [FloatT.lt, FloatT.lit, FloatT.add, FloatT.mul, FloatT.div, FloatT.sub, FloatT.zero, FloatT.one,
    decide_eq_true_eq]
  all_goals norm_num

/-- The hypotheses of `C95_canonical` are met by a find_min with the values of the schwefel example on a constant goal, where every
random factor is 1. -/
example : Steady (ends fun _ => true) 1 ∧ Bare (lone (canonical (ends fun _ => true) exampleCanonical)).comps ∧
    Watched (lone (canonical (ends fun _ => true) exampleCanonical)) ⟨0, []⟩ 0 0
      (fun t => (lonePath (fun _ => true) exampleCanonical t).1) (fun t => (lonePath (fun _ => true) exampleCanonical t).2) 0 0 := by
  refine ⟨fun s => ?_, ⟨rfl, rfl⟩, lone_watched (u := fun t => 2 * t) (fun t => ?_) (fun t => rfl) rfl rfl _ rfl⟩
  · show ((Fl.one : F32).toInt : ℝ) / Fmt.f32.D = 1
    have hD : ((Fmt.f32.D : ℕ) : ℝ) ≠ 0 := by exact_mod_cast Fmt.f32.D_pos.ne'
    rw [Fl.toInt_one]
    push_cast
    rw [div_self hD]
  · exact lone_canonical _ _ _ _ _ _

/-- C95, the random factors matter: with the values of the schwefel example, constructed by `new`, and random factors that are 0
in one iteration and 1 in the next, the particle runs away geometrically, although the goal is constant and both bests stay on 0. -/
theorem C95_canonical_random :
    ∃ (R : Rng Nat) (c : Canonical ℝ) (s s' : Nat) (o : Opt Nat ℝ) (w : World Nat (List ℝ)) (x v : Nat → ℝ),
      Canonical.new (32 / 10 : ℝ) 1 (9 / 10) s = .ok (c, s') ∧ o.comps.velCalc = canonical R c ∧ Bare o.comps ∧
      Watched o w 0 0 x v 0 0 ∧ ∀ k, (24 / 10 : ℝ) ^ k ≤ |x (2 * k + 2)| := by
  have hf : ∀ t, endFactor (fun k => k / 2 % 2 == 1) (2 * (2 * t)) = 0 ∧
      endFactor (fun k => k / 2 % 2 == 1) (2 * (2 * t) + 1) = 0 ∧
      endFactor (fun k => k / 2 % 2 == 1) (2 * (2 * t + 1)) = 1 ∧
      endFactor (fun k => k / 2 % 2 == 1) (2 * (2 * t + 1) + 1) = 1 := by
    intro t
    refine ⟨?_, ?_, ?_, ?_⟩ <;> unfold endFactor <;> dsimp only
    · rw [show 2 * (2 * t) / 2 % 2 = 0 by omega]; rfl
    · rw [show (2 * (2 * t) + 1) / 2 % 2 = 0 by omega]; rfl
    · rw [show 2 * (2 * t + 1) / 2 % 2 = 1 by omega]; rfl
    · rw [show (2 * (2 * t + 1) + 1) / 2 % 2 = 1 by omega]; rfl
  refine ⟨ends (fun k => k / 2 % 2 == 1), exampleCanonical, 0, 0, lone (canonical (ends _) exampleCanonical), ⟨0, []⟩,
    fun t => (lonePath _ exampleCanonical t).1, fun t => (lonePath _ exampleCanonical t).2, exampleCanonical_new 0, rfl,
    ⟨rfl, rfl⟩, lone_watched (u := fun t => 2 * t) (fun t => lone_canonical _ _ _ _ _ _) (fun t => rfl) rfl rfl _ rfl, ?_⟩
  obtain ⟨q, hq⟩ : ∃ q, q = lonePath (fun k => k / 2 % 2 == 1) exampleCanonical := ⟨_, rfl⟩
  have two : ∀ t, (q (2 * t + 2)).1 = -(134 / 55) * (q (2 * t)).1 - 801 / 605 * (q (2 * t)).2 ∧
      (q (2 * t + 2)).2 = -(189 / 55) * (q (2 * t)).1 - 1296 / 605 * (q (2 * t)).2 := by
    intro t
    obtain ⟨f1, f2, f3, f4⟩ := hf t
    have e1 : q (2 * t + 1) = ((q (2 * t)).1 + 9 / 11 * (q (2 * t)).2, 9 / 11 * (q (2 * t)).2) := by
      rw [hq, lonePath, f1, f2]
      simp [exampleCanonical]
    have e2 : q (2 * t + 2) = ((q (2 * t + 1)).1 + 9 / 11 * ((q (2 * t + 1)).2 - 42 / 10 * (q (2 * t + 1)).1),
        9 / 11 * ((q (2 * t + 1)).2 - 42 / 10 * (q (2 * t + 1)).1)) := by
      rw [hq, show 2 * t + 2 = 2 * t + 1 + 1 from rfl, lonePath, f3, f4]
      simp only [exampleCanonical]
      refine Prod.ext ?_ ?_ <;> ring
    rw [e2, e1]
    constructor <;> ring
  have grow : ∀ k, ((24 / 10 : ℝ) ^ k ≤ (q (2 * k + 2)).1 ∧ 0 ≤ (q (2 * k + 2)).2) ∨
      ((24 / 10 : ℝ) ^ k ≤ -(q (2 * k + 2)).1 ∧ 0 ≤ -(q (2 * k + 2)).2) := by
    intro k
    induction k with
    | zero =>
      right
      have h0 : q (2 * 0) = (0, 1) := by rw [hq]; rfl
      obtain ⟨a, b⟩ := two 0
      rw [a, b, h0]
      norm_num
    | succ k ih =>
      obtain ⟨a, b⟩ := two (k + 1)
      rw [a, b, show 2 * (k + 1) = 2 * k + 2 by ring, pow_succ]
      have hp : (0 : ℝ) < (24 / 10 : ℝ) ^ k := by positivity
      rcases ih with ⟨h1, h2⟩ | ⟨h1, h2⟩
      · right; constructor <;> linarith
      · left; constructor <;> linarith
  intro k
  show _ ≤ |(lonePath _ exampleCanonical (2 * k + 2)).1|
  rw [← hq]
  rcases grow k with ⟨h, -⟩ | ⟨h, -⟩
  · exact h.trans (le_abs_self _)
  · exact h.trans (neg_le_abs _)

end Verif.Props
