import Verif.Props.Calm

/-!
# C106: a velocity that is NaN stays NaN, and the coordinate sticks to its lower bound
-/

set_option linter.unusedSectionVars false

namespace Verif.Props.Swarm

open Verif Spec Spec.Swarm PSO

variable {σ : Type} {f : Fmt}

theorem nan_add {x y : Fl f} (h : x.isNan = true) : (x.add y).isNan = true := by
  rw [Fl.isNan_add_left _ _ h]; exact Fl.isNan_nan

theorem nan_add' {x y : Fl f} (h : y.isNan = true) : (x.add y).isNan = true := by
  rw [Fl.isNan_add_right _ _ h]; exact Fl.isNan_nan

theorem nan_sub {x y : Fl f} (h : x.isNan = true) : (x.sub y).isNan = true := nan_add h

theorem nan_mul {x y : Fl f} (h : y.isNan = true) : (x.mul y).isNan = true := by
  rw [Fl.isNan_mul_right _ _ h]; exact Fl.isNan_nan

theorem twoTerm_nan {R : Rng σ} {form : Fl f → Fl f → Fl f → Fl f → Fl f → Fl f → Fl f}
    (hform : ∀ rP rG v b g x, v.isNan = true → (form rP rG v b g x).isNan = true) {p g : Particle (Fl f)} {s s' : σ} {r : List (Fl f)}
    (h : TwoTerm R form p g s r s') : r.length = p.coordinates.length ∧
      ∀ i (hi : i < r.length) v, p.velocity[i]? = some v → v.isNan = true → r[i].isNan = true := by
  obtain ⟨hl, us, -, -, hr⟩ := h
  refine ⟨hl, fun i hi v hv hn => ?_⟩
  obtain ⟨rP, rG, v', b, gb, x, -, -, e1, -, -, -, e5⟩ := hr i hi
  rw [hv] at e1; cases e1
  rw [e5]
  exact hform _ _ _ _ _ _ hn

/-- C106: a calculator of the library makes NaN of NaN, in the same component. -/
theorem C106_nan_calculator {R : Rng σ} {velCalc : PSO.Swarm (Fl f) → Particle (Fl f) → M σ (List (Fl f))} (h : LibCalc R velCalc)
    {s : PSO.Swarm (Fl f)} {p : Particle (Fl f)} {raw : List (Fl f)} (hr : Returned (velCalc s p) raw) :
    raw.length = p.coordinates.length ∧
    ∀ i (hi : i < raw.length) v, p.velocity[i]? = some v → v.isNan = true → raw[i].isNan = true := by
  obtain ⟨t, t', hr⟩ := hr
  cases h with
  | classic phiP phiG =>
    obtain ⟨g, -, h⟩ := C45_classic R phiP phiG s p t t' raw hr
    exact twoTerm_nan (fun _ _ _ _ _ _ h => nan_add (nan_add h)) h
  | canonical c =>
    obtain ⟨g, -, h⟩ := C45_canonical R c s p t t' raw hr
    exact twoTerm_nan (fun _ _ _ _ _ _ h => nan_mul (nan_add (nan_add h))) h
  | inertia phiP phiG get _ =>
    obtain ⟨g, w, t1, -, -, h⟩ := C45_inertia R phiP phiG get s p t t' raw hr
    exact twoTerm_nan (fun _ _ _ _ _ _ h => nan_add (nan_add (nan_mul h))) h
  | negative c =>
    obtain ⟨bg, bc, wg, wc, -, -, -, -, hl, us, -, -, hq⟩ := C45_negative R c s p t t' raw hr
    refine ⟨hl, fun i hi v hv hn => ?_⟩
    obtain ⟨r1, r2, r3, r4, r5, r6, v', pb, cb, gb, pw, cw, gw, x, -, -, -, -, -, -, e1, -, -, -, -, -, -, -, e9⟩ := hq i hi
    rw [hv] at e1; cases e1
    rw [e9]
    exact nan_mul (nan_sub (nan_sub (nan_sub (nan_add (nan_add (nan_add hn))))))

/-- C106: so do the correctors. -/
theorem C106_nan_correctors {d : Nat} {postVel : List (List (Fl f) → M σ (List (Fl f)))} (h : ∀ k ∈ postVel, LibPostVel d k)
    {raw v : List (Fl f)} (hv : Hooked postVel raw v) :
    v.length = raw.length ∧ ∀ i (hi : i < raw.length) (hi' : i < v.length), raw[i].isNan = true → v[i].isNan = true := by
  induction hv with
  | nil => exact ⟨rfl, fun _ _ _ h => h⟩
  | @cons k ks x y z hk _ ih =>
    obtain ⟨i1, i2⟩ := ih fun k hk => h k (List.mem_cons_of_mem _ hk)
    obtain ⟨s, s', hk⟩ := hk
    have hone : y.length = x.length ∧ ∀ i (hi : i < x.length) (hi' : i < y.length), x[i].isNan = true → y[i].isNan = true := by
      cases h k List.mem_cons_self with
      | dimensions vMax _ =>
        by_cases hl : x.length = vMax.length
        · obtain ⟨r, h1, h2, h3⟩ := (C43_hook vMax x s).2 hl
          rw [hk] at h1; cases h1
          exact ⟨h2, fun i hi hi' hn => (h3 i hi' hi (by omega)).2.2 (.inl hn)⟩
        · rw [(C43_hook vMax x s).1 hl] at hk; cases hk
      | abs m =>
        obtain ⟨r', e1, e0, e2, e3⟩ := C44_total m x s
        rw [hk] at e1; cases e1
        refine ⟨e0, fun i hi hi' hn => ?_⟩
        cases hlt : m.lt (Hooks.velocityAbs x) with
        | false => simp only [e2 hlt]; exact hn
        | true =>
          simp only [e3 hlt, List.getElem_map]
          rw [Fl.isNan_mul_left _ _ hn, Fl.isNan_div_left _ _ Fl.isNan_nan]
          exact Fl.isNan_nan
    exact ⟨by rw [i1, hone.1], fun i hi hi' hn => i2 i (by omega) hi' (hone.2 i hi (by omega) hn)⟩

/-- Component `i` of the velocity of `p` is NaN. -/
def NanAt (i : Nat) (p : Particle (Fl f)) : Prop := ∃ v, p.velocity[i]? = some v ∧ v.isNan = true

theorem move_stuck {R : Rng σ} {d : Nat} {ivs : List (Fl f × Fl f)} (hi : FiniteIncreasing ivs) {c : Comps σ (Fl f)}
    (h1 : LibCalc R c.velCalc) (h2 : ∀ k ∈ c.postVel, LibPostVel d k) (h3 : c.postMove = [Hooks.moveToBoundary ivs])
    {s : PSO.Swarm (Fl f)} {p p' : Particle (Fl f)} {evs : List (Ev (List (Fl f)))} (m : Move c s p evs p') {i : Nat} {iv : Fl f × Fl f}
    (hiv : ivs[i]? = some iv) (hn : NanAt i p) : NanAt i p' ∧ p'.coordinates[i]? = some iv.1 := by
  obtain ⟨v, hv, hn⟩ := hn
  obtain ⟨a1, a2⟩ := C106_nan_calculator h1 m.velocity_ok
  obtain ⟨b1, b2⟩ := C106_nan_correctors h2 m.corrected
  have hm := m.moved
  rw [h3] at hm
  generalize hz : List.zipWith FloatT.add p.coordinates p'.velocity = z at hm
  generalize hx : p'.coordinates = x' at hm ⊢
  cases hm with
  | cons hk hm =>
    cases hm
    obtain ⟨u, u', hk⟩ := hk
    by_cases hl : z.length = ivs.length
    · obtain ⟨hi1, hi2⟩ := List.getElem?_eq_some_iff.1 hiv
      have hzl : z.length = p.coordinates.length := by
        rw [← hz, List.length_zipWith]; omega
      have hvn : (p'.velocity[i]'(by omega)).isNan = true := b2 i (by omega) (by omega) (a2 i (by omega) v hv hn)
      refine ⟨⟨_, List.getElem?_eq_getElem (by omega), hvn⟩, ?_⟩
      have hk' : x' = List.zipWith Hooks.clampCoord ivs z := by
        unfold Hooks.moveToBoundary at hk
        obtain ⟨a, u1, k1, k2⟩ := M.bind_eq_ok.1 hk
        exact (M.pure_eq_ok.1 k2).1.symm
      rw [hk', List.getElem?_zipWith, hiv, List.getElem?_eq_getElem (show i < z.length by omega)]
      simp only
      congr 1
      obtain ⟨g1, g2, g3⟩ := hi iv (by rw [← hi2]; exact List.getElem_mem _)
      refine (C41_coordinate iv.1 iv.2 _ g1 g2 (Fl.le_of_lt g3)).2.2.2 ?_
      rw [← Bool.not_eq_true]
      intro hf
      have hzi : z[i]'(by omega) = (p.coordinates[i]'(by omega)).add (p'.velocity[i]'(by omega)) := by
        simp only [← hz, List.getElem_zipWith]; rfl
      have := Fl.isNan_of_isFinite hf
      rw [hzi, nan_add' hvn] at this
      cases this
    · rw [(C41_hook ivs z u).1 hl] at hk; cases hk

/-- C106: with a calculator and correctors of the library and MoveToBoundary as the post-move hook, a component of a velocity that is NaN
is NaN after every later turn of the loop, and that coordinate of the particle is at the lower end of its interval. -/
theorem C106_stuck (R : Rng σ) (d : Nat) (ivs : List (Fl f × Fl f)) (hi : FiniteIncreasing ivs) (c : Comps σ (Fl f))
    (h1 : LibCalc R c.velCalc) (h2 : ∀ k ∈ c.postVel, LibPostVel d k) (h3 : c.postMove = [Hooks.moveToBoundary ivs]) (k : Nat)
    (s s' : PSO.Swarm (Fl f)) (w w' : World σ (List (Fl f))) (hr : turns c (k + 1) s w = .ok (s', w')) :
    List.Forall₂ (fun (p p' : Particle (Fl f)) => ∀ i iv, ivs[i]? = some iv → NanAt i p → NanAt i p' ∧ p'.coordinates[i]? = some iv.1)
      s.particles s'.particles := by
  have one : ∀ {s s1 : PSO.Swarm (Fl f)} {w w1 : World σ (List (Fl f))}, step c s w = .ok (s1, w1) →
      List.Forall₂ (fun (p p' : Particle (Fl f)) => ∀ i iv, ivs[i]? = some iv → NanAt i p → NanAt i p' ∧ p'.coordinates[i]? = some iv.1)
        s.particles s1.particles := by
    intro s s1 w w1 h
    obtain ⟨w2, g1, g2⟩ := step_ok.1 h
    obtain ⟨evs, s2, hmv, e, -⟩ := core_ok g1
    have e2 : s1.particles = s2.particles := by
      rw [e]; exact (updateWorst_particles _).trans (updateBest_particles _)
    have hfirst := hmv.all.2
    rw [← e2] at hfirst
    refine hfirst.imp ?_
    rintro p p' ⟨t, evs1, -, -, -, -, -, ⟨mv⟩⟩ i iv hiv hn
    exact move_stuck hi h1 h2 h3 mv hiv hn
  induction k generalizing s w with
  | zero =>
    obtain ⟨u, -, s1, w1, k1, k2⟩ := turns_succ_ok.1 hr
    obtain ⟨rfl, rfl⟩ := M.pure_eq_ok.1 k2
    exact one k1
  | succ k ih =>
    obtain ⟨u, -, s1, w1, k1, k2⟩ := turns_succ_ok.1 hr
    have a := one k1
    have b := ih s1 w1 k2
    refine List.forall₂_iff_get.2 ⟨a.length_eq.trans b.length_eq, fun j hj1 hj2 i iv hiv hn => ?_⟩
    have hj3 : j < s1.particles.length := by rw [← a.length_eq]; exact hj1
    exact (List.forall₂_iff_get.1 b).2 j hj3 hj2 i iv hiv ((List.forall₂_iff_get.1 a).2 j hj1 hj3 i iv hiv hn).1

end Verif.Props.Swarm
