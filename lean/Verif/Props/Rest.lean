import Verif.Proofs.Rest
import Verif.Props.Hooks
import Verif.Props.SwarmRun
import Verif.Props.SwarmBox
import Verif.Props.SwarmDemo

/-!
# C97: what no particle is pulled along stays as it is
-/

namespace Verif.Props

open Verif Spec Spec.Swarm PSO

variable {σ : Type} {f : Fmt}

/-- C97: if coordinate `i` of all particles is equal to `c` when the swarm is created, and no particle has a velocity in this direction,
then at every point of this run coordinate `i` of every particle, of its own best and worst position, of the best and worst of the swarm
and of every argument of the goal is equal to `c`, and no particle has a velocity in this direction. -/
theorem C97_coordinate (i : Nat) (c : Fl f) (hc : c.isFinite = true) (o o' : Opt σ (Fl f)) (w w' : World σ (List (Fl f)))
    (ks : List (Call σ (Fl f))) (pt : Point) (h0 : Fresh o w) (hk : Always (Restful i c) o.comps ks)
    (hr : runTo o ks pt w = .ok (o', w')) (hstart : ∀ x ∈ lastCreated w'.trace, At i c x) :
    (∀ p, p ∈ o'.swarm.particles ∨ o'.swarm.best = some p ∨ o'.swarm.worst = some p →
      At i c p.coordinates ∧ At i Fl.zero p.velocity ∧ At i c p.bestCoords ∧ At i c p.worstCoords) ∧
    ∀ a ∈ goalsSince w'.trace, At i c a.1 := by
  have h := ((inv_calm i hc).runTo hk hr (by
    rw [h0.1, h0.2]
    exact fun _ => ⟨⟨by simp, by simp, by simp⟩, by simp [goalsSince]⟩)).1
  obtain ⟨h1, h2⟩ := h hstart
  refine ⟨?_, h2⟩
  have key : ∀ p, Still i c p → At i c p.coordinates ∧ At i Fl.zero p.velocity ∧ At i c p.bestCoords ∧ At i c p.worstCoords :=
    fun p hp => ⟨hp.1, hp.2, hp.3, hp.4⟩
  rintro p (hp | hp | hp)
  · exact key p (h1.particles p hp)
  · exact key p (h1.best p hp)
  · exact key p (h1.worst p hp)

/-- C97: if all particles are created in the same place without velocity, above all if there is only one particle, the goal is never called
in another place. -/
theorem C97_together (x0 : List (Fl f)) (hx0 : ∀ g ∈ x0, g.isFinite = true) (o o' : Opt σ (Fl f)) (w w' : World σ (List (Fl f)))
    (ks : List (Call σ (Fl f))) (pt : Point) (h0 : Fresh o w)
    (hk : Always (fun k => ∀ i g, x0[i]? = some g → Restful i g k) o.comps ks)
    (hr : runTo o ks pt w = .ok (o', w')) (hstart : ∀ x ∈ lastCreated w'.trace, x = x0) (i : Nat) (g : Fl f) (hg : x0[i]? = some g) :
    (∀ p ∈ o'.swarm.particles, At i g p.coordinates ∧ At i Fl.zero p.velocity) ∧ ∀ a ∈ goalsSince w'.trace, At i g a.1 := by
  have hf := hx0 g (List.mem_of_getElem? hg)
  obtain ⟨h1, h2⟩ := C97_coordinate i g hf o o' w w' ks pt h0 (Props.Swarm.always_imp (fun k h => h i g hg) hk) hr (by
    intro x hx
    rw [hstart x hx]
    exact ⟨g, hg, feq_iff.2 ⟨Fl.isNan_of_isFinite hf, Fl.isNan_of_isFinite hf, rfl⟩⟩)
  exact ⟨fun p hp => ⟨(h1 p (.inl hp)).1, (h1 p (.inl hp)).2.1⟩, h2⟩

/-! ## The components of the library -/

/-- C97: ZeroVelocityInitializer makes velocities of 0. -/
theorem C97_zero_velocity (dimension count i : Nat) (hi : i < dimension) (vs : List (List (Fl f)))
    (h : Returned (Creation.zeroInit dimension count : M σ (List (List (Fl f)))) vs) : ∀ v ∈ vs, At i Fl.zero v := by
  obtain ⟨s, s', h⟩ := h
  unfold Creation.zeroInit at h
  have key : ∀ (n : Nat) (vs : List (List (Fl f))) (s s' : σ),
      M.replicate n (pure (List.replicate dimension FloatT.zero) : M σ (List (Fl f))) s = .ok (vs, s') →
      ∀ v ∈ vs, v = List.replicate dimension FloatT.zero := by
    intro n
    induction n with
    | zero =>
      intro vs s s' h
      cases h
      simp
    | succ n ih =>
      intro vs s s' h
      unfold M.replicate at h
      obtain ⟨a, s1, h1, h⟩ := M.bind_eq_ok.1 h
      obtain ⟨rfl, rfl⟩ := M.pure_eq_ok.1 h1
      obtain ⟨as, s2, h2, h⟩ := M.bind_eq_ok.1 h
      obtain ⟨rfl, rfl⟩ := M.pure_eq_ok.1 h
      intro v hv
      rcases List.mem_cons.1 hv with rfl | hv
      · rfl
      · exact ih _ _ _ h2 v hv
  intro v hv
  rw [key count vs s s' h v hv]
  exact ⟨Fl.zero, by rw [List.getElem?_replicate, if_pos hi]; rfl, zr_iff.1 ⟨Fl.isFinite_zero, Fl.toInt_zero⟩⟩

/-- C97: MaxVelocityDimensions keeps a velocity of 0 unless the limit is negative or NaN. -/
theorem C97_maxVelocityDimensions (vMax : List (Fl f)) (i : Nat) (hm : ∀ m, vMax[i]? = some m → Fl.zero.le m = true)
    (v v' : List (Fl f)) (hv : At i Fl.zero v) (h : Returned (Hooks.maxVelocityDimensions vMax v : M σ (List (Fl f))) v') :
    At i Fl.zero v' := by
  obtain ⟨s, s', h⟩ := h
  unfold Hooks.maxVelocityDimensions at h
  obtain ⟨u, s1, h1, h⟩ := M.bind_eq_ok.1 h
  obtain ⟨hl, rfl⟩ := M.assert_eq_ok.1 h1
  cases h
  obtain ⟨g, hg, hz⟩ := hv
  have hi : i < vMax.length := by
    have := (List.getElem?_eq_some_iff.1 hg).1
    have : v.length = vMax.length := by simpa using hl
    omega
  have hmi := hm _ (List.getElem?_eq_getElem hi)
  refine ⟨g, ?_, hz⟩
  rw [List.getElem?_zipWith, hg, List.getElem?_eq_getElem hi]
  have : (FloatT.le (FloatT.abs g) vMax[i]) = true := by
    show Fl.le g.abs vMax[i] = true
    have z := zr_iff.2 hz
    rw [Fl.le_iff] at hmi ⊢
    refine ⟨by rw [Fl.isNan_abs]; exact Fl.isNan_of_isFinite z.1, hmi.2.1, ?_⟩
    rw [Fl.toInt_abs, z.2]
    simpa [Fl.toInt_zero] using hmi.2.2
  simp only [Hooks.limitDim, this, if_true]

/-- C97: a negative limit sets a particle at rest in motion. -/
theorem C97_negative_limit : ∃ m : F64, m.lt Fl.zero = true ∧ Hooks.limitDim (Fl.zero : F64) m = Fl.one :=
  ⟨Fl.one.neg, by decide +kernel, by decide +kernel⟩

/-- C97: MaxVelocityAbs keeps a velocity of 0 unless the limit is negative. -/
theorem C97_maxVelocityAbs (vMax : Fl f) (i : Nat) (hm : Fl.zero.le vMax = true)
    (v v' : List (Fl f)) (hv : At i Fl.zero v) (h : Returned (Hooks.maxVelocityAbs vMax v : M σ (List (Fl f))) v') :
    At i Fl.zero v' := by
  obtain ⟨s, s', h⟩ := h
  unfold Hooks.maxVelocityAbs at h
  split at h
  · rename_i hlt
    cases h
    obtain ⟨g, hg, hz⟩ := hv
    refine ⟨FloatT.div (FloatT.mul g vMax) (Hooks.velocityAbs v), by rw [List.getElem?_map, hg]; rfl, ?_⟩
    generalize Hooks.velocityAbs v = n at hlt
    have hlt' : vMax.lt n = true := hlt
    have z := zr_iff.2 hz
    rw [Fl.lt_iff] at hlt'
    rw [Fl.le_iff, Fl.toInt_zero] at hm
    have fm : vMax.isFinite = true := by
      rw [Fl.isFinite_iff_toInt]
      have := Fl.toInt_abs n
      have hn : n.toInt.natAbs ≤ f.mag f.infIdx := by
        rw [Fl.natAbs_toInt]; exact f.mag_le_mag.2 (Fl.not_isNan_iff.1 hlt'.2.1)
      omega
    have zm : Zr (g.mul vMax) := zr_of_rounds (by rw [z.2]; simp) (Fl.mul_rounds z.1 fm)
    rw [← zr_iff]
    show Zr ((g.mul vMax).div n)
    by_cases hf : n.isFinite = true
    · exact zr_of_rounds (by rw [zm.2]; simp) (Fl.div_rounds zm.1 hf (by omega))
    · have hi : n.isInf = true := by
        rw [Fl.isInf_iff]
        have h1 := Fl.not_isNan_iff.1 hlt'.2.1
        have h2 := Fl.not_isFinite_iff.1 (by simpa using hf)
        omega
      rcases Fl.div_inf (g.mul vMax) n hi with h | h
      · exfalso
        unfold Fl.div at h
        simp only [Fl.isNan_of_isFinite zm.1, hlt'.2.1, Bool.or_self, Bool.false_eq_true, if_false, Fl.isInf_of_isFinite zm.1, hi, if_true] at h
        rw [Fl.isNan_iff, Fl.idx_mk' _ (by positivity)] at h
        omega
      · have : ((g.mul vMax).div n).toInt = 0 := Fl.toInt_eq_zero.2 (by simpa [Fl.isZero] using h)
        refine ⟨?_, this⟩
        rw [Fl.isFinite_iff_toInt, this]
        have := Fl.isFinite_iff_toInt.1 (Fl.isFinite_zero (f := f))
        rwa [Fl.toInt_zero] at this
  · cases h
    exact hv

/-- C97: MoveToBoundary keeps a coordinate that lies in its interval. -/
theorem C97_moveToBoundary (ivs : List (Fl f × Fl f)) (i : Nat) (c : Fl f) (hc : c.isFinite = true)
    (hm : ∀ iv, ivs[i]? = some iv → iv.1.le c = true ∧ c.le iv.2 = true)
    (x x' : List (Fl f)) (hx : At i c x) (h : Returned (Hooks.moveToBoundary ivs x : M σ (List (Fl f))) x') : At i c x' := by
  obtain ⟨s, s', h⟩ := h
  unfold Hooks.moveToBoundary at h
  obtain ⟨u, s1, h1, h⟩ := M.bind_eq_ok.1 h
  obtain ⟨hl, rfl⟩ := M.assert_eq_ok.1 h1
  cases h
  obtain ⟨g, hg, hz⟩ := hx
  have hi : i < ivs.length := by
    have := (List.getElem?_eq_some_iff.1 hg).1
    have : x.length = ivs.length := by simpa using hl
    omega
  obtain ⟨l, u⟩ := hm _ (List.getElem?_eq_getElem hi)
  refine ⟨g, ?_, hz⟩
  rw [List.getElem?_zipWith, hg, List.getElem?_eq_getElem hi]
  have fg := feq_finite hz hc
  have e := (feq_iff.1 hz).2.2
  have a1 : (FloatT.isFinite g) = true := fg
  have a2 : (FloatT.lt g ivs[i].1) = false := by
    show Fl.lt g ivs[i].1 = false
    rw [Bool.eq_false_iff]
    intro hlt
    have := (Fl.lt_iff.1 hlt).2.2
    have := (Fl.le_iff.1 l).2.2
    omega
  have a3 : (FloatT.lt ivs[i].2 g) = false := by
    show Fl.lt ivs[i].2 g = false
    rw [Bool.eq_false_iff]
    intro hlt
    have := (Fl.lt_iff.1 hlt).2.2
    have := (Fl.le_iff.1 u).2.2
    omega
  simp [Hooks.clampCoord, a1, a2, a3]

/-! ## The hypotheses are met -/

/-- One particle in two dimensions, NegativeReinforcement, both velocity limits and MoveToBoundary. -/
def lonely : Opt (List Nat) F64 :=
  let o := PSO.new (fun x => pure (TestFunc.paraboloid x)) (Stop.maxIterations 2)
    (pure [[Fl.ofNat 3, Fl.ofNat 7]]) (Creation.zeroInit 2 1)
    (Velocity.negReinf Rng.script ⟨Fl.one, Fl.ofNat 2, Fl.one, Fl.one, Fl.ofNat 3, Fl.one, Fl.ofRat false 1 2⟩)
  { o with comps := { o.comps with
      postVel := [Hooks.maxVelocityDimensions [Fl.ofNat 4, Fl.ofNat 4], Hooks.maxVelocityAbs (Fl.ofNat 4)]
      postMove := [Hooks.moveToBoundary [(Fl.zero, Fl.ofNat 10), (Fl.zero, Fl.ofNat 10)]] } }

theorem lonely_restful : ∀ i g, [(Fl.ofNat 3 : F64), Fl.ofNat 7][i]? = some g → Restful i g lonely.comps := by
  intro i g hg
  have hi : i < 2 := (List.getElem?_eq_some_iff.1 hg).1
  have hv : lonely.comps.velCalc = Velocity.negReinf Rng.script ⟨Fl.one, Fl.ofNat 2, Fl.one, Fl.one, Fl.ofNat 3, Fl.one, Fl.ofRat false 1 2⟩ := rfl
  have h1 : lonely.comps.velInit = Creation.zeroInit 2 1 := rfl
  have h2 : lonely.comps.postVel = [Hooks.maxVelocityDimensions [Fl.ofNat 4, Fl.ofNat 4], Hooks.maxVelocityAbs (Fl.ofNat 4)] := rfl
  have h3 : lonely.comps.postMove = [Hooks.moveToBoundary [(Fl.zero, Fl.ofNat 10), (Fl.zero, Fl.ofNat 10)]] := rfl
  generalize lonely.comps = k at *
  have box : ∀ g ∈ [(Fl.ofNat 3 : F64), Fl.ofNat 7], g.isFinite = true ∧ (Fl.zero : F64).le g = true ∧ g.le (Fl.ofNat 10) = true := by
    decide +kernel
  obtain ⟨b1, b2, b3⟩ := box g (List.mem_of_getElem? hg)
  refine ⟨?_, ?_, ?_, ?_⟩
  · rw [hv]
    exact .negative _ (by decide +kernel) (by decide +kernel) (by decide +kernel) (by decide +kernel) (by decide +kernel)
      (by decide +kernel) (by decide +kernel)
  · rw [h1]
    exact fun vs hvs => C97_zero_velocity 2 1 i hi vs hvs
  · rw [h2]
    have z : (Fl.zero : F64).le (Fl.ofNat 4) = true := by decide +kernel
    intro h hh
    rcases List.mem_cons.1 hh with rfl | hh
    · refine C97_maxVelocityDimensions _ i ?_
      intro m hm
      have := List.mem_of_getElem? hm
      simp only [List.mem_cons, List.not_mem_nil, or_false, or_self] at this
      rw [this]; exact z
    · rw [List.mem_singleton.1 hh]
      exact C97_maxVelocityAbs _ i z
  · rw [h3]
    intro h hh
    rw [List.mem_singleton.1 hh]
    refine C97_moveToBoundary _ i g b1 ?_
    intro iv hiv
    have := List.mem_of_getElem? hiv
    simp only [List.mem_cons, List.not_mem_nil, or_false, or_self] at this
    rw [this]; exact ⟨b2, b3⟩

/-- It runs for two iterations. -/
example : Fresh lonely SwarmDemo.world ∧ M.okAnd (runTo lonely [.findMin 3] .done SwarmDemo.world) (fun o w =>
    o.swarm.iteration == 2 && (goalsSince w.trace).length == 3 && lastCreated w.trace == [[Fl.ofNat 3, Fl.ofNat 7]]) = true :=
  ⟨⟨rfl, rfl⟩, by decide +kernel⟩

end Verif.Props
