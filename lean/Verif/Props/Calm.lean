import Verif.Proofs.Calm
import Verif.Props.SwarmNorm
import Verif.Props.SwarmShape

/-!
# C106: when velocities stay finite, and what happens to a particle if they do not
-/

set_option linter.unusedSectionVars false

namespace Verif.Fl

variable {f : Fmt}

/-- A finite number divided by something other than zero and NaN is not NaN. -/
theorem isNan_div_of_finite {x y : Fl f} (hx : x.isFinite = true) (hy : y.isNan = false) (hy0 : y.toInt ≠ 0) : (x.div y).isNan = false := by
  have hz : y.isZero = false := by
    rw [← Bool.not_eq_true]; intro h; exact hy0 (toInt_eq_zero.2 (isZero_iff.1 h))
  unfold div
  simp only [isNan_of_isFinite hx, hy, isInf_of_isFinite hx, hz, Bool.or_false, Bool.false_eq_true, ↓reduceIte]
  split
  · rw [not_isNan_iff, idx_mk' _ (Nat.two_pow_pos _)]; omega
  · exact isNan_round ..

end Verif.Fl

namespace Verif.Props.Swarm

open Verif Spec Spec.Swarm PSO

variable {σ : Type} {f : Fmt}

/-- The library's velocity calculators and the largest velocity that they can compute for a velocity of at most `B` and places at most `W`
apart. -/
inductive TopSpeed (R : Rng σ) (B W : Fl f) : (PSO.Swarm (Fl f) → Particle (Fl f) → M σ (List (Fl f))) → Fl f → Prop
  | classic (phiP phiG : Fl f) : TopSpeed R B W (Velocity.classic R phiP phiG) (topClassic phiP phiG B W)
  | canonical (c : Velocity.Canonical (Fl f)) : TopSpeed R B W (Velocity.canonical R c) (topCanonical c B W)
  | negative (c : Velocity.NegReinf (Fl f)) : TopSpeed R B W (Velocity.negReinf R c) (topNegative c B W)
  | inertia (phiP phiG w : Fl f) (get : Nat → M σ (Fl f)) : (∀ i x, Returned (get i) x → Within w x) →
      TopSpeed R B W (Velocity.inertia R phiP phiG get) (topInertia w phiP phiG B W)

/-- The velocity correctors bring velocities of at most `V` with `n` components down to `B`: there is none and `V` is not above `B`, or
one of the library's, with limits not above `B`. -/
inductive Brakes (n : Nat) (V B : Fl f) : List (List (Fl f) → M σ (List (Fl f))) → Prop
  | none : V.le B = true → Brakes n V B []
  | dimensions (lims : List (Fl f)) : (∀ m ∈ lims, Within B m) → Brakes n V B [Hooks.maxVelocityDimensions lims]
  | abs (m : Fl f) : GoodLimit m → Few f n → speedLimit m n ≤ value B → (V.mul m).isFinite = true →
      Brakes n V B [Hooks.maxVelocityAbs m]

/-- A swarm in a box whose widths are at most `W`, starting with velocities of at most `B`; the library's calculator, fed with such
velocities, computes velocities of at most `V`, a finite number, and the correctors bring them down to `B` again. The goal, the initial
coordinates, the other post-move hooks, the stop checker and the loggers are arbitrary. -/
structure Calm (R : Rng σ) (ivs : List (Fl f × Fl f)) (B W V : Fl f) (c : Comps σ (Fl f)) : Prop where
  boundary : BoundaryLast ivs c
  start : ∀ vs, Returned c.velInit vs → ∀ v ∈ vs, ∀ x ∈ v, Within B x
  calculator : TopSpeed R B W c.velCalc V
  correctors : Brakes ivs.length V B c.postVel

theorem inBox_get {ivs : List (Fl f × Fl f)} {xs : List (Fl f)} (h : InBox ivs xs) {i : Nat} {x : Fl f} (hx : xs[i]? = some x)
    (hi : i < ivs.length) : InInterval ivs[i] x := by
  obtain ⟨hi2, rfl⟩ := List.getElem?_eq_some_iff.1 hx
  exact h.get hi hi2

/-- What the calculator may look at. -/
structure Sees (ivs : List (Fl f × Fl f)) (B : Fl f) (s : PSO.Swarm (Fl f)) : Prop where
  particles : ∀ p ∈ s.particles, InBox ivs p.coordinates ∧ InBox ivs p.bestCoords ∧ InBox ivs p.worstCoords ∧ ∀ x ∈ p.velocity, Within B x
  best : ∀ b, s.best = some b → InBox ivs b.coordinates
  worst : ∀ b, s.worst = some b → InBox ivs b.coordinates

theorem twoTerm_within {R : Rng σ} {form : Fl f → Fl f → Fl f → Fl f → Fl f → Fl f → Fl f} {ivs : List (Fl f × Fl f)} {B W V : Fl f}
    (hW : WideAtMost ivs W)
    (hform : ∀ rP rG v b g x iv, Fl.zero.le rP = true ∧ rP.le Fl.one = true → Fl.zero.le rG = true ∧ rG.le Fl.one = true → Within B v →
      InInterval iv b → InInterval iv g → InInterval iv x → Within W (iv.2.sub iv.1) → Within V (form rP rG v b g x))
    {p g : Particle (Fl f)} (hp : InBox ivs p.coordinates ∧ InBox ivs p.bestCoords ∧ InBox ivs p.worstCoords ∧ ∀ x ∈ p.velocity, Within B x)
    (hg : InBox ivs g.coordinates) {s s' : σ} {r : List (Fl f)} (h : TwoTerm R form p g s r s') :
    r.length = ivs.length ∧ ∀ x ∈ r, Within V x := by
  obtain ⟨hl, us, hd, -, hr⟩ := h
  have hlen : p.coordinates.length = ivs.length := hp.1.length_eq.symm
  refine ⟨by omega, fun x hx => ?_⟩
  obtain ⟨i, hi, rfl⟩ := List.getElem_of_mem hx
  obtain ⟨rP, rG, v, b, gb, x, f1, f2, e1, e2, e3, e4, e5⟩ := hr i hi
  rw [e5]
  have hi' : i < ivs.length := by omega
  exact hform _ _ _ _ _ _ ivs[i] (C45_factors R s s' us hd _ _ f1) (C45_factors R s s' us hd _ _ f2)
    (hp.2.2.2 v (List.mem_of_getElem? e1)) (inBox_get hp.2.1 e2 hi') (inBox_get hg e3 hi') (inBox_get hp.1 e4 hi')
    (hW.2 _ (List.getElem_mem hi'))

/-- C106: what the calculators compute is finite. -/
theorem C106_calculator {R : Rng σ} {ivs : List (Fl f × Fl f)} {B W V : Fl f} (hW : WideAtMost ivs W) (hV : V.isFinite = true)
    {velCalc : PSO.Swarm (Fl f) → Particle (Fl f) → M σ (List (Fl f))} (h : TopSpeed R B W velCalc V) {s : PSO.Swarm (Fl f)}
    (hs : Sees ivs B s) {p : Particle (Fl f)} (hp : p ∈ s.particles) {raw : List (Fl f)} (hr : Returned (velCalc s p) raw) :
    raw.length = ivs.length ∧ ∀ x ∈ raw, Within V x := by
  obtain ⟨t, t', hr⟩ := hr
  have hpp := hs.particles p hp
  cases h with
  | classic phiP phiG =>
    obtain ⟨g, hg, h⟩ := C45_classic R phiP phiG s p t t' raw hr
    exact twoTerm_within hW (fun _ _ _ _ _ _ _ h1 h2 h3 h4 h5 h6 h7 => classic_within h1 h2 h3 h4 h5 h6 h7 hV) hpp (hs.best g hg) h
  | canonical c =>
    obtain ⟨g, hg, h⟩ := C45_canonical R c s p t t' raw hr
    exact twoTerm_within hW (fun _ _ _ _ _ _ _ h1 h2 h3 h4 h5 h6 h7 => canonical_within h1 h2 h3 h4 h5 h6 h7 hV) hpp (hs.best g hg) h
  | inertia phiP phiG w get hw =>
    obtain ⟨g, x, t1, hg, hget, h⟩ := C45_inertia R phiP phiG get s p t t' raw hr
    exact twoTerm_within hW (fun _ _ _ _ _ _ _ h1 h2 h3 h4 h5 h6 h7 => inertia_within (hw _ _ ⟨_, _, hget⟩) h1 h2 h3 h4 h5 h6 h7 hV) hpp
      (hs.best g hg) h
  | negative c =>
    obtain ⟨bg, bc, wg, wc, k1, k2, k3, k4, hl, us, hd, -, hq⟩ := C45_negative R c s p t t' raw hr
    have hlen : p.coordinates.length = ivs.length := hpp.1.length_eq.symm
    refine ⟨by omega, fun y hy => ?_⟩
    obtain ⟨i, hi, rfl⟩ := List.getElem_of_mem hy
    obtain ⟨r1, r2, r3, r4, r5, r6, v, pb, cb, gb, pw, cw, gw, x, f1, f2, f3, f4, f5, f6, e1, e2, e3, e4, e5, e6, e7, e8, e9⟩ := hq i hi
    rw [e9]
    have hi' : i < ivs.length := by omega
    have fac := fun n r => C45_factors (f := f) R t t' us hd n r
    exact negative_within (fac _ _ f3) (fac _ _ f2) (fac _ _ f1) (fac _ _ f6) (fac _ _ f5) (fac _ _ f4)
      (hpp.2.2.2 v (List.mem_of_getElem? e1)) (inBox_get hpp.2.1 e2 hi')
      (inBox_get (hs.particles bc (findBest_spec.2 bc k2).1).1 e3 hi') (inBox_get (hs.best bg k1) e4 hi')
      (inBox_get hpp.2.2.1 e5 hi') (inBox_get (hs.particles wc (findWorst_spec.2 wc k4).1).1 e6 hi')
      (inBox_get (hs.worst wg k3) e7 hi') (inBox_get hpp.1 e8 hi') (hW.2 _ (List.getElem_mem hi')) hV

theorem value_le_iff {x y : Fl f} : value x ≤ value y ↔ x.toInt ≤ y.toInt := by
  unfold value
  rw [div_le_div_iff_of_pos_right Fl.D_posR]
  exact Int.cast_le

/-- C106: the correctors keep velocities finite and bring them down to `B`. -/
theorem C106_correctors {n : Nat} {B V : Fl f} (hB : B.isFinite = true)
    {postVel : List (List (Fl f) → M σ (List (Fl f)))} (h : Brakes n V B postVel) {raw v : List (Fl f)} (hn : raw.length = n)
    (hr : ∀ x ∈ raw, Within V x) (hv : Hooked postVel raw v) : ∀ x ∈ v, Within B x := by
  cases h with
  | none hl =>
    cases hv
    exact fun x hx => Fl.within_trans (hr x hx) hl
  | dimensions lims hm =>
    cases hv with
    | cons hk hn' =>
      cases hn'
      obtain ⟨s, s', hk⟩ := hk
      by_cases hl : raw.length = lims.length
      · obtain ⟨r, h1, h2, h3⟩ := (C43_hook lims raw s).2 hl
        rw [hk] at h1; cases h1
        intro x hx
        obtain ⟨i, hi, rfl⟩ := List.getElem_of_mem hx
        obtain ⟨-, h4, -⟩ := h3 i hi (by omega) (by omega)
        have hlim := hm _ (List.getElem_mem (show i < lims.length by omega))
        have h5 := (h4 (Fl.isNan_of_isFinite (hr _ (List.getElem_mem _)).1) (Fl.isNan_of_isFinite hlim.1)).1
        obtain ⟨g1, g2, g3⟩ := Fl.le_iff.1 h5
        rw [Fl.toInt_abs, Fl.toInt_abs] at g3
        obtain ⟨q1, q2, q3⟩ := Fl.within_iff.1 hlim
        have q4 := Fl.isFinite_iff_toInt.1 hlim.1
        refine Fl.within_iff.2 ⟨Fl.isFinite_iff_toInt.2 (by omega), q2, by omega⟩
      · rw [(C43_hook lims raw s).1 hl] at hk; cases hk
  | abs m hm hf hl hmul =>
    cases hv with
    | cons hk hn' =>
      cases hn'
      obtain ⟨s, s', hk⟩ := hk
      obtain ⟨r', e1, e0, e2, e3⟩ := C44_total m raw s
      rw [hk] at e1; cases e1
      have hnn : ∀ x ∈ raw, x.isNan = false := fun x hx => Fl.isNan_of_isFinite (hr x hx).1
      have hnum := velocityAbs_number hnn
      have hno : ∀ x ∈ v, x.isNan = false := by
        cases hlt : m.lt (Hooks.velocityAbs raw) with
        | false => rw [e2 hlt]; exact hnn
        | true =>
          rw [e3 hlt]
          intro y hy
          obtain ⟨x, hx, rfl⟩ := List.mem_map.1 hy
          obtain ⟨g1, g2, g3⟩ := Fl.lt_iff.1 hlt
          have hm0 : 0 ≤ m.toInt := by have := Fl.le_iff.1 hm.nonneg; simpa using this.2.2
          have hb := Fl.within_mul (hr x hx) (Fl.within_iff.2 ⟨hm.finite, g1, show (m.toInt.natAbs : Int) ≤ m.toInt by omega⟩) hmul
          exact Fl.isNan_div_of_finite hb.1 g2 (by omega)
      rcases slow_of_hook hm hk (by rw [e0, hn]; exact hf) with ⟨x, hx, hxn⟩ | ⟨hfin, hlen⟩
      · rw [hno x hx] at hxn; cases hxn
      intro x hx
      have h1 : |value x| ≤ length₂ (v.map value) := le_length₂ (g := value) hx
      rw [e0, hn] at hlen
      have h2 := h1.trans (hlen.trans hl)
      refine Fl.within_iff.2 ⟨hfin x hx, Fl.isNan_of_isFinite hB, ?_⟩
      unfold value at h2
      rw [abs_div, abs_of_pos Fl.D_posR, div_le_div_iff_of_pos_right Fl.D_posR] at h2
      have h3 : |x.toInt| ≤ B.toInt := by exact_mod_cast h2
      rw [Int.abs_eq_natAbs] at h3
      omega

/-! ## The whole run -/

/-- What the events of a calm run show: `Y` is what holds of the positions before the post-move hooks. -/
def CalmEv (B V : Fl f) (Y : List (Fl f) → Prop) : Ev (List (Fl f)) → Prop
  | .velocity raw v => (∀ x ∈ raw, Within V x) ∧ ∀ x ∈ v, Within B x
  | .moved y _ => Y y
  | _ => True

theorem sees_move {R : Rng σ} {ivs : List (Fl f × Fl f)} {B W V : Fl f} {c : Comps σ (Fl f)} (hi : FiniteIncreasing ivs)
    (hB : B.isFinite = true) (hV : V.isFinite = true) (hW : WideAtMost ivs W) (hc : Calm R ivs B W V c)
    {s : PSO.Swarm (Fl f)} (hs : Sees ivs B s) {p p' : Particle (Fl f)} (hp : p ∈ s.particles) {evs : List (Ev (List (Fl f)))}
    (m : Move c s p evs p') :
    ((∀ x ∈ m.raw, Within V x) ∧ InBox ivs p.coordinates) ∧
    InBox ivs p'.coordinates ∧ InBox ivs p'.bestCoords ∧ InBox ivs p'.worstCoords ∧ ∀ x ∈ p'.velocity, Within B x := by
  obtain ⟨h1, h2⟩ := C106_calculator hW hV hc.calculator hs hp m.velocity_ok
  have h3 := C106_correctors hB hc.correctors h1 h2 m.corrected
  have h4 := boundary_into ivs hi c hc.boundary _ _ m.moved
  obtain ⟨k1, k2, k3, -⟩ := hs.particles p hp
  refine ⟨⟨h2, k1⟩, h4, ?_, ?_, h3⟩
  · have := congrArg Prod.fst m.best_ok
    simp only at this
    rw [this]; split
    · exact h4
    · exact k2
  · have := congrArg Prod.fst m.worst_ok
    simp only at this
    rw [this]; split
    · exact h4
    · exact k3

theorem sees_moves {R : Rng σ} {ivs : List (Fl f × Fl f)} {B W V : Fl f} {Y : List (Fl f) → Prop} {c : Comps σ (Fl f)}
    (hi : FiniteIncreasing ivs) (hB : B.isFinite = true) (hV : V.isFinite = true) (hW : WideAtMost ivs W) (hc : Calm R ivs B W V c)
    (hY : ∀ x v, InBox ivs x → (∀ y ∈ v, Within B y) → Y (List.zipWith Fl.add x v)) {ns : List Nat}
    {s s' : PSO.Swarm (Fl f)} {evs : List (Ev (List (Fl f)))} (h : Moves c ns s evs s') (hs : Sees ivs B s) :
    Sees ivs B s' ∧ ∀ e ∈ evs, CalmEv B V Y e := by
  induction h with
  | nil => exact ⟨hs, by simp⟩
  | cons hn hm _ ih =>
    obtain ⟨m⟩ := hm
    obtain ⟨⟨h1, h2⟩, h3⟩ := sees_move hi hB hV hW hc hs (List.mem_of_getElem? hn) m
    obtain ⟨i1, i2⟩ := ih ⟨fun q hq => by
      rcases List.mem_or_eq_of_mem_set hq with hq | rfl
      · exact hs.particles q hq
      · exact h3, hs.best, hs.worst⟩
    refine ⟨i1, fun e he => ?_⟩
    rcases List.mem_append.1 he with he | he
    · rw [m.events_ok] at he
      simp only [List.mem_cons, List.not_mem_nil, or_false] at he
      rcases he with rfl | rfl | rfl
      · exact ⟨h1, h3.2.2.2⟩
      · exact hY _ _ h2 h3.2.2.2
      · trivial
    · exact i2 e he

theorem sees_update {ivs : List (Fl f × Fl f)} {B : Fl f} {s : PSO.Swarm (Fl f)} (hs : Sees ivs B s) :
    Sees ivs B s.updateBest.updateWorst.nextIteration := by
  have h1 : Sees ivs B s.updateBest := by
    unfold PSO.Swarm.updateBest
    split
    · exact hs
    · rename_i nb hnb
      have hnew : InBox ivs nb.coordinates := (hs.particles nb (findBest_spec.2 nb hnb).1).1
      split
      · exact ⟨hs.particles, fun b hb => by cases hb; exact hnew, hs.worst⟩
      · split
        · exact ⟨hs.particles, fun b hb => by cases hb; exact hnew, hs.worst⟩
        · exact hs
  have h2 : Sees ivs B s.updateBest.updateWorst := by
    generalize s.updateBest = s at h1
    unfold PSO.Swarm.updateWorst
    split
    · exact h1
    · rename_i nb hnb
      have hnew : InBox ivs nb.coordinates := (h1.particles nb (findWorst_spec.2 nb hnb).1).1
      split
      · exact ⟨h1.particles, h1.best, fun b hb => by cases hb; exact hnew⟩
      · split
        · exact ⟨h1.particles, h1.best, fun b hb => by cases hb; exact hnew⟩
        · exact h1
  exact ⟨h2.particles, h2.best, h2.worst⟩

theorem inv_calm {R : Rng σ} {ivs : List (Fl f × Fl f)} {B W V : Fl f} {Y : List (Fl f) → Prop}
    (hi : FiniteIncreasing ivs) (hB : B.isFinite = true) (hV : V.isFinite = true) (hW : WideAtMost ivs W)
    (hY : ∀ x v, InBox ivs x → (∀ y ∈ v, Within B y) → Y (List.zipWith Fl.add x v)) :
    Inv (σ := σ) (fun c => Calm R ivs B W V c ∧ ∀ xs, Returned c.coordInit xs → ∀ x ∈ xs, Y x)
      (fun s tr => Sees ivs B s ∧ ∀ e ∈ tr, CalmEv B V Y e) where
  log := by
    intro p tr i k h
    refine ⟨h.1, fun e he => ?_⟩
    rcases List.mem_append.1 he with he | he
    · exact h.2 e he
    · rw [List.mem_singleton] at he; subst he; trivial
  check := by
    intro p tr b h
    refine ⟨h.1, fun e he => ?_⟩
    rcases List.mem_append.1 he with he | he
    · exact h.2 e he
    · rw [List.mem_singleton] at he; subst he; trivial
  begin := by
    rintro c p p' w w' hc h hr
    obtain ⟨raws, xs, vs, ps, hraws, hvs, hl, hxs, hps, rfl, ht⟩ := begin_ok hr
    have hxb : ∀ x ∈ xs, InBox ivs x := by
      intro x hx
      obtain ⟨n, hn, rfl⟩ := List.getElem_of_mem hx
      exact boundary_into ivs hi c hc.1.boundary _ _ ((List.forall₂_iff_get.1 hxs).2 n (by rw [hxs.length_eq]; exact hn) hn)
    have hpp : ∀ q ∈ ps, InBox ivs q.coordinates ∧ InBox ivs q.bestCoords ∧ InBox ivs q.worstCoords ∧ ∀ x ∈ q.velocity, Within B x := by
      intro q hq
      obtain ⟨n, hn, rfl⟩ := List.getElem_of_mem hq
      have hn' : n < (xs.zip vs).length := by rw [hps.length_eq]; exact hn
      have := (List.forall₂_iff_get.1 hps).2 n hn' hn
      simp only [List.get_eq_getElem] at this
      rw [this.2]
      obtain ⟨m1, m2⟩ := List.of_mem_zip (List.getElem_mem hn')
      exact ⟨hxb _ m1, hxb _ m1, hxb _ m1, hc.1.start _ hvs _ m2⟩
    refine ⟨⟨hpp, fun b hb => (hpp b (findBest_spec.2 b hb).1).1, fun b hb => (hpp b (findWorst_spec.2 b hb).1).1⟩, fun e he => ?_⟩
    rw [ht, List.cons_append, List.mem_append, List.mem_cons, List.mem_append, List.mem_map] at he
    rcases he with he | rfl | he | ⟨p, hp, rfl⟩
    · exact h.2 e he
    · trivial
    · obtain ⟨a, b, ha, hb, rfl⟩ := mem_zipWith he
      exact hc.2 _ hraws a ha
    · trivial
  core := by
    rintro c p p' w w' hc h hr
    obtain ⟨evs, s1, hmv, rfl, ht⟩ := core_ok hr
    obtain ⟨k1, k2⟩ := sees_moves hi hB hV hW hc.1 hY hmv h.1
    refine ⟨sees_update k1, fun e he => ?_⟩
    rw [ht, List.mem_append, List.mem_append, List.mem_singleton] at he
    rcases he with he | he | rfl
    · exact h.2 e he
    · exact k2 e he
    · trivial

/-- C106: throughout any history of a calm swarm every velocity that is computed is finite and at most `V`, and every velocity that a
particle has is finite and at most `B`. -/
theorem C106_finite (R : Rng σ) (ivs : List (Fl f × Fl f)) (B W V : Fl f) (o o' : Opt σ (Fl f)) (w w' : World σ (List (Fl f)))
    (ks : List (Call σ (Fl f))) (pt : Point) (hi : FiniteIncreasing ivs) (hB : B.isFinite = true) (hV : V.isFinite = true)
    (hW : WideAtMost ivs W) (h0 : Fresh o w) (hc : Always (Calm R ivs B W V) o.comps ks) (hr : runTo o ks pt w = .ok (o', w')) :
    (∀ p ∈ o'.swarm.particles, ∀ x ∈ p.velocity, Within B x) ∧
    ∀ raw v, .velocity raw v ∈ w'.trace → (∀ x ∈ raw, Within V x) ∧ ∀ x ∈ v, Within B x := by
  obtain ⟨h1, h2⟩ := ((inv_calm (R := R) (Y := fun _ => True) hi hB hV hW (fun _ _ _ _ => trivial)).runTo
    (always_imp (fun c hc => ⟨hc, fun _ _ _ _ => trivial⟩) hc) hr (by
      obtain ⟨h3, h4⟩ := h0
      rw [h3, h4]; exact ⟨⟨by simp, by simp, by simp⟩, by simp⟩)).1
  exact ⟨fun p hp => (h1.particles p hp).2.2.2, fun raw v hv => h2 _ hv⟩

/-- C106: if moreover no place of the box is farther than `X` from zero, `X + B` does not overflow and the initial coordinates are within
`X + B`, then all positions are finite before the post-move hooks see them: MoveToBoundary never meets NaN or an infinity. -/
theorem C106_moved (R : Rng σ) (ivs : List (Fl f × Fl f)) (B W V X : Fl f) (o o' : Opt σ (Fl f)) (w w' : World σ (List (Fl f)))
    (ks : List (Call σ (Fl f))) (pt : Point) (hi : FiniteIncreasing ivs) (hB : B.isFinite = true) (hV : V.isFinite = true)
    (hW : WideAtMost ivs W) (hX : ∀ iv ∈ ivs, Within X iv.1 ∧ Within X iv.2) (hXB : (X.add B).isFinite = true) (h0 : Fresh o w)
    (hc : Always (fun c => Calm R ivs B W V c ∧ ∀ xs, Returned c.coordInit xs → ∀ x ∈ xs, ∀ y ∈ x, Within (X.add B) y) o.comps ks)
    (hr : runTo o ks pt w = .ok (o', w')) :
    ∀ y x, .moved y x ∈ w'.trace → ∀ a ∈ y, Within (X.add B) a := by
  obtain ⟨h1, h2⟩ := ((inv_calm (R := R) (Y := fun y => ∀ a ∈ y, Within (X.add B) a) hi hB hV hW (by
      intro x v hx hv a ha
      obtain ⟨b, u, hb, hu, rfl⟩ := mem_zipWith ha
      refine Fl.within_add ?_ (hv u hu) hXB
      obtain ⟨i, hi', rfl⟩ := List.getElem_of_mem hb
      have hl := hx.length_eq
      obtain ⟨g1, g2, g3⟩ := hx.get (show i < ivs.length by omega) hi'
      obtain ⟨k1, k2⟩ := hX _ (List.getElem_mem (show i < ivs.length by omega))
      have k1 := Fl.within_iff.1 k1
      have k2 := Fl.within_iff.1 k2
      simp only [List.get_eq_getElem] at g1 g2 g3
      have g2 := (Fl.le_iff.1 g2).2.2
      have g3 := (Fl.le_iff.1 g3).2.2
      exact Fl.within_iff.2 ⟨g1, k1.2.1, by omega⟩)).runTo hc hr (by
      obtain ⟨h3, h4⟩ := h0
      rw [h3, h4]; exact ⟨⟨by simp, by simp, by simp⟩, by simp⟩)).1
  exact fun y x hv => h2 _ hv

end Verif.Props.Swarm
