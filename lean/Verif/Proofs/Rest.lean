import Verif.Spec.Rest
import Verif.Proofs.SwarmInv
import Verif.Proofs.Recombine
import Verif.Props.Velocity

/-!
# A coordinate in which all particles agree
-/

namespace Verif.PSO

open Verif Spec Spec.Swarm Props

variable {σ : Type} {f : Fmt}

/-- A zero of either sign. -/
def Zr (z : Fl f) : Prop := z.isFinite = true ∧ z.toInt = 0

theorem feq_iff {x y : Fl f} : x.feq y = true ↔ x.isNan = false ∧ y.isNan = false ∧ x.toInt = y.toInt := by
  unfold Fl.feq
  simp [and_assoc]

theorem feq_finite {x y : Fl f} (h : x.feq y = true) (hy : y.isFinite = true) : x.isFinite = true := by
  rw [Fl.isFinite_iff_toInt] at *
  rw [(feq_iff.1 h).2.2]; exact hy

theorem zr_iff {z : Fl f} : Zr z ↔ z.feq Fl.zero = true := by
  rw [feq_iff, Fl.toInt_zero]
  constructor
  · rintro ⟨h1, h2⟩; exact ⟨Fl.isNan_of_isFinite h1, Fl.isNan_zero, h2⟩
  · rintro ⟨h1, h2, h3⟩
    refine ⟨?_, h3⟩
    rw [Fl.isFinite_iff_toInt, h3]
    have := Fl.isFinite_iff_toInt.1 (Fl.isFinite_zero (f := f))
    rwa [Fl.toInt_zero] at this

theorem zr_of_rounds {q : ℝ} {r : Fl f} (hq : q = 0) (h : Fl.Rounds q r) : Zr r := by
  rw [zr_iff, feq_iff]
  refine ⟨h.1, Fl.isNan_zero, ?_⟩
  have : Fl.Rounds (((Fl.zero : Fl f).toInt : ℝ)) r := by rw [Fl.toInt_zero]; simpa [hq] using h
  exact Fl.Rounds.exact Fl.isNan_zero this

theorem Zr.mul {a z : Fl f} (ha : a.isFinite = true) (hz : Zr z) : Zr (a.mul z) :=
  zr_of_rounds (by rw [hz.2]; simp) (Fl.mul_rounds ha hz.1)

theorem Zr.add {a b : Fl f} (ha : Zr a) (hb : Zr b) : Zr (a.add b) :=
  zr_of_rounds (by rw [ha.2, hb.2]; simp) (Fl.add_rounds ha.1 hb.1)

theorem Zr.sub {a b : Fl f} (ha : Zr a) (hb : Zr b) : Zr (a.sub b) :=
  zr_of_rounds (by rw [ha.2, hb.2]; simp) (Fl.sub_rounds ha.1 hb.1)

theorem zr_diff {c x y : Fl f} (hc : c.isFinite = true) (hx : x.feq c = true) (hy : y.feq c = true) : Zr (x.sub y) :=
  zr_of_rounds (by rw [(feq_iff.1 hx).2.2, (feq_iff.1 hy).2.2]; simp)
    (Fl.sub_rounds (feq_finite hx hc) (feq_finite hy hc))

theorem feq_add {c x v : Fl f} (hc : c.isFinite = true) (hx : x.feq c = true) (hv : Zr v) : (x.add v).feq c = true := by
  have r := Fl.add_rounds (feq_finite hx hc) hv.1
  rw [hv.2, (feq_iff.1 hx).2.2, Int.cast_zero, add_zero] at r
  exact feq_iff.2 ⟨r.1, Fl.isNan_of_isFinite hc, Fl.Rounds.exact (Fl.isNan_of_isFinite hc) r⟩

theorem mul_unit_finite {phi r : Fl f} (hp : phi.isFinite = true) (h0 : Fl.zero.le r = true) (h1 : r.le Fl.one = true) :
    (phi.mul r).isFinite = true := by
  have hr := Fl.isFinite_of_between Fl.isFinite_zero Fl.isFinite_one h0 h1
  have hm := Fl.mul_rounds hp hr
  have hD : (0 : ℝ) < f.D := by exact_mod_cast f.D_pos
  have e0 : (0 : ℝ) ≤ r.toInt := by have := (Fl.le_iff.1 h0).2.2; rw [Fl.toInt_zero] at this; exact_mod_cast this
  have e1 : (r.toInt : ℝ) ≤ f.D := by have := (Fl.le_iff.1 h1).2.2; rw [Fl.toInt_one] at this; exact_mod_cast this
  have hpn := Fl.isNan_of_isFinite hp
  have k1 : Fl.Rounds (phi.toInt : ℝ) phi := ⟨hpn, (Fl.rnd_toInt hpn).symm⟩
  have k2 : Fl.Rounds ((Fl.zero : Fl f).toInt : ℝ) Fl.zero := ⟨Fl.isNan_zero, (Fl.rnd_toInt Fl.isNan_zero).symm⟩
  rw [Fl.toInt_zero, Int.cast_zero] at k2
  rcases _root_.le_total (0 : ℝ) phi.toInt with h | h
  · refine Fl.isFinite_of_between Fl.isFinite_zero hp (Fl.Rounds.mono k2 hm (by positivity)) (Fl.Rounds.mono hm k1 ?_)
    rw [div_le_iff₀ hD]; nlinarith
  · refine Fl.isFinite_of_between hp Fl.isFinite_zero (Fl.Rounds.mono k1 hm ?_) (Fl.Rounds.mono hm k2 ?_)
    · rw [le_div_iff₀ hD]; nlinarith
    · exact div_nonpos_of_nonpos_of_nonneg (by nlinarith) hD.le

/-- A pull of a particle to where it is already. -/
theorem zr_pull {R : Rng σ} {g : Fmt} {s s' : σ} {us : List (Fl g)} (hd : Drawn R s us s') {n : Nat} {r phi c b x : Fl f}
    (hr : factor us n = some r) (hp : phi.isFinite = true) (hc : c.isFinite = true) (hb : b.feq c = true) (hx : x.feq c = true) :
    Zr (FloatT.mul (FloatT.mul phi r) (FloatT.sub b x)) := by
  obtain ⟨h0, h1⟩ := C45_factors R s s' us hd n r hr
  exact Zr.mul (mul_unit_finite hp h0 h1) (zr_diff hc hb hx)

/-- The particle stands still in the direction `i`. -/
structure Still (i : Nat) (c : Fl f) (p : Particle (Fl f)) : Prop where
  coordinate : At i c p.coordinates
  velocity : At i Fl.zero p.velocity
  best : At i c p.bestCoords
  worst : At i c p.worstCoords

/-- The swarm stands still in the direction `i`. -/
structure Calm (i : Nat) (c : Fl f) (s : Swarm (Fl f)) : Prop where
  particles : ∀ p ∈ s.particles, Still i c p
  best : ∀ p, s.best = some p → Still i c p
  worst : ∀ p, s.worst = some p → Still i c p

theorem calm_velocity {i : Nat} {c : Fl f} (hc : c.isFinite = true) {vc : Swarm (Fl f) → Particle (Fl f) → M σ (List (Fl f))}
    (hk : FiniteCalc vc) {s : Swarm (Fl f)} (hs : Calm i c s) {p : Particle (Fl f)} (hp : Still i c p) {raw : List (Fl f)}
    (h : Returned (vc s p) raw) : At i Fl.zero raw := by
  obtain ⟨t, t', h⟩ := h
  have hlen : i < p.coordinates.length := by
    obtain ⟨g, hg, -⟩ := hp.coordinate
    exact (List.getElem?_eq_some_iff.1 hg).1
  have at' : ∀ {c : Fl f} {x : List (Fl f)} {g : Fl f}, At i c x → x[i]? = some g → g.feq c = true := by
    rintro c x g ⟨g', h1, h2⟩ h3
    rw [h1] at h3; cases h3; exact h2
  cases hk with
  | classic R h1 h2 =>
    obtain ⟨g, hg, hl, us, hd, -, hf⟩ := C45_classic R _ _ s p t t' raw h
    obtain ⟨rP, rG, v, b, gb, x, f1, f2, e1, e2, e3, e4, e5⟩ := hf i (by omega)
    refine ⟨_, List.getElem?_eq_getElem (by omega), ?_⟩
    rw [e5, ← zr_iff]
    have x1 := at' hp.coordinate e4
    exact ((zr_iff.2 (at' hp.velocity e1)).add (zr_pull hd f1 h1 hc (at' hp.best e2) x1)).add
      (zr_pull hd f2 h2 hc (at' (hs.best g hg).coordinate e3) x1)
  | canonical R h1 h2 h3 =>
    obtain ⟨g, hg, hl, us, hd, -, hf⟩ := C45_canonical R _ s p t t' raw h
    obtain ⟨rP, rG, v, b, gb, x, f1, f2, e1, e2, e3, e4, e5⟩ := hf i (by omega)
    refine ⟨_, List.getElem?_eq_getElem (by omega), ?_⟩
    rw [e5, ← zr_iff]
    have x1 := at' hp.coordinate e4
    exact .mul h3 (((zr_iff.2 (at' hp.velocity e1)).add (zr_pull hd f1 h1 hc (at' hp.best e2) x1)).add
      (zr_pull hd f2 h2 hc (at' (hs.best g hg).coordinate e3) x1))
  | inertia R h1 h2 h3 =>
    obtain ⟨g, w, s1, hg, hw, hl, us, hd, -, hf⟩ := C45_inertia R _ _ _ s p t t' raw h
    obtain ⟨rP, rG, v, b, gb, x, f1, f2, e1, e2, e3, e4, e5⟩ := hf i (by omega)
    refine ⟨_, List.getElem?_eq_getElem (by omega), ?_⟩
    rw [e5, ← zr_iff]
    have x1 := at' hp.coordinate e4
    exact ((Zr.mul (h3 _ _ ⟨_, _, hw⟩) (zr_iff.2 (at' hp.velocity e1))).add (zr_pull hd f1 h1 hc (at' hp.best e2) x1)).add
      (zr_pull hd f2 h2 hc (at' (hs.best g hg).coordinate e3) x1)
  | negative R h1 h2 h3 h4 h5 h6 h7 =>
    obtain ⟨bg, bc, wg, wc, hbg, hbc, hwg, hwc, hl, us, hd, -, hf⟩ := C45_negative R _ s p t t' raw h
    obtain ⟨r1, r2, r3, r4, r5, r6, v, pb, cb, gb, pw, cw, gw, x, f1, f2, f3, f4, f5, f6, e1, e2, e3, e4, e5, e6, e7, e8, e9⟩ :=
      hf i (by omega)
    refine ⟨_, List.getElem?_eq_getElem (by omega), ?_⟩
    rw [e9, ← zr_iff]
    have x1 := at' hp.coordinate e8
    have cbest := (hs.particles bc (findBest_spec.2 bc hbc).1).coordinate
    have cworst := (hs.particles wc (findWorst_spec.2 wc hwc).1).coordinate
    exact .mul h7 ((((((((zr_iff.2 (at' hp.velocity e1)).add (zr_pull hd f3 h1 hc (at' hp.best e2) x1)).add
      (zr_pull hd f2 h2 hc (at' cbest e3) x1)).add (zr_pull hd f1 h3 hc (at' (hs.best _ hbg).coordinate e4) x1)).sub
      (zr_pull hd f6 h4 hc (at' hp.worst e5) x1)).sub (zr_pull hd f5 h5 hc (at' cworst e6) x1)).sub
      (zr_pull hd f4 h6 hc (at' (hs.worst _ hwg).coordinate e7) x1)))

theorem hooked_keeps {i : Nat} {c : Fl f} {hs : List (List (Fl f) → M σ (List (Fl f)))} {x y : List (Fl f)}
    (h : Hooked hs x y) (hk : ∀ h ∈ hs, ∀ v v', At i c v → Returned (h v) v' → At i c v') (hx : At i c x) : At i c y := by
  induction h with
  | nil => exact hx
  | cons h _ ih => exact ih (fun h' hm => hk h' (by simp [hm])) (hk _ (by simp) _ _ hx h)

theorem still_move {i : Nat} {c : Fl f} (hc : c.isFinite = true) {k : Comps σ (Fl f)} (hk : Restful i c k)
    {s : Swarm (Fl f)} (hs : Calm i c s) {p p' : Particle (Fl f)} (hp : Still i c p) {evs : List (Ev (List (Fl f)))}
    (m : Move k s p evs p') : Still i c p' := by
  have hv := hooked_keeps m.corrected hk.postVel (calm_velocity hc hk.velCalc hs hp m.velocity_ok)
  have hx : At i c p'.coordinates := by
    refine hooked_keeps m.moved hk.postMove ?_
    obtain ⟨x, h1, h2⟩ := hp.coordinate
    obtain ⟨v, h3, h4⟩ := hv
    refine ⟨FloatT.add x v, ?_, feq_add hc h2 (zr_iff.2 h4)⟩
    rw [List.getElem?_zipWith, h1, h3]
  have hb := m.best_ok
  have hw := m.worst_ok
  refine ⟨hx, hv, ?_, ?_⟩
  · split at hb
    · have : p'.bestCoords = p'.coordinates := congrArg Prod.fst hb
      rw [this]; exact hx
    · have : p'.bestCoords = p.bestCoords := congrArg Prod.fst hb
      rw [this]; exact hp.best
  · split at hw
    · have : p'.worstCoords = p'.coordinates := congrArg Prod.fst hw
      rw [this]; exact hx
    · have : p'.worstCoords = p.worstCoords := congrArg Prod.fst hw
      rw [this]; exact hp.worst

theorem calm_moves {i : Nat} {c : Fl f} (hc : c.isFinite = true) {k : Comps σ (Fl f)} (hk : Restful i c k)
    {ns : List Nat} {s s' : Swarm (Fl f)} {evs : List (Ev (List (Fl f)))} (h : Moves k ns s evs s') (hs : Calm i c s) :
    Calm i c s' := by
  induction h with
  | nil => exact hs
  | cons hp hm _ ih =>
    obtain ⟨m⟩ := hm
    apply ih
    have hp' := still_move hc hk hs (hs.particles _ (List.mem_of_getElem? hp)) m
    refine ⟨fun q hq => ?_, hs.best, hs.worst⟩
    rcases List.mem_or_eq_of_mem_set hq with hq | rfl
    · exact hs.particles q hq
    · exact hp'

theorem calm_update {i : Nat} {c : Fl f} {s : Swarm (Fl f)} (hs : Calm i c s) :
    Calm i c s.updateBest.updateWorst.nextIteration := by
  have h1 : Calm i c s.updateBest := by
    unfold Swarm.updateBest
    split
    · exact hs
    · rename_i nb hnb
      have hn := hs.particles nb (findBest_spec.2 nb hnb).1
      split
      · exact ⟨hs.particles, fun p hp => (by cases hp; exact hn), hs.worst⟩
      · split
        · exact ⟨hs.particles, fun p hp => (by cases hp; exact hn), hs.worst⟩
        · exact hs
  have h2 : Calm i c s.updateBest.updateWorst := by
    generalize s.updateBest = s at h1
    unfold Swarm.updateWorst
    split
    · exact h1
    · rename_i nb hnb
      have hn := h1.particles nb (findWorst_spec.2 nb hnb).1
      split
      · exact ⟨h1.particles, h1.best, fun p hp => (by cases hp; exact hn)⟩
      · split
        · exact ⟨h1.particles, h1.best, fun p hp => (by cases hp; exact hn)⟩
        · exact h1
  exact ⟨h2.particles, h2.best, h2.worst⟩

theorem inv_calm (i : Nat) {c : Fl f} (hc : c.isFinite = true) : Inv (σ := σ) (α := Fl f) (Restful i c) (fun s tr =>
    (∀ x ∈ lastCreated tr, At i c x) → Calm i c s ∧ ∀ a ∈ goalsSince tr, At i c a.1) where
  log := by
    rintro s tr j k h
    rw [GA.lastCreated_append (by simp [NotCreated]), goalsSince_snoc]; exact h
  check := by
    rintro s tr b h
    rw [GA.lastCreated_append (by simp [NotCreated]), goalsSince_snoc]; exact h
  begin := by
    rintro k s s' w w' hk - hr
    obtain ⟨raws, xs, vs, ps, hraw, hvs, hl, hx, hps, rfl, ht⟩ := begin_ok hr
    have hn : ∀ e ∈ List.zipWith Ev.moved raws xs ++ ps.map (fun p => Ev.goal p.coordinates p.value), NotCreated e := by
      intro e he
      rcases List.mem_append.1 he with he | he
      · obtain ⟨_, _, _, _, rfl⟩ := mem_zipWith he; trivial
      · obtain ⟨_, _, rfl⟩ := List.mem_map.1 he; trivial
    rw [ht, List.cons_append, ← List.singleton_append, ← List.append_assoc, GA.lastCreated_append hn, GA.lastCreated_created,
      goalsSince_append hn, goalsSince_created, List.nil_append]
    intro h
    have hxs : ∀ x ∈ xs, At i c x := by
      intro x hm
      obtain ⟨j, hj, rfl⟩ := List.getElem_of_mem hm
      have h3 := (List.forall₂_iff_get.1 hx).2 j (by rw [hx.length_eq]; exact hj) hj
      exact hooked_keeps h3 hk.postMove (h _ (List.get_mem _ _))
    have hst : ∀ p ∈ ps, Still i c p := by
      intro p hm
      obtain ⟨j, hj, rfl⟩ := List.getElem_of_mem hm
      have h3 := (List.forall₂_iff_get.1 hps).2 j (by rw [hps.length_eq]; exact hj) hj
      have hmem := List.get_mem (xs.zip vs) ⟨j, by rw [hps.length_eq]; exact hj⟩
      have m1 := hxs _ (List.of_mem_zip hmem).1
      have m2 := hk.velInit vs hvs _ (List.of_mem_zip hmem).2
      simp only [List.get_eq_getElem] at h3 m1 m2
      rw [h3.2]
      exact ⟨m1, m2, m1, m1⟩
    refine ⟨⟨hst, fun p hp => hst p (findBest_spec.2 p hp).1, fun p hp => hst p (findWorst_spec.2 p hp).1⟩, ?_⟩
    intro a ha
    unfold goalsOf at ha
    obtain ⟨e, he, h2⟩ := List.mem_filterMap.1 ha
    rcases List.mem_append.1 he with he | he
    · obtain ⟨_, _, _, _, rfl⟩ := mem_zipWith he; cases h2
    · obtain ⟨p, hp, rfl⟩ := List.mem_map.1 he
      cases h2
      exact (hst p hp).coordinate
  core := by
    rintro k s s' w w' hk hI hr
    obtain ⟨evs, s1, hm, rfl, ht⟩ := core_ok hr
    have hn : ∀ e ∈ evs, NotCreated e := by
      intro e he
      have := hm.events e he
      cases e <;> first | trivial | exact absurd this id
    rw [ht, ← List.append_assoc, GA.lastCreated_append (evs := [_]) (by simp [NotCreated]), goalsSince_snoc,
      GA.lastCreated_append hn, goalsSince_append hn, hm.all.1]
    intro h
    obtain ⟨h1, h2⟩ := hI h
    have h3 := calm_moves hc hk hm h1
    refine ⟨calm_update h3, ?_⟩
    intro a ha
    rcases List.mem_append.1 ha with ha | ha
    · exact h2 a ha
    · obtain ⟨p, hp, rfl⟩ := List.mem_map.1 ha
      exact (h3.particles p hp).coordinate

end Verif.PSO
