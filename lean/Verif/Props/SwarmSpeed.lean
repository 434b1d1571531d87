import Verif.Props.SwarmApi
import Verif.Props.SwarmBox
import Verif.Props.Hooks
import Verif.Props.SwarmDemo

/-!
# C82: a velocity limit holds throughout a run
-/

set_option linter.unusedSectionVars false

namespace Verif.Props.Swarm

open Verif Spec Spec.Swarm PSO

variable {σ : Type} {f : Fmt}

/-- Each component is NaN or not beyond its limit. -/
def Limited (lims v : List (Fl f)) : Prop := List.Forall₂ (fun m c => c.isNan = true ∨ c.abs.le m.abs = true) lims v

/-- MaxVelocityDimensions is the last velocity corrector; nothing else is assumed of the components. -/
def LimitLast (lims : List (Fl f)) (c : Comps σ (Fl f)) : Prop := ∃ pre, c.postVel = pre ++ [Hooks.maxVelocityDimensions lims]

section Any

variable {α : Type} [FloatT α]

/-- Whatever comes out of the velocity correctors is in `B`. -/
def VelInto (B : List α → Prop) (c : Comps σ α) : Prop := ∀ x y, Hooked c.postVel x y → B y

/-- A velocity that was used is in `B`. -/
def SpeedsInto (B : List α → Prop) : Ev (List α) → Prop
  | .velocity _ v => B v
  | _ => True

theorem moves_speed {B : List α → Prop} {c : Comps σ α} (hc : VelInto B c) {ns : List Nat} {s s' : PSO.Swarm α}
    {evs : List (Ev (List α))} (h : Moves c ns s evs s') : ∀ e ∈ evs, SpeedsInto B e := by
  induction h with
  | nil => simp
  | cons _ hm _ ih =>
    obtain ⟨m⟩ := hm
    intro e he
    rcases List.mem_append.1 he with he | he
    · rw [m.events_ok] at he
      simp only [List.mem_cons, List.not_mem_nil, or_false] at he
      rcases he with rfl | rfl | rfl
      · exact hc _ _ m.corrected
      · trivial
      · trivial
    · exact ih e he

theorem inv_speed (B : List α → Prop) : Inv (σ := σ) (α := α) (VelInto B) (fun _ tr => ∀ e ∈ tr, SpeedsInto B e) where
  log := by
    intro p tr i k h e he
    rcases List.mem_append.1 he with he | he
    · exact h e he
    · rw [List.mem_singleton] at he; subst he; trivial
  check := by
    intro p tr b h e he
    rcases List.mem_append.1 he with he | he
    · exact h e he
    · rw [List.mem_singleton] at he; subst he; trivial
  begin := by
    rintro c p p' w w' hc h hr e he
    obtain ⟨raws, xs, vs, ps, -, -, -, hxs, hps, -, ht⟩ := begin_ok hr
    rw [ht, List.cons_append, List.mem_append, List.mem_cons, List.mem_append, List.mem_map] at he
    rcases he with he | rfl | he | ⟨p, hp, rfl⟩
    · exact h e he
    · trivial
    · obtain ⟨a, b, -, hb, rfl⟩ := mem_zipWith he; trivial
    · trivial
  core := by
    rintro c p p' w w' hc h hr e he
    obtain ⟨evs, s1, hmv, -, ht⟩ := core_ok hr
    rw [ht, List.mem_append, List.mem_append, List.mem_singleton] at he
    rcases he with he | he | rfl
    · exact h e he
    · exact moves_speed hc hmv e he
    · trivial

end Any

theorem limit_into (lims : List (Fl f)) (c : Comps σ (Fl f)) (h : LimitLast lims c) : VelInto (Limited lims) c := by
  obtain ⟨pre, hp⟩ := h
  intro x y hxy
  rw [hp] at hxy
  obtain ⟨z, -, hz⟩ := hooked_append hxy
  cases hz with
  | cons hk hn =>
    cases hn
    obtain ⟨s, s', hk⟩ := hk
    by_cases hl : z.length = lims.length
    · obtain ⟨r, h1, h2, h3⟩ := (C43_hook lims z s).2 hl
      rw [hk] at h1; cases h1
      refine List.forall₂_iff_get.2 ⟨by omega, fun i hi1 hi2 => ?_⟩
      simp only [List.get_eq_getElem]
      obtain ⟨-, h4, h5⟩ := h3 i hi2 (by omega) hi1
      cases e1 : z[i].isNan with
      | true => exact .inl (h5 (.inl e1))
      | false =>
        cases e2 : lims[i].isNan with
        | true => exact .inl (h5 (.inr e2))
        | false => exact .inr (h4 e1 e2).1
    · rw [(C43_hook lims z s).1 hl] at hk; cases hk

/-- C82: no particle is ever moved with a velocity beyond the limits, at any point of any history. The calculator, the other
correctors and the initial velocities are arbitrary. -/
theorem C82_used (lims : List (Fl f)) (o o' : Opt σ (Fl f)) (w w' : World σ (List (Fl f))) (ks : List (Call σ (Fl f)))
    (pt : Point) (h0 : Fresh o w) (hc : Always (LimitLast lims) o.comps ks) (hr : runTo o ks pt w = .ok (o', w')) :
    ∀ raw v, .velocity raw v ∈ w'.trace → Limited lims v := by
  have h2 := ((inv_speed (Limited lims)).runTo (always_imp (limit_into lims) hc) hr (by rw [h0.2]; simp)).1
  exact fun raw v hv => h2 _ hv

theorem always_runTo {P : Comps σ (Fl f) → Prop} {ks : List (Call σ (Fl f))} {o o' : Opt σ (Fl f)} {pt : Point}
    {w w' : World σ (List (Fl f))} (hc : Always P o.comps ks) (hr : runTo o ks pt w = .ok (o', w')) : P o'.comps :=
  ((⟨fun _ _ _ _ h => h, fun _ _ _ h => h, fun _ _ _ _ _ _ _ _ => trivial, fun _ _ _ _ _ _ _ _ => trivial⟩ :
    Inv (σ := σ) (α := Fl f) P (fun _ _ => True)).runTo hc hr trivial).2

/-- C82: after each turn of the loop the velocities of all particles are within the limits. -/
theorem C82_velocities (lims : List (Fl f)) (o o1 : Opt σ (Fl f)) (w w1 w2 : World σ (List (Fl f)))
    (ks : List (Call σ (Fl f))) (pt : Point) (s' : PSO.Swarm (Fl f)) (h0 : Fresh o w)
    (hc : Always (LimitLast lims) o.comps ks) (hr : runTo o ks pt w = .ok (o1, w1))
    (hs : step o1.comps o1.swarm w1 = .ok (s', w2)) : ∀ p ∈ s'.particles, Limited lims p.velocity := by
  intro p' hp'
  have h := C69_each o o1 w w1 w2 ks pt s' h0 hr hs
  obtain ⟨n, hn, rfl⟩ := List.getElem_of_mem hp'
  obtain ⟨s1, evs, -, -, -, ⟨m⟩⟩ := (List.forall₂_iff_get.1 h).2 n (by rw [h.length_eq]; exact hn) hn
  exact limit_into lims o1.comps (always_runTo hc hr) _ _ m.corrected

theorem abs_le_iff {c m : Fl f} (h : c.abs.le m.abs = true) : -(m.toInt.natAbs : Int) ≤ c.toInt ∧ c.toInt ≤ m.toInt.natAbs := by
  have := (Fl.le_iff.1 h).2.2
  rw [Fl.toInt_abs, Fl.toInt_abs] at this
  omega

theorem add_limited {x c m : Fl f} (hx : x.isFinite = true) (hm : m.isFinite = true) (h : c.isNan = true ∨ c.abs.le m.abs = true) :
    (x.add c).isNan = true ∨ ((x.sub m.abs).le (x.add c) = true ∧ (x.add c).le (x.add m.abs) = true) := by
  rcases h with h | h
  · left; rw [Fl.isNan_add_right _ _ h]; exact Fl.isNan_nan
  · right
    have hma : m.abs.isFinite = true := by rw [Fl.isFinite_abs]; exact hm
    have hcf : c.isFinite = true := by
      have h1 := abs_le_iff h
      rw [Fl.isFinite_iff_toInt] at hm ⊢
      omega
    obtain ⟨h1, h2⟩ := abs_le_iff h
    have e : m.abs.toInt = (m.toInt.natAbs : Int) := Fl.toInt_abs m
    refine ⟨Fl.Rounds.mono (Fl.sub_rounds hx hma) (Fl.add_rounds hx hcf) ?_, Fl.Rounds.mono (Fl.add_rounds hx hcf) (Fl.add_rounds hx hma) ?_⟩
    · have : (x.toInt - m.abs.toInt : Int) ≤ x.toInt + c.toInt := by omega
      exact_mod_cast this
    · have : (x.toInt + c.toInt : Int) ≤ x.toInt + m.abs.toInt := by omega
      exact_mod_cast this

/-- C82: so in a turn without post-move hooks no particle gets farther along an axis than the limit for the axis: a finite
coordinate `x` becomes a number between `x - |limit|` and `x + |limit|`, rounded, or NaN. -/
theorem C82_distance (lims : List (Fl f)) (hl : ∀ m ∈ lims, m.isFinite = true) (o o1 : Opt σ (Fl f))
    (w w1 w2 : World σ (List (Fl f))) (ks : List (Call σ (Fl f))) (pt : Point) (s' : PSO.Swarm (Fl f)) (h0 : Fresh o w)
    (hc : Always (LimitLast lims) o.comps ks) (hr : runTo o ks pt w = .ok (o1, w1)) (hp : o1.comps.postMove = [])
    (hs : step o1.comps o1.swarm w1 = .ok (s', w2)) :
    List.Forall₂ (fun (p p' : Particle (Fl f)) => ∀ (i : Nat) (m x y : Fl f), lims[i]? = some m → p.coordinates[i]? = some x →
        p'.coordinates[i]? = some y → x.isFinite = true →
        y.isNan = true ∨ ((x.sub m.abs).le y = true ∧ y.le (x.add m.abs) = true))
      o1.swarm.particles s'.particles := by
  refine (C69_each o o1 w w1 w2 ks pt s' h0 hr hs).imp ?_
  rintro p p' ⟨s1, evs, -, -, -, ⟨mv⟩⟩ i m x y hm hx hy hxf
  have hv : Limited lims p'.velocity := limit_into lims o1.comps (always_runTo hc hr) _ _ mv.corrected
  have hmo := mv.moved
  rw [hp] at hmo
  generalize hz : List.zipWith FloatT.add p.coordinates p'.velocity = z at hmo
  have hmo : z = p'.coordinates := by cases hmo; rfl
  rw [← hmo, ← hz, List.getElem?_zipWith, hx] at hy
  cases hc : p'.velocity[i]? with
  | none => rw [hc] at hy; simp at hy
  | some c =>
    rw [hc] at hy
    simp only [Option.some.injEq] at hy
    have hi1 := (List.getElem?_eq_some_iff.1 hm)
    have hi2 := (List.getElem?_eq_some_iff.1 hc)
    have h4 := (List.forall₂_iff_get.1 hv).2 i hi1.1 hi2.1
    simp only [List.get_eq_getElem, hi1.2, hi2.2] at h4
    rw [← hy]
    exact add_limited hxf (hl m (List.mem_of_getElem? hm)) h4

/-! ## Instances -/

/-- The demo optimizer limits its velocity to 4, and it moves. -/
example : Always (LimitLast [Fl.ofNat 4]) SwarmDemo.opt.comps SwarmDemo.calls ∧ Fresh SwarmDemo.opt SwarmDemo.world ∧
    M.okAnd (runTo SwarmDemo.opt SwarmDemo.calls .done SwarmDemo.world) (fun _ w => w.trace.any fun e =>
      match e with | .velocity _ v => v == [Fl.ofInt (-4)] | _ => false) = true :=
  ⟨⟨⟨[], rfl⟩, ⟨[], rfl⟩, ⟨[], rfl⟩, [], rfl⟩, ⟨rfl, rfl⟩, by decide +kernel⟩

/-- The same without post-move hooks, at a point where another turn is possible. -/
example : Always (LimitLast [Fl.ofNat 4]) SwarmDemo.opt.comps [.setPostMoves []] ∧
    M.okAnd ((do
      let o1 ← runTo SwarmDemo.opt [.setPostMoves []] (.inFindMin 1)
      let s' ← step o1.comps o1.swarm
      pure (o1, s') : M _ _) SwarmDemo.world) (fun r _ => r.1.comps.postMove.length == 0 &&
        r.1.swarm.particles.length == 3) = true :=
  ⟨⟨⟨[], rfl⟩, [], rfl⟩, by decide +kernel⟩

/-- The demo optimizer with an initial velocity of 100. -/
def fast : PSO.Opt (List Nat) F64 :=
  { SwarmDemo.opt with comps := { SwarmDemo.opt.comps with velInit := pure (List.replicate 3 [Fl.ofNat 100]) } }

/-- C82: the initial velocities are not corrected: before the first turn a particle can have a velocity beyond the limit. -/
theorem C82_initial_witness : LimitLast [Fl.ofNat 4] fast.comps ∧ ∃ o' w', runTo fast [] (.inFindMin 0) SwarmDemo.world = .ok (o', w') ∧
    ∃ p ∈ o'.swarm.particles, ¬ Limited [Fl.ofNat 4] p.velocity := by
  refine ⟨⟨[], rfl⟩, ?_⟩
  have : M.okAnd (runTo fast [] (.inFindMin 0) SwarmDemo.world) (fun o' _ =>
    (o'.swarm.particles.map Particle.velocity).contains [Fl.ofNat 100]) = true := by decide +kernel
  obtain ⟨o', w', h, hp⟩ := M.okAnd_iff.1 this
  refine ⟨o', w', h, ?_⟩
  rw [List.contains_iff_mem, List.mem_map] at hp
  obtain ⟨p, hp, hv⟩ := hp
  refine ⟨p, hp, ?_⟩
  rw [hv]
  intro hl
  exact absurd (List.forall₂_cons.1 hl).1 (by decide +kernel)

end Verif.Props.Swarm
