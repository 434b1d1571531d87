import Verif.Proofs.CaughtSwarm
import Verif.Proofs.SwarmInv
import Verif.Props.SwarmBox
import Verif.Props.GeneticCaught
import Verif.Props.SwarmDemo

/-!
# C88: the swarm optimizer when panics are caught

As in `Props/GeneticCaught.lean`: histories of public calls, each of which may return or panic, anywhere, any number of times;
the history goes on in the state that the panic left behind.
-/

set_option linter.unusedSectionVars false

namespace Verif.Props.SwarmCaught

open Verif Caught Caught.PSO Spec.Caught Spec.Caught.PSO
open Verif.PSO (Swarm Particle)
open _root_.Verif.Spec (Evaluated NotWorse IsBestOf IsWorstOf)

variable {σ α : Type} [FloatT α]

/-! ## Without a panic this is the optimizer of the other theorems -/

theorem forget_after (c : Comps σ α) (k : Call σ α) : (after c k).forget = Spec.Swarm.setComps c.forget k.forget := by
  cases k <;> rfl

theorem exec_view (c : Comps σ α) (k : Call σ α) (w : St σ (List α) (Swarm α)) :
    Verif.PSO.call ⟨c.forget, w.mem⟩ k.forget ⟨w.user, w.trace⟩ = match exec c k w with
      | (.ok r, w') => .ok ((r, ⟨(after c k).forget, w'.mem⟩), ⟨w'.user, w'.trace⟩)
      | (.error e, _) => .error e := by
  have h := congrFun (view_exec c k w.mem) ⟨w.user, w.trace⟩
  rw [M.bind_run] at h
  unfold view at h
  dsimp only at h
  have hw : (⟨w.user, w.trace, w.mem⟩ : St σ (List α) (Swarm α)) = w := rfl
  rw [hw] at h
  rcases he : exec c k w with ⟨r, w'⟩
  rw [he] at h
  rcases hc : Verif.PSO.call ⟨c.forget, w.mem⟩ k.forget ⟨w.user, w.trace⟩ with e | ⟨⟨r1, o1⟩, w1⟩
  · rw [hc] at h
    cases r with
    | error e' => cases h; rfl
    | ok a => cases h
  · rw [hc] at h
    have hcomps := Verif.PSO.call_comps hc
    cases r with
    | error e' => cases h
    | ok a =>
      obtain ⟨oc, op⟩ := o1
      cases h
      rw [forget_after]
      dsimp only at hcomps
      rw [hcomps]

/-- C88: one call of the optimizer does exactly what it does in the model without caught panics: if it returns, with the
same result in the same state, and if it panics, with the same panic. -/
theorem C88_call (c : Comps σ α) (k : Call σ α) (w : St σ (List α) (Swarm α)) :
    (∀ r w', exec c k w = (.ok r, w') → Verif.PSO.call ⟨c.forget, w.mem⟩ k.forget ⟨w.user, w.trace⟩ =
      .ok ((r, ⟨(after c k).forget, w'.mem⟩), ⟨w'.user, w'.trace⟩)) ∧
    (∀ e w', exec c k w = (.error e, w') →
      Verif.PSO.call ⟨c.forget, w.mem⟩ k.forget ⟨w.user, w.trace⟩ = .error e) := by
  have h := exec_view c k w
  exact ⟨fun r w' he => by rw [he] at h; exact h, fun e w' he => by rw [he] at h; exact h⟩

/-- C88: a history without a panic is a history of the model without caught panics; up to the first panic, too. -/
theorem C88_history (ks : List (Call σ α)) (c : Comps σ α) (w : St σ (List α) (Swarm α)) :
    (∀ rs, (runCaught c ks w).1 = rs.map .ok → Verif.PSO.run ⟨c.forget, w.mem⟩ (ks.map Call.forget) ⟨w.user, w.trace⟩ =
      .ok ((rs, ⟨(runCaught c ks w).2.1.forget, (runCaught c ks w).2.2.mem⟩),
        ⟨(runCaught c ks w).2.2.user, (runCaught c ks w).2.2.trace⟩)) ∧
    (∀ (rs : List (Verif.PSO.Ret α)) e rest, (runCaught c ks w).1 = rs.map .ok ++ .error e :: rest →
      Verif.PSO.run ⟨c.forget, w.mem⟩ (ks.map Call.forget) ⟨w.user, w.trace⟩ = .error e) := by
  induction ks generalizing c w with
  | nil =>
    constructor
    · intro rs h
      cases rs with
      | nil => rfl
      | cons r rs => cases h
    · intro rs e rest h
      cases rs <;> cases h
  | cons k ks ih =>
    rw [runCaught_cons]
    have hx := C88_call c k w
    rcases he : exec c k w with ⟨r, w'⟩
    obtain ⟨ih1, ih2⟩ := ih (after c k) w'
    dsimp only
    constructor
    · intro rs h
      cases rs with
      | nil => cases h
      | cons r0 rs =>
        rw [List.map_cons, List.cons.injEq] at h
        obtain ⟨rfl, h2⟩ := h
        exact M.bind_eq_ok.2 ⟨_, _, hx.1 _ _ he, M.bind_eq_ok.2 ⟨_, _, ih1 rs h2, rfl⟩⟩
    · intro rs e rest h
      cases rs with
      | nil =>
        rw [List.map_nil, List.nil_append, List.cons.injEq] at h
        obtain ⟨rfl, h2⟩ := h
        exact M.bind_eq_error.2 (.inl (hx.2 _ _ he))
      | cons r0 rs =>
        rw [List.map_cons, List.cons_append, List.cons.injEq] at h
        obtain ⟨rfl, h2⟩ := h
        exact M.bind_eq_error.2 (.inr ⟨_, _, hx.1 _ _ he, M.bind_eq_error.2 (.inl (ih2 rs e rest h2))⟩)

/-- Components that change nothing before they panic. -/
def keep (c : Verif.PSO.Comps σ α) : Comps σ α where
  goal x := .ofM (c.goal x)
  stop s := .ofM (c.stop s)
  coordInit := .ofM c.coordInit
  velInit := .ofM c.velInit
  velCalc s p := .ofM (c.velCalc s p)
  postVel := c.postVel.map (fun f v => .ofM (f v))
  postMove := c.postMove.map (fun f v => .ofM (f v))
  loggers := c.loggers.map keepLogger

/-- Every optimizer of the other theorems is one of these. -/
theorem C88_every (c : Verif.PSO.Comps σ α) : (keep c).forget = c := by
  obtain ⟨g, st, ci, vi, vc, pv, pm, ls⟩ := c
  unfold keep Comps.forget
  simp only [KM.toM_ofM, List.map_map, Verif.PSO.Comps.mk.injEq, true_and]
  have hh : ∀ hs : List (List α → M σ (List α)),
      List.map ((fun (f : List α → KM σ (List α)) v => (f v).toM) ∘ fun f v => KM.ofM (f v)) hs = hs := by
    intro hs
    refine (List.map_congr_left (g := id) fun s _ => ?_).trans (List.map_id _)
    funext v
    exact KM.toM_ofM _
  refine ⟨hh _, hh _, ?_⟩
  refine (List.map_congr_left (g := id) fun s _ => ?_).trans (List.map_id _)
  show Logger.forget (keepLogger s) = s
  unfold Logger.forget keepLogger
  simp only [KM.toM_ofM]

/-! ## Moving a particle and updating the best and the worst -/

theorem moveTo_sol (p : Particle α) (x : List α) (v : F64) : (p.moveTo x v).sol = (x, v) := by
  cases h1 : Verif.PSO.compareFloats v p.bestValue == .lt <;> cases h2 : Verif.PSO.compareFloats v p.worstValue == .gt <;>
    simp [Particle.moveTo, Particle.sol, h1, h2]

theorem moveTo_best (p : Particle α) (x : List α) (v : F64) : ((p.moveTo x v).bestCoords, (p.moveTo x v).bestValue) =
    if Verif.PSO.compareFloats v p.bestValue == .lt then (x, v) else (p.bestCoords, p.bestValue) := by
  cases h1 : Verif.PSO.compareFloats v p.bestValue == .lt <;> cases h2 : Verif.PSO.compareFloats v p.worstValue == .gt <;>
    simp [Particle.moveTo, h1, h2]

theorem moveTo_worst (p : Particle α) (x : List α) (v : F64) : ((p.moveTo x v).worstCoords, (p.moveTo x v).worstValue) =
    if Verif.PSO.compareFloats v p.worstValue == .gt then (x, v) else (p.worstCoords, p.worstValue) := by
  cases h1 : Verif.PSO.compareFloats v p.bestValue == .lt <;> cases h2 : Verif.PSO.compareFloats v p.worstValue == .gt <;>
    simp [Particle.moveTo, h1, h2]

theorem personal_moveTo {p : Particle α} {x : List α} {v : F64} {col col' : List (Solution (List α))}
    (h : IsBestOf col (p.bestCoords, p.bestValue)) (h' : IsWorstOf col' (p.worstCoords, p.worstValue)) :
    IsBestOf (col ++ [(x, v)]) ((p.moveTo x v).bestCoords, (p.moveTo x v).bestValue) ∧
    IsWorstOf (col' ++ [(x, v)]) ((p.moveTo x v).worstCoords, (p.moveTo x v).worstValue) := by
  rw [moveTo_best, moveTo_worst]
  constructor
  · split
    · rename_i hlt
      have hlt : ¬ NotWorse p.bestValue v := compare_lt.1 (by simpa using hlt)
      refine ⟨by simp, fun a ha => ?_⟩
      rcases List.mem_append.1 ha with ha | ha
      · exact notWorse_trans ((notWorse_total _ _).resolve_right hlt) (h.2 a ha)
      · rw [List.mem_singleton.1 ha]; exact notWorse_refl _
    · rename_i hlt
      refine ⟨List.mem_append_left _ h.1, fun a ha => ?_⟩
      rcases List.mem_append.1 ha with ha | ha
      · exact h.2 a ha
      · rw [List.mem_singleton.1 ha]
        exact (C38_meaning _ _).2.1.1 (by simpa using hlt)
  · split
    · rename_i hlt
      have hlt : ¬ NotWorse v p.worstValue := compare_gt.1 (by simpa using hlt)
      refine ⟨by simp, fun a ha => ?_⟩
      rcases List.mem_append.1 ha with ha | ha
      · exact notWorse_trans (h'.2 a ha) ((notWorse_total _ _).resolve_right hlt)
      · rw [List.mem_singleton.1 ha]; exact notWorse_refl _
    · rename_i hlt
      refine ⟨List.mem_append_left _ h'.1, fun a ha => ?_⟩
      rcases List.mem_append.1 ha with ha | ha
      · exact h'.2 a ha
      · rw [List.mem_singleton.1 ha]
        exact (C38_meaning _ _).1.1 (by simpa using hlt)

/-- What an update does to the best and the worst particle. -/
theorem updated (s : Swarm α) :
    ((s.particles ≠ [] → ∃ b, s.updateBest.updateWorst.best = some b ∧ ∀ p ∈ s.particles, NotWorse b.value p.value) ∧
      (∀ b0, s.best = some b0 → ∃ b, s.updateBest.updateWorst.best = some b ∧ NotWorse b.value b0.value) ∧
      (∀ b, s.updateBest.updateWorst.best = some b → s.best = some b ∨ b ∈ s.particles)) ∧
    ((s.particles ≠ [] → ∃ b, s.updateBest.updateWorst.worst = some b ∧ ∀ p ∈ s.particles, NotWorse p.value b.value) ∧
      (∀ b0, s.worst = some b0 → ∃ b, s.updateBest.updateWorst.worst = some b ∧ NotWorse b0.value b.value) ∧
      (∀ b, s.updateBest.updateWorst.worst = some b → s.worst = some b ∨ b ∈ s.particles)) := by
  constructor
  · rw [Verif.PSO.updateWorst_best]
    have hs := Verif.PSO.findBest_spec (ps := s.particles)
    unfold Swarm.updateBest
    rcases hf : Verif.PSO.findBest s.particles with _ | nb
    · have he := hs.1.1 hf
      simp only
      exact ⟨fun h => absurd he h, fun b0 h => ⟨b0, h, notWorse_refl _⟩, fun b h => .inl h⟩
    · obtain ⟨hm, hle⟩ := hs.2 nb hf
      rcases hb : s.best with _ | ob
      · simp only
        exact ⟨fun _ => ⟨nb, rfl, hle⟩, by simp, fun b h => .inr (by cases h; exact hm)⟩
      · simp only
        split
        · rename_i hlt
          have hlt : ¬ NotWorse ob.value nb.value := compare_lt.1 (by simpa using hlt)
          have hn := (notWorse_total ob.value nb.value).resolve_left hlt
          exact ⟨fun _ => ⟨nb, rfl, hle⟩, fun b0 h => ⟨nb, rfl, by cases h; exact hn⟩, fun b h => .inr (by cases h; exact hm)⟩
        · rename_i hlt
          have hn : NotWorse ob.value nb.value := (C38_meaning _ _).2.1.1 (by simpa using hlt)
          exact ⟨fun _ => ⟨ob, hb, fun p hp => notWorse_trans hn (hle p hp)⟩,
            fun b0 h => ⟨ob, hb, by cases h; exact notWorse_refl _⟩, fun b h => .inl (by rw [← hb]; exact h)⟩
  · have hw : s.updateBest.worst = s.worst := Verif.PSO.updateBest_worst s
    have hp : s.updateBest.particles = s.particles := Verif.PSO.updateBest_particles s
    have hs := Verif.PSO.findWorst_spec (ps := s.particles)
    generalize s.updateBest = s1 at hw hp
    rw [← hp, ← hw]
    rw [← hp] at hs
    unfold Swarm.updateWorst
    rcases hf : Verif.PSO.findWorst s1.particles with _ | nb
    · have he := hs.1.1 hf
      simp only
      exact ⟨fun h => absurd he h, fun b0 h => ⟨b0, h, notWorse_refl _⟩, fun b h => .inl h⟩
    · obtain ⟨hm, hle⟩ := hs.2 nb hf
      rcases hb : s1.worst with _ | ob
      · simp only
        exact ⟨fun _ => ⟨nb, rfl, hle⟩, by simp, fun b h => .inr (by cases h; exact hm)⟩
      · simp only
        split
        · rename_i hlt
          have hlt : ¬ NotWorse nb.value ob.value := compare_gt.1 (by simpa using hlt)
          have hn := (notWorse_total nb.value ob.value).resolve_left hlt
          exact ⟨fun _ => ⟨nb, rfl, hle⟩, fun b0 h => ⟨nb, rfl, by cases h; exact hn⟩, fun b h => .inr (by cases h; exact hm)⟩
        · rename_i hlt
          have hn : NotWorse nb.value ob.value := (C38_meaning _ _).1.1 (by simpa using hlt)
          exact ⟨fun _ => ⟨ob, hb, fun p hp => notWorse_trans (hle p hp) hn⟩,
            fun b0 h => ⟨ob, hb, by cases h; exact notWorse_refl _⟩, fun b h => .inl (by rw [← hb]; exact h)⟩

theorem update_particles (s : Swarm α) : s.updateBest.updateWorst.particles = s.particles := by
  rw [Verif.PSO.updateWorst_particles, Verif.PSO.updateBest_particles]

theorem update_iteration (s : Swarm α) : s.updateBest.updateWorst.iteration = s.iteration := by
  rw [Verif.PSO.updateWorst_iteration, Verif.PSO.updateBest_iteration]

/-! ## Everything held, shown or returned was evaluated -/

/-- The conditions on the components, with a property `B` of every point that leaves the post-move hooks. -/
def Bears (g : List α → KM σ F64) (B : List α → Prop) (c : Comps σ α) : Prop :=
  c.goal = g ∧ ∀ raw x, Returned (hooks c.postMove raw) x → B x

/-- The particle's position, personal best and personal worst were evaluated, and the value is between the two. -/
def Good (tr : List (Ev (List α))) (p : Particle α) : Prop :=
  Evaluated tr p.sol ∧ Evaluated tr (p.bestCoords, p.bestValue) ∧ Evaluated tr (p.worstCoords, p.worstValue) ∧
    NotWorse p.bestValue p.value ∧ NotWorse p.value p.worstValue

theorem Good.append {tr : List (Ev (List α))} {p : Particle α} (h : Good tr p) (e : Ev (List α)) : Good (tr ++ [e]) p :=
  ⟨h.1.append, h.2.1.append, h.2.2.1.append, h.2.2.2⟩

/-- Everything in the swarm and in the trace is a goal call on a point in `B`. -/
def Sound (g : List α → KM σ F64) (B : List α → Prop) (_ : Nat) (s : Swarm α) (tr : List (Ev (List α))) : Prop :=
  Spec.OnlyEvaluated tr ∧ ((∀ p ∈ s.particles, Good tr p) ∧ (∀ p, s.best = some p → Evaluated tr p.sol) ∧
    (∀ p, s.worst = some p → Evaluated tr p.sol)) ∧ ∀ x v, Ev.goal x v ∈ tr → B x ∧ Returned (g x) v

theorem sound_quiet {g : List α → KM σ F64} {B : List α → Prop} {n : Nat} {s : Swarm α} {tr : List (Ev (List α))}
    {e : Ev (List α)} (h : Sound g B n s tr) (he : ∀ x v, e ≠ .goal x v) (hs : Spec.ShowsEvaluated tr e) :
    Sound g B n s (tr ++ [e]) := by
  refine ⟨Spec.onlyEvaluated_snoc.2 ⟨h.1, hs⟩, ⟨fun p hp => (h.2.1.1 p hp).append e, fun p hp => (h.2.1.2.1 p hp).append,
    fun p hp => (h.2.1.2.2 p hp).append⟩, fun x v hm => h.2.2 x v ?_⟩
  rcases List.mem_append.1 hm with hm | hm
  · exact hm
  · exact absurd (List.mem_singleton.1 hm).symm (he x v)

theorem sound_state {g : List α → KM σ F64} {B : List α → Prop} {n : Nat} {s : Swarm α} {tr : List (Ev (List α))}
    (h : Sound g B n s tr) (a : Solution (List α)) (ha : s.state.best = some a) : Evaluated tr a := by
  obtain ⟨p, hp, rfl⟩ := Option.map_eq_some_iff.1 ha
  exact h.2.1.2.1 p hp

theorem sound_goal {g : List α → KM σ F64} {B : List α → Prop} {n : Nat} {s : Swarm α} {tr : List (Ev (List α))}
    (h : Sound g B n s tr) {x : List α} {v : F64} (hB : B x) (hg : Returned (g x) v) : Sound g B n s (tr ++ [.goal x v]) := by
  refine ⟨Spec.onlyEvaluated_snoc.2 ⟨h.1, trivial⟩, ⟨fun p hp => (h.2.1.1 p hp).append _, fun p hp => (h.2.1.2.1 p hp).append,
    fun p hp => (h.2.1.2.2 p hp).append⟩, fun y u hm => ?_⟩
  rcases List.mem_append.1 hm with hm | hm
  · exact h.2.2 y u hm
  · cases List.mem_singleton.1 hm
    exact ⟨hB, hg⟩

theorem good_moveTo {tr : List (Ev (List α))} {p : Particle α} (h : Good tr p) (x : List α) (v : F64) :
    Good (tr ++ [.goal x v]) (p.moveTo x v) := by
  obtain ⟨h1, h2, h3, h4, h5⟩ := h
  have hx : Evaluated (tr ++ [.goal x v]) (x, v) := List.mem_append_right _ (by simp)
  have hp := personal_moveTo (p := p) (x := x) (v := v) (col := [(p.bestCoords, p.bestValue)])
    (col' := [(p.worstCoords, p.worstValue)]) ⟨by simp, by simp [notWorse_refl]⟩
    ⟨by simp, by simp [notWorse_refl]⟩
  have hv : (p.moveTo x v).value = v := congrArg Prod.snd (moveTo_sol p x v)
  refine ⟨by rw [moveTo_sol]; exact hx, ?_, ?_, ?_, ?_⟩
  · have := hp.1.1
    simp only [List.cons_append, List.nil_append, List.mem_cons, List.not_mem_nil, or_false] at this
    rcases this with h | h <;> rw [h]
    · exact h2.append
    · exact hx
  · have := hp.2.1
    simp only [List.cons_append, List.nil_append, List.mem_cons, List.not_mem_nil, or_false] at this
    rcases this with h | h <;> rw [h]
    · exact h3.append
    · exact hx
  · rw [hv]; exact hp.1.2 (x, v) (by simp)
  · rw [hv]; exact hp.2.2 (x, v) (by simp)

theorem mem_set {l : List β} {n : Nat} {a b : β} (h : a ∈ l.set n b) : a = b ∨ a ∈ l := by
  rcases List.mem_or_eq_of_mem_set h with h | h
  · exact .inr h
  · exact .inl h

theorem inv_sound (g : List α → KM σ F64) (B : List α → Prop) : Inv (Bears g B) (Sound (σ := σ) g B) where
  log i k s tr h := sound_quiet h (by simp) (sound_state h)
  check b s tr h := sound_quiet h (by simp) (sound_state h)
  quiet n e s tr he hs _ h := sound_quiet h he (shows_silent hs)
  turn c n s p raw v tr hc hp _ _ h := by
    refine ⟨h.1, ⟨?_, h.2.1.2⟩, h.2.2⟩
    intro q hq
    rcases mem_set hq with rfl | hq
    · exact h.2.1.1 p (List.mem_of_getElem? hp)
    · exact h.2.1.1 q hq
  move c n s p raw x v tr hc hp hx hg h := by
    have h' := sound_goal h (hc.2 raw x hx) (hc.1 ▸ hg)
    refine ⟨h'.1, ⟨?_, h'.2.1.2⟩, h'.2.2⟩
    intro q hq
    rcases mem_set hq with rfl | hq
    · exact good_moveTo (h.2.1.1 p (List.mem_of_getElem? hp)) x v
    · exact h'.2.1.1 q hq
  finish n s tr _ h := by
    obtain ⟨⟨-, -, hb⟩, ⟨-, -, hw⟩⟩ := updated s
    have hps := update_particles s
    generalize s.updateBest.updateWorst = q at hb hw hps
    have hq : Sound g B 0 q.nextIteration tr := by
      refine ⟨h.1, ⟨?_, ?_, ?_⟩, h.2.2⟩
      · intro p hp
        exact h.2.1.1 p (by rw [← hps]; exact hp)
      · intro p hp
        rcases hb p hp with h1 | h1
        · exact h.2.1.2.1 p h1
        · exact (h.2.1.1 p h1).1
      · intro p hp
        rcases hw p hp with h1 | h1
        · exact h.2.1.2.2 p h1
        · exact (h.2.1.1 p h1).1
    refine sound_quiet hq (by simp) ⟨?_, sound_state (n := 0) hq, ?_⟩
    · intro a ha
      obtain ⟨p, hp, rfl⟩ := List.mem_map.1 ha
      exact (hq.2.1.1 p hp).1
    · intro a ha
      obtain ⟨p, hp, rfl⟩ := Option.map_eq_some_iff.1 ha
      exact hq.2.1.2.2 p hp

theorem renew_sound (g : List α → KM σ F64) (B : List α → Prop) : Renew (Bears g B) (Sound (σ := σ) g B) where
  created xs s tr h := sound_quiet h (by simp) trivial
  asked c s raw x v tr hc hx hg h := sound_goal h (hc.2 raw x hx) (hc.1 ▸ hg)
  renewed c s ps tr hc hps h := by
    have hgood : ∀ p ∈ ps, Good tr p := by
      intro p hp
      obtain ⟨raw, x, vel, v, rfl, -, hm⟩ := hps p hp
      exact ⟨hm, hm, hm, notWorse_refl _, notWorse_refl _⟩
    refine ⟨h.1, ⟨hgood, ?_, ?_⟩, h.2.2⟩
    · intro p hp
      exact (hgood p (Verif.PSO.findBest_spec.2 p hp).1).1
    · intro p hp
      exact (hgood p (Verif.PSO.findWorst_spec.2 p hp).1).1

theorem sound_any (g : List α → KM σ F64) (B : List α → Prop) (n : Nat) (s : Swarm α) (tr : List (Ev (List α)))
    (h : Sound g B n s tr) : Sound g B 0 s tr := h

theorem sound_fresh (g : List α → KM σ F64) (B : List α → Prop) {w : St σ (List α) (Swarm α)}
    (h : Fresh ⟨[], none, none, 0⟩ w) : On (Sound g B 0) w := by
  unfold On
  rw [h.1, h.2]
  exact ⟨by intro b e a h; simp at h, ⟨by simp, by simp, by simp⟩, by simp⟩

theorem after_goal (c : Comps σ α) (k : Call σ α) : (after c k).goal = c.goal := by cases k <;> rfl

theorem always_bears {g : List α → KM σ F64} {P : Comps σ α → Prop} {B : List α → Prop}
    (hP : ∀ c, P c → ∀ raw x, Returned (hooks c.postMove raw) x → B x) (ks : List (Call σ α)) :
    ∀ (c : Comps σ α), c.goal = g → Always P c ks → Always (Bears g B) c ks := by
  induction ks with
  | nil => intro c hg hc; exact ⟨hg, hP c hc⟩
  | cons k ks ih =>
    intro c hg hc
    exact ⟨⟨hg, hP c hc.1⟩, ih _ ((after_goal c k).trans hg) hc.2⟩

/-- C88: after any history, whatever panicked in it, every particle's position, personal best and personal worst, the best
and the worst of the swarm carry the value that the goal returned for their point, and a particle's value is between its personal
best and its personal worst; everything that was ever shown to a logger or a stop checker had been evaluated. -/
theorem C88_evaluated (c : Comps σ α) (ks : List (Call σ α)) (w : St σ (List α) (Swarm α)) (h0 : Fresh ⟨[], none, none, 0⟩ w)
    (rs : List (Except Err (Verif.PSO.Ret α))) (c' : Comps σ α) (w' : St σ (List α) (Swarm α))
    (hr : runCaught c ks w = (rs, c', w')) :
    Spec.OnlyEvaluated w'.trace ∧
    (∀ p ∈ w'.mem.particles, Evaluated w'.trace p.sol ∧ Evaluated w'.trace (p.bestCoords, p.bestValue) ∧
      Evaluated w'.trace (p.worstCoords, p.worstValue) ∧ NotWorse p.bestValue p.value ∧ NotWorse p.value p.worstValue) ∧
    (∀ p, w'.mem.best = some p → Evaluated w'.trace p.sol) ∧ (∀ p, w'.mem.worst = some p → Evaluated w'.trace p.sol) ∧
    (∀ x v, Ev.goal x v ∈ w'.trace → Returned (c.goal x) v) := by
  have := (inv_sound c.goal (fun _ => True)).run (renew_sound _ _) (sound_any _ _) ks c w
    (always_bears (by simp) ks c rfl (Caught.PSO.always_true c ks)) (sound_fresh _ _ h0)
  rw [hr] at this
  exact ⟨this.1, this.2.1.1, this.2.1.2.1, this.2.1.2.2, fun x v hm => (this.2.2 x v hm).2⟩

/-- C88: what a call returned, before or after any number of panics, was evaluated. -/
theorem C88_returned (c : Comps σ α) (ks : List (Call σ α)) (w : St σ (List α) (Swarm α)) (h0 : Fresh ⟨[], none, none, 0⟩ w)
    (rs : List (Except Err (Verif.PSO.Ret α))) (c' : Comps σ α) (w' : St σ (List α) (Swarm α))
    (hr : runCaught c ks w = (rs, c', w')) (a : Solution (List α)) (ha : .ok (some (some a)) ∈ rs) :
    Evaluated w'.trace a := by
  obtain ⟨p, tr, ext, h1, h2, h3⟩ := (inv_sound c.goal (fun _ => True)).run_ret (renew_sound _ _) (sound_any _ _) ks c w
    (always_bears (by simp) ks c rfl (Caught.PSO.always_true c ks)) (sound_fresh _ _ h0) (some a) (by rw [hr]; exact ha)
  rw [hr] at h3
  dsimp only at h3
  rw [h3]
  exact (sound_state h1 a h2.symm).append

/-! ## The box -/

section Box

variable {f : Fmt}

/-- `MoveToBoundary` is plugged in as the last hook; nothing else is assumed of the components. -/
def CaughtBoundary (ivs : List (Fl f × Fl f)) (c : Comps σ (Fl f)) : Prop :=
  ∃ pre h, c.postMove = pre ++ [h] ∧ ∀ x, (h x).toM = Hooks.moveToBoundary ivs x

theorem boundary_hooks (ivs : List (Fl f × Fl f)) (hivs : Spec.FiniteIncreasing ivs) (c : Comps σ (Fl f))
    (h : CaughtBoundary ivs c) (raw x : List (Fl f)) (hr : Returned (hooks c.postMove raw) x) : Spec.InBox ivs x := by
  have hb := Props.Swarm.boundary_into ivs hivs c.forget (by
    obtain ⟨pre, k, h1, h2⟩ := h
    refine ⟨pre.map (fun f v => (f v).toM), ?_⟩
    show c.postMove.map _ = _
    rw [h1, List.map_append]
    refine congrArg _ ?_
    show [fun v => (k v).toM] = _
    rw [show (fun v => (k v).toM) = Hooks.moveToBoundary ivs from funext h2])
  obtain ⟨s, s', hr⟩ := hr
  refine hb raw x (Verif.PSO.hooks_ok (s := s) (s' := s') ?_)
  show Verif.PSO.hooks (c.postMove.map (fun f v => (f v).toM)) raw s = _
  rw [← toM_hooks]
  unfold KM.toM
  rw [hr]

/-- C88: with `MoveToBoundary` as the last post-move hook no panic lets a point outside the intervals into the swarm, to the
goal function, to a logger or to a stop checker, or be returned. -/
theorem C88_box (ivs : List (Fl f × Fl f)) (hivs : Spec.FiniteIncreasing ivs) (c : Comps σ (Fl f)) (ks : List (Call σ (Fl f)))
    (w : St σ (List (Fl f)) (Swarm (Fl f))) (h0 : Fresh ⟨[], none, none, 0⟩ w) (hc : Always (CaughtBoundary ivs) c ks)
    (rs : List (Except Err (Verif.PSO.Ret (Fl f)))) (c' : Comps σ (Fl f)) (w' : St σ (List (Fl f)) (Swarm (Fl f)))
    (hr : runCaught c ks w = (rs, c', w')) :
    (∀ p ∈ w'.mem.particles, Spec.InBox ivs p.coordinates ∧ Spec.InBox ivs p.bestCoords ∧ Spec.InBox ivs p.worstCoords) ∧
    (∀ p, w'.mem.best = some p ∨ w'.mem.worst = some p → Spec.InBox ivs p.coordinates) ∧
    (∀ e ∈ w'.trace, ShowsOnly (Spec.InBox ivs) e) ∧ (∀ a, .ok (some (some a)) ∈ rs → Spec.InBox ivs a.1) := by
  have hb := always_bears (g := c.goal) (boundary_hooks ivs hivs) ks c rfl hc
  have hrun := (inv_sound c.goal (Spec.InBox ivs)).run (renew_sound _ _) (sound_any _ _) ks c w hb (sound_fresh _ _ h0)
  rw [hr] at hrun
  obtain ⟨h1, h2, h3⟩ := hrun
  have key : ∀ a, Evaluated w'.trace a → Spec.InBox ivs a.1 := fun a ha => (h3 a.1 a.2 ha).1
  have key2 : ∀ before e after, w'.trace = before ++ e :: after → ∀ a, Evaluated before a → Spec.InBox ivs a.1 := by
    intro before e after hs a ha
    exact (h3 a.1 a.2 (by rw [hs]; exact List.mem_append_left _ ha)).1
  refine ⟨fun p hp => ⟨key _ (h2.1 p hp).1, key _ (h2.1 p hp).2.1, key _ (h2.1 p hp).2.2.1⟩,
    fun p hp => hp.elim (fun hp => key _ (h2.2.1 p hp)) (fun hp => key _ (h2.2.2 p hp)), ?_, ?_⟩
  · intro e he
    obtain ⟨before, after, hs⟩ := List.append_of_mem he
    have hsh := h1 before e after hs
    cases e with
    | goal x v => exact (h3 x v he).1
    | generation ags best worst it =>
      exact ⟨fun a ha => key2 _ _ _ hs a (hsh.1 a ha), fun a ha => key2 _ _ _ hs a (hsh.2.1 a ha),
        fun a ha => key2 _ _ _ hs a (hsh.2.2 a ha)⟩
    | log i k s => exact fun a ha => key2 _ _ _ hs a (hsh a ha)
    | check s b => exact fun a ha => key2 _ _ _ hs a (hsh a ha)
    | _ => trivial
  · intro a ha
    obtain ⟨p, tr, ext, q1, q2, -⟩ := (inv_sound c.goal (Spec.InBox ivs)).run_ret (renew_sound _ _) (sound_any _ _) ks c w hb
      (sound_fresh _ _ h0) (some a) (by rw [hr]; exact ha)
    exact (q1.2.2 _ _ (sound_state q1 a q2.symm)).1

end Box

/-! ## What `next_iterations` leaves behind -/

/-- The memory is what the events since `tr0` make of `s0`. -/
def Replayed (tr0 : List (Ev (List α))) (s0 : Shown (List α)) (n : Nat) (s : Swarm α) (tr : List (Ev (List α))) : Prop :=
  ∃ evs, tr = tr0 ++ evs ∧ (shown s, n) = evs.foldl replay (s0, 0)

theorem replayed_snoc {tr0 : List (Ev (List α))} {s0 : Shown (List α)} {n n' : Nat} {s s' : Swarm α} {tr : List (Ev (List α))}
    {e : Ev (List α)} (h : Replayed tr0 s0 n s tr) (he : (shown s', n') = replay (shown s, n) e) :
    Replayed tr0 s0 n' s' (tr ++ [e]) := by
  obtain ⟨evs, rfl, h2⟩ := h
  refine ⟨evs ++ [e], by rw [List.append_assoc], ?_⟩
  rw [he, List.foldl_append, h2]
  rfl

theorem map_set_same {l : List (Particle α)} {n : Nat} {p q : Particle α} (h : l[n]? = some p) (hs : q.sol = p.sol) :
    (l.set n q).map Particle.sol = l.map Particle.sol := by
  rw [List.map_set, hs]
  apply List.ext_getElem?
  intro i
  rw [List.getElem?_set]
  split
  · rename_i hi
    subst hi
    split
    · simp [h]
    · rename_i hlt
      rw [List.getElem?_eq_none (by omega)]
  · rfl

theorem inv_replayed (tr0 : List (Ev (List α))) (s0 : Shown (List α)) :
    Inv (σ := σ) (fun _ => True) (Replayed (α := α) tr0 s0) where
  log i k s tr h := replayed_snoc h rfl
  check b s tr h := replayed_snoc h rfl
  quiet n e s tr he hs _ h := by
    refine replayed_snoc h ?_
    cases e with
    | goal x v => exact absurd rfl (he x v)
    | generation => exact absurd hs id
    | _ => rfl
  turn c n s p raw v tr _ hp _ _ h := by
    obtain ⟨evs, h1, h2⟩ := h
    refine ⟨evs, h1, ?_⟩
    rw [← h2]
    unfold shown
    dsimp only
    rw [map_set_same (q := p.setVelocity v) hp rfl]
  move c n s p raw x v tr _ hp _ _ h := by
    refine replayed_snoc h ?_
    unfold shown replay
    dsimp only
    rw [List.map_set, moveTo_sol]
  finish n s tr _ h := by
    obtain ⟨evs, rfl, h2⟩ := h
    refine ⟨evs ++ [_], by rw [List.append_assoc], ?_⟩
    rw [List.foldl_append]
    rfl

/-- The number of iterations. -/
def Counted (tr0 : List (Ev (List α))) (k : Nat) (_ : Nat) (s : Swarm α) (tr : List (Ev (List α))) : Prop :=
  ∃ evs, tr = tr0 ++ evs ∧ s.iteration = k + completed evs

theorem counted_snoc {tr0 : List (Ev (List α))} {k n n' : Nat} {s s' : Swarm α} {tr : List (Ev (List α))} {e : Ev (List α)}
    (h : Counted tr0 k n s tr) (he : s'.iteration = s.iteration + completed [e]) : Counted tr0 k n' s' (tr ++ [e]) := by
  obtain ⟨evs, rfl, h2⟩ := h
  refine ⟨evs ++ [e], by rw [List.append_assoc], ?_⟩
  rw [he, h2]
  unfold completed
  rw [List.filter_append, List.length_append]
  omega

theorem inv_counted (tr0 : List (Ev (List α))) (k : Nat) : Inv (σ := σ) (fun _ => True) (Counted (α := α) tr0 k) where
  log i k s tr h := counted_snoc h rfl
  check b s tr h := counted_snoc h rfl
  quiet n e s tr he hs _ h := by
    refine counted_snoc h ?_
    cases e with
    | generation => exact absurd hs id
    | _ => rfl
  turn c n s p raw v tr _ hp _ _ h := h
  move c n s p raw x v tr _ hp _ _ h := counted_snoc h rfl
  finish n s tr _ h := by
    refine counted_snoc h ?_
    show s.updateBest.updateWorst.iteration + 1 = s.iteration + 1
    rw [update_iteration]

theorem of_both {X : Type} {m : KM (St σ (List α) (Swarm α)) X} {w w' : St σ (List α) (Swarm α)} {r : Except Err X}
    {J : Nat → Swarm α → List (Ev (List α)) → Prop} {R : X → St σ (List α) (Swarm α) → Prop}
    (h : (∀ a w', m w = (.ok a, w') → On (J 0) w' ∧ R a w') ∧ (∀ e w', m w = (.error e, w') → Caught.PSO.Some J w'))
    (hr : m w = (r, w')) : ∃ n, J n w'.mem w'.trace := by
  cases r with
  | ok a => exact ⟨0, (h.1 a w' hr).1⟩
  | error e => exact h.2 e w' hr

/-- C88: what `next_iterations` leaves behind, whether it returns or a component panics, wherever: the positions and values,
the best, the worst and the iteration number of the last completed iteration - or those at the beginning of the call, if no
iteration was completed -, except that the first particles (as many as the goal function returned for since) have moved. The
number of the iteration is the old one plus the number of completed iterations. -/
theorem C88_left (c : Comps σ α) (fuel : Nat) (w w' : St σ (List α) (Swarm α)) (r : Except Err (Option (Solution (List α))))
    (hr : nextIterations fuel c w = (r, w')) :
    ∃ evs, w'.trace = w.trace ++ evs ∧ shown w'.mem = (evs.foldl replay (shown w.mem, 0)).1 ∧
      w'.mem.iteration = w.mem.iteration + completed evs := by
  obtain ⟨n, evs, h1, h2⟩ := of_both ((inv_replayed w.trace (shown w.mem)).nextIterations trivial fuel w ⟨[], by simp, rfl⟩) hr
  obtain ⟨-, evs', h3, h4⟩ := of_both ((inv_counted w.trace w.mem.iteration).nextIterations trivial fuel w ⟨[], by simp, rfl⟩) hr
  have : evs' = evs := List.append_cancel_left (h3.symm.trans h1)
  subst this
  exact ⟨evs', h1, by rw [← h2], h4⟩

/-! ## Nothing gets worse -/

/-- The best of the swarm is not worse than in `s0`, the worst is not better. -/
def Kept (s0 : Swarm α) (_ : Nat) (s : Swarm α) (_ : List (Ev (List α))) : Prop :=
  s.particles.length = s0.particles.length ∧
  (∀ b0, s0.best = some b0 → ∃ b, s.best = some b ∧ NotWorse b.value b0.value) ∧
  (∀ b0, s0.worst = some b0 → ∃ b, s.worst = some b ∧ NotWorse b0.value b.value)

theorem inv_kept (s0 : Swarm α) : Inv (σ := σ) (fun _ => True) (Kept (α := α) s0) where
  log i k s tr h := h
  check b s tr h := h
  quiet n e s tr _ _ _ h := h
  turn c n s p raw v tr _ hp _ _ h := ⟨by rw [List.length_set]; exact h.1, h.2⟩
  move c n s p raw x v tr _ hp _ _ h := ⟨by rw [List.length_set]; exact h.1, h.2⟩
  finish n s tr _ h := by
    obtain ⟨⟨-, hb, -⟩, ⟨-, hw, -⟩⟩ := updated s
    have hps := update_particles s
    generalize s.updateBest.updateWorst = q at hb hw hps
    refine ⟨by rw [← h.1, ← hps]; rfl, fun b0 h0 => ?_, fun b0 h0 => ?_⟩
    · obtain ⟨b1, h1, h2⟩ := h.2.1 b0 h0
      obtain ⟨b2, h3, h4⟩ := hb b1 h1
      exact ⟨b2, h3, notWorse_trans h4 h2⟩
    · obtain ⟨b1, h1, h2⟩ := h.2.2 b0 h0
      obtain ⟨b2, h3, h4⟩ := hw b1 h1
      exact ⟨b2, h3, notWorse_trans h2 h4⟩

/-- C88: a call of `next_iterations`, whether it returns or panics, keeps the number of particles, and the best of the swarm
does not get worse (nor the worst better). -/
theorem C88_monotone (c : Comps σ α) (fuel : Nat) (w w' : St σ (List α) (Swarm α)) (r : Except Err (Option (Solution (List α))))
    (hr : nextIterations fuel c w = (r, w')) :
    w'.mem.particles.length = w.mem.particles.length ∧
    (∀ b0, w.mem.best = some b0 → ∃ b, w'.mem.best = some b ∧ NotWorse b.value b0.value) ∧
    (∀ b0, w.mem.worst = some b0 → ∃ b, w'.mem.worst = some b ∧ NotWorse b0.value b.value) := by
  obtain ⟨n, h⟩ := of_both ((inv_kept w.mem).nextIterations trivial fuel w
    ⟨rfl, fun b h => ⟨b, h, notWorse_refl _⟩, fun b h => ⟨b, h, notWorse_refl _⟩⟩) hr
  exact h

/-- Each particle's personal best and worst are those of the start and of its goal calls. -/
def Personals (tr0 : List (Ev (List α))) (s0 : Swarm α) (n : Nat) (s : Swarm α) (tr : List (Ev (List α))) : Prop :=
  ∃ evs, tr = tr0 ++ evs ∧ (evs.foldl turns (0, [])).1 = n ∧ s.particles.length = s0.particles.length ∧
    ∀ (i : Nat) (p0 p : Particle α), s0.particles[i]? = some p0 → s.particles[i]? = some p →
      IsBestOf ((p0.bestCoords, p0.bestValue) :: callsOf i evs) (p.bestCoords, p.bestValue) ∧
      IsWorstOf ((p0.worstCoords, p0.worstValue) :: callsOf i evs) (p.worstCoords, p.worstValue)

theorem callsOf_snoc (i : Nat) (evs : List (Ev (List α))) (e : Ev (List α)) :
    callsOf i (evs ++ [e]) = callsOf i evs ++ (match e with
      | .goal x v => if (evs.foldl turns (0, [])).1 = i then [(x, v)] else []
      | _ => []) := by
  unfold callsOf
  rw [List.foldl_append]
  generalize evs.foldl turns (0, []) = t
  cases e <;> simp only [List.foldl_cons, List.foldl_nil, turns, List.append_nil]
  rw [List.filter_append, List.map_append]
  by_cases h : t.1 = i <;> simp [h]

theorem personals_quiet {tr0 : List (Ev (List α))} {s0 : Swarm α} {n : Nat} {s : Swarm α} {tr : List (Ev (List α))}
    {e : Ev (List α)} (h : Personals tr0 s0 n s tr) (he : ∀ x v, e ≠ .goal x v)
    (hg : ∀ a b c d, e ≠ .generation a b c d) : Personals tr0 s0 n s (tr ++ [e]) := by
  obtain ⟨evs, rfl, h2, h3, h4⟩ := h
  refine ⟨evs ++ [e], by rw [List.append_assoc], ?_, h3, ?_⟩
  · rw [List.foldl_append, ← h2]
    cases e <;> first | rfl | exact absurd rfl (he _ _) | exact absurd rfl (hg _ _ _ _)
  · intro i p0 p hp0 hp
    rw [callsOf_snoc]
    cases e <;> first | exact absurd rfl (he _ _) | simpa using h4 i p0 p hp0 hp

theorem inv_personals (tr0 : List (Ev (List α))) (s0 : Swarm α) : Inv (σ := σ) (fun _ => True) (Personals (α := α) tr0 s0) where
  log i k s tr h := personals_quiet h (by simp) (by simp)
  check b s tr h := personals_quiet h (by simp) (by simp)
  quiet n e s tr he hs _ h := by
    refine personals_quiet h he ?_
    rintro _ _ _ _ rfl
    exact absurd hs id
  turn c n s p raw v tr _ hp _ _ h := by
    obtain ⟨evs, h1, h2, h3, h4⟩ := h
    refine ⟨evs, h1, h2, by rw [List.length_set]; exact h3, ?_⟩
    intro i p0 q hp0 hq
    rw [List.getElem?_set] at hq
    split at hq
    · rename_i hi
      subst hi
      split at hq
      · cases hq
        exact h4 n p0 p hp0 hp
      · cases hq
    · exact h4 i p0 q hp0 hq
  move c n s p raw x v tr _ hp _ _ h := by
    obtain ⟨evs, rfl, h2, h3, h4⟩ := h
    refine ⟨evs ++ [.goal x v], by rw [List.append_assoc], ?_, by rw [List.length_set]; exact h3, ?_⟩
    · rw [List.foldl_append, ← h2]; rfl
    · intro i p0 q hp0 hq
      rw [callsOf_snoc, h2]
      rw [List.getElem?_set] at hq
      split at hq
      · rename_i hi
        subst hi
        split at hq
        · cases hq
          obtain ⟨h5, h6⟩ := h4 n p0 p hp0 hp
          simpa using personal_moveTo (x := x) (v := v) h5 h6
        · cases hq
      · rename_i hi
        simpa [hi] using h4 i p0 q hp0 hq
  finish n s tr _ h := by
    obtain ⟨evs, rfl, h2, h3, h4⟩ := h
    have hps : s.updateBest.updateWorst.nextIteration.particles = s.particles := update_particles s
    refine ⟨evs ++ [_], by rw [List.append_assoc], ?_, by rw [hps]; exact h3, ?_⟩
    · rw [List.foldl_append]; rfl
    · intro i p0 p hp0 hp
      rw [callsOf_snoc]
      rw [hps] at hp
      simpa using h4 i p0 p hp0 hp

/-- C88: personal memories survive a panic. Whether `next_iterations` returns or panics, each particle's personal best is the
best of its old personal best and its goal calls during this call, and its personal worst the worst of these. -/
theorem C88_personal (c : Comps σ α) (fuel : Nat) (w w' : St σ (List α) (Swarm α)) (r : Except Err (Option (Solution (List α))))
    (hr : nextIterations fuel c w = (r, w')) :
    ∃ evs, w'.trace = w.trace ++ evs ∧
    ∀ (i : Nat) (p0 p : Particle α), w.mem.particles[i]? = some p0 → w'.mem.particles[i]? = some p →
      IsBestOf ((p0.bestCoords, p0.bestValue) :: callsOf i evs) (p.bestCoords, p.bestValue) ∧
      IsWorstOf ((p0.worstCoords, p0.worstValue) :: callsOf i evs) (p.worstCoords, p.worstValue) := by
  obtain ⟨n, evs, h1, -, -, h2⟩ := of_both ((inv_personals w.trace w.mem).nextIterations trivial fuel w (by
    refine ⟨[], by simp, rfl, rfl, ?_⟩
    intro i p0 p h0 h
    rw [h0] at h
    cases h
    exact ⟨⟨by simp, by simp [callsOf, notWorse_refl]⟩, ⟨by simp, by simp [callsOf, notWorse_refl]⟩⟩)) hr
  exact ⟨evs, h1, h2⟩

/-! ## Extremes -/

/-- The reported best is not worse than any of the reported particles, the worst not better. -/
def Covers (e : Ev (List α)) : Prop :=
  ∀ ags best worst it, e = .generation ags best worst it → ags ≠ [] →
    (∃ b, best = some b ∧ ∀ a ∈ ags, NotWorse b.2 a.2) ∧ (∃ b, worst = some b ∧ ∀ a ∈ ags, NotWorse a.2 b.2)

theorem inv_covers : Inv (σ := σ) (α := α) (fun _ => True) (fun _ _ tr => ∀ e ∈ tr, Covers e) ∧
    Renew (σ := σ) (α := α) (fun _ => True) (fun _ _ tr => ∀ e ∈ tr, Covers e) := by
  have snoc : ∀ (e : Ev (List α)) (tr : List (Ev (List α))), Covers e → (∀ e ∈ tr, Covers e) → ∀ e' ∈ tr ++ [e], Covers e' := by
    intro e tr he h e' he'
    rcases List.mem_append.1 he' with h' | h'
    · exact h e' h'
    · rw [List.mem_singleton] at h'; exact h' ▸ he
  have triv : ∀ (e : Ev (List α)) (tr : List (Ev (List α))), (∀ a b c d, e ≠ .generation a b c d) → (∀ e ∈ tr, Covers e) →
      ∀ e' ∈ tr ++ [e], Covers e' :=
    fun e tr hn h => snoc e tr (fun a b c d he => absurd he (hn a b c d)) h
  refine ⟨⟨?_, ?_, ?_, ?_, ?_, ?_⟩, ⟨?_, ?_, ?_⟩⟩
  · intro i k s tr h; exact triv _ _ (by simp) h
  · intro b s tr h; exact triv _ _ (by simp) h
  · intro n e s tr _ hs _ h
    exact triv _ _ (by rintro _ _ _ _ rfl; exact absurd hs id) h
  · intro c n s p raw v tr _ _ _ _ h; exact h
  · intro c n s p raw x v tr _ _ _ _ h; exact triv _ _ (by simp) h
  · intro n s tr _ h
    obtain ⟨⟨hb, -, -⟩, ⟨hw, -, -⟩⟩ := updated s
    have hps := update_particles s
    generalize s.updateBest.updateWorst = q at hb hw hps
    refine snoc _ _ ?_ h
    rintro ags best worst it he hne
    cases he
    have hag : Verif.PSO.agents q.nextIteration = s.particles.map Particle.sol := by rw [← hps]; rfl
    have hne : s.particles ≠ [] := by
      intro h0; apply hne; rw [hag, h0]; rfl
    obtain ⟨b, hb1, hb2⟩ := hb hne
    obtain ⟨v, hv1, hv2⟩ := hw hne
    rw [hag]
    refine ⟨⟨b.sol, by simp [Swarm.state, hb1], ?_⟩, ⟨v.sol, by simp [hv1], ?_⟩⟩
    · intro a ha
      obtain ⟨p, hp, rfl⟩ := List.mem_map.1 ha
      exact hb2 p hp
    · intro a ha
      obtain ⟨p, hp, rfl⟩ := List.mem_map.1 ha
      exact hv2 p hp
  · intro xs s tr h; exact triv _ _ (by simp) h
  · intro c s raw x v tr _ _ _ h; exact triv _ _ (by simp) h
  · intro c s ps tr _ _ h; exact h

/-- C88: whatever panicked before, a completed iteration reports a best that is not worse than any current particle, and a worst
that is not better. -/
theorem C88_extremes (c : Comps σ α) (ks : List (Call σ α)) (w : St σ (List α) (Swarm α)) (h0 : Fresh ⟨[], none, none, 0⟩ w)
    (ags : List (Solution (List α))) (best worst : Option (Solution (List α))) (it : Nat)
    (hm : Ev.generation ags best worst it ∈ (runCaught c ks w).2.2.trace) (hne : ags ≠ []) :
    (∃ b, best = some b ∧ ∀ a ∈ ags, NotWorse b.2 a.2) ∧ (∃ b, worst = some b ∧ ∀ a ∈ ags, NotWorse a.2 b.2) :=
  inv_covers.1.run inv_covers.2 (fun _ _ _ h => h) ks c w (Caught.PSO.always_true c ks)
    (by unfold On; rw [h0.2]; simp) _ hm _ _ _ _ rfl hne

/-! ## `find_min` -/

/-- `f` does not look at the swarm and does not change it; it emits events of the initialization only. -/
def Blind (Q : X → List (Ev (List α)) → Prop) (f : KM (St σ (List α) (Swarm α)) X) : Prop :=
  ∀ u tr, ∃ r u' evs, (∀ e ∈ evs, Initial e) ∧ (∀ a, r = .ok a → Q a evs) ∧
    ∀ m, f ⟨u, tr, m⟩ = (r, ⟨u', tr ++ evs, m⟩)

theorem Blind.bind {X Y : Type} {Q : X → List (Ev (List α)) → Prop} {R : X → Y → List (Ev (List α)) → Prop}
    {S : Y → List (Ev (List α)) → Prop} {f : KM (St σ (List α) (Swarm α)) X} {g : X → KM (St σ (List α) (Swarm α)) Y}
    (hf : Blind Q f) (hg : ∀ a, Blind (R a) (g a)) (hs : ∀ a b e1 e2, Q a e1 → R a b e2 → S b (e1 ++ e2)) :
    Blind S (f >>= g) := by
  intro u tr
  obtain ⟨r, u1, e1, h1, h2, h3⟩ := hf u tr
  cases r with
  | error e =>
    refine ⟨.error e, u1, e1, h1, by simp, fun m => ?_⟩
    rw [KM.bind_run, h3]
  | ok a =>
    obtain ⟨r', u2, e2, k1, k2, k3⟩ := hg a u1 (tr ++ e1)
    refine ⟨r', u2, e1 ++ e2, ?_, fun b hb => hs a b _ _ (h2 a rfl) (k2 b hb), fun m => ?_⟩
    · intro e he
      exact (List.mem_append.1 he).elim (h1 e) (k1 e)
    · rw [KM.bind_run, h3]
      dsimp only
      rw [k3, List.append_assoc]

theorem blind_lift {X : Type} (m : KM σ X) : Blind (α := α) (fun _ evs => evs = []) (lift m) := by
  intro u tr
  refine ⟨(m u).1, (m u).2, [], by simp, fun _ _ => rfl, fun s => ?_⟩
  rw [List.append_nil]
  rfl

theorem blind_emit (e : Ev (List α)) (h : Initial e) : Blind (σ := σ) (fun _ evs => evs = [e]) (emit e) := by
  intro u tr
  exact ⟨.ok (), u, [e], by simpa using h, fun _ _ => rfl, fun s => rfl⟩

theorem blind_pure {X : Type} (a : X) : Blind (σ := σ) (α := α) (fun b evs => b = a ∧ evs = []) (pure a) := by
  intro u tr
  exact ⟨.ok a, u, [], by simp, fun b hb => ⟨by cases hb; rfl, rfl⟩, fun s => by rw [List.append_nil]; rfl⟩

theorem blind_assert (b : Bool) : Blind (σ := σ) (α := α) (fun _ evs => evs = []) (KM.assert b) := by
  intro u tr
  cases b
  · exact ⟨.error .assert, u, [], by simp, fun _ _ => rfl, fun s => by rw [List.append_nil]; rfl⟩
  · exact ⟨.ok (), u, [], by simp, fun _ _ => rfl, fun s => by rw [List.append_nil]; rfl⟩

theorem blind_mapL {X Y : Type} {f : X → KM (St σ (List α) (Swarm α)) Y} {Q : Y → List (Ev (List α)) → Prop}
    {S : List Y → List (Ev (List α)) → Prop} (h : ∀ a, Blind Q (f a)) (h0 : S [] [])
    (hs : ∀ b bs e1 e2, Q b e1 → S bs e2 → S (b :: bs) (e1 ++ e2)) (as : List X) : Blind S (KM.mapL f as) := by
  induction as with
  | nil =>
    intro u tr
    obtain ⟨r, u', evs, h1, h2, h3⟩ := blind_pure (σ := σ) (α := α) ([] : List Y) u tr
    exact ⟨r, u', evs, h1, fun a ha => by obtain ⟨rfl, rfl⟩ := h2 a ha; exact h0, h3⟩
  | cons a as ih =>
    refine Blind.bind (h a) (R := fun b bs evs => ∃ cs, bs = b :: cs ∧ S cs evs) (fun b => ?_) ?_
    · refine Blind.bind ih (fun bs => blind_pure (b :: bs)) ?_
      rintro bs cs e1 e2 h1 ⟨rfl, rfl⟩
      exact ⟨bs, rfl, by rwa [List.append_nil]⟩
    · rintro b bs e1 e2 h1 ⟨cs, rfl, h2⟩
      exact hs _ _ _ _ h1 h2

theorem goalsOf_append (a b : List (Ev (List α))) : Spec.goalsOf (a ++ b) = Spec.goalsOf a ++ Spec.goalsOf b := by
  simp [Spec.goalsOf]

theorem km_assoc {ω X Y Z : Type} (m : KM ω X) (f : X → KM ω Y) (g : Y → KM ω Z) :
    (m >>= f) >>= g = m >>= fun a => f a >>= g := by
  funext w
  simp only [KM.bind_run]
  rcases m w with ⟨_ | a, w'⟩ <;> rfl

/-- Everything in `renew_swarm` before the swarm is touched. -/
def making (c : Comps σ α) : KM (St σ (List α) (Swarm α)) (List (Particle α)) := do
  let coordinates ← lift c.coordInit
  emit (.created coordinates)
  let velocity ← lift c.velInit
  KM.assert (coordinates.length == velocity.length)
  let coordinates ← KM.mapL (fun raw => do
    let x ← lift (hooks c.postMove raw)
    emit (.moved raw x)
    pure x) coordinates
  KM.mapL (fun (cs : List α × List α) => do
    let v ← lift (c.goal cs.1)
    emit (.goal cs.1 v)
    pure (Particle.new cs.1 cs.2 v)) (coordinates.zip velocity)

theorem making_blind (c : Comps σ α) :
    Blind (fun ps evs => Spec.goalsOf evs = ps.map Particle.sol) (making c) := by
  unfold making
  refine Blind.bind (blind_lift _) (R := fun _ ps evs => Spec.goalsOf evs = ps.map Particle.sol) (fun raws => ?_)
    (by rintro _ _ _ _ rfl h; exact h)
  refine Blind.bind (blind_emit _ trivial) (R := fun _ ps evs => Spec.goalsOf evs = ps.map Particle.sol) (fun _ => ?_)
    (by rintro _ _ _ _ rfl h; exact h)
  refine Blind.bind (blind_lift _) (R := fun _ ps evs => Spec.goalsOf evs = ps.map Particle.sol) (fun vels => ?_)
    (by rintro _ _ _ _ rfl h; exact h)
  refine Blind.bind (blind_assert _) (R := fun _ ps evs => Spec.goalsOf evs = ps.map Particle.sol) (fun _ => ?_)
    (by rintro _ _ _ _ rfl h; exact h)
  refine Blind.bind (blind_mapL (Q := fun _ evs => Spec.goalsOf evs = []) (S := fun _ evs => Spec.goalsOf evs = []) (fun raw => ?_)
    rfl ?_ _) (R := fun _ ps evs => Spec.goalsOf evs = ps.map Particle.sol) (fun coords => ?_) ?_
  · refine Blind.bind (blind_lift _) (R := fun _ _ evs => Spec.goalsOf evs = []) (fun x => ?_) (by rintro _ _ _ _ rfl h; exact h)
    refine Blind.bind (blind_emit _ trivial) (fun _ => blind_pure x) ?_
    rintro _ _ _ _ rfl ⟨rfl, rfl⟩
    rfl
  · intro _ _ e1 e2 h1 h2
    rw [goalsOf_append, h1, h2]; rfl
  · refine blind_mapL (Q := fun p evs => Spec.goalsOf evs = [Particle.sol p]) (fun cs => ?_) rfl ?_ _
    · refine Blind.bind (blind_lift _) (R := fun _ p evs => Spec.goalsOf evs = [Particle.sol p]) (fun v => ?_)
        (by rintro _ _ _ _ rfl h; exact h)
      refine Blind.bind (blind_emit _ trivial) (fun _ => blind_pure _) ?_
      rintro _ _ _ _ rfl ⟨rfl, rfl⟩
      rfl
    · intro p ps e1 e2 h1 h2
      rw [goalsOf_append, h1, h2]; rfl
  · intro _ _ e1 e2 h1 h2
    rw [goalsOf_append, h1, h2]; rfl

theorem findMin_eq (fuel : Nat) (c : Comps σ α) : findMin fuel c = (do
    let ps ← making c
    change (fun s => Swarm.replaceParticles (Swarm.reset s) ps)
    (mem >>= fun p => Caught.callLoggers .start (Swarm.state p) 0 c.loggers)
    nextIterations fuel c) := by
  have e : findMin fuel c = (do
      renewSwarm c
      (mem >>= fun p => Caught.callLoggers .start (Swarm.state p) 0 c.loggers)
      nextIterations fuel c) := by
    unfold findMin
    simp only [km_assoc]
  have e2 : renewSwarm c = (do
      let ps ← making c
      change (fun s => Swarm.replaceParticles (Swarm.reset s) ps)) := by
    unfold renewSwarm making
    simp only [km_assoc]
    rfl
  rw [e, e2]
  simp only [km_assoc]

/-- The best and the worst of a new swarm. -/
theorem new_swarm (ps : List (Particle α)) (s : Swarm α) :
    (Swarm.replaceParticles (Swarm.reset s) ps).iteration = 0 ∧
    (∀ b, (Swarm.replaceParticles (Swarm.reset s) ps).best.map Particle.sol = some b → IsBestOf (ps.map Particle.sol) b) ∧
    (∀ b, (Swarm.replaceParticles (Swarm.reset s) ps).worst.map Particle.sol = some b → IsWorstOf (ps.map Particle.sol) b) := by
  refine ⟨rfl, fun b hb => ?_, fun b hb => ?_⟩
  · obtain ⟨p, hp, rfl⟩ := Option.map_eq_some_iff.1 hb
    obtain ⟨h1, h2⟩ := (Verif.PSO.findBest_spec (ps := ps)).2 p hp
    exact ⟨List.mem_map.2 ⟨p, h1, rfl⟩, fun a ha => by obtain ⟨q, hq, rfl⟩ := List.mem_map.1 ha; exact h2 q hq⟩
  · obtain ⟨p, hp, rfl⟩ := Option.map_eq_some_iff.1 hb
    obtain ⟨h1, h2⟩ := (Verif.PSO.findWorst_spec (ps := ps)).2 p hp
    exact ⟨List.mem_map.2 ⟨p, h1, rfl⟩, fun a ha => by obtain ⟨q, hq, rfl⟩ := List.mem_map.1 ha; exact h2 q hq⟩

/-- C88: what `find_min` leaves behind. Either it panics while it is making the new swarm: then the old swarm is untouched - so
`next_iterations` continues the old run - and nobody was told anything. Or the new swarm is complete: one particle for each goal
call, their best and worst, iteration 0; and from then on everything is as for `next_iterations`. -/
theorem C88_find_min (c : Comps σ α) (fuel : Nat) (w w' : St σ (List α) (Swarm α)) (r : Except Err (Option (Solution (List α))))
    (hr : findMin fuel c w = (r, w')) :
    (∃ e evs, r = .error e ∧ w'.mem = w.mem ∧ w'.trace = w.trace ++ evs ∧ ∀ e ∈ evs, Initial e) ∨
    (∃ evs1 evs2 best worst, w'.trace = w.trace ++ evs1 ++ evs2 ∧ (∀ e ∈ evs1, Initial e) ∧
      (∀ b, best = some b → IsBestOf (Spec.goalsOf evs1) b) ∧ (∀ b, worst = some b → IsWorstOf (Spec.goalsOf evs1) b) ∧
      (Spec.goalsOf evs1 ≠ [] → best.isSome ∧ worst.isSome) ∧
      shown w'.mem = (evs2.foldl replay (⟨Spec.goalsOf evs1, best, worst, 0⟩, 0)).1 ∧
      w'.mem.iteration = completed evs2) := by
  rw [findMin_eq, KM.bind_run] at hr
  obtain ⟨r1, u1, evs1, h1, h2, h3⟩ := making_blind c w.user w.trace
  have h4 := h3 w.mem
  have hw : (⟨w.user, w.trace, w.mem⟩ : St σ (List α) (Swarm α)) = w := rfl
  rw [hw] at h4
  rw [h4] at hr
  cases r1 with
  | error e =>
    obtain ⟨rfl, rfl⟩ := Prod.mk.inj hr
    exact .inl ⟨e, evs1, rfl, rfl, rfl, h1⟩
  | ok ps =>
    right
    dsimp only at hr
    rw [KM.bind_run] at hr
    simp only [change, KM.modify] at hr
    obtain ⟨hi, hb0, hwo0⟩ := new_swarm ps w.mem
    have hag : shown (Swarm.replaceParticles (Swarm.reset w.mem) ps) =
        ⟨ps.map Particle.sol, (Verif.PSO.findBest ps).map Particle.sol, (Verif.PSO.findWorst ps).map Particle.sol, 0⟩ := rfl
    have hne : ps.map Particle.sol ≠ [] → ((Verif.PSO.findBest ps).map Particle.sol).isSome ∧
        ((Verif.PSO.findWorst ps).map Particle.sol).isSome := by
      intro hne
      have hps : ps ≠ [] := by rintro rfl; exact hne rfl
      constructor
      · rcases hf : Verif.PSO.findBest ps with _ | b
        · exact absurd ((Verif.PSO.findBest_spec (ps := ps)).1.1 hf) hps
        · rfl
      · rcases hf : Verif.PSO.findWorst ps with _ | b
        · exact absurd ((Verif.PSO.findWorst_spec (ps := ps)).1.1 hf) hps
        · rfl
    have hb : ∀ b, (Verif.PSO.findBest ps).map Particle.sol = some b → IsBestOf (ps.map Particle.sol) b := hb0
    have hwo : ∀ b, (Verif.PSO.findWorst ps).map Particle.sol = some b → IsWorstOf (ps.map Particle.sol) b := hwo0
    clear hb0 hwo0
    generalize Swarm.replaceParticles (Swarm.reset w.mem) ps = s1 at *
    have ha := KM.Tri.bind ((inv_replayed (σ := σ) (w.trace ++ evs1) (shown s1)).loggers (c := c) .start)
      (fun _ => (inv_replayed (w.trace ++ evs1) (shown s1)).nextIterations (c := c) trivial fuel)
    have hk := KM.Tri.bind ((inv_counted (σ := σ) (w.trace ++ evs1) s1.iteration).loggers (c := c) .start)
      (fun _ => (inv_counted (w.trace ++ evs1) s1.iteration).nextIterations (c := c) trivial fuel)
    obtain ⟨n, evs, k1, k2⟩ := of_both (ha ⟨u1, w.trace ++ evs1, s1⟩ ⟨[], by simp, rfl⟩) hr
    obtain ⟨-, evs', k3, k4⟩ := of_both (hk ⟨u1, w.trace ++ evs1, s1⟩ ⟨[], by simp, rfl⟩) hr
    have : evs' = evs := List.append_cancel_left (k3.symm.trans k1)
    subst this
    have hg := h2 ps rfl
    refine ⟨evs1, evs', (Verif.PSO.findBest ps).map Particle.sol, (Verif.PSO.findWorst ps).map Particle.sol, k1, h1, ?_, ?_, ?_,
      ?_, ?_⟩
    rotate_left 3
    · rw [hag, ← hg] at k2
      rw [← k2]
    · rw [k4, hi, Nat.zero_add]
    · rw [hg]; exact hb
    · rw [hg]; exact hwo
    · rw [hg]; exact hne

/-- C88: `find_min` does what it would do on any other swarm, whatever the caught panics have left behind: it returns or panics
in the same way, and leaves the same behind - except that, if it panics before the new swarm is complete, the old one is
still there. -/
theorem C88_restart (c : Comps σ α) (fuel : Nat) (w : St σ (List α) (Swarm α)) (m : Swarm α) :
    (findMin fuel c { w with mem := m }).1 = (findMin fuel c w).1 ∧
    (findMin fuel c { w with mem := m }).2.user = (findMin fuel c w).2.user ∧
    (findMin fuel c { w with mem := m }).2.trace = (findMin fuel c w).2.trace ∧
    ((findMin fuel c { w with mem := m }).2.mem = (findMin fuel c w).2.mem ∨
      ((findMin fuel c w).1.isOk = false ∧ (findMin fuel c { w with mem := m }).2.mem = m ∧
        (findMin fuel c w).2.mem = w.mem)) := by
  rw [findMin_eq]
  obtain ⟨r1, u1, evs1, h1, h2, h3⟩ := making_blind c w.user w.trace
  have h4 := h3 w.mem
  have hw : (⟨w.user, w.trace, w.mem⟩ : St σ (List α) (Swarm α)) = w := rfl
  rw [hw] at h4
  simp only [KM.bind_run (m := making c)]
  have h5 : making c { w with mem := m } = _ := h3 m
  rw [h4, h5]
  cases r1 with
  | error e => exact ⟨rfl, rfl, rfl, .inr ⟨rfl, rfl, rfl⟩⟩
  | ok ps =>
    dsimp only
    exact ⟨rfl, rfl, rfl, .inl rfl⟩

/-- C49: with initializers that return different numbers of vectors `find_min` panics, and what it leaves behind shows that
nothing else happened: no hook and no goal function was called, and the swarm is untouched. -/
theorem C49_mismatch_effects (c : Comps σ α) (fuel : Nat) (w : St σ (List α) (Swarm α)) (xs vs : List (List α)) (u1 u2 : σ)
    (h1 : c.coordInit w.user = (.ok xs, u1)) (h2 : c.velInit u1 = (.ok vs, u2)) (hne : xs.length ≠ vs.length) :
    findMin fuel c w = (.error .assert, ⟨u2, w.trace ++ [.created xs], w.mem⟩) := by
  have hr : renewSwarm c w = (.error .assert, ⟨u2, w.trace ++ [.created xs], w.mem⟩) := by
    have l1 : (lift c.coordInit : KM (St σ (List α) (Swarm α)) _) w = (.ok xs, { w with user := u1 }) := by
      unfold lift; rw [h1]
    have l2 : (lift c.velInit : KM (St σ (List α) (Swarm α)) _) ⟨u1, w.trace ++ [.created xs], w.mem⟩ =
        (.ok vs, ⟨u2, w.trace ++ [.created xs], w.mem⟩) := by
      unfold lift; dsimp only; rw [h2]
    have l3 : (emit (.created xs) : KM (St σ (List α) (Swarm α)) Unit) { w with user := u1 } =
        (.ok (), ⟨u1, w.trace ++ [.created xs], w.mem⟩) := rfl
    unfold renewSwarm
    rw [KM.bind_run, l1]
    dsimp only
    rw [KM.bind_run, l3]
    dsimp only
    rw [KM.bind_run, l2]
    dsimp only
    rw [KM.bind_run]
    unfold KM.assert
    rw [if_neg (by simpa using hne)]
    rfl
  unfold findMin
  rw [KM.bind_run, hr]

/-! ## Examples -/

/-- The demo swarm with a goal function that panics when the script has just this many numbers left. -/
def caughtDemo (n : Nat) : Comps (List Nat) F64 :=
  { keep SwarmDemo.opt.comps with
    postMove := [fun x => .ofM (Hooks.moveToBoundary SwarmDemo.ivs x)]
    goal := fun x s => if s.length = n then (.error .user, s ++ [7]) else (.ok (TestFunc.paraboloid x), s) }

def caughtWorld : St (List Nat) (List F64) (Swarm F64) := ⟨SwarmDemo.script, [], ⟨[], none, none, 0⟩⟩

/-- It meets the hypotheses of `C88_box` and of the theorems about all histories. -/
example (n : Nat) : CaughtBoundary SwarmDemo.ivs (caughtDemo n) ∧ Spec.FiniteIncreasing SwarmDemo.ivs ∧
    Fresh ⟨[], none, none, 0⟩ caughtWorld := by
  refine ⟨⟨[], _, rfl, fun x => KM.toM_ofM _⟩, ?_, rfl, rfl⟩
  unfold Spec.FiniteIncreasing SwarmDemo.ivs
  simp only [List.mem_singleton, forall_eq]
  decide +kernel

def panicked : Except Err α → Bool
  | .error .user => true
  | _ => false

/-- One dimension, two particles at 0 and 10, every velocity is 1, the goal is the square of the distance to 1. The fourth goal
call panics, that is that of the second particle in the first iteration. -/
def flaky : Comps Nat F64 where
  goal x n := (if n = 3 then .error .user else .ok (match x with
    | [a] => Fl.mul (Fl.sub a Fl.one) (Fl.sub a Fl.one)
    | _ => Fl.zero), n + 1)
  stop s := pure (decide (1 ≤ s.iteration))
  coordInit := pure [[Fl.zero], [Fl.ofNat 10]]
  velInit := pure [[Fl.zero], [Fl.zero]]
  velCalc _ _ := pure [Fl.one]
  postVel := []
  postMove := []
  loggers := []

/-- Initializers of two and of one vector. -/
example : ∃ u, findMin 3 { flaky with velInit := pure [[Fl.zero]] } ⟨0, [], ⟨[], none, none, 0⟩⟩ =
    (.error .assert, u) := ⟨_, C49_mismatch_effects _ 3 _ [[Fl.zero], [Fl.ofNat 10]] [[Fl.zero]] 0 0 rfl rfl (by decide)⟩

def flakyWorld : St Nat (List F64) (Swarm F64) := ⟨0, [], ⟨[], none, none, 0⟩⟩

/-- C88: the natural expectation that the optimizer returns the best point evaluated in the run fails when a panic is caught and
the run continued: here the goal function returned 0 at the point 1 before the panic; the particle moved on before the swarm's
best was updated, and the result of `next_iterations` has the value 1. The particle's personal best still is that point. After
the panic the particle whose goal call panicked has its new velocity but its old position. -/
theorem C88_lost_best_witness :
    (let r := runCaught flaky [.findMin 2] flakyWorld
     (r.1.map panicked == [true] && r.2.2.mem.iteration == 0 &&
       r.2.2.mem.particles.map (·.coordinates) == [[Fl.one], [Fl.ofNat 10]] &&
       r.2.2.mem.particles.map (·.velocity) == [[Fl.one], [Fl.one]]) = true) ∧
    (let r := runCaught flaky [.findMin 2, .nextIterations 2] flakyWorld
     (r.1.map panicked == [true, false] && r.2.2.mem.iteration == 1 &&
       Spec.goalsOf r.2.2.trace == [([Fl.zero], Fl.one), ([Fl.ofNat 10], Fl.ofNat 81), ([Fl.one], Fl.zero),
         ([Fl.ofNat 2], Fl.one), ([Fl.ofNat 11], Fl.ofNat 100)] &&
       r.2.2.mem.best.map Particle.sol == some ([Fl.zero], Fl.one) &&
       r.2.2.mem.particles.map (fun p => (p.bestCoords, p.bestValue)) == [([Fl.one], Fl.zero), ([Fl.ofNat 10], Fl.ofNat 81)]) =
      true) := by
  decide +kernel

/-- Two calls of `find_min`, the first of which panics in the first iteration: the second one returns. A `find_min` whose goal
function panics for the second of the new particles leaves the old swarm. -/
example :
    (let r := runCaught flaky [.findMin 2, .findMin 2] flakyWorld
     (r.1.map panicked == [true, false] && r.2.2.mem.iteration == 1) = true) ∧
    (let r := runCaught flaky [.findMin 2] ⟨2, [], ⟨[], none, none, 5⟩⟩
     (r.1.map panicked == [true] && r.2.2.mem.iteration == 5 && Spec.goalsOf r.2.2.trace == [([Fl.zero], Fl.one)]) = true) := by
  decide +kernel

/-- The demo swarm of the library's components: the goal function panics in the second iteration; the caller catches the panic,
`next_iterations` does the iterations that are missing. -/
example :
    let r := runCaught (caughtDemo 12) [.findMin 4, .nextIterations 4] caughtWorld
    (r.1.map panicked == [true, false] && r.2.2.mem.iteration == 2) = true := by
  decide +kernel

end Verif.Props.SwarmCaught
