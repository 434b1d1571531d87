import Verif.Spec.Checked
import Verif.Proofs.Private
import Verif.Proofs.SwarmFuel
import Verif.Proofs.GeneticStagnate

/-!
# The first run with a new `GoalNotChange` does not overflow
-/

set_option linter.unusedSectionVars false

namespace Verif

open Spec Stop

variable {σ τ T : Type}

/-- As long as the recorded iteration is not in the future, the two stop checkers do the same, and it stays so. -/
def Agree (L : Lens σ GNC) (s1 s2 : AlgState T → M σ Bool) : Prop :=
  ∀ st u, (L.get u).changeIter ≤ st.iteration → s1 st u = s2 st u ∧
    ∀ b u', s1 st u = .ok (b, u') → (L.get u').changeIter ≤ st.iteration

theorem gnc_agree (L : Lens σ GNC) (p q : Profile) :
    Agree (T := T) L (fun s => L.zoom (goalNotChange p s)) (fun s => L.zoom (goalNotChange q s)) := by
  intro st u h
  obtain ⟨best, it⟩ := st
  simp only at h ⊢
  have key : ∀ p, ∃ b t, goalNotChange p (⟨best, it⟩ : AlgState T) (L.get u) = .ok (b, t) ∧ t.changeIter ≤ it ∧
      goalNotChange q (⟨best, it⟩ : AlgState T) (L.get u) = .ok (b, t) := by
    intro p
    cases best with
    | none => exact ⟨false, L.get u, rfl, h, rfl⟩
    | some bg =>
      obtain ⟨x, g⟩ := bg
      generalize hc : (if (L.get u).delta.lt (g.sub (L.get u).oldGoal).abs = true then
        { L.get u with oldGoal := g, changeIter := it } else L.get u) = c
      have hle : c.changeIter ≤ it := by
        rw [← hc]; split
        · exact Nat.le_refl _
        · exact h
      have hrun : ∀ p, goalNotChange p (⟨some (x, g), it⟩ : AlgState T) (L.get u) =
          .ok (decide (c.maxIter < it - c.changeIter), c) := by
        intro p
        unfold goalNotChange
        refine M.bind_eq_ok.2 ⟨L.get u, L.get u, rfl, ?_⟩
        simp only
        rw [hc]
        refine M.bind_eq_ok.2 ⟨(), c, rfl, M.bind_eq_ok.2 ⟨it - c.changeIter, c, M.ofExcept_eq_ok.2 ⟨?_, rfl⟩, rfl⟩⟩
        unfold usizeSub
        rw [if_pos hle]
      exact ⟨_, c, hrun p, hle, hrun q⟩
  obtain ⟨b, t, h1, h2, h3⟩ := key p
  refine ⟨by simp only [Lens.zoom, h1, h3], ?_⟩
  intro b' u' hr
  simp only [Lens.zoom, h1] at hr
  cases hr
  rw [L.get_set]; exact h2

theorem agree_any {L : Lens σ GNC} : ∀ {l1 l2 : List (AlgState T → M σ Bool)}, List.Forall₂ (Agree L) l1 l2 →
    Agree L (any l1) (any l2) := by
  intro l1 l2 h
  induction h with
  | nil => intro st u hu; refine ⟨rfl, fun b u' hr => ?_⟩; rw [← (M.pure_eq_ok.1 hr).2]; exact hu
  | cons h1 _ ih =>
    intro st u hu
    obtain ⟨e1, e2⟩ := h1 st u hu
    refine ⟨?_, ?_⟩
    · rw [any, any, M.bind_run, M.bind_run, ← e1]
      split
      · next b u1 hb =>
        cases b with
        | true => rfl
        | false => exact (ih st u1 (e2 _ _ hb)).1
      · rfl
    · intro b u' hr
      rw [any] at hr
      obtain ⟨a, u1, ha, hr⟩ := M.bind_eq_ok.1 hr
      cases a with
      | true => obtain ⟨-, rfl⟩ := M.pure_eq_ok.1 hr; exact e2 _ _ ha
      | false => exact (ih st u1 (e2 _ _ ha)).2 b u' hr

theorem agree_all {L : Lens σ GNC} : ∀ {l1 l2 : List (AlgState T → M σ Bool)}, List.Forall₂ (Agree L) l1 l2 →
    Agree L (all l1) (all l2) := by
  intro l1 l2 h
  induction h with
  | nil => intro st u hu; refine ⟨rfl, fun b u' hr => ?_⟩; rw [← (M.pure_eq_ok.1 hr).2]; exact hu
  | cons h1 _ ih =>
    intro st u hu
    obtain ⟨e1, e2⟩ := h1 st u hu
    refine ⟨?_, ?_⟩
    · rw [all, all, M.bind_run, M.bind_run, ← e1]
      split
      · next b u1 hb =>
        cases b with
        | false => rfl
        | true => exact (ih st u1 (e2 _ _ hb)).1
      · rfl
    · intro b u' hr
      rw [all] at hr
      obtain ⟨a, u1, ha, hr⟩ := M.bind_eq_ok.1 hr
      cases a with
      | false => obtain ⟨-, rfl⟩ := M.pure_eq_ok.1 hr; exact e2 _ _ ha
      | true => exact (ih st u1 (e2 _ _ ha)).2 b u' hr

theorem hasGNC_agree {L : Lens σ GNC} {stop : Profile → AlgState T → M σ Bool} (h : HasGNC L stop) (p q : Profile) :
    Agree L (stop p) (stop q) := by
  induction h with
  | object => exact gnc_agree L p q
  | other c hc => exact fun st u hu => ⟨rfl, fun b u' hr => by rw [hc st u b u' hr]; exact hu⟩
  | any cs _ ih =>
    refine agree_any ?_
    rw [List.forall₂_map_left_iff, List.forall₂_map_right_iff]
    exact List.forall₂_same.2 ih
  | all cs _ ih =>
    refine agree_all ?_
    rw [List.forall₂_map_left_iff, List.forall₂_map_right_iff]
    exact List.forall₂_same.2 ih

/-- Two computations look the same if their parts do. -/
theorem view_bind {ω α β γ : Type} (g : Except Err (β × ω) → γ) {m1 m2 : M ω α} {k1 k2 : α → M ω β} {w : ω} (hm : m1 w = m2 w)
    (hk : ∀ a w', m2 w = .ok (a, w') → g (k1 a w') = g (k2 a w')) : g ((m1 >>= k1) w) = g ((m2 >>= k2) w) := by
  rw [M.bind_run, M.bind_run, hm]
  cases h : m2 w with
  | error e => rfl
  | ok r => exact hk r.1 r.2 h

/-! ## Swarm -/

namespace PSO

variable {α : Type} [FloatT α]

theorem StopOwns.winv {L : Lens σ τ} {c : Comps σ α} (h : StopOwns L c) (t : τ) :
    WInv (fun w => L.get w.user = t) { c with stop := fun _ => pure false } :=
  { quiet := fun e w _ hJ => hJ
    goal := fun x w v s' hJ hr => (h.goal x _ _ _ hr).trans hJ
    check := fun s w b s' hJ hr => by rw [← (M.pure_eq_ok.1 hr).2]; exact hJ
    log := fun i l hl k s w s' hJ hr => (h.loggers l (List.mem_of_getElem? hl) k s _ _ _ hr).trans hJ
    coordInit := fun w _ s' hJ hr => (h.operators.coordInit w.user _ s' hr).trans hJ
    velInit := fun w _ s' hJ hr => (h.operators.velInit w.user _ s' hr).trans hJ
    velCalc := fun s p w _ s' hJ hr => (h.operators.velCalc s p w.user _ s' hr).trans hJ
    postVel := fun f hf x w _ s' hJ hr => (h.operators.postVel f hf x w.user _ s' hr).trans hJ
    postMove := fun f hf x w _ s' hJ hr => (h.operators.postMove f hf x w.user _ s' hr).trans hJ }

theorem loop_agree {L : Lens σ GNC} {c : Comps σ α} (hc : StopOwns L c) {s1 s2 : AlgState (List α) → M σ Bool}
    (h : Agree L s1 s2) : ∀ (fuel : Nat) (s : Swarm α) (w : World σ (List α)), (L.get w.user).changeIter ≤ s.iteration →
      loop { c with stop := s1 } fuel s w = loop { c with stop := s2 } fuel s w ∧
      ∀ s' w', loop { c with stop := s1 } fuel s w = .ok (s', w') → (L.get w'.user).changeIter ≤ s'.iteration := by
  intro fuel
  induction fuel with
  | zero => intro s w _; exact ⟨rfl, fun _ _ hr => by cases hr⟩
  | succ fuel ih =>
    intro s w hw
    obtain ⟨e1, e2⟩ := h s.state w.user hw
    have turn : ∀ u s' w', s1 s.state w.user = .ok (false, u) →
        step c s ⟨u, w.trace ++ [.check s.state false]⟩ = .ok (s', w') → (L.get w'.user).changeIter ≤ s'.iteration := by
      intro u s' w' hu hst
      have hk : L.get w'.user = L.get u := (hc.winv (L.get u)).step s ⟨u, _⟩ s' w' rfl hst
      rw [hk, step_iteration hst]
      exact Nat.le_succ_of_le (e2 _ _ hu)
    refine ⟨?_, ?_⟩
    · rw [loop, loop, M.bind_run, M.bind_run]
      have el : (World.lift (s1 s.state) : M (World σ (List α)) Bool) w = World.lift (s2 s.state) w := by
        unfold World.lift; rw [e1]
      simp only [← el]
      cases hq : (World.lift (s1 s.state) : M (World σ (List α)) Bool) w with
      | error e => rfl
      | ok r =>
        obtain ⟨x, w1⟩ := r
        obtain ⟨hx, hw1⟩ := World.lift_eq_ok.1 hq
        simp only
        cases x with
        | true => rfl
        | false =>
          show (World.emit (.check s.state false) >>= fun _ => step c s >>= loop { c with stop := s1 } fuel :
            M (World σ (List α)) _) w1 = (World.emit (.check s.state false) >>= fun _ => step c s >>= loop { c with stop := s2 } fuel :
            M (World σ (List α)) _) w1
          rw [M.bind_run, M.bind_run]
          cases hq2 : (World.emit (.check s.state false) : M (World σ (List α)) Unit) w1 with
          | error e => rfl
          | ok r =>
            obtain ⟨_, w2⟩ := r
            obtain ⟨ha, hb⟩ := World.emit_eq_ok.1 hq2
            simp only
            rw [M.bind_run, M.bind_run]
            cases hst : step c s w2 with
            | error e => rfl
            | ok r =>
              obtain ⟨s', w3⟩ := r
              simp only
              refine (ih s' w3 (turn w1.user s' w3 hx ?_)).1
              have : w2 = ⟨w1.user, w.trace ++ [.check s.state false]⟩ := by
                rw [← ha, ← hw1, ← hb]
              rw [← this]; exact hst
    · intro s' w' hr
      obtain ⟨x, u, hx, hr⟩ := loop_succ_ok.1 hr
      rcases hr with ⟨rfl, rfl, rfl⟩ | ⟨rfl, s'', w1, hst, hr⟩
      · exact e2 _ _ hx
      · exact (ih s'' w1 (turn u s'' w1 hx hst)).2 s' w' hr

theorem nextIterations_agree {L : Lens σ GNC} {o : Opt σ α} (hc : StopOwns L o.comps) {s1 s2 : AlgState (List α) → M σ Bool}
    (h : Agree L s1 s2) (fuel : Nat) (w : World σ (List α)) (hw : (L.get w.user).changeIter ≤ o.swarm.iteration) :
    seen (nextIterations fuel (o.withStop s1) w) = seen (nextIterations fuel (o.withStop s2) w) ∧
    ∀ r o' w', nextIterations fuel (o.withStop s1) w = .ok ((r, o'), w') →
      (L.get w'.user).changeIter ≤ o'.swarm.iteration := by
  have keep : ∀ k st u (w w' : World σ (List α)), callLoggers k st 0 o.comps.loggers w = .ok (u, w') →
      L.get w'.user = L.get w.user := fun k st u w w' hr => (hc.winv (L.get w.user)).loggers k st w u w' rfl hr
  refine ⟨?_, ?_⟩
  · unfold nextIterations
    refine view_bind seen rfl fun _ w1 h1 => view_bind seen
      (loop_agree hc h fuel o.swarm w1 (by rw [keep _ _ _ _ _ h1]; exact hw)).1 fun _ _ _ => view_bind seen rfl fun _ _ _ => rfl
  · intro r o' w' hr
    unfold nextIterations at hr
    obtain ⟨u, w1, h1, hr⟩ := M.bind_eq_ok.1 hr
    obtain ⟨s', w2, h2, hr⟩ := M.bind_eq_ok.1 hr
    obtain ⟨u', w3, h3, hr⟩ := M.bind_eq_ok.1 hr
    obtain ⟨h4, rfl⟩ := M.pure_eq_ok.1 hr
    cases h4
    rw [keep _ _ _ _ _ h3]
    exact (loop_agree hc h fuel o.swarm w1 (by rw [keep _ _ _ _ _ h1]; exact hw)).2 s' w2 h2

theorem findMin_agree {L : Lens σ GNC} {o : Opt σ α} (hc : StopOwns L o.comps) {s1 s2 : AlgState (List α) → M σ Bool}
    (h : Agree L s1 s2) (fuel : Nat) (w : World σ (List α)) (hw : (L.get w.user).changeIter = 0) :
    seen (findMin fuel (o.withStop s1) w) = seen (findMin fuel (o.withStop s2) w) ∧
    ∀ r o' w', findMin fuel (o.withStop s1) w = .ok ((r, o'), w') →
      (L.get w'.user).changeIter ≤ o'.swarm.iteration := by
  have keep : ∀ k st u (w w' : World σ (List α)), callLoggers k st 0 o.comps.loggers w = .ok (u, w') →
      L.get w'.user = L.get w.user := fun k st u w w' hr => (hc.winv (L.get w.user)).loggers k st w u w' rfl hr
  have keep2 : ∀ s' w', renewSwarm o.comps o.swarm w = .ok (s', w') → L.get w'.user = L.get w.user :=
    fun s' w' hr => (hc.winv (L.get w.user)).renewSwarm o.swarm w s' w' rfl hr
  have after : ∀ s' w1 u w2, renewSwarm o.comps o.swarm w = .ok (s', w1) →
      callLoggers .start s'.state 0 o.comps.loggers w1 = .ok (u, w2) → (L.get w2.user).changeIter ≤ s'.iteration := by
    intro s' w1 u w2 h1 h2
    rw [keep _ _ _ _ _ h2, keep2 _ _ h1, hw]
    exact Nat.zero_le _
  refine ⟨?_, ?_⟩
  · unfold findMin
    exact view_bind seen rfl fun s' w1 h1 => view_bind seen rfl fun u w2 h2 =>
      (nextIterations_agree (o := { o with swarm := s' }) hc h fuel w2 (after s' w1 u w2 h1 h2)).1
  · intro r o' w' hr
    unfold findMin at hr
    obtain ⟨s', w1, h1, hr⟩ := M.bind_eq_ok.1 hr
    obtain ⟨u, w2, h2, hr⟩ := M.bind_eq_ok.1 hr
    exact (nextIterations_agree (o := { o with swarm := s' }) hc h fuel w2 (after s' w1 u w2 h1 h2)).2 r o' w' hr

end PSO
/-! ## Genetic optimizer -/

namespace GA

theorem StopOwns.winv {L : Lens σ τ} {c : Comps σ T} (h : StopOwns L c) (t : τ) :
    WInv (fun w => L.get w.user = t) { c with stop := fun _ => pure false } :=
  { quiet := fun e w _ hJ => hJ
    goal := fun x w v s' hJ hr => (h.goal x _ _ _ hr).trans hJ
    check := fun s w b s' hJ hr => by rw [← (M.pure_eq_ok.1 hr).2]; exact hJ
    log := fun i l hl k s w s' hJ hr => (h.loggers l (List.mem_of_getElem? hl) k s _ _ _ hr).trans hJ
    creator := fun w _ s' hJ hr => (h.operators.creator w.user _ s' hr).trans hJ
    pairing := fun p w _ s' hJ hr => (h.operators.pairing p w.user _ s' hr).trans hJ
    cross := fun xs w _ s' hJ hr => (h.operators.cross xs w.user _ s' hr).trans hJ
    mutation := fun x w _ s' hJ hr => (h.operators.mutation x w.user _ s' hr).trans hJ
    selections := fun f hf p w _ s' hJ hr => (h.operators.selections f hf p w.user _ s' hr).trans hJ
    preBirths := fun f hf p xs w _ s' hJ hr => (h.operators.preBirths f hf p xs w.user _ s' hr).trans hJ }

theorem step_iteration {c : Comps σ T} (hl : Legal c) {p p' : Population T} {w w' : World σ T} (h : step c p w = .ok (p', w')) :
    p'.iteration = p.iteration + 1 := by
  obtain ⟨w1, h1, -⟩ := step_ok.1 h
  obtain ⟨evs, g, -, -⟩ := core_ok h1
  exact g.iteration hl

theorem loop_agree {L : Lens σ GNC} {c : Comps σ T} (hc : StopOwns L c) (hl : Legal c) {s1 s2 : AlgState T → M σ Bool}
    (h : Agree L s1 s2) : ∀ (fuel : Nat) (s : Population T) (w : World σ T), (L.get w.user).changeIter ≤ s.iteration →
      loop { c with stop := s1 } fuel s w = loop { c with stop := s2 } fuel s w ∧
      ∀ s' w', loop { c with stop := s1 } fuel s w = .ok (s', w') → (L.get w'.user).changeIter ≤ s'.iteration := by
  intro fuel
  induction fuel with
  | zero => intro s w _; exact ⟨rfl, fun _ _ hr => by cases hr⟩
  | succ fuel ih =>
    intro s w hw
    obtain ⟨e1, e2⟩ := h s.state w.user hw
    have turn : ∀ u s' w', s1 s.state w.user = .ok (false, u) →
        step c s ⟨u, w.trace ++ [.check s.state false]⟩ = .ok (s', w') → (L.get w'.user).changeIter ≤ s'.iteration := by
      intro u s' w' hu hst
      have hk : L.get w'.user = L.get u := (hc.winv (L.get u)).step s ⟨u, _⟩ s' w' rfl hst
      rw [hk, step_iteration hl hst]
      exact Nat.le_succ_of_le (e2 _ _ hu)
    refine ⟨?_, ?_⟩
    · rw [loop, loop, M.bind_run, M.bind_run]
      have el : (World.lift (s1 s.state) : M (World σ T) Bool) w = World.lift (s2 s.state) w := by
        unfold World.lift; rw [e1]
      simp only [← el]
      cases hq : (World.lift (s1 s.state) : M (World σ T) Bool) w with
      | error e => rfl
      | ok r =>
        obtain ⟨x, w1⟩ := r
        obtain ⟨hx, hw1⟩ := World.lift_eq_ok.1 hq
        simp only
        cases x with
        | true => rfl
        | false =>
          show (World.emit (.check s.state false) >>= fun _ => step c s >>= loop { c with stop := s1 } fuel :
            M (World σ T) _) w1 = (World.emit (.check s.state false) >>= fun _ => step c s >>= loop { c with stop := s2 } fuel :
            M (World σ T) _) w1
          rw [M.bind_run, M.bind_run]
          cases hq2 : (World.emit (.check s.state false) : M (World σ T) Unit) w1 with
          | error e => rfl
          | ok r =>
            obtain ⟨_, w2⟩ := r
            obtain ⟨ha, hb⟩ := World.emit_eq_ok.1 hq2
            simp only
            rw [M.bind_run, M.bind_run]
            cases hst : step c s w2 with
            | error e => rfl
            | ok r =>
              obtain ⟨s', w3⟩ := r
              simp only
              refine (ih s' w3 (turn w1.user s' w3 hx ?_)).1
              have : w2 = ⟨w1.user, w.trace ++ [.check s.state false]⟩ := by
                rw [← ha, ← hw1, ← hb]
              rw [← this]; exact hst
    · intro s' w' hr
      obtain ⟨x, u, hx, hr⟩ := loop_succ_ok.1 hr
      rcases hr with ⟨rfl, rfl, rfl⟩ | ⟨rfl, s'', w1, hst, hr⟩
      · exact e2 _ _ hx
      · exact (ih s'' w1 (turn u s'' w1 hx hst)).2 s' w' hr

theorem nextIterations_agree {L : Lens σ GNC} {o : Opt σ T} (hc : StopOwns L o.comps) (hl : Legal o.comps) {s1 s2 : AlgState T → M σ Bool}
    (h : Agree L s1 s2) (fuel : Nat) (w : World σ T) (hw : (L.get w.user).changeIter ≤ o.pop.iteration) :
    seen (nextIterations fuel (o.withStop s1) w) = seen (nextIterations fuel (o.withStop s2) w) ∧
    ∀ r o' w', nextIterations fuel (o.withStop s1) w = .ok ((r, o'), w') →
      (L.get w'.user).changeIter ≤ o'.pop.iteration := by
  have keep : ∀ k st u (w w' : World σ T), callLoggers k st 0 o.comps.loggers w = .ok (u, w') →
      L.get w'.user = L.get w.user := fun k st u w w' hr => (hc.winv (L.get w.user)).loggers k st w u w' rfl hr
  refine ⟨?_, ?_⟩
  · unfold nextIterations
    refine view_bind seen rfl fun _ w1 h1 => view_bind seen
      (loop_agree hc hl h fuel o.pop w1 (by rw [keep _ _ _ _ _ h1]; exact hw)).1 fun _ _ _ => view_bind seen rfl fun _ _ _ => rfl
  · intro r o' w' hr
    unfold nextIterations at hr
    obtain ⟨u, w1, h1, hr⟩ := M.bind_eq_ok.1 hr
    obtain ⟨s', w2, h2, hr⟩ := M.bind_eq_ok.1 hr
    obtain ⟨u', w3, h3, hr⟩ := M.bind_eq_ok.1 hr
    obtain ⟨h4, rfl⟩ := M.pure_eq_ok.1 hr
    cases h4
    rw [keep _ _ _ _ _ h3]
    exact (loop_agree hc hl h fuel o.pop w1 (by rw [keep _ _ _ _ _ h1]; exact hw)).2 s' w2 h2

theorem findMin_agree {L : Lens σ GNC} {o : Opt σ T} (hc : StopOwns L o.comps) (hl : Legal o.comps) {s1 s2 : AlgState T → M σ Bool}
    (h : Agree L s1 s2) (fuel : Nat) (w : World σ T) (hw : (L.get w.user).changeIter = 0) :
    seen (findMin fuel (o.withStop s1) w) = seen (findMin fuel (o.withStop s2) w) ∧
    ∀ r o' w', findMin fuel (o.withStop s1) w = .ok ((r, o'), w') →
      (L.get w'.user).changeIter ≤ o'.pop.iteration := by
  have keep : ∀ k st u (w w' : World σ T), callLoggers k st 0 o.comps.loggers w = .ok (u, w') →
      L.get w'.user = L.get w.user := fun k st u w w' hr => (hc.winv (L.get w.user)).loggers k st w u w' rfl hr
  have keep2 : ∀ (x : List T) (w1 w2 w3 : World σ T) (p' : Population T), World.lift o.comps.creator w = .ok (x, w1) →
      World.emit (.created x) w1 = .ok ((), w2) → append o.comps o.pop.reset x w2 = .ok (p', w3) →
      L.get w3.user = L.get w.user ∧ p'.iteration = 0 := by
    intro x w1 w2 w3 p' h1 h2 h3
    have h := hc.winv (L.get w.user)
    have e1 : L.get w1.user = L.get w.user := h.creator.lift w x w1 rfl h1
    have e2 : L.get w2.user = L.get w.user := by rw [(World.emit_eq_ok.1 h2).1]; exact e1
    refine ⟨h.append _ x w2 p' w3 e2 h3, ?_⟩
    obtain ⟨vs, -, rfl, -⟩ := append_ok h3
    rfl
  have after : ∀ (x : List T) (w1 w2 w3 w4 : World σ T) (p' : Population T) u, World.lift o.comps.creator w = .ok (x, w1) →
      World.emit (.created x) w1 = .ok ((), w2) → append o.comps o.pop.reset x w2 = .ok (p', w3) →
      callLoggers .start p'.state 0 o.comps.loggers w3 = .ok (u, w4) → (L.get w4.user).changeIter ≤ p'.iteration := by
    intro x w1 w2 w3 w4 p' u h1 h2 h3 h4
    rw [keep _ _ _ _ _ h4, (keep2 _ _ _ _ _ h1 h2 h3).1, hw]
    exact Nat.zero_le _
  refine ⟨?_, ?_⟩
  · unfold findMin
    exact view_bind seen rfl fun x w1 h1 => view_bind seen rfl fun _ w2 h2 => view_bind seen rfl fun p' w3 h3 =>
      view_bind seen rfl fun u w4 h4 =>
      (nextIterations_agree (o := { o with pop := p' }) hc hl h fuel w4 (after x w1 w2 w3 w4 p' u h1 h2 h3 h4)).1
  · intro r o' w' hr
    unfold findMin at hr
    obtain ⟨x, w1, h1, hr⟩ := M.bind_eq_ok.1 hr
    obtain ⟨_, w2, h2, hr⟩ := M.bind_eq_ok.1 hr
    obtain ⟨p', w3, h3, hr⟩ := M.bind_eq_ok.1 hr
    obtain ⟨u, w4, h4, hr⟩ := M.bind_eq_ok.1 hr
    exact (nextIterations_agree (o := { o with pop := p' }) hc hl h fuel w4 (after x w1 w2 w3 w4 p' u h1 h2 h3 h4)).2 r o' w' hr

end GA
end Verif
