import Verif.Proofs.Checked
import Verif.Proofs.Overflow
import Verif.Props.Attach
import Verif.Props.Stop

/-!
# C74: overflow checks and GoalNotChange
-/

set_option linter.unusedSectionVars false

namespace Verif.Props

open Verif Spec Stop

variable {σ α T : Type}

/-- One call that looks the same, then the rest. -/
theorem ga_after {o : GA.Opt σ T} {s1 s2 : AlgState T → M σ Bool} {ks : List (GA.Call σ T)} {k : GA.Call σ T}
    {w : World σ T} (m : GA.Opt σ T → World σ T → Except Err ((Option (Solution T) × GA.Opt σ T) × World σ T))
    (k1 : (GA.call (o.withStop s1) k) w = (m (o.withStop s1) >>= fun q => pure (some q.1, q.2) : M _ _) w)
    (k2 : (GA.call (o.withStop s2) k) w = (m (o.withStop s2) >>= fun q => pure (some q.1, q.2) : M _ _) w)
    (h : GA.seen (m (o.withStop s1) w) = GA.seen (m (o.withStop s2) w))
    (c1 : ∀ r o' w', m (o.withStop s1) w = .ok ((r, o'), w') → o'.comps = (o.withStop s1).comps)
    (c2 : ∀ r o' w', m (o.withStop s2) w = .ok ((r, o'), w') → o'.comps = (o.withStop s2).comps)
    (hk : ∀ r o' w', m (o.withStop s1) w = .ok ((r, o'), w') →
      gaView (GA.run (GA.Opt.withStop ⟨o.comps, o'.pop⟩ s1) ks w') = gaView (GA.run (GA.Opt.withStop ⟨o.comps, o'.pop⟩ s2) ks w')) :
    gaView (GA.run (o.withStop s1) (k :: ks) w) = gaView (GA.run (o.withStop s2) (k :: ks) w) := by
  unfold GA.run
  rw [M.bind_run, M.bind_run, k1, k2, M.bind_run, M.bind_run]
  cases e1 : m (o.withStop s1) w with
  | error e =>
    cases e2 : m (o.withStop s2) w with
    | error e' => rw [e1, e2] at h; cases h; rfl
    | ok q => rw [e1, e2] at h; cases h
  | ok q1 =>
    obtain ⟨⟨r1, o1⟩, w1⟩ := q1
    cases e2 : m (o.withStop s2) w with
    | error e' => rw [e1, e2] at h; cases h
    | ok q2 =>
      obtain ⟨⟨r2, o2⟩, w2⟩ := q2
      have d1 := c1 _ _ _ e1
      have d2 := c2 _ _ _ e2
      have d3 := hk _ _ _ e1
      rw [e1, e2] at h
      obtain ⟨cc1, f1⟩ := o1
      obtain ⟨cc2, f2⟩ := o2
      simp only [GA.seen, Except.map, Except.ok.injEq, Prod.mk.injEq] at h
      obtain ⟨⟨rfl, rfl⟩, rfl⟩ := h
      simp only at d1 d2 d3
      subst d1 d2
      simp only [M.pure_run]
      rw [M.bind_run, M.bind_run]
      change gaView (GA.run ⟨(o.withStop s1).comps, f1⟩ ks w1) = gaView (GA.run ⟨(o.withStop s2).comps, f1⟩ ks w1) at d3
      cases g1 : GA.run ⟨(o.withStop s1).comps, f1⟩ ks w1 with
      | error e =>
        cases g2 : GA.run ⟨(o.withStop s2).comps, f1⟩ ks w1 with
        | error e' => rw [g1, g2] at d3; cases d3; rfl
        | ok q => rw [g1, g2] at d3; cases d3
      | ok q1 =>
        cases g2 : GA.run ⟨(o.withStop s2).comps, f1⟩ ks w1 with
        | error e' => rw [g1, g2] at d3; cases d3
        | ok q2 =>
          rw [g1, g2] at d3
          obtain ⟨⟨rs1, o1⟩, w1'⟩ := q1
          obtain ⟨⟨rs2, o2⟩, w2'⟩ := q2
          simp only [gaView, Except.ok.injEq, Prod.mk.injEq] at d3
          obtain ⟨⟨rfl, d4⟩, rfl⟩ := d3
          simp only [gaView, M.pure_run, d4]

theorem ga_continue {L : Lens σ GNC} {s1 s2 : AlgState T → M σ Bool} (h : Agree L s1 s2) :
    ∀ (fuels : List Nat) (o : GA.Opt σ T) (w : World σ T), GA.StopOwns L o.comps → Legal o.comps → 
      (L.get w.user).changeIter ≤ o.pop.iteration →
      gaView (GA.run (o.withStop s1) (fuels.map .nextIterations) w) =
      gaView (GA.run (o.withStop s2) (fuels.map .nextIterations) w) := by
  intro fuels
  induction fuels with
  | nil => intro o w _ _ _; rfl
  | cons fuel fuels ih =>
    intro o w hc hl hw
    obtain ⟨h1, h2⟩ := GA.nextIterations_agree hc hl h fuel w hw
    exact ga_after (fun o w => GA.nextIterations fuel o w) rfl rfl h1 (fun _ _ _ hr => GA.nextIterations_comps hr)
      (fun _ _ _ hr => GA.nextIterations_comps hr) fun r o' w' hr =>
        ih ⟨o.comps, o'.pop⟩ w' hc hl (h2 r o' w' hr)


/-- One call that looks the same, then the rest. -/
theorem pso_after [FloatT α] {o : PSO.Opt σ α} {s1 s2 : AlgState (List α) → M σ Bool} {ks : List (PSO.Call σ α)} {k : PSO.Call σ α}
    {w : World σ (List α)} (m : PSO.Opt σ α → World σ (List α) → Except Err ((Option (Solution (List α)) × PSO.Opt σ α) × World σ (List α)))
    (k1 : (PSO.call (o.withStop s1) k) w = (m (o.withStop s1) >>= fun q => pure (some q.1, q.2) : M _ _) w)
    (k2 : (PSO.call (o.withStop s2) k) w = (m (o.withStop s2) >>= fun q => pure (some q.1, q.2) : M _ _) w)
    (h : PSO.seen (m (o.withStop s1) w) = PSO.seen (m (o.withStop s2) w))
    (c1 : ∀ r o' w', m (o.withStop s1) w = .ok ((r, o'), w') → o'.comps = (o.withStop s1).comps)
    (c2 : ∀ r o' w', m (o.withStop s2) w = .ok ((r, o'), w') → o'.comps = (o.withStop s2).comps)
    (hk : ∀ r o' w', m (o.withStop s1) w = .ok ((r, o'), w') →
      psoView (PSO.run (PSO.Opt.withStop ⟨o.comps, o'.swarm⟩ s1) ks w') = psoView (PSO.run (PSO.Opt.withStop ⟨o.comps, o'.swarm⟩ s2) ks w')) :
    psoView (PSO.run (o.withStop s1) (k :: ks) w) = psoView (PSO.run (o.withStop s2) (k :: ks) w) := by
  unfold PSO.run
  rw [M.bind_run, M.bind_run, k1, k2, M.bind_run, M.bind_run]
  cases e1 : m (o.withStop s1) w with
  | error e =>
    cases e2 : m (o.withStop s2) w with
    | error e' => rw [e1, e2] at h; cases h; rfl
    | ok q => rw [e1, e2] at h; cases h
  | ok q1 =>
    obtain ⟨⟨r1, o1⟩, w1⟩ := q1
    cases e2 : m (o.withStop s2) w with
    | error e' => rw [e1, e2] at h; cases h
    | ok q2 =>
      obtain ⟨⟨r2, o2⟩, w2⟩ := q2
      have d1 := c1 _ _ _ e1
      have d2 := c2 _ _ _ e2
      have d3 := hk _ _ _ e1
      rw [e1, e2] at h
      obtain ⟨cc1, f1⟩ := o1
      obtain ⟨cc2, f2⟩ := o2
      simp only [PSO.seen, Except.map, Except.ok.injEq, Prod.mk.injEq] at h
      obtain ⟨⟨rfl, rfl⟩, rfl⟩ := h
      simp only at d1 d2 d3
      subst d1 d2
      simp only [M.pure_run]
      rw [M.bind_run, M.bind_run]
      change psoView (PSO.run ⟨(o.withStop s1).comps, f1⟩ ks w1) = psoView (PSO.run ⟨(o.withStop s2).comps, f1⟩ ks w1) at d3
      cases g1 : PSO.run ⟨(o.withStop s1).comps, f1⟩ ks w1 with
      | error e =>
        cases g2 : PSO.run ⟨(o.withStop s2).comps, f1⟩ ks w1 with
        | error e' => rw [g1, g2] at d3; cases d3; rfl
        | ok q => rw [g1, g2] at d3; cases d3
      | ok q1 =>
        cases g2 : PSO.run ⟨(o.withStop s2).comps, f1⟩ ks w1 with
        | error e' => rw [g1, g2] at d3; cases d3
        | ok q2 =>
          rw [g1, g2] at d3
          obtain ⟨⟨rs1, o1⟩, w1'⟩ := q1
          obtain ⟨⟨rs2, o2⟩, w2'⟩ := q2
          simp only [psoView, Except.ok.injEq, Prod.mk.injEq] at d3
          obtain ⟨⟨rfl, d4⟩, rfl⟩ := d3
          simp only [psoView, M.pure_run, d4]

theorem pso_continue [FloatT α] {L : Lens σ GNC} {s1 s2 : AlgState (List α) → M σ Bool} (h : Agree L s1 s2) :
    ∀ (fuels : List Nat) (o : PSO.Opt σ α) (w : World σ (List α)), PSO.StopOwns L o.comps → 
      (L.get w.user).changeIter ≤ o.swarm.iteration →
      psoView (PSO.run (o.withStop s1) (fuels.map .nextIterations) w) =
      psoView (PSO.run (o.withStop s2) (fuels.map .nextIterations) w) := by
  intro fuels
  induction fuels with
  | nil => intro o w _ _; rfl
  | cons fuel fuels ih =>
    intro o w hc hw
    obtain ⟨h1, h2⟩ := PSO.nextIterations_agree hc h fuel w hw
    exact pso_after (fun o w => PSO.nextIterations fuel o w) rfl rfl h1 (fun _ _ _ hr => PSO.nextIterations_comps hr)
      (fun _ _ _ hr => PSO.nextIterations_comps hr) fun r o' w' hr =>
        ih ⟨o.comps, o'.swarm⟩ w' hc (h2 r o' w' hr)


/-- C74 (swarm): a run, resumed any number of times, of an optimizer whose stop checker contains one newly created
`GoalNotChange`, alone or inside composite checkers: the results, the panics, the swarm, every call of a component and all
random numbers are the same with and without overflow checks. -/
theorem C74_swarm [FloatT α] (L : Lens σ GNC) (stop : Profile → AlgState (List α) → M σ Bool) (hs : HasGNC L stop) (p q : Profile)
    (o : PSO.Opt σ α) (hc : PSO.StopOwns L o.comps) (m : Nat) (d : F64) (w : World σ (List α))
    (hw : L.get w.user = GNC.new m d) (fuel : Nat) (fuels : List Nat) :
    psoView (PSO.run (o.withStop (stop p)) (.findMin fuel :: fuels.map .nextIterations) w) =
    psoView (PSO.run (o.withStop (stop q)) (.findMin fuel :: fuels.map .nextIterations) w) := by
  obtain ⟨h1, h2⟩ := PSO.findMin_agree hc (hasGNC_agree hs p q) fuel w (by rw [hw]; rfl)
  exact pso_after (fun o w => PSO.findMin fuel o w) rfl rfl h1 (fun _ _ _ hr => PSO.findMin_comps hr)
    (fun _ _ _ hr => PSO.findMin_comps hr) fun r o' w' hr =>
      pso_continue (hasGNC_agree hs p q) fuels ⟨o.comps, o'.swarm⟩ w' hc (h2 r o' w' hr)

/-- C74 (genetic) -/
theorem C74_genetic (L : Lens σ GNC) (stop : Profile → AlgState T → M σ Bool) (hs : HasGNC L stop) (p q : Profile)
    (o : GA.Opt σ T) (hc : GA.StopOwns L o.comps) (hl : Legal o.comps) (m : Nat) (d : F64) (w : World σ T)
    (hw : L.get w.user = GNC.new m d) (fuel : Nat) (fuels : List Nat) :
    gaView (GA.run (o.withStop (stop p)) (.findMin fuel :: fuels.map .nextIterations) w) =
    gaView (GA.run (o.withStop (stop q)) (.findMin fuel :: fuels.map .nextIterations) w) := by
  obtain ⟨h1, h2⟩ := GA.findMin_agree hc hl (hasGNC_agree hs p q) fuel w (by rw [hw]; rfl)
  exact ga_after (fun o w => GA.findMin fuel o w) rfl rfl h1 (fun _ _ _ hr => GA.findMin_comps hr)
    (fun _ _ _ hr => GA.findMin_comps hr) fun r o' w' hr =>
      ga_continue (hasGNC_agree hs p q) fuels ⟨o.comps, o'.pop⟩ w' hc hl (h2 r o' w' hr)

/-- C74 (swarm), any history of calls and any `GoalNotChange` objects, used or not: what the build with overflow checks does is
what the build without them does, unless it panics because of an overflow. -/
theorem C74_swarm_any [FloatT α] (stop : Profile → AlgState (List α) → M σ Bool) (hs : Compiled stop) (o : PSO.Opt σ α)
    (ks : List (PSO.Call σ α)) (w : World σ (List α)) :
    psoView (PSO.run (o.withStop (stop .debug)) ks w) = .error .arith ∨
    psoView (PSO.run (o.withStop (stop .debug)) ks w) = psoView (PSO.run (o.withStop (stop .release)) ks w) := by
  rcases PSO.run_strict ks ⟨_, _, compiled_strict hs, o, rfl, rfl⟩ w with h | ⟨e, h1, h2⟩ | ⟨⟨rs, o1⟩, ⟨rs2, o2⟩, w', h1, h2, h3, h4⟩
  · exact .inl (by rw [h]; rfl)
  · exact .inr (by rw [h1, h2])
  · obtain ⟨s1, s2, -, o', rfl, rfl⟩ := h4
    obtain rfl : rs = rs2 := h3
    exact .inr (by rw [h1, h2]; rfl)

/-- C74 (genetic), any history of calls and any `GoalNotChange` objects. -/
theorem C74_genetic_any (stop : Profile → AlgState T → M σ Bool) (hs : Compiled stop) (o : GA.Opt σ T)
    (ks : List (GA.Call σ T)) (w : World σ T) :
    gaView (GA.run (o.withStop (stop .debug)) ks w) = .error .arith ∨
    gaView (GA.run (o.withStop (stop .debug)) ks w) = gaView (GA.run (o.withStop (stop .release)) ks w) := by
  rcases GA.run_strict ks ⟨_, _, compiled_strict hs, o, rfl, rfl⟩ w with h | ⟨e, h1, h2⟩ | ⟨⟨rs, o1⟩, ⟨rs2, o2⟩, w', h1, h2, h3, h4⟩
  · exact .inl (by rw [h]; rfl)
  · exact .inr (by rw [h1, h2])
  · obtain ⟨s1, s2, -, o', rfl, rfl⟩ := h4
    obtain rfl : rs = rs2 := h3
    exact .inr (by rw [h1, h2]; rfl)

/-- The swarm of C35 meets the conditions, with its `GoalNotChange` in a composite checker beside others. -/
def gncStop (p : Profile) : AlgState (List F64) → M (List F64 × GNC) Bool :=
  any [threshold (Fl.neg Fl.one), fun s => (Lens.snd _ _).zoom (goalNotChange p s), maxIterations 3000]

theorem gncStop_has : HasGNC (Lens.snd _ _) gncStop := by
  refine .any [fun _ => threshold (Fl.neg Fl.one), fun p s => (Lens.snd _ _).zoom (goalNotChange p s), fun _ => maxIterations 3000] ?_
  intro c hc
  simp only [List.mem_cons, List.not_mem_nil, or_false] at hc
  rcases hc with rfl | rfl | rfl
  · exact .other _ (fun s => by
      unfold threshold
      split <;> exact leaves_pure _ _)
  · exact .object
  · exact .other _ (fun s => leaves_pure _ _)

example : HasGNC (Lens.snd _ _) gncStop ∧ PSO.StopOwns (Lens.snd _ _) (gncSwarm .debug).comps ∧
    (Lens.snd _ _).get gncWorld.user = GNC.new 2 (Fl.one.div (Fl.ofNat 2)) ∧
    M.okAnd (PSO.run ((gncSwarm .debug).withStop (gncStop .debug)) [.findMin 10, .nextIterations 10] gncWorld)
      (fun r w => r.2.swarm.iteration == 7 && decide (w.user.2.changeIter = 4)) = true :=
  ⟨gncStop_has, ⟨(gncSwarm_private .debug).operators, (gncSwarm_private .debug).goal, (gncSwarm_private .debug).loggers⟩, rfl,
    by decide +kernel⟩

/-- The same checker may be used again; then both outcomes of `C74_swarm_any` occur. -/
example : Compiled gncStop ∧
    psoView (PSO.run ((gncSwarm .debug).withStop (gncStop .debug)) [.findMin 10, .findMin 10] gncWorld) = .error .arith ∧
    M.okAnd (PSO.run ((gncSwarm .debug).withStop (gncStop .debug)) [.findMin 10, .nextIterations 10] gncWorld)
      (fun _ _ => true) = true := by
  refine ⟨?_, ?_, by decide +kernel⟩
  · refine .any [fun _ => threshold (Fl.neg Fl.one), fun p s => (Lens.snd _ _).zoom (goalNotChange p s), fun _ => maxIterations 3000] ?_
    intro c hc
    simp only [List.mem_cons, List.not_mem_nil, or_false] at hc
    rcases hc with rfl | rfl | rfl
    · exact .other _
    · exact .object _
    · exact .other _
  · have h : ∀ r : Except Err ((List (PSO.Ret F64) × PSO.Opt (List F64 × GNC) F64) × World (List F64 × GNC) (List F64)),
        (match r with | .error .arith => true | _ => false) = true → psoView r = .error .arith := by
      intro r hr
      split at hr
      · rfl
      · cases hr
    exact h _ (by decide +kernel)

/-- C74, the condition is needed: a second `find_min` with the same object differs (see C35). -/
theorem C74_second_witness :
    PSO.run (gncSwarm .debug) [.findMin 10, .findMin 10] gncWorld = .error .arith ∧
    M.okAnd (PSO.run (gncSwarm .release) [.findMin 10, .findMin 10] gncWorld) (fun _ _ => true) = true :=
  ⟨C35_not_reusable_debug.2, by decide +kernel⟩

end Verif.Props
