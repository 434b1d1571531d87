import Verif.Props.Stop
import Verif.Proofs.SwarmStagnate

/-!
# C73: `GoalNotChange` ends every run of a swarm
-/

namespace Verif.Props

open Verif Spec Stop

variable {σ τ T α : Type}

/-! ## Where the object may be -/

/-- C73: an object that is the stop checker itself is asked for its consent. -/
theorem C73_alone (L : Lens σ τ) (chk : AlgState T → M τ Bool) : NeedsConsent L chk (fun s => L.zoom (chk s)) :=
  fun _ _ _ h => Lens.zoom_eq_ok h

/-- C73: so is a member of a `CompositeAny`, at any place, if the other members do not touch its fields. -/
theorem C73_any (L : Lens σ τ) (chk : AlgState T → M τ Bool) (pre post : List (AlgState T → M σ Bool))
    (hpre : ∀ c ∈ pre, ∀ s, Leaves L (c s)) (hpost : ∀ c ∈ post, ∀ s, Leaves L (c s)) :
    NeedsConsent L chk (any (pre ++ (fun s => L.zoom (chk s)) :: post)) := by
  have leaves : ∀ (cs : List (AlgState T → M σ Bool)), (∀ c ∈ cs, ∀ s, Leaves L (c s)) → ∀ s, Leaves L (any cs s) := by
    intro cs
    induction cs with
    | nil => intro _ s w b w' h; rw [(M.pure_eq_ok.1 h).2]
    | cons c cs ih =>
      intro h s w b w' hr
      rw [any] at hr
      obtain ⟨a, w1, h1, h2⟩ := M.bind_eq_ok.1 hr
      have e1 := h c (by simp) s w a w1 h1
      cases a with
      | true =>
        simp only [↓reduceIte] at h2
        rw [← (M.pure_eq_ok.1 h2).2]; exact e1
      | false => exact (ih (fun c hc => h c (by simp [hc])) s w1 b w' (by simpa using h2)).trans e1
  intro s w w' h
  induction pre generalizing w with
  | nil =>
    rw [List.nil_append, any] at h
    obtain ⟨a, w1, h1, h2⟩ := M.bind_eq_ok.1 h
    cases a with
    | true => cases (M.pure_eq_ok.1 (by simpa using h2)).1
    | false =>
      have e := leaves post hpost s w1 false w' (by simpa using h2)
      rw [e]
      exact Lens.zoom_eq_ok h1
  | cons c pre ih =>
    rw [List.cons_append, any] at h
    obtain ⟨a, w1, h1, h2⟩ := M.bind_eq_ok.1 h
    cases a with
    | true => cases (M.pure_eq_ok.1 (by simpa using h2)).1
    | false =>
      have e := hpre c (by simp) s w false w1 h1
      rw [← e]
      exact ih (fun c hc => hpre c (by simp [hc])) w1 (by simpa using h2)

/-! ## Any goal function -/

/-- C73: with a `GoalNotChange(m, d)` whose `d` is not negative, a swarm with at least one particle ends by itself, whatever the
goal function returns (also infinities and NaN): from some bound on the outcome does not depend on the bound on the
number of turns, and the run has returned or panicked. -/
theorem C73_swarm [FloatT α] (p : Profile) (L : Lens σ GNC) (o : PSO.Opt σ α)
    (hc : PSO.Consented L (goalNotChange p) o.comps) (hne : ¬ Returned o.comps.coordInit [])
    (w : World σ (List α)) (hd : (L.get w.user).delta.lt Fl.zero = false) (N : Nat)
    (hN : N = 2 ^ 64 * ((L.get w.user).maxIter + 1) + (L.get w.user).changeIter) (fuel : Nat) (hf : N < fuel) :
    PSO.findMin fuel o w = PSO.findMin (N + 1) o w ∧
    (PSO.NoFuel o.comps → PSO.findMin fuel o w ≠ .error .fuel) ∧
    (∀ r o' w', PSO.findMin fuel o w = .ok ((r, o'), w') → o'.swarm.iteration ≤ N) := by
  refine PSO.findMin_stagnates hc (counts_rank hd) (fun _ _ _ _ _ => trivial) hne w rfl trivial N ?_ fuel (N + 1) hf (by omega)
  intro v _
  rw [hN]
  exact potential_rank_le _ v 0

/-- C73: so does a resumed run (`next_iterations`) of a swarm that has a best particle. -/
theorem C73_swarm_resumed [FloatT α] (p : Profile) (L : Lens σ GNC) (o : PSO.Opt σ α)
    (hc : PSO.Consented L (goalNotChange p) o.comps) (hb : o.swarm.best.isSome = true)
    (w : World σ (List α)) (hd : (L.get w.user).delta.lt Fl.zero = false) (N : Nat)
    (hN : N = 2 ^ 64 * ((L.get w.user).maxIter + 1) + (L.get w.user).changeIter) (fuel : Nat) (hf : N < fuel) :
    PSO.nextIterations fuel o w = PSO.nextIterations (N + 1) o w ∧
    (PSO.NoFuel o.comps → PSO.nextIterations fuel o w ≠ .error .fuel) ∧
    (∀ r o' w', PSO.nextIterations fuel o w = .ok ((r, o'), w') → o'.swarm.iteration ≤ o.swarm.iteration + N) := by
  obtain ⟨b, hb⟩ := Option.isSome_iff_exists.1 hb
  have hle : potential (fun v o => rank v + if differs (L.get w.user).delta o v = true then 1 else 0) (L.get w.user) b.value
      o.swarm.iteration ≤ N := by
    rw [hN]
    exact potential_rank_le _ _ _
  obtain ⟨h1, h2, h3⟩ := PSO.nextIterations_stagnates hc (counts_rank hd) (fun _ _ _ _ _ => trivial) b w
    ⟨fun _ _ => trivial, hb, trivial⟩ rfl trivial fuel (N + 1) (by omega) (by omega)
  exact ⟨h1, h2, fun r o' w' hr => by have := h3 r o' w' hr; omega⟩

/-! ## Goal functions with bounds -/

/-- C73: if the goal values (of the points the hooks let pass) are between `lo` and `hi` and `d` is positive, a run with a new `GoalNotChange(m, d)` takes at most
`(⌊(hi - lo) / d⌋ + 2) * (m + 1)` iterations. -/
theorem C73_swarm_bounded [FloatT α] (p : Profile) (L : Lens σ GNC) (o : PSO.Opt σ α)
    (hc : PSO.Consented L (goalNotChange p) o.comps) (hne : ¬ Returned o.comps.coordInit []) (lo hi : F64)
    (hlo : lo.isFinite = true) (hhi : hi.isFinite = true)
    (hg : ∀ raw x v, Spec.Swarm.Hooked o.comps.postMove raw x → Returned (o.comps.goal x) v →
      lo.le v = true ∧ v.le hi = true)
    (m : Nat) (d : F64) (hd : (Fl.zero : F64).lt d = true) (w : World σ (List α)) (hw : L.get w.user = GNC.new m d) (N : Nat)
    (hN : N = (((hi.toInt - lo.toInt) / d.toInt).toNat + 2) * (m + 1)) (fuel : Nat) (hf : N < fuel) :
    PSO.findMin fuel o w = PSO.findMin (N + 1) o w ∧
    (PSO.NoFuel o.comps → PSO.findMin fuel o w ≠ .error .fuel) ∧
    (∀ r o' w', PSO.findMin fuel o w = .ok ((r, o'), w') → o'.swarm.iteration ≤ N) := by
  obtain ⟨-, hd1, hd2⟩ := Fl.lt_iff.1 hd
  rw [Fl.toInt_eq_zero.2 Fl.idx_zero] at hd2
  have hc2 := (counts_distance hd1 hd2 lo.toInt).mono (fun _ _ => Better.toInt_le)
  have hg2 : ∀ raw x v, Spec.Swarm.Hooked o.comps.postMove raw x → Returned (o.comps.goal x) v → (v.isFinite = true ∧ lo.toInt ≤ v.toInt) ∧ v.toInt ≤ hi.toInt := by
    intro raw x v hx h
    obtain ⟨h1, h2⟩ := hg raw x v hx h
    exact ⟨⟨Fl.isFinite_of_between hlo hhi h1 h2, (Fl.le_iff.1 h1).2.2⟩, (Fl.le_iff.1 h2).2.2⟩
  -- the same count for values that are also at most `hi`
  have hc3 : Counts d Better (fun v => (v.isFinite = true ∧ lo.toInt ≤ v.toInt) ∧ v.toInt ≤ hi.toInt)
      (fun o => o.isFinite = true) (fun v o => if differs d o v = true then ((v.toInt - lo.toInt) / d.toInt).toNat + 1
        else ((min o.toInt (v.toInt + d.toInt) - lo.toInt) / d.toInt).toNat) :=
    ⟨fun v h => hc2.old v h.1, fun v v' o h h' => hc2.change v v' o h.1 h'.1, fun v v' o h h' => hc2.calm v v' o h.1 h'.1⟩
  refine PSO.findMin_stagnates hc hc3 hg2 hne w (by rw [hw]; rfl) ?_ N ?_ fuel (N + 1) hf (by omega)
  · rw [hw]
    show (Fl.maxFinite : F64).isFinite = true
    decide +kernel
  · rintro v ⟨⟨hv, hv1⟩, hv2⟩
    rw [hw]
    have := potential_distance_le (GNC.new m d) v 0 lo.toInt hi.toInt hd2 hv1 hv2
    rw [hN]
    exact this

/-! ### Concrete runs -/

theorem consented_of_private [FloatT α] {L : Lens σ τ} {chk : AlgState (List α) → M τ Bool} {c : PSO.Comps σ α}
    (h : PSO.PrivateStop L chk c) : PSO.Consented L chk c :=
  { stop := by rw [h.stop_eq]; exact C73_alone L chk
    operators := h.operators
    goal := h.goal
    loggers := h.loggers }

/-- The hypotheses of C73_swarm are met, and the bound is not reached. -/
example : PSO.Consented (Lens.snd _ _) (goalNotChange .debug) (gncSwarm .debug).comps ∧
    ¬ Returned (gncSwarm .debug).comps.coordInit [] ∧ (GNC.new 2 (Fl.one.div (Fl.ofNat 2))).delta.lt Fl.zero = false ∧
    M.okAnd (PSO.findMin 10 (gncSwarm .debug) gncWorld) (fun r _ => r.2.swarm.iteration == 7) = true := by
  refine ⟨consented_of_private (gncSwarm_private _), ?_, by decide +kernel, by decide +kernel⟩
  rintro ⟨s, s', h⟩
  simp only [gncSwarm, PSO.new] at h
  split at h <;> cases h

/-- The same particle with a goal of 10 above 5 and 0 below, and a composite stop checker. -/
def stepSwarm : PSO.Opt (List F64 × GNC) F64 :=
  let o := gncSwarm .debug
  { o with comps := { o.comps with
      goal := fun x => pure (if (x.headD Fl.nan).lt (Fl.ofNat 5) then Fl.zero else Fl.ofNat 10)
      stop := any [threshold (Fl.one : F64).neg, fun s => (Lens.snd _ _).zoom (goalNotChange .debug s)] } }

theorem stepSwarm_consented : PSO.Consented (Lens.snd _ _) (goalNotChange .debug) stepSwarm.comps :=
  { stop := C73_any _ _ [threshold (Fl.one : F64).neg] [] (by
      intro c hc s w b w' h
      rw [List.mem_singleton.1 hc] at h
      rw [(M.pure_eq_ok.1 h).2]) (by intro c hc; cases hc)
    goal := fun _ => leaves_pure _ _
    loggers := fun l h => by cases h
    operators :=
      { coordInit := (gncSwarm_private .debug).operators.coordInit
        velInit := leaves_pure _ _
        velCalc := fun _ _ => leaves_pure _ _
        postVel := fun f h => by cases h
        postMove := (gncSwarm_private .debug).operators.postMove } }

/-- The hypotheses of C73_swarm_bounded are met with `d = 1/2` and `m = 2`, so that at most 66 iterations are done; in fact 5. -/
example : PSO.Consented (Lens.snd _ _) (goalNotChange .debug) stepSwarm.comps ∧
    ¬ Returned stepSwarm.comps.coordInit [] ∧
    (∀ raw x v, Spec.Swarm.Hooked stepSwarm.comps.postMove raw x → Returned (stepSwarm.comps.goal x) v →
      (Fl.zero : F64).le v = true ∧ v.le (Fl.ofNat 10) = true) ∧
    (Fl.zero : F64).lt (Fl.one.div (Fl.ofNat 2)) = true ∧
    ((((Fl.ofNat 10 : F64).toInt - (Fl.zero : F64).toInt) / (Fl.one.div (Fl.ofNat 2) : F64).toInt).toNat + 2) * (2 + 1) = 66 ∧
    M.okAnd (PSO.findMin 67 stepSwarm gncWorld) (fun r _ => r.2.swarm.iteration == 5) = true := by
  refine ⟨stepSwarm_consented, ?_, ?_, by decide +kernel, by decide +kernel, by decide +kernel⟩
  · rintro ⟨s, s', h⟩
    simp only [stepSwarm, gncSwarm, PSO.new] at h
    split at h <;> cases h
  · rintro raw x v - ⟨s, s', h⟩
    have h := (M.pure_eq_ok.1 h).1
    have e : (Fl.zero : F64).le Fl.zero = true ∧ (Fl.zero : F64).le (Fl.ofNat 10) = true ∧
        (Fl.ofNat 10 : F64).le (Fl.ofNat 10) = true := by decide +kernel
    split at h
    · rw [← h]; exact ⟨e.1, e.2.1⟩
    · rw [← h]; exact ⟨e.2.1, e.2.2⟩

/-! ## The hypotheses are needed -/

theorem findMin_loop_error [FloatT α] {o : PSO.Opt σ α} {fuel : Nat} {w w1 : World σ (List α)} {s : PSO.Swarm α} {e : Err}
    (hl : o.comps.loggers = []) (h : PSO.renewSwarm o.comps o.swarm w = .ok (s, w1))
    (he : PSO.loop o.comps fuel s w1 = .error e) : PSO.findMin fuel o w = .error e := by
  unfold PSO.findMin
  rw [M.bind_run, h]
  simp only
  rw [hl, M.bind_run]
  show PSO.nextIterations fuel { o with swarm := s } w1 = _
  unfold PSO.nextIterations
  simp only
  rw [hl, M.bind_run]
  show (PSO.loop o.comps fuel s >>= _) w1 = _
  rw [M.bind_run, he]

/-- A swarm without particles. -/
def emptySwarm : PSO.Opt GNC F64 :=
  PSO.new (α := F64) (fun _ => pure Fl.zero) (goalNotChange .debug) (pure []) (pure []) (fun _ _ => pure [])

/-- C73 fails without particles: there is no best value to compare, and the run never ends. -/
theorem C73_empty_witness (m : Nat) (d : F64) (fuel : Nat) :
    PSO.findMin fuel emptySwarm ⟨GNC.new m d, []⟩ = .error .fuel := by
  have key : ∀ fuel i (w : World GNC (List F64)), PSO.loop emptySwarm.comps fuel ⟨[], none, none, i⟩ w = .error .fuel := by
    intro fuel
    induction fuel with
    | zero => intro i w; rfl
    | succ fuel ih =>
      intro i w
      have : PSO.loop emptySwarm.comps (fuel + 1) ⟨[], none, none, i⟩ w =
          PSO.loop emptySwarm.comps fuel ⟨[], none, none, i + 1⟩
            ⟨w.user, (w.trace ++ [.check ⟨none, i⟩ false]) ++ [.generation [] none none (i + 1)]⟩ := rfl
      rw [this]
      exact ih _ _
  exact findMin_loop_error rfl (s := ⟨[], none, none, 0⟩) (w1 := ⟨GNC.new m d, [.created []]⟩) rfl (key _ _ _)

/-- One particle in a space without dimensions: the goal is always zero. -/
def pointSwarm : PSO.Opt GNC F64 :=
  PSO.new (α := F64) (fun _ => pure Fl.zero) (goalNotChange .debug) (pure [[]]) (pure [[]]) (fun _ _ => pure [])

/-- C73 fails for a negative `d`: the run of a constant goal never ends. -/
theorem C73_negative_witness (m : Nat) (fuel : Nat) :
    PSO.findMin fuel pointSwarm ⟨GNC.new m (Fl.one : F64).neg, []⟩ = .error .fuel := by
  have hcmp : PSO.compareFloats Fl.zero Fl.zero = .eq := by decide +kernel
  have hm : PSO.Particle.moveTo (PSO.Particle.new ([] : List F64) [] Fl.zero) [] Fl.zero = PSO.Particle.new [] [] Fl.zero := by
    unfold PSO.Particle.moveTo PSO.Particle.new
    simp only [hcmp]
    rfl
  let P : PSO.Particle F64 := PSO.Particle.new [] [] Fl.zero
  let S : Nat → PSO.Swarm F64 := fun i => ⟨[P], some P, some P, i⟩
  have hstep : ∀ i (w : World GNC (List F64)), ∃ w', PSO.step pointSwarm.comps (S i) w = .ok (S (i + 1), w') ∧
      w'.user = w.user := by
    intro i w
    have h1 : PSO.moveParticle pointSwarm.comps (S i) 0 w = .ok (S i,
        ⟨w.user, ((w.trace ++ [.velocity [] []]) ++ [.moved [] []]) ++ [.goal [] Fl.zero]⟩) := by
      have : PSO.moveParticle pointSwarm.comps (S i) 0 w = .ok (⟨[PSO.Particle.moveTo P [] Fl.zero], some P, some P, i⟩,
        ⟨w.user, ((w.trace ++ [.velocity [] []]) ++ [.moved [] []]) ++ [.goal [] Fl.zero]⟩) := rfl
      rw [this, hm]
    have h2 : (S i).updateBest = S i := by
      have hP : (PSO.compareFloats P.value P.value == .lt) = false := by
        show (PSO.compareFloats Fl.zero Fl.zero == .lt) = false
        rw [hcmp]; rfl
      unfold PSO.Swarm.updateBest
      simp only [S, PSO.findBest, PSO.minLoop, hP]
      rfl
    have h3 : (S i).updateWorst = S i := by
      have hP : (PSO.compareFloats P.value P.value == .gt) = false := by
        show (PSO.compareFloats Fl.zero Fl.zero == .gt) = false
        rw [hcmp]; rfl
      unfold PSO.Swarm.updateWorst
      simp only [S, PSO.findWorst, PSO.maxLoop, hP]
      rfl
    refine ⟨⟨w.user, (((w.trace ++ [.velocity [] []]) ++ [.moved [] []]) ++ [.goal [] Fl.zero]) ++
      [.generation (PSO.agents (S (i + 1))) (S (i + 1)).state.best ((S (i + 1)).worst.map PSO.Particle.sol) (i + 1)]⟩, ?_, ?_⟩
    · unfold PSO.step
      show (M.foldL (PSO.moveParticle pointSwarm.comps) (S i) [0] >>= _) w = _
      rw [M.bind_run, M.foldL, M.bind_run, h1]
      simp only [M.foldL, M.pure_run, h2, h3]
      rfl
    · rfl
  have key : ∀ fuel i (w : World GNC (List F64)), w.user.delta = (Fl.one : F64).neg →
      (w.user.oldGoal = Fl.maxFinite ∨ w.user.oldGoal = Fl.zero) → PSO.loop pointSwarm.comps fuel (S i) w = .error .fuel := by
    intro fuel
    induction fuel with
    | zero => intro i w _ _; rfl
    | succ fuel ih =>
      intro i w hd ho
      have hstop : pointSwarm.comps.stop (S i).state w.user =
          .ok (false, { w.user with oldGoal := Fl.zero, changeIter := i }) := by
        show goalNotChange .debug ⟨some ([], Fl.zero), i⟩ w.user = _
        have hr : recordStep w.user.delta (w.user.oldGoal, w.user.changeIter) (⟨some (([] : List F64), Fl.zero), i⟩ : AlgState _) =
            (Fl.zero, i) := by
          unfold recordStep
          rw [hd]
          simp only
          rcases ho with ho | ho <;> rw [ho, if_pos (by decide +kernel)]
        rw [goalNotChange_some]
        simp only [hr, usizeSub, Nat.le_refl, ↓reduceIte, Nat.sub_self]
        simp
      obtain ⟨w', h1, h2⟩ := hstep i ⟨{ w.user with oldGoal := Fl.zero, changeIter := i }, w.trace ++ [.check (S i).state false]⟩
      have h3 : PSO.loop pointSwarm.comps (fuel + 1) (S i) w = PSO.loop pointSwarm.comps fuel (S (i + 1)) w' := by
        rw [PSO.loop, M.bind_run]
        have : (World.lift (pointSwarm.comps.stop (S i).state) : M (World GNC (List F64)) Bool) w =
            .ok (false, ⟨{ w.user with oldGoal := Fl.zero, changeIter := i }, w.trace⟩) :=
          World.lift_eq_ok.2 ⟨hstop, rfl⟩
        rw [this]
        simp only [Bool.false_eq_true, ↓reduceIte]
        rw [M.bind_run]
        show (PSO.step pointSwarm.comps (S i) >>= _) _ = _
        rw [M.bind_run, h1]
      rw [h3]
      exact ih (i + 1) w' (by rw [h2]; exact hd) (.inr (by rw [h2]))
  exact findMin_loop_error rfl (s := S 0) (w1 := ⟨GNC.new m (Fl.one : F64).neg, [.created [[]], .moved [] [], .goal [] Fl.zero]⟩)
    rfl (key _ _ _ rfl (.inl rfl))

end Verif.Props
