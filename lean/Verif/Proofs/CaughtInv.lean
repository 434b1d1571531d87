import Verif.Spec.Caught
import Verif.Proofs.Caught
import Verif.Proofs.GeneticInv

/-!
# Invariants of histories in which panics are caught
-/

namespace Verif.Caught

open Verif Spec.Caught

variable {σ T X α β : Type}

/-- A predicate on the optimizer's memory and the trace. -/
def On (J : X → List (Ev T) → Prop) : St σ T X → Prop := fun w => J w.mem w.trace

theorem tri_lift {J : X → List (Ev T) → Prop} {E : St σ T X → Prop} (m : KM σ α) (he : ∀ w, On J w → E w) :
    KM.Tri (On J) (lift m : KM (St σ T X) α) (fun a => On (fun p tr => J p tr ∧ Returned m a)) E := by
  intro w hw
  unfold lift
  rcases h : m w.user with ⟨r, u⟩
  constructor
  · intro a w' hr
    cases hr
    exact ⟨hw, _, _, h⟩
  · intro e w' hr
    cases hr
    exact he _ hw

theorem tri_emit {J J' : X → List (Ev T) → Prop} {E : St σ T X → Prop} (e : Ev T)
    (h : ∀ p tr, J p tr → J' p (tr ++ [e])) :
    KM.Tri (On J) (emit e : KM (St σ T X) Unit) (fun _ => On J') E :=
  KM.Tri.modify (fun w hw => h _ _ hw)

theorem tri_mem {J : X → List (Ev T) → Prop} {E : St σ T X → Prop} :
    KM.Tri (On J) (mem : KM (St σ T X) X) (fun p => On (fun q tr => J q tr ∧ q = p)) E := by
  intro w hw
  constructor
  · intro a w' hr; unfold mem at hr; cases hr; exact ⟨hw, rfl⟩
  · intro e w' hr; unfold mem at hr; cases hr

theorem tri_change {J J' : X → List (Ev T) → Prop} {E : St σ T X → Prop} (g : X → X)
    (h : ∀ p tr, J p tr → J' (g p) tr) :
    KM.Tri (On J) (change g : KM (St σ T X) Unit) (fun _ => On J') E :=
  KM.Tri.modify (fun w hw => h _ _ hw)

theorem tri_callLoggers {J : X → List (Ev T) → Prop} {E : St σ T X → Prop} (k : LogKind) (s : AlgState T)
    (h : ∀ i p tr, J p tr → J p (tr ++ [.log i k s])) (he : ∀ w, On J w → E w) (i : Nat) (ls : List (Logger σ T)) :
    KM.Tri (On J) (callLoggers k s i ls : KM (St σ T X) Unit) (fun _ => On J) E := by
  induction ls generalizing i with
  | nil => exact KM.Tri.pure (fun w hw => hw)
  | cons l ls ih =>
    refine KM.Tri.bind (tri_lift _ he) fun _ => ?_
    refine KM.Tri.bind (tri_emit (J' := J) _ (fun p tr hp => h i p tr hp.1)) fun _ => ih (i + 1)

/-- Follow a call by a `pure`. -/
theorem tri_map {P : St σ T X → Prop} {m : KM (St σ T X) α} {Q : α → St σ T X → Prop} {E : St σ T X → Prop} (f : α → β)
    (h : KM.Tri P m Q E) : KM.Tri P (m >>= fun r => pure (f r)) (fun b w => ∃ a, b = f a ∧ Q a w) E :=
  h.bind fun a => KM.Tri.pure (fun _ hw => ⟨a, rfl, hw⟩)

/-! ## Genetic -/

namespace GA

open Spec.Caught.GA

/-- Conditions under which a predicate survives everything that can happen in a call. `B` is a property of everything
that is born. -/
structure Inv (P : Comps σ T → Prop) (B : Comps σ T → T → Prop) (J : Population T → List (Ev T) → Prop) : Prop where
  /-- what the creator returns -/
  creator : ∀ c xs, P c → Returned c.creator xs → ∀ x ∈ xs, B c x
  /-- what comes through the pre-birth filters -/
  preBirth : ∀ c p xs ys (w w' : St σ T (Population T)), P c → preBirth p 0 c.preBirths xs w = (.ok ys, w') → ∀ y ∈ ys, B c y
  log : ∀ i k p tr, J p tr → J p (tr ++ [.log i k p.state])
  check : ∀ b p tr, J p tr → J p (tr ++ [.check p.state b])
  created : ∀ xs p tr, J p tr → J p (tr ++ [.created xs])
  quiet : ∀ e p tr, (∀ x v, e ≠ .goal x v) → Spec.Silent e → (∀ xs, e ≠ .created xs) → J p tr → J p (tr ++ [e])
  born : ∀ c x v p tr, P c → B c x → Returned (c.goal x) v → J p tr →
    J { p with individuals := p.individuals ++ [⟨x, v, true⟩] } (tr ++ [.goal x v])
  select : ∀ c sel s p r s' p' tr, P c → sel ∈ c.selections → sel (s, p) = (r, s', p') → J p tr → J p' tr
  finish : ∀ p q tr, (p.removeDead.updateBestWorst : M Unit (Population T)) () = .ok (q, ()) → J p tr →
    J q.nextIteration
      (tr ++ [.generation (Verif.GA.agents q.nextIteration) q.state.best (q.worst.map Individual.sol) (q.iteration + 1)])

variable {P : Comps σ T → Prop} {B : Comps σ T → T → Prop} {J : Population T → List (Ev T) → Prop}

theorem Inv.append (h : Inv P B J) {c : Comps σ T} (hc : P c) (xs : List T) (hx : ∀ x ∈ xs, B c x) :
    KM.Tri (On J) (append c xs) (fun _ => On J) (On J) := by
  refine KM.Tri.forL (fun x hm => ?_)
  intro w hw
  unfold push
  constructor
  · intro u w' hr
    rw [KM.bind_run] at hr
    unfold lift at hr
    rcases hg : c.goal x w.user with ⟨r, s'⟩
    rw [hg] at hr
    cases r with
    | error e => cases hr
    | ok v =>
      dsimp only at hr
      cases hr
      exact h.born c x v _ _ hc (hx x hm) ⟨_, _, hg⟩ hw
  · intro e w' hr
    rw [KM.bind_run] at hr
    unfold lift at hr
    rcases hg : c.goal x w.user with ⟨r, s'⟩
    rw [hg] at hr
    cases r with
    | error e => cases hr; exact hw
    | ok v => cases hr

theorem Inv.crossFamily (h : Inv P B J) {c : Comps σ T} (p : Population T) (family : List Nat) :
    KM.Tri (On J) (crossFamily c p family) (fun _ => On J) (On J) := by
  unfold GA.crossFamily
  refine KM.Tri.bind (KM.Tri.mapL_inv (fun i _ => ?_)) fun parents => ?_
  · exact KM.Tri.bind (KM.Tri.index (Q := fun _ => On J) (fun _ _ hw _ => hw) (fun _ hw => hw))
      fun _ => KM.Tri.pure (fun _ hw => hw)
  · refine KM.Tri.bind (tri_lift _ (fun _ hw => hw)) fun children => ?_
    refine KM.Tri.bind (tri_emit (J' := J) _ (fun p tr hp => h.quiet _ _ _ (by simp) trivial (by simp) hp.1)) fun _ => ?_
    exact KM.Tri.pure (fun _ hw => hw)

theorem Inv.runPairing (h : Inv P B J) {c : Comps σ T} :
    KM.Tri (On J) (runPairing c) (fun _ => On J) (On J) := by
  unfold GA.runPairing
  refine KM.Tri.bind tri_mem fun p => ?_
  refine KM.Tri.bind (tri_lift _ (fun _ hw => hw.1)) fun families => ?_
  refine KM.Tri.bind (tri_emit (J' := J) _ (fun p tr hp => h.quiet _ _ _ (by simp) trivial (by simp) hp.1.1)) fun _ => ?_
  refine KM.Tri.bind (KM.Tri.mapL_inv (fun f _ => h.crossFamily p f)) fun _ => ?_
  exact KM.Tri.pure (fun _ hw => hw)

theorem Inv.mutate (h : Inv P B J) {c : Comps σ T} (xs : List T) :
    KM.Tri (On J) (mutate c xs) (fun _ => On J) (On J) := by
  unfold GA.mutate
  refine KM.Tri.mapL_inv (fun x _ => ?_)
  refine KM.Tri.bind (tri_lift _ (fun _ hw => hw)) fun y => ?_
  refine KM.Tri.bind (tri_emit (J' := J) _ (fun p tr hp => h.quiet _ _ _ (by simp) trivial (by simp) hp.1)) fun _ => ?_
  exact KM.Tri.pure (fun _ hw => hw)

theorem Inv.preBirths (h : Inv P B J) (p : Population T) (fs : List (Population T → List T → KM σ (List T))) (i : Nat)
    (xs : List T) : KM.Tri (On J) (GA.preBirth p i fs xs) (fun _ => On J) (On J) := by
  induction fs generalizing i xs with
  | nil => exact KM.Tri.pure (fun _ hw => hw)
  | cons f fs ih =>
    refine KM.Tri.bind (tri_lift _ (fun _ hw => hw)) fun y => ?_
    refine KM.Tri.bind (tri_emit (J' := J) _ (fun p tr hp => h.quiet _ _ _ (by simp) trivial (by simp) hp.1)) fun _ => ?_
    exact ih _ _

theorem Inv.preBirths_born (h : Inv P B J) {c : Comps σ T} (hc : P c) (p : Population T) (xs : List T) :
    KM.Tri (On J) (GA.preBirth p 0 c.preBirths xs)
      (fun ys => On (fun q tr => J q tr ∧ ∀ y ∈ ys, B c y)) (On J) := by
  intro w hw
  obtain ⟨h1, h2⟩ := h.preBirths p c.preBirths 0 xs w hw
  exact ⟨fun a w' hr => ⟨h1 a w' hr, h.preBirth c p xs a w w' hc hr⟩, h2⟩

theorem Inv.selects (h : Inv P B J) {c : Comps σ T} (hc : P c) (fs : List (KM (σ × Population T) Unit)) (i : Nat)
    (hs : ∀ f ∈ fs, f ∈ c.selections) : KM.Tri (On J) (GA.select i fs) (fun _ => On J) (On J) := by
  induction fs generalizing i with
  | nil => exact KM.Tri.pure (fun _ hw => hw)
  | cons f fs ih =>
    refine KM.Tri.bind tri_mem fun p => ?_
    refine KM.Tri.bind (Q := fun _ => On J) ?_ fun _ => ?_
    · intro w hw
      unfold liftSelection
      have := h.select c f w.user w.mem _ _ _ w.trace hc (hs f (by simp)) rfl hw.1
      have hw' : ∀ r w', ((f (w.user, w.mem)).1, { w with user := (f (w.user, w.mem)).2.1, mem := (f (w.user, w.mem)).2.2 }) =
          (r, w') → On J w' := by
        intro r w' hr
        rw [← (Prod.mk.inj hr).2]
        exact this
      exact ⟨fun a w' hr => hw' _ _ hr, fun e w' hr => hw' _ _ hr⟩
    · refine KM.Tri.bind tri_mem fun p' => ?_
      refine KM.Tri.bind (tri_emit (J' := J) _ (fun p tr hp => h.quiet _ _ _ (by simp) trivial (by simp) hp.1)) fun _ => ?_
      exact ih _ (fun f hf => hs f (by simp [hf]))

/-- A completed generation: the bookkeeping and the event after it cannot be interrupted. -/
theorem Inv.finishes (h : Inv P B J) {c : Comps σ T} : KM.Tri (On J) (do
    change Population.removeDead
    updateBestWorst
    change Population.nextIteration
    let p ← mem
    emit (.generation (Verif.GA.agents p) p.state.best (p.worst.map Individual.sol) p.iteration)
    callLoggers .next p.state 0 c.loggers) (fun _ => On J) (On J) := by
  intro w hw
  obtain ⟨q, hq⟩ := updateBestWorst_any w.mem.removeDead
  have hq' := hq Unit ()
  have hJ := h.finish w.mem q w.trace hq' hw
  have hlog := tri_callLoggers (σ := σ) (X := Population T) (J := fun p tr => J p tr ∧ p = q.nextIteration) (E := On J) .next
    q.nextIteration.state (fun i p tr hp => ⟨hp.2 ▸ h.log i .next _ tr (hp.2 ▸ hp.1), hp.2⟩) (fun w hw => hw.1) 0 c.loggers
  simp only [KM.bind_run, change, KM.modify, updateBestWorst, hq', mem, emit]
  obtain ⟨h1, h2⟩ := hlog ⟨w.user, w.trace ++ [.generation (Verif.GA.agents q.nextIteration) q.state.best
    (q.worst.map Individual.sol) (q.iteration + 1)], q.nextIteration⟩ ⟨hJ, rfl⟩
  exact ⟨fun a w' hr => (h1 a w' hr).1, fun e w' hr => h2 e w' hr⟩

theorem Inv.step (h : Inv P B J) {c : Comps σ T} (hc : P c) : KM.Tri (On J) (step c) (fun _ => On J) (On J) := by
  unfold GA.step
  refine KM.Tri.bind h.runPairing fun children => ?_
  refine KM.Tri.bind (h.mutate children) fun mutants => ?_
  refine KM.Tri.bind tri_mem fun p => ?_
  refine KM.Tri.bind ((h.preBirths_born hc p mutants).imp (fun w hw => hw.1) (fun _ _ h => h) (fun _ h => h)) fun born => ?_
  refine KM.Tri.bind (Q := fun _ => On J) ?_ fun _ => ?_
  · intro w hw
    exact h.append hc born hw.2 w hw.1
  · refine KM.Tri.bind (h.selects hc c.selections 0 (fun _ hf => hf)) fun _ => ?_
    exact h.finishes

theorem Inv.loop (h : Inv P B J) {c : Comps σ T} (hc : P c) (fuel : Nat) :
    KM.Tri (On J) (loop c fuel) (fun _ => On J) (On J) := by
  induction fuel with
  | zero => exact KM.Tri.fail (fun _ hw => hw)
  | succ fuel ih =>
    unfold GA.loop
    refine KM.Tri.bind tri_mem fun p => ?_
    refine KM.Tri.bind (tri_lift _ (fun _ hw => hw.1)) fun b => ?_
    refine KM.Tri.bind (tri_emit (J' := J) _ (fun q tr hp => ?_)) fun _ => ?_
    · obtain ⟨⟨h1, rfl⟩, -⟩ := hp
      exact h.check b _ _ h1
    · split
      · exact KM.Tri.pure (fun _ hw => hw)
      · exact KM.Tri.bind (h.step hc) fun _ => ih

theorem Inv.loggers (h : Inv P B J) {c : Comps σ T} (k : LogKind) :
    KM.Tri (On J) (mem >>= fun p => callLoggers k p.state 0 c.loggers) (fun _ => On J) (On J) := by
  refine KM.Tri.bind tri_mem fun p => ?_
  refine (tri_callLoggers (J := fun q tr => J q tr ∧ q = p) (E := On J) k p.state ?_ (fun w hw => hw.1) 0 _).imp
    (fun w hw => hw) (fun _ w hw => hw.1) (fun w hw => hw)
  rintro i q tr ⟨h1, rfl⟩
  exact ⟨h.log i k _ _ h1, rfl⟩

theorem Inv.nextIterations (h : Inv P B J) {c : Comps σ T} (hc : P c) (fuel : Nat) :
    KM.Tri (On J) (nextIterations fuel c) (fun r w => On J w ∧ r = w.mem.best.map Individual.sol) (On J) := by
  have e : GA.nextIterations fuel c = (do
      (mem >>= fun p => callLoggers .resume p.state 0 c.loggers)
      GA.loop c fuel
      (mem >>= fun p => callLoggers .finish p.state 0 c.loggers)
      let p ← mem
      pure (match p.best with
        | none => none
        | some i => some (i.chromosomes, i.fitness))) := rfl
  rw [e]
  refine KM.Tri.bind (h.loggers .resume) fun _ => ?_
  refine KM.Tri.bind (h.loop hc fuel) fun _ => ?_
  refine KM.Tri.bind (h.loggers .finish) fun _ => ?_
  refine KM.Tri.bind tri_mem fun p => ?_
  refine KM.Tri.pure (fun w hw => ?_)
  obtain ⟨h1, rfl⟩ := hw
  refine ⟨h1, ?_⟩
  cases w.mem.best <;> rfl

/-- `find_min` after the reset of the population. -/
theorem Inv.findMin_reset (h : Inv P B J) {c : Comps σ T} (hc : P c) (fuel : Nat) (w : St σ T (Population T))
    (hw : J Population.empty w.trace) :
    (∀ r w', findMin fuel c w = (.ok r, w') → On J w' ∧ r = w'.mem.best.map Individual.sol) ∧
    (∀ e w', findMin fuel c w = (.error e, w') → On J w') := by
  have key : KM.Tri (On (fun p tr => J Population.empty tr)) (findMin fuel c)
      (fun r w => On J w ∧ r = w.mem.best.map Individual.sol) (On J) := by
    unfold GA.findMin
    refine KM.Tri.bind (tri_change (J' := J) _ (fun p tr hp => hp)) fun _ => ?_
    refine KM.Tri.bind (tri_lift _ (fun _ hw => hw)) fun start => ?_
    refine KM.Tri.bind (tri_emit (J' := fun p tr => J p tr ∧ Returned c.creator start) _
      (fun p tr hp => ⟨h.created start p tr hp.1, hp.2⟩)) fun _ => ?_
    refine KM.Tri.bind (Q := fun _ => On J) ?_ fun _ => ?_
    · intro w hw
      exact h.append hc start (h.creator c start hc hw.2) w hw.1
    · have e : (mem >>= fun p => (callLoggers .start p.state 0 c.loggers >>= fun _ => GA.nextIterations fuel c) :
          KM (St σ T (Population T)) _) =
          (mem >>= fun p => callLoggers .start p.state 0 c.loggers) >>= fun _ => GA.nextIterations fuel c := rfl
      rw [e]
      exact KM.Tri.bind (h.loggers .start) fun _ => h.nextIterations hc fuel
  exact key w hw

theorem Inv.findMin (h : Inv P B J) (hres : ∀ p tr, J p tr → J Population.empty tr) {c : Comps σ T} (hc : P c)
    (fuel : Nat) :
    KM.Tri (On J) (findMin fuel c) (fun r w => On J w ∧ r = w.mem.best.map Individual.sol) (On J) :=
  fun w hw => h.findMin_reset hc fuel w (hres _ _ hw)

theorem Inv.exec (h : Inv P B J) (hres : ∀ p tr, J p tr → J Population.empty tr) {c : Comps σ T} (hc : P c) (k : Call σ T) :
    KM.Tri (On J) (exec c k) (fun r w => On J w ∧ ∀ b, r = some b → b = w.mem.best.map Individual.sol) (On J) := by
  have hp : KM.Tri (On J) (pure none : KM (St σ T (Population T)) (Verif.GA.Ret T))
      (fun r w => On J w ∧ ∀ b, r = some b → b = w.mem.best.map Individual.sol) (On J) :=
    KM.Tri.pure (fun w hw => ⟨hw, by simp⟩)
  cases k with
  | findMin fuel =>
    refine (tri_map some (h.findMin hres hc fuel)).imp (fun _ h => h) ?_ (fun _ h => h)
    rintro r w ⟨a, rfl, hw, ha⟩
    exact ⟨hw, fun b hb => by cases hb; exact ha⟩
  | nextIterations fuel =>
    refine (tri_map some (h.nextIterations hc fuel)).imp (fun _ h => h) ?_ (fun _ h => h)
    rintro r w ⟨a, rfl, hw, ha⟩
    exact ⟨hw, fun b hb => by cases hb; exact ha⟩
  | _ => exact hp

theorem runCaught_cons (c : Comps σ T) (k : Call σ T) (ks : List (Call σ T)) (w : St σ T (Population T)) :
    runCaught c (k :: ks) w = ((exec c k w).1 :: (runCaught (after c k) ks (exec c k w).2).1,
      (runCaught (after c k) ks (exec c k w).2).2) := rfl

/-- Whatever panics, the invariant holds at the end, and it held when a call returned. -/
theorem Inv.run (h : Inv P B J) (hres : ∀ p tr, J p tr → J Population.empty tr) : ∀ (ks : List (Call σ T)) (c : Comps σ T) (w : St σ T (Population T)), Always P c ks →
    On J w → On J (runCaught c ks w).2.2 := by
  intro ks
  induction ks with
  | nil => intro c w _ hw; exact hw
  | cons k ks ih =>
    intro c w hc hw
    rw [runCaught_cons]
    apply ih _ _ hc.2
    obtain ⟨h1, h2⟩ := h.exec hres hc.1 k w hw
    rcases he : GA.exec c k w with ⟨r, w'⟩
    cases r with
    | ok a => exact (h1 a w' he).1
    | error e => exact h2 e w' he

/-- Traces only grow. -/
theorem grows (tr0 : List (Ev T)) : Inv (σ := σ) (fun _ => True) (fun _ _ => True) (fun _ tr => ∃ ext, tr = tr0 ++ ext) where
  creator := by simp
  preBirth := by simp
  log := by rintro i k p tr ⟨ext, rfl⟩; exact ⟨ext ++ [_], by rw [List.append_assoc]⟩
  check := by rintro b p tr ⟨ext, rfl⟩; exact ⟨ext ++ [_], by rw [List.append_assoc]⟩
  created := by rintro xs p tr ⟨ext, rfl⟩; exact ⟨ext ++ [_], by rw [List.append_assoc]⟩
  quiet := by rintro e p tr - - - ⟨ext, rfl⟩; exact ⟨ext ++ [_], by rw [List.append_assoc]⟩
  born := by rintro c x v p tr - - - ⟨ext, rfl⟩; exact ⟨ext ++ [_], by rw [List.append_assoc]⟩
  select := by rintro c sel s p r s' p' tr - - - h; exact h
  finish := by rintro p q tr - ⟨ext, rfl⟩; exact ⟨ext ++ [_], by rw [List.append_assoc]⟩

theorem always_true (c : Comps σ T) (ks : List (Call σ T)) : Always (fun _ => True) c ks := by
  induction ks generalizing c with
  | nil => trivial
  | cons k ks ih => exact ⟨trivial, ih _⟩

theorem runCaught_grows (ks : List (Call σ T)) (c : Comps σ T) (w : St σ T (Population T)) :
    ∃ ext, (runCaught c ks w).2.2.trace = w.trace ++ ext :=
  (grows w.trace).run (fun _ _ h => h) ks c w (always_true c ks) ⟨[], by simp⟩

/-- What a call returned was the best of a state in which the invariant held. -/
theorem Inv.run_ret (h : Inv P B J) (hres : ∀ p tr, J p tr → J Population.empty tr) : ∀ (ks : List (Call σ T))
    (c : Comps σ T) (w : St σ T (Population T)), Always P c ks → On J w → ∀ b, .ok (some b) ∈ (runCaught c ks w).1 →
    ∃ p tr ext, J p tr ∧ b = p.best.map Individual.sol ∧ (runCaught c ks w).2.2.trace = tr ++ ext := by
  intro ks
  induction ks with
  | nil => intro c w _ _ b hb; cases hb
  | cons k ks ih =>
    intro c w hc hw b hb
    rw [runCaught_cons] at hb ⊢
    obtain ⟨h1, h2⟩ := h.exec hres hc.1 k w hw
    rcases List.mem_cons.1 hb with hb | hb
    · rcases he : GA.exec c k w with ⟨r, w'⟩
      rw [he] at hb
      dsimp only at hb
      subst hb
      obtain ⟨h3, h4⟩ := h1 _ _ he
      obtain ⟨ext, hext⟩ := runCaught_grows ks (after c k) w'
      exact ⟨_, _, ext, h3, h4 b rfl, hext⟩
    · refine ih _ _ hc.2 ?_ b hb
      rcases he : GA.exec c k w with ⟨r, w'⟩
      cases r with
      | ok a => exact (h1 a w' he).1
      | error e => exact h2 e w' he

end GA

end Verif.Caught
