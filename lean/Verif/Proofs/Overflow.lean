import Verif.Spec.Checked
import Verif.Proofs.Checked

/-!
# A computation with overflow checks and the same without
-/

namespace Verif

open Spec Stop

variable {ω σ α β γ δ : Type}

/-- The first computation overflows, or both fail in the same way, or both return. -/
def Strict (Q : α → β → Prop) (m1 : M ω α) (m2 : M ω β) : Prop :=
  ∀ w, m1 w = .error .arith ∨ (∃ e, m1 w = .error e ∧ m2 w = .error e) ∨
    ∃ a b w', m1 w = .ok (a, w') ∧ m2 w = .ok (b, w') ∧ Q a b

namespace Strict

theorem refl (m : M ω α) : Strict Eq m m := by
  intro w
  cases h : m w with
  | error e => exact .inr (.inl ⟨e, rfl, rfl⟩)
  | ok r => exact .inr (.inr ⟨r.1, r.1, r.2, rfl, rfl, rfl⟩)

theorem pure {Q : α → β → Prop} {a : α} {b : β} (h : Q a b) : Strict Q (pure a : M ω α) (pure b) :=
  fun w => .inr (.inr ⟨a, b, w, rfl, rfl, h⟩)

theorem bind {Q : α → β → Prop} {Q' : γ → δ → Prop} {m1 : M ω α} {m2 : M ω β} {f : α → M ω γ} {g : β → M ω δ}
    (hm : Strict Q m1 m2) (hf : ∀ a b, Q a b → Strict Q' (f a) (g b)) : Strict Q' (m1 >>= f) (m2 >>= g) := by
  intro w
  rw [M.bind_run, M.bind_run]
  rcases hm w with h | ⟨e, h1, h2⟩ | ⟨a, b, w', h1, h2, hQ⟩
  · exact .inl (by rw [h])
  · exact .inr (.inl ⟨e, by rw [h1], by rw [h2]⟩)
  · rw [h1, h2]
    exact hf a b hQ w'

/-- The same first part. -/
theorem same {Q' : γ → δ → Prop} (m : M ω α) {f : α → M ω γ} {g : α → M ω δ} (hf : ∀ a, Strict Q' (f a) (g a)) :
    Strict Q' (m >>= f) (m >>= g) := (refl m).bind fun a _ h => h ▸ hf a

theorem zoom {τ : Type} (L : Lens ω τ) {m1 m2 : M τ α} (h : Strict Eq m1 m2) : Strict Eq (L.zoom m1) (L.zoom m2) := by
  intro w
  unfold Lens.zoom
  rcases h (L.get w) with h | ⟨e, h1, h2⟩ | ⟨a, b, w', h1, h2, rfl⟩
  · exact .inl (by rw [h])
  · exact .inr (.inl ⟨e, by rw [h1], by rw [h2]⟩)
  · exact .inr (.inr ⟨a, a, _, by rw [h1], by rw [h2], rfl⟩)

theorem lift {T : Type} {m1 m2 : M σ α} (h : Strict Eq m1 m2) : Strict Eq (World.lift m1 : M (World σ T) α) (World.lift m2) := by
  intro w
  unfold World.lift
  rcases h w.user with h | ⟨e, h1, h2⟩ | ⟨a, b, w', h1, h2, rfl⟩
  · exact .inl (by rw [h])
  · exact .inr (.inl ⟨e, by rw [h1], by rw [h2]⟩)
  · exact .inr (.inr ⟨a, a, _, by rw [h1], by rw [h2], rfl⟩)

end Strict

section

variable {T : Type}

theorem goalNotChange_strict (s : AlgState T) : Strict Eq (goalNotChange .debug s) (goalNotChange .release s) := by
  obtain ⟨best, it⟩ := s
  cases best with
  | none => exact .pure rfl
  | some bg =>
    refine .same _ fun c => .same _ fun _ => Strict.bind (Q := Eq) ?_ fun d _ h => h ▸ .pure rfl
    have key : ∀ (n : Nat) (w : GNC), (M.ofExcept (usizeSub .debug it n) : M GNC Nat) w = .error .arith ∨
        (M.ofExcept (usizeSub .debug it n) : M GNC Nat) = M.ofExcept (usizeSub .release it n) := by
      intro n w
      by_cases h : n ≤ it
      · right
        have : ∀ p, usizeSub p it n = .ok (it - n) := fun p => by unfold usizeSub; rw [if_pos h]
        rw [this, this]
      · left
        have : usizeSub .debug it n = .error .arith := by unfold usizeSub; rw [if_neg h]
        rw [this]
        rfl
    intro w
    rcases key _ w with h | h
    · exact .inl h
    · rw [h]
      exact Strict.refl _ w

theorem compiled_strict {stop : Profile → AlgState T → M σ Bool} (h : Compiled stop) (s : AlgState T) :
    Strict Eq (stop .debug s) (stop .release s) := by
  induction h with
  | object L => exact (goalNotChange_strict s).zoom L
  | other c => exact .refl _
  | any cs _ ih =>
    clear * - ih
    induction cs with
    | nil => exact .refl _
    | cons c cs ih2 =>
      refine (ih c List.mem_cons_self).bind fun a b h => ?_
      subst h
      cases a with
      | true => exact .pure rfl
      | false => exact ih2 fun c hc => ih c (List.mem_cons_of_mem _ hc)
  | all cs _ ih =>
    clear * - ih
    induction cs with
    | nil => exact .refl _
    | cons c cs ih2 =>
      refine (ih c List.mem_cons_self).bind fun a b h => ?_
      subst h
      cases a with
      | false => exact .pure rfl
      | true => exact ih2 fun c hc => ih c (List.mem_cons_of_mem _ hc)

end

namespace GA

variable {T : Type}

/-- Two optimizers that differ in their stop checkers. -/
def StopDiffers (o1 o2 : Opt σ T) : Prop :=
  ∃ s1 s2, (∀ st, Strict Eq (s1 st) (s2 st)) ∧ ∃ o : Opt σ T, o1 = o.withStop s1 ∧ o2 = o.withStop s2

theorem loop_strict {c : Comps σ T} {s1 s2 : AlgState T → M σ Bool} (h : ∀ st, Strict Eq (s1 st) (s2 st)) :
    ∀ (fuel : Nat) (p : Population T), Strict Eq (loop { c with stop := s1 } fuel p) (loop { c with stop := s2 } fuel p) := by
  intro fuel
  induction fuel with
  | zero => exact fun p => .refl _
  | succ fuel ih =>
    intro p
    refine (h p.state).lift.bind fun b _ hb => ?_
    subst hb
    refine .same _ fun _ => ?_
    cases b with
    | true => exact .refl _
    | false => exact .same (step c p) fun p' => ih p'

theorem nextIterations_strict {o : Opt σ T} {s1 s2 : AlgState T → M σ Bool} (h : ∀ st, Strict Eq (s1 st) (s2 st)) (fuel : Nat) :
    Strict (fun a b => a.1 = b.1 ∧ StopDiffers a.2 b.2) (nextIterations fuel (o.withStop s1)) (nextIterations fuel (o.withStop s2)) :=
  .same _ fun _ => (loop_strict h fuel o.pop).bind fun p _ hp => hp ▸ .same _ fun _ => .pure ⟨rfl, s1, s2, h, ⟨o.comps, p⟩, rfl, rfl⟩

theorem findMin_strict {o : Opt σ T} {s1 s2 : AlgState T → M σ Bool} (h : ∀ st, Strict Eq (s1 st) (s2 st)) (fuel : Nat) :
    Strict (fun a b => a.1 = b.1 ∧ StopDiffers a.2 b.2) (findMin fuel (o.withStop s1)) (findMin fuel (o.withStop s2)) :=
  .same _ fun _ => .same _ fun _ => .same _ fun p => .same _ fun _ => nextIterations_strict (o := ⟨o.comps, p⟩) h fuel

theorem call_strict {o1 o2 : Opt σ T} (h : StopDiffers o1 o2) (k : Call σ T) :
    Strict (fun a b => a.1 = b.1 ∧ StopDiffers a.2 b.2) (call o1 k) (call o2 k) := by
  obtain ⟨s1, s2, h, o, rfl, rfl⟩ := h
  cases k with
  | findMin fuel => exact (findMin_strict h fuel).bind fun a b hab => .pure ⟨by rw [hab.1], hab.2⟩
  | nextIterations fuel => exact (nextIterations_strict h fuel).bind fun a b hab => .pure ⟨by rw [hab.1], hab.2⟩
  | setLoggers ls => exact .pure ⟨rfl, s1, s2, h, ⟨{ o.comps with loggers := ls }, o.pop⟩, rfl, rfl⟩
  | setPairing f => exact .pure ⟨rfl, s1, s2, h, ⟨{ o.comps with pairing := f }, o.pop⟩, rfl, rfl⟩
  | setCross f => exact .pure ⟨rfl, s1, s2, h, ⟨{ o.comps with cross := f }, o.pop⟩, rfl, rfl⟩
  | setMutation f => exact .pure ⟨rfl, s1, s2, h, ⟨{ o.comps with mutation := f }, o.pop⟩, rfl, rfl⟩
  | setSelection fs => exact .pure ⟨rfl, s1, s2, h, ⟨{ o.comps with selections := fs }, o.pop⟩, rfl, rfl⟩
  | setPreBirth fs => exact .pure ⟨rfl, s1, s2, h, ⟨{ o.comps with preBirths := fs }, o.pop⟩, rfl, rfl⟩
  | setStopChecker f => exact .pure ⟨rfl, f, f, fun st => .refl _, o, rfl, rfl⟩

theorem run_strict : ∀ (ks : List (Call σ T)) {o1 o2 : Opt σ T}, StopDiffers o1 o2 →
    Strict (fun a b => a.1 = b.1 ∧ StopDiffers a.2 b.2) (run o1 ks) (run o2 ks)
  | [], _, _, h => .pure ⟨rfl, h⟩
  | k :: ks, _, _, h => (call_strict h k).bind fun _ _ hab => (run_strict ks hab.2).bind fun _ _ hcd =>
    .pure ⟨by rw [hab.1, hcd.1], hcd.2⟩

end GA

namespace PSO

variable [FloatT α]

/-- Two optimizers that differ in their stop checkers. -/
def StopDiffers (o1 o2 : Opt σ α) : Prop :=
  ∃ s1 s2, (∀ st, Strict Eq (s1 st) (s2 st)) ∧ ∃ o : Opt σ α, o1 = o.withStop s1 ∧ o2 = o.withStop s2

theorem loop_strict {c : Comps σ α} {s1 s2 : AlgState (List α) → M σ Bool} (h : ∀ st, Strict Eq (s1 st) (s2 st)) :
    ∀ (fuel : Nat) (p : Swarm α), Strict Eq (loop { c with stop := s1 } fuel p) (loop { c with stop := s2 } fuel p) := by
  intro fuel
  induction fuel with
  | zero => exact fun p => .refl _
  | succ fuel ih =>
    intro p
    refine (h p.state).lift.bind fun b _ hb => ?_
    subst hb
    refine .same _ fun _ => ?_
    cases b with
    | true => exact .refl _
    | false => exact .same (step c p) fun p' => ih p'

theorem nextIterations_strict {o : Opt σ α} {s1 s2 : AlgState (List α) → M σ Bool} (h : ∀ st, Strict Eq (s1 st) (s2 st))
    (fuel : Nat) : Strict (fun a b => a.1 = b.1 ∧ StopDiffers a.2 b.2) (nextIterations fuel (o.withStop s1))
      (nextIterations fuel (o.withStop s2)) :=
  .same _ fun _ => (loop_strict h fuel o.swarm).bind fun p _ hp => hp ▸ .same _ fun _ => .pure ⟨rfl, s1, s2, h, ⟨o.comps, p⟩, rfl, rfl⟩

theorem findMin_strict {o : Opt σ α} {s1 s2 : AlgState (List α) → M σ Bool} (h : ∀ st, Strict Eq (s1 st) (s2 st)) (fuel : Nat) :
    Strict (fun a b => a.1 = b.1 ∧ StopDiffers a.2 b.2) (findMin fuel (o.withStop s1)) (findMin fuel (o.withStop s2)) :=
  .same (renewSwarm o.comps o.swarm) fun p => .same _ fun _ => nextIterations_strict (o := ⟨o.comps, p⟩) h fuel

theorem call_strict {o1 o2 : Opt σ α} (h : StopDiffers o1 o2) (k : Call σ α) :
    Strict (fun a b => a.1 = b.1 ∧ StopDiffers a.2 b.2) (call o1 k) (call o2 k) := by
  obtain ⟨s1, s2, h, o, rfl, rfl⟩ := h
  cases k with
  | findMin fuel => exact (findMin_strict h fuel).bind fun a b hab => .pure ⟨by rw [hab.1], hab.2⟩
  | nextIterations fuel => exact (nextIterations_strict h fuel).bind fun a b hab => .pure ⟨by rw [hab.1], hab.2⟩
  | setStopChecker f => exact .pure ⟨rfl, f, f, fun st => .refl _, o, rfl, rfl⟩
  | setLoggers ls => exact .pure ⟨rfl, s1, s2, h, ⟨{ o.comps with loggers := ls }, o.swarm⟩, rfl, rfl⟩
  | setPostMoves fs => exact .pure ⟨rfl, s1, s2, h, ⟨{ o.comps with postMove := fs }, o.swarm⟩, rfl, rfl⟩
  | setPostVelocityCalc fs => exact .pure ⟨rfl, s1, s2, h, ⟨{ o.comps with postVel := fs }, o.swarm⟩, rfl, rfl⟩

theorem run_strict : ∀ (ks : List (Call σ α)) {o1 o2 : Opt σ α}, StopDiffers o1 o2 →
    Strict (fun a b => a.1 = b.1 ∧ StopDiffers a.2 b.2) (run o1 ks) (run o2 ks)
  | [], _, _, h => .pure ⟨rfl, h⟩
  | k :: ks, _, _, h => (call_strict h k).bind fun _ _ hab => (run_strict ks hab.2).bind fun _ _ hcd =>
    .pure ⟨by rw [hab.1, hcd.1], hcd.2⟩

end PSO
end Verif
