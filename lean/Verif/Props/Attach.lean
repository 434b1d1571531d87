import Verif.Proofs.Beside
import Verif.Proofs.Record
import Verif.Model.Logging
import Verif.Props.StatLogger

/-!
# C52, C70: a counted goal, one more logger
-/

namespace Verif.Props

open Verif Spec Stats

variable {σ τ T α : Type}

/-! ## C52 -/

/-- C52 (genetic): with the goal wrapped, the same history returns the same values, does the same calls in the same
order, leaves the same population and the same world; the last counter has gone up by the number of goal calls. -/
theorem C52_genetic (o o' : GA.Opt σ T) (p : Profile) (ks : List RunCall) (w w' : World σ T) (c : CallCount) (n : Nat)
    (rs : List (GA.Ret T)) (hr : GA.run o (ks.map GA.runCall) w = .ok ((rs, o'), w'))
    (hn : (goalArgs w'.trace).length = (goalArgs w.trace).length + n) (hfit : c.getLast?.getD 0 + n < 2 ^ 64) :
    GA.run (o.counted p) (ks.map GA.runCall) ⟨(w.user, c), w.trace⟩ =
      .ok ((rs, ⟨(o.counted p).comps, o'.pop⟩), ⟨(w'.user, countUp c n), w'.trace⟩) := by
  have hs : 2 ^ 64 = usizeSize := rfl
  obtain ⟨⟨rs2, ⟨oc, op⟩⟩, ⟨⟨u, c'⟩, tr⟩, h1, ⟨h2, h3, -, h4⟩, h5, h6, m, h7, h8⟩ :=
    (GA.counted_run o p c (goalArgs w.trace).length ks o.pop).ok w ⟨(w.user, c), w.trace⟩
      ⟨rfl, rfl, 0, rfl, rfl⟩ _ _ hr (show _ < _ by unfold lastCount; omega)
  obtain rfl : m = n := by omega
  simp only at h2 h3 h4 h5 h6 h8
  subst h2 h4 h5 h6 h8
  rw [h3]
  exact h1

/-- C52 (genetic), the other direction: if the history returns with the wrapped goal, it returns the same without it. No
bound on the counters is needed. -/
theorem C52_genetic_unchanged (o : GA.Opt σ T) (p : Profile) (ks : List RunCall) (w : World σ T) (c : CallCount)
    (rs : List (GA.Ret T)) (o' : GA.Opt (σ × CallCount) T) (v' : World (σ × CallCount) T)
    (hr : GA.run (o.counted p) (ks.map GA.runCall) ⟨(w.user, c), w.trace⟩ = .ok ((rs, o'), v')) :
    GA.run o (ks.map GA.runCall) w = .ok ((rs, ⟨o.comps, o'.pop⟩), ⟨v'.user.1, v'.trace⟩) := by
  obtain ⟨⟨rs2, ⟨oc, op⟩⟩, ⟨u, tr⟩, h1, ⟨h2, h3, -, h4⟩, h5, h6⟩ :=
    (GA.counted_run_rev o p ks o.pop).ok ⟨(w.user, c), w.trace⟩ w ⟨rfl, rfl⟩ _ _ hr trivial
  simp only at h2 h3 h4 h5 h6
  rw [h2, h3, h5, h6, ← h4]
  exact h1

/-- C52 (swarm) -/
theorem C52_swarm [FloatT α] (o o' : PSO.Opt σ α) (p : Profile) (ks : List RunCall) (w w' : World σ (List α))
    (c : CallCount) (n : Nat) (rs : List (PSO.Ret α)) (hr : PSO.run o (ks.map PSO.runCall) w = .ok ((rs, o'), w'))
    (hn : (goalArgs w'.trace).length = (goalArgs w.trace).length + n) (hfit : c.getLast?.getD 0 + n < 2 ^ 64) :
    PSO.run (o.counted p) (ks.map PSO.runCall) ⟨(w.user, c), w.trace⟩ =
      .ok ((rs, ⟨(o.counted p).comps, o'.swarm⟩), ⟨(w'.user, countUp c n), w'.trace⟩) := by
  have hs : 2 ^ 64 = usizeSize := rfl
  obtain ⟨⟨rs2, ⟨oc, op⟩⟩, ⟨⟨u, c'⟩, tr⟩, h1, ⟨h2, h3, -, h4⟩, h5, h6, m, h7, h8⟩ :=
    (PSO.counted_run o p c (goalArgs w.trace).length ks o.swarm).ok w ⟨(w.user, c), w.trace⟩
      ⟨rfl, rfl, 0, rfl, rfl⟩ _ _ hr (show _ < _ by unfold lastCount; omega)
  obtain rfl : m = n := by omega
  simp only at h2 h3 h4 h5 h6 h8
  subst h2 h4 h5 h6 h8
  rw [h3]
  exact h1

/-- C52 (swarm), the other direction. -/
theorem C52_swarm_unchanged [FloatT α] (o : PSO.Opt σ α) (p : Profile) (ks : List RunCall) (w : World σ (List α))
    (c : CallCount) (rs : List (PSO.Ret α)) (o' : PSO.Opt (σ × CallCount) α) (v' : World (σ × CallCount) (List α))
    (hr : PSO.run (o.counted p) (ks.map PSO.runCall) ⟨(w.user, c), w.trace⟩ = .ok ((rs, o'), v')) :
    PSO.run o (ks.map PSO.runCall) w = .ok ((rs, ⟨o.comps, o'.swarm⟩), ⟨v'.user.1, v'.trace⟩) := by
  obtain ⟨⟨rs2, ⟨oc, op⟩⟩, ⟨u, tr⟩, h1, ⟨h2, h3, -, h4⟩, h5, h6⟩ :=
    (PSO.counted_run_rev o p ks o.swarm).ok ⟨(w.user, c), w.trace⟩ w ⟨rfl, rfl⟩ _ _ hr trivial
  simp only at h2 h3 h4 h5 h6
  rw [h2, h3, h5, h6, ← h4]
  exact h1

/-- What `countUp` does: the counters but the last one stay, the last one grows by `n`; if there was none, one is created
by the first call. -/
theorem C52_counters (c : CallCount) (n : Nat) : (countUp c n).sum = c.sum + n ∧
    (countUp c n).length = (if c = [] ∧ 0 < n then 1 else c.length) ∧ (countUp c n).dropLast = c.dropLast := by
  rcases List.eq_nil_or_concat c with rfl | ⟨init, m, rfl⟩
  · cases n <;> simp [countUp]
  · rw [List.concat_eq_append, countUp_snoc]
    simp [Nat.add_assoc]

example : M.okAnd (GA.run (Demo.opt.counted .debug) [.findMin 3, .nextIterations 3]
    ⟨(Demo.script, [7, 2]), []⟩) (fun _ w => w.user.2 == [7, 2 + (goalArgs w.trace).length] &&
      decide (0 < (goalArgs w.trace).length)) = true := by decide +kernel

example : M.okAnd (PSO.run (SwarmDemo.opt.counted .release) [.findMin 3, .nextIterations 3]
    ⟨(Demo.script, []), []⟩) (fun _ w => w.user.2 == [(goalArgs w.trace).length] &&
      decide (0 < (goalArgs w.trace).length)) = true := by decide +kernel

/-! ## C70 -/

/-- The outcome of a history without the logger (left) and with it (right). -/
structure SameOutcome {R : Type} (J : τ → Prop) (plain : Except Err (R × World σ T))
    (attached : Except Err (R × World (σ × τ) T)) : Prop where
  /-- The run with the logger panics or does not return exactly if the one without it does. -/
  fails : ∀ e, plain = .error e ↔ attached = .error e
  /-- If they return, then the same, with the same effects on everything but the logger. -/
  returns : ∀ r w', plain = .ok (r, w') → ∃ t' tr', attached = .ok (r, ⟨(w'.user, t'), tr'⟩) ∧ J t' ∧
    withoutLogs tr' = withoutLogs w'.trace

/-- The values returned and the population at the end. -/
def gaView {σ : Type} (r : Except Err ((List (GA.Ret T) × GA.Opt σ T) × World σ T)) :
    Except Err ((List (GA.Ret T) × Population T) × World σ T) :=
  match r with
  | .ok ((rs, o), w) => .ok ((rs, o.pop), w)
  | .error e => .error e

/-- The values returned and the swarm at the end. -/
def psoView {σ : Type} (r : Except Err ((List (PSO.Ret α) × PSO.Opt σ α) × World σ (List α))) :
    Except Err ((List (PSO.Ret α) × PSO.Swarm α) × World σ (List α)) :=
  match r with
  | .ok ((rs, o), w) => .ok ((rs, o.swarm), w)
  | .error e => .error e

theorem ga_outcome {I J : τ → Prop} {c1 : GA.Comps σ T} {c2 : GA.Comps (σ × τ) T}
    {m1 : M (World σ T) (List (GA.Ret T) × GA.Opt σ T)}
    {m2 : M (World (σ × τ) T) (List (GA.Ret T) × GA.Opt (σ × τ) T)}
    (h : Sim (Mode.exact _) (With I) (With J) (GA.SameHistory c1 c2) m1 m2) (w : World σ T) (t : τ) (ht : I t) :
    SameOutcome J (gaView (m1 w)) (gaView (m2 ⟨(w.user, t), w.trace⟩)) := by
  have hw : With I w ⟨(w.user, t), w.trace⟩ := ⟨rfl, ht, rfl⟩
  cases h1 : m1 w with
  | error e =>
    rw [h.err w _ hw e h1 trivial]
    exact ⟨fun _ => ⟨fun h => (by cases h; rfl), fun h => (by cases h; rfl)⟩, fun r w' hr => (by cases hr)⟩
  | ok q =>
    obtain ⟨⟨rs, o⟩, w'⟩ := q
    obtain ⟨⟨rs2, o2⟩, ⟨⟨u, t'⟩, tr⟩, h2, ⟨h3, h4, -, -⟩, h5, h6, h7⟩ := h.ok w _ hw _ _ h1 trivial
    simp only at h3 h4 h5 h6 h7
    subst h3 h5
    rw [h2]
    refine ⟨fun e => ⟨fun hc => (by cases hc), fun hc => (by cases hc)⟩, ?_⟩
    intro r w'' hr
    cases hr
    exact ⟨t', tr, by simp only [gaView, h4], h6, h7⟩

theorem pso_outcome [FloatT α] {I J : τ → Prop} {c1 : PSO.Comps σ α} {c2 : PSO.Comps (σ × τ) α}
    {m1 : M (World σ (List α)) (List (PSO.Ret α) × PSO.Opt σ α)}
    {m2 : M (World (σ × τ) (List α)) (List (PSO.Ret α) × PSO.Opt (σ × τ) α)}
    (h : Sim (Mode.exact _) (With I) (With J) (PSO.SameHistory c1 c2) m1 m2) (w : World σ (List α)) (t : τ) (ht : I t) :
    SameOutcome J (psoView (m1 w)) (psoView (m2 ⟨(w.user, t), w.trace⟩)) := by
  have hw : With I w ⟨(w.user, t), w.trace⟩ := ⟨rfl, ht, rfl⟩
  cases h1 : m1 w with
  | error e =>
    rw [h.err w _ hw e h1 trivial]
    exact ⟨fun _ => ⟨fun h => (by cases h; rfl), fun h => (by cases h; rfl)⟩, fun r w' hr => (by cases hr)⟩
  | ok q =>
    obtain ⟨⟨rs, o⟩, w'⟩ := q
    obtain ⟨⟨rs2, o2⟩, ⟨⟨u, t'⟩, tr⟩, h2, ⟨h3, h4, -, -⟩, h5, h6, h7⟩ := h.ok w _ hw _ _ h1 trivial
    simp only at h3 h4 h5 h6 h7
    subst h3 h5
    rw [h2]
    refine ⟨fun e => ⟨fun hc => (by cases hc), fun hc => (by cases hc)⟩, ?_⟩
    intro r w'' hr
    cases hr
    exact ⟨t', tr, by simp only [psoView, h4], h6, h7⟩

section

variable {l : Logger τ T} {I0 I1 I2 I3 : τ → Prop}

/-- C70 (genetic): a logger that does not fail, attached at any position, changes nothing but its own fields. The history
begins with `find_min`. -/
theorem C70_genetic (h : NeverFails l I0 I1 I2 I3) (o : GA.Opt σ T) (i fuel : Nat) (ks : List RunCall)
    (w : World σ T) (t : τ) (ht : I0 t) : SameOutcome I3
      (gaView (GA.run o (.findMin fuel :: ks.map GA.runCall) w))
      (gaView (GA.run (o.attach i l) (.findMin fuel :: ks.map GA.runCall) ⟨(w.user, t), w.trace⟩)) :=
  ga_outcome (GA.attach_run h o i fuel ks o.pop) w t ht

/-- C70 (genetic), any history, for a logger that is in a state in which it could be after a run. -/
theorem C70_genetic_any (h : NeverFails l I0 I1 I2 I3) (o : GA.Opt σ T) (i : Nat) (ks : List RunCall)
    (w : World σ T) (t : τ) (ht : I3 t) : SameOutcome I3
      (gaView (GA.run o (ks.map GA.runCall) w))
      (gaView (GA.run (o.attach i l) (ks.map GA.runCall) ⟨(w.user, t), w.trace⟩)) :=
  ga_outcome (GA.run_sim (c1 := o.comps) (c2 := (o.attach i l).comps)
    (fun fuel p => (GA.attach_findMin h o i fuel p).mono (fun _ _ hw => ⟨hw.1, (h.again _ hw.2.1).1, hw.2.2⟩)
      (fun _ _ h => h) (fun _ _ h => h))
    (fun fuel p => (GA.attach_nextIterations h o i fuel p).mono (fun _ _ hw => ⟨hw.1, (h.again _ hw.2.1).2, hw.2.2⟩)
      (fun _ _ h => h) (fun _ _ h => h)) ks o.pop) w t ht

end

section

variable [FloatT α] {l : Logger τ (List α)} {I0 I1 I2 I3 : τ → Prop}

/-- C70 (swarm) -/
theorem C70_swarm (h : NeverFails l I0 I1 I2 I3) (o : PSO.Opt σ α) (i fuel : Nat) (ks : List RunCall)
    (w : World σ (List α)) (t : τ) (ht : I0 t) : SameOutcome I3
      (psoView (PSO.run o (.findMin fuel :: ks.map PSO.runCall) w))
      (psoView (PSO.run (o.attach i l) (.findMin fuel :: ks.map PSO.runCall) ⟨(w.user, t), w.trace⟩)) :=
  pso_outcome (PSO.attach_run h o i fuel ks o.swarm) w t ht

/-- C70 (swarm), any history, for a logger that is in a state in which it could be after a run. -/
theorem C70_swarm_any (h : NeverFails l I0 I1 I2 I3) (o : PSO.Opt σ α) (i : Nat) (ks : List RunCall)
    (w : World σ (List α)) (t : τ) (ht : I3 t) : SameOutcome I3
      (psoView (PSO.run o (ks.map PSO.runCall) w))
      (psoView (PSO.run (o.attach i l) (ks.map PSO.runCall) ⟨(w.user, t), w.trace⟩)) :=
  pso_outcome (PSO.run_sim (c1 := o.comps) (c2 := (o.attach i l).comps)
    (fun fuel p => (PSO.attach_findMin h o i fuel p).mono (fun _ _ hw => ⟨hw.1, (h.again _ hw.2.1).1, hw.2.2⟩)
      (fun _ _ h => h) (fun _ _ h => h))
    (fun fuel p => (PSO.attach_nextIterations h o i fuel p).mono (fun _ _ hw => ⟨hw.1, (h.again _ hw.2.1).2, hw.2.2⟩)
      (fun _ _ h => h) (fun _ _ h => h)) ks o.swarm) w t ht

end

/-! ### The loggers of the library -/

/-- An effect that never fails. -/
def Total {β : Type} (m : M τ β) : Prop := ∀ t, ∃ b t', m t = .ok (b, t')

theorem Total.pure {β : Type} (b : β) : Total (pure b : M τ β) := fun t => ⟨b, t, rfl⟩

theorem Total.bind {β γ : Type} {m : M τ β} {f : β → M τ γ} (h : Total m) (hf : ∀ b, Total (f b)) :
    Total (m >>= f) := by
  intro t
  obtain ⟨b, t1, h1⟩ := h t
  obtain ⟨c, t2, h2⟩ := hf b t1
  exact ⟨c, t2, M.bind_eq_ok.2 ⟨b, t1, h1, h2⟩⟩

theorem neverFails_of_total {l : Logger τ T} (h1 : ∀ s, Total (l.start s)) (h2 : ∀ s, Total (l.resume s))
    (h3 : ∀ s, Total (l.nextIteration s)) (h4 : ∀ s, Total (l.finish s)) :
    NeverFails l (fun _ => True) (fun _ => True) (fun _ => True) (fun _ => True) where
  start s t _ := let ⟨(), t', h⟩ := h1 s t; ⟨t', h, trivial⟩
  resume s t _ := let ⟨(), t', h⟩ := h2 s t; ⟨t', h, trivial⟩
  next s t _ := let ⟨(), t', h⟩ := h3 s t; ⟨t', h, trivial⟩
  finish s t _ := let ⟨(), t', h⟩ := h4 s t; ⟨t', h, trivial⟩
  again _ _ := ⟨trivial, trivial⟩

/-- `StatisticsLogger` never fails once `find_min` has been called. -/
theorem C70_statistics (p : Profile) : NeverFails (Stats.logger p : Logger (Statistics T) T) (fun _ => True)
    (fun s => s.convergence ≠ []) (fun s => s.convergence ≠ []) (fun s => s.convergence ≠ []) where
  start s t _ := ⟨_, rfl, by simp⟩
  resume s t h := ⟨_, rfl, h⟩
  next s t h := by
    refine ⟨_, addConvergence_ok.2 ⟨h, rfl⟩, ?_⟩
    simp only [ne_eq, ← List.length_eq_zero_iff] at h ⊢
    rw [appendLast_length]
    exact h
  finish s t h := ⟨_, rfl, h⟩
  again _ h := ⟨trivial, h⟩

/-- `VerboseLogger` and `ResultOnlyLogger` never fail if writing does not. -/
theorem C70_verbose {write : String → M τ Unit} (hw : ∀ s, Total (write s)) (showT : Nat → α → String)
    (showGoal : Nat → F64 → String) (precision : Nat) :
    NeverFails (Logging.verbose write showT showGoal precision) (fun _ => True) (fun _ => True) (fun _ => True)
      (fun _ => True) := by
  refine neverFails_of_total (fun _ => .pure _) (fun _ => .pure _) (fun s => ?_) (fun _ => .pure _)
  obtain ⟨best, it⟩ := s
  cases best with
  | none => exact .pure _
  | some q => exact hw _

/-- C70: ResultOnlyLogger does not fail if the output does not. -/
theorem C70_resultOnly {write : String → M τ Unit} (hw : ∀ s, Total (write s)) (showT : Nat → α → String)
    (showGoal : Nat → F64 → String) (precision : Nat) :
    NeverFails (Logging.resultOnly write showT showGoal precision) (fun _ => True) (fun _ => True) (fun _ => True)
      (fun _ => True) := by
  refine neverFails_of_total (fun _ => .pure _) (fun _ => .pure _) (fun _ => .pure _) (fun s => ?_)
  obtain ⟨best, it⟩ := s
  cases best with
  | none => exact (hw _).bind fun _ => hw _
  | some q => exact (hw _).bind fun _ => (hw _).bind fun _ => hw _

/-- `TimeLogger` never fails if writing and reading the clock do not, whatever its field is before a run. `L` is the field;
the writer and the clock do not touch it. -/
theorem C70_time {write : String → M τ Unit} {now : M τ Nat} (L : Lens τ (Option Nat)) (hw : ∀ s, Total (write s))
    (hn : Total now) :
    NeverFails (Logging.time write now L : Logger τ (List α)) (fun _ => True) (fun _ => True)
      (fun t => (L.get t).isSome) (fun _ => True) where
  start s t _ := ⟨_, rfl, trivial⟩
  resume s t _ := by
    obtain ⟨n, t1, h1⟩ := hn t
    refine ⟨L.set (some n) t1, M.bind_eq_ok.2 ⟨n, t1, h1, rfl⟩, ?_⟩
    rw [L.get_set]
    rfl
  next s t h := ⟨_, rfl, h⟩
  finish s t h := by
    obtain ⟨st, h2⟩ := Option.isSome_iff_exists.1 h
    obtain ⟨n, t2, h4⟩ := hn t
    obtain ⟨u, t3, h5⟩ := hw ("Time elapsed: " ++ toString (n - st) ++ " ms" ++ "\n") t2
    refine ⟨t3, ?_, trivial⟩
    refine M.bind_eq_ok.2 ⟨some st, t, ?_, M.bind_eq_ok.2 ⟨st, t, rfl, M.bind_eq_ok.2 ⟨n, t2, h4, h5⟩⟩⟩
    show Except.ok (L.get t, L.set (L.get t) t) = _
    rw [L.set_get, h2]
  again _ _ := ⟨trivial, trivial⟩

/-- A `StatisticsLogger` attached to an optimizer never makes a history that begins with `find_min` panic. -/
theorem C50_genetic_total (p : Profile) (o : GA.Opt σ T) (i fuel : Nat) (ks : List RunCall) (w : World σ T)
    (s : Statistics T) (rs : List (GA.Ret T)) (o' : GA.Opt σ T) (w' : World σ T)
    (hr : GA.run o (.findMin fuel :: ks.map GA.runCall) w = .ok ((rs, o'), w')) :
    ∃ o2 v', GA.run (o.attach i (Stats.logger p)) (.findMin fuel :: ks.map GA.runCall) ⟨(w.user, s), w.trace⟩ =
      .ok ((rs, o2), v') ∧ o2.pop = o'.pop ∧ v'.user.1 = w'.user := by
  obtain ⟨t', tr', h, -, -⟩ := (C70_genetic (C70_statistics p) o i fuel ks w s trivial).returns (rs, o'.pop) w'
    (by rw [hr]; rfl)
  revert h
  cases GA.run (o.attach i (Stats.logger p)) (.findMin fuel :: ks.map GA.runCall) ⟨(w.user, s), w.trace⟩ with
  | error e => intro h; cases h
  | ok q =>
    obtain ⟨⟨rs2, o2⟩, v'⟩ := q
    intro h
    simp only [gaView, Except.ok.injEq, Prod.mk.injEq] at h
    obtain ⟨⟨rfl, h2⟩, rfl⟩ := h
    exact ⟨o2, _, rfl, h2, rfl⟩

/-- C50: attaching a StatisticsLogger to a swarm does not make it panic, nor changes what it returns. -/
theorem C50_swarm_total [FloatT α] (p : Profile) (o : PSO.Opt σ α) (i fuel : Nat) (ks : List RunCall)
    (w : World σ (List α)) (s : Statistics (List α)) (rs : List (PSO.Ret α)) (o' : PSO.Opt σ α)
    (w' : World σ (List α)) (hr : PSO.run o (.findMin fuel :: ks.map PSO.runCall) w = .ok ((rs, o'), w')) :
    ∃ o2 v', PSO.run (o.attach i (Stats.logger p)) (.findMin fuel :: ks.map PSO.runCall) ⟨(w.user, s), w.trace⟩ =
      .ok ((rs, o2), v') ∧ o2.swarm = o'.swarm ∧ v'.user.1 = w'.user := by
  obtain ⟨t', tr', h, -, -⟩ := (C70_swarm (C70_statistics p) o i fuel ks w s trivial).returns (rs, o'.swarm) w'
    (by rw [hr]; rfl)
  revert h
  cases PSO.run (o.attach i (Stats.logger p)) (.findMin fuel :: ks.map PSO.runCall) ⟨(w.user, s), w.trace⟩ with
  | error e => intro h; cases h
  | ok q =>
    obtain ⟨⟨rs2, o2⟩, v'⟩ := q
    intro h
    simp only [psoView, Except.ok.injEq, Prod.mk.injEq] at h
    obtain ⟨⟨rfl, h2⟩, rfl⟩ := h
    exact ⟨o2, _, rfl, h2, rfl⟩

/-! ## C51 -/

theorem ga_step_generation {c : GA.Comps σ T} {p p1 : Population T} {w w1 : World σ T}
    (h : GA.step c p w = .ok (p1, w1)) : ∃ ext, w1.trace = w.trace ++ ext ∧ generationsOf ext ≠ [] := by
  obtain ⟨w2, h3, h4⟩ := GA.step_ok.1 h
  obtain ⟨evs, g, ht2, -⟩ := GA.core_ok h3
  obtain ⟨sil, rfl, -⟩ := generation_not_created g
  refine ⟨_, by rw [GA.callLoggers_trace h4, ht2, List.append_assoc], ?_⟩
  simp [generationsOf]

theorem ga_loop_extends {c : GA.Comps σ T} {fuel : Nat} {p p' : Population T} {w w' : World σ T}
    (h : GA.loop c fuel p w = .ok (p', w')) : ∃ ext, w'.trace = w.trace ++ ext := by
  induction fuel generalizing p w with
  | zero => simp [GA.loop, M.fail] at h
  | succ fuel ih =>
    obtain ⟨b, s', -, hb⟩ := GA.loop_succ_ok.1 h
    rcases hb with ⟨rfl, rfl, rfl⟩ | ⟨rfl, p1, w1, h7, h8⟩
    · exact ⟨_, rfl⟩
    · obtain ⟨e1, h1, -⟩ := ga_step_generation h7
      obtain ⟨e2, h2⟩ := ih h8
      exact ⟨[.check p.state false] ++ e1 ++ e2, by rw [h2, h1]; simp⟩

theorem pso_step_generation [FloatT α] {c : PSO.Comps σ α} {p p1 : PSO.Swarm α} {w w1 : World σ (List α)}
    (h : PSO.step c p w = .ok (p1, w1)) : ∃ ext, w1.trace = w.trace ++ ext ∧ generationsOf ext ≠ [] := by
  obtain ⟨w2, h3, h4⟩ := PSO.step_ok.1 h
  obtain ⟨sil, s1, hm, -, ht2⟩ := PSO.core_ok h3
  refine ⟨_, by rw [GA.callLoggers_trace h4, ht2, List.append_assoc, List.append_assoc], ?_⟩
  simp [generationsOf]

theorem pso_loop_extends [FloatT α] {c : PSO.Comps σ α} {fuel : Nat} {p p' : PSO.Swarm α} {w w' : World σ (List α)}
    (h : PSO.loop c fuel p w = .ok (p', w')) : ∃ ext, w'.trace = w.trace ++ ext := by
  induction fuel generalizing p w with
  | zero => simp [PSO.loop, M.fail] at h
  | succ fuel ih =>
    obtain ⟨b, s', -, hb⟩ := PSO.loop_succ_ok.1 h
    rcases hb with ⟨rfl, rfl, rfl⟩ | ⟨rfl, p1, w1, h7, h8⟩
    · exact ⟨_, rfl⟩
    · obtain ⟨e1, h1, -⟩ := pso_step_generation h7
      obtain ⟨e2, h2⟩ := ih h8
      exact ⟨[.check p.state false] ++ e1 ++ e2, by rw [h2, h1]; simp⟩

/-- C51 (genetic): suppose `next_iterations` returns without the logger. With a `StatisticsLogger` that was never started, at any
position, the call returns if and only if no iteration is done. -/
theorem C51_genetic (p : Profile) (o o' : GA.Opt σ T) (i : Nat) (hi : i ≤ o.comps.loggers.length) (fuel : Nat)
    (w w' : World σ T) (s : Statistics T) (hs : s.convergence = []) (r : Option (Solution T)) (ext : List (Ev T))
    (hr : GA.nextIterations fuel o w = .ok ((r, o'), w')) (ht : w'.trace = w.trace ++ ext) :
    (∃ q, GA.nextIterations fuel (o.attach i (Stats.logger p)) ⟨(w.user, s), w.trace⟩ = .ok q) ↔
      generationsOf ext = [] := by
  have hcs := GA.attach_csim (fun _ => True) o i (Stats.logger p : Logger (Statistics T) T)
  have hlog : ∀ k, k ≠ .next → ∀ st, Sim (Mode.exact (World σ T)) (With fun _ => True) (With fun _ => True) Eq
      (callLoggers k st 0 o.comps.loggers) (callLoggers k st 0 (o.attach i (Stats.logger p)).comps.loggers) := by
    intro k hk st
    refine loggers_attach (Stats.logger p) k st ?_ _ i
    intro t _
    cases k with
    | next => exact absurd rfl hk
    | _ => exact ⟨_, rfl, trivial⟩
  obtain ⟨p2, w3, w4, h4, h5, h6, hr2, rfl⟩ := GA.nextIterations_ok.1 hr
  obtain ⟨u, v3, k4, -, hw3⟩ := (hlog .resume (by decide) o.pop.state).ok w ⟨(w.user, s), w.trace⟩ ⟨rfl, trivial, rfl⟩ _ _
    h4 trivial
  obtain ⟨fuel, rfl⟩ : ∃ n, fuel = n + 1 := by
    cases fuel with
    | zero => simp [GA.loop, M.fail] at h5
    | succ n => exact ⟨n, rfl⟩
  obtain ⟨b, s', hst, hb⟩ := GA.loop_succ_ok.1 h5
  obtain ⟨b2, v4, k5, rfl, hw4⟩ := (hcs.stop o.pop.state).ok w3 v3 hw3 b ⟨s', w3.trace ++ [.check o.pop.state b]⟩
    (recorded_ok.2 ⟨s', hst, rfl⟩) trivial
  obtain ⟨t', hst', hv4⟩ := recorded_ok.1 k5
  rcases hb with ⟨rfl, rfl, rfl⟩ | ⟨rfl, p1, w1, h7, h8⟩
  · obtain ⟨u', v5, k6, -, -⟩ := (hlog .finish (by decide) o.pop.state).ok _ v4 hw4 _ _ h6 trivial
    refine ⟨fun _ => ?_, fun _ => ?_⟩
    · have : ext = GA.logBlock .resume o.pop.state 0 o.comps.loggers.length ++ [.check o.pop.state true] ++
          GA.logBlock .finish o.pop.state 0 o.comps.loggers.length := by
        refine List.append_cancel_left (ht.symm.trans ?_)
        rw [GA.callLoggers_trace h6]
        simp only
        rw [GA.callLoggers_trace h4]
        simp
      rw [this]
      simp only [generationsOf_append, generationsOf_logBlock]
      rfl
    · exact ⟨_, GA.nextIterations_ok.2 ⟨_, v3, v4, k4, GA.loop_succ_ok.2 ⟨true, t', hst', .inl ⟨rfl, rfl, hv4⟩⟩, k6,
        rfl, rfl⟩⟩
  · refine ⟨fun ⟨⟨⟨r', o2⟩, v'⟩, hq⟩ => ?_, fun hgen => ?_⟩
    · -- the first consultation says no, so an iteration is done, and the logger panics
      exfalso
      have hpr : GA.PrivateLogger (Lens.snd _ _) (Stats.logger p) i (o.attach i (Stats.logger p)).comps :=
        GA.attach_private o hi (Stats.logger p)
      obtain ⟨-, ext', ht', hg'⟩ := C51_genetic_private p _ i _ _ hpr ⟨(w.user, s), w.trace⟩ _ hs _ _ hq
      obtain ⟨q2, v3', v4', m4, m5, m6, -, rfl⟩ := GA.nextIterations_ok.1 hq
      obtain rfl : v3' = v3 := by
        have := m4.symm.trans k4
        cases this; rfl
      obtain ⟨b', t'', hst'', hb'⟩ := GA.loop_succ_ok.1 m5
      have : b' = false := by
        have := hst''.symm.trans hst'
        cases this; rfl
      subst this
      rcases hb' with ⟨h, -⟩ | ⟨-, q1, x1, m7, m8⟩
      · cases h
      · obtain ⟨e1, he1, hne⟩ := ga_step_generation m7
        obtain ⟨e2, he2⟩ := ga_loop_extends m8
        have : ext' = GA.logBlock .resume o.pop.state 0 (o.attach i (Stats.logger p)).comps.loggers.length ++
            [.check o.pop.state false] ++ e1 ++ e2 ++ GA.logBlock .finish q2.state 0
              (o.attach i (Stats.logger p)).comps.loggers.length := by
          refine List.append_cancel_left (ht'.symm.trans ?_)
          rw [GA.callLoggers_trace m6, he2, he1]
          simp only
          rw [GA.callLoggers_trace k4]
          simp [GA.Opt.attach]
        rw [this] at hg'
        simp only [generationsOf_append, List.append_eq_nil_iff] at hg'
        exact hne hg'.1.1.2
    · exfalso
      obtain ⟨e1, he1, hne⟩ := ga_step_generation h7
      obtain ⟨e2, he2⟩ := ga_loop_extends h8
      have : ext = GA.logBlock .resume o.pop.state 0 o.comps.loggers.length ++ [.check o.pop.state false] ++ e1 ++ e2 ++
          GA.logBlock .finish p2.state 0 o.comps.loggers.length := by
        refine List.append_cancel_left (ht.symm.trans ?_)
        rw [GA.callLoggers_trace h6, he2, he1]
        simp only
        rw [GA.callLoggers_trace h4]
        simp
      rw [this] at hgen
      simp only [generationsOf_append, List.append_eq_nil_iff] at hgen
      exact hne hgen.1.1.2

/-- C51 (swarm): suppose `next_iterations` returns without the logger. With a `StatisticsLogger` that was never started, at any
position, the call returns if and only if no iteration is done. -/
theorem C51_swarm [FloatT α] (p : Profile) (o o' : PSO.Opt σ α) (i : Nat) (hi : i ≤ o.comps.loggers.length) (fuel : Nat)
    (w w' : World σ (List α)) (s : Statistics (List α)) (hs : s.convergence = []) (r : Option (Solution (List α))) (ext : List (Ev (List α)))
    (hr : PSO.nextIterations fuel o w = .ok ((r, o'), w')) (ht : w'.trace = w.trace ++ ext) :
    (∃ q, PSO.nextIterations fuel (o.attach i (Stats.logger p)) ⟨(w.user, s), w.trace⟩ = .ok q) ↔
      generationsOf ext = [] := by
  have hcs := PSO.attach_csim (fun _ => True) o i (Stats.logger p : Logger (Statistics (List α)) (List α))
  have hlog : ∀ k, k ≠ .next → ∀ st, Sim (Mode.exact (World σ (List α))) (With fun _ => True) (With fun _ => True) Eq
      (callLoggers k st 0 o.comps.loggers) (callLoggers k st 0 (o.attach i (Stats.logger p)).comps.loggers) := by
    intro k hk st
    refine loggers_attach (Stats.logger p) k st ?_ _ i
    intro t _
    cases k with
    | next => exact absurd rfl hk
    | _ => exact ⟨_, rfl, trivial⟩
  obtain ⟨p2, w3, w4, h4, h5, h6, hr2, rfl⟩ := PSO.nextIterations_ok.1 hr
  obtain ⟨u, v3, k4, -, hw3⟩ := (hlog .resume (by decide) o.swarm.state).ok w ⟨(w.user, s), w.trace⟩ ⟨rfl, trivial, rfl⟩ _ _
    h4 trivial
  obtain ⟨fuel, rfl⟩ : ∃ n, fuel = n + 1 := by
    cases fuel with
    | zero => simp [PSO.loop, M.fail] at h5
    | succ n => exact ⟨n, rfl⟩
  obtain ⟨b, s', hst, hb⟩ := PSO.loop_succ_ok.1 h5
  obtain ⟨b2, v4, k5, rfl, hw4⟩ := (hcs.stop o.swarm.state).ok w3 v3 hw3 b ⟨s', w3.trace ++ [.check o.swarm.state b]⟩
    (recorded_ok.2 ⟨s', hst, rfl⟩) trivial
  obtain ⟨t', hst', hv4⟩ := recorded_ok.1 k5
  rcases hb with ⟨rfl, rfl, rfl⟩ | ⟨rfl, p1, w1, h7, h8⟩
  · obtain ⟨u', v5, k6, -, -⟩ := (hlog .finish (by decide) o.swarm.state).ok _ v4 hw4 _ _ h6 trivial
    refine ⟨fun _ => ?_, fun _ => ?_⟩
    · have : ext = GA.logBlock .resume o.swarm.state 0 o.comps.loggers.length ++ [.check o.swarm.state true] ++
          GA.logBlock .finish o.swarm.state 0 o.comps.loggers.length := by
        refine List.append_cancel_left (ht.symm.trans ?_)
        rw [GA.callLoggers_trace h6]
        simp only
        rw [GA.callLoggers_trace h4]
        simp
      rw [this]
      simp only [generationsOf_append, generationsOf_logBlock]
      rfl
    · exact ⟨_, PSO.nextIterations_ok.2 ⟨_, v3, v4, k4, PSO.loop_succ_ok.2 ⟨true, t', hst', .inl ⟨rfl, rfl, hv4⟩⟩, k6,
        rfl, rfl⟩⟩
  · refine ⟨fun ⟨⟨⟨r', o2⟩, v'⟩, hq⟩ => ?_, fun hgen => ?_⟩
    · -- the first consultation says no, so an iteration is done, and the logger panics
      exfalso
      have hpr : PSO.PrivateLogger (Lens.snd _ _) (Stats.logger p) i (o.attach i (Stats.logger p)).comps :=
        PSO.attach_private o hi (Stats.logger p)
      obtain ⟨-, ext', ht', hg'⟩ := C51_swarm_private p _ i _ _ hpr ⟨(w.user, s), w.trace⟩ _ hs _ _ hq
      obtain ⟨q2, v3', v4', m4, m5, m6, -, rfl⟩ := PSO.nextIterations_ok.1 hq
      obtain rfl : v3' = v3 := by
        have := m4.symm.trans k4
        cases this; rfl
      obtain ⟨b', t'', hst'', hb'⟩ := PSO.loop_succ_ok.1 m5
      have : b' = false := by
        have := hst''.symm.trans hst'
        cases this; rfl
      subst this
      rcases hb' with ⟨h, -⟩ | ⟨-, q1, x1, m7, m8⟩
      · cases h
      · obtain ⟨e1, he1, hne⟩ := pso_step_generation m7
        obtain ⟨e2, he2⟩ := pso_loop_extends m8
        have : ext' = GA.logBlock .resume o.swarm.state 0 (o.attach i (Stats.logger p)).comps.loggers.length ++
            [.check o.swarm.state false] ++ e1 ++ e2 ++ GA.logBlock .finish q2.state 0
              (o.attach i (Stats.logger p)).comps.loggers.length := by
          refine List.append_cancel_left (ht'.symm.trans ?_)
          rw [GA.callLoggers_trace m6, he2, he1]
          simp only
          rw [GA.callLoggers_trace k4]
          simp [PSO.Opt.attach]
        rw [this] at hg'
        simp only [generationsOf_append, List.append_eq_nil_iff] at hg'
        exact hne hg'.1.1.2
    · exfalso
      obtain ⟨e1, he1, hne⟩ := pso_step_generation h7
      obtain ⟨e2, he2⟩ := pso_loop_extends h8
      have : ext = GA.logBlock .resume o.swarm.state 0 o.comps.loggers.length ++ [.check o.swarm.state false] ++ e1 ++ e2 ++
          GA.logBlock .finish p2.state 0 o.comps.loggers.length := by
        refine List.append_cancel_left (ht.symm.trans ?_)
        rw [GA.callLoggers_trace h6, he2, he1]
        simp only
        rw [GA.callLoggers_trace h4]
        simp
      rw [this] at hgen
      simp only [generationsOf_append, List.append_eq_nil_iff] at hgen
      exact hne hgen.1.1.2

end Verif.Props
