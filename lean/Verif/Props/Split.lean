import Verif.Proofs.Split
import Verif.Props.Attach
import Verif.Props.Demo
import Verif.Props.SwarmDemo
import Verif.Props.SwarmCaught
import Verif.Props.GeneticSize
import Verif.Props.Stop
import Verif.Model.Examples

/-!
# C112: a run may be done in parts

A run with `find_min` that is interrupted by stop checkers and continued with `next_iterations` ends exactly as the run in
one go.
-/

set_option linter.unusedSectionVars false

namespace Verif.Props.Split

open Verif

variable {σ τ T α : Type}

/-! ## Loggers that do not fail -/

section

variable {I0 I1 I2 I3 : τ → Prop}

/-- No loggers at all -/
theorem none_fails : AllNeverFail ([] : List (Logger τ T)) (fun _ => True) (fun _ => True) (fun _ => True) (fun _ => True) where
  start _ t _ := ⟨t, rfl, trivial⟩
  resume _ t _ := ⟨t, rfl, trivial⟩
  next _ t _ := ⟨t, rfl, trivial⟩
  finish _ t _ := ⟨t, rfl, trivial⟩
  again _ _ := trivial

theorem everyone_cons {k : LogKind} {s : AlgState T} {l : Logger τ T} {ls : List (Logger τ T)} {t t1 t2 : τ}
    (h : l.on k s t = .ok ((), t1)) (h' : everyone k s ls t1 = .ok ((), t2)) : everyone k s (l :: ls) t = .ok ((), t2) :=
  M.bind_eq_ok.2 ⟨(), t1, h, h'⟩

/-- One logger that does not fail -/
theorem one_fails_not {l : Logger τ T} (h : NeverFails l I0 I1 I2 I3) : AllNeverFail [l] I0 I1 I2 I3 where
  start s t ht := let ⟨t', h1, h2⟩ := h.start s t ht; ⟨t', everyone_cons h1 rfl, h2⟩
  resume s t ht := let ⟨t', h1, h2⟩ := h.resume s t ht; ⟨t', everyone_cons h1 rfl, h2⟩
  next s t ht := let ⟨t', h1, h2⟩ := h.next s t ht; ⟨t', everyone_cons h1 rfl, h2⟩
  finish s t ht := let ⟨t', h1, h2⟩ := h.finish s t ht; ⟨t', everyone_cons h1 rfl, h2⟩
  again t ht := (h.again t ht).2

theorem zoom_ok {τ' A : Type} (L : Lens τ τ') {m : M τ' A} {t : τ} {a : A} {t' : τ'} (h : m (L.get t) = .ok (a, t')) :
    L.zoom m t = .ok (a, L.set t' t) := by
  unfold Lens.zoom
  rw [h]

theorem everyone_snd {k : LogKind} {s : AlgState T} {ρ : Type} : ∀ {ls : List (Logger τ T)} {p : ρ × τ} {t' : τ},
    everyone k s ls p.2 = .ok ((), t') → everyone k s (ls.map (Logger.zoom (Lens.snd ρ τ))) p = .ok ((), (p.1, t'))
  | [], p, t', h => by cases h; rfl
  | l :: ls, p, t', h => by
    obtain ⟨u, t1, h1, h2⟩ := M.bind_eq_ok.1 h
    refine everyone_cons (t1 := (p.1, t1)) ?_ (everyone_snd (p := (p.1, t1)) h2)
    cases k <;> exact zoom_ok (Lens.snd ρ τ) h1

/-- One more logger, with fields of its own -/
theorem more_fails_not {ρ : Type} {J0 J1 J2 J3 : ρ → Prop} {l : Logger ρ T} {ls : List (Logger τ T)}
    (h : NeverFails l J0 J1 J2 J3) (h' : AllNeverFail ls I0 I1 I2 I3) :
    AllNeverFail (l.zoom (Lens.fst ρ τ) :: ls.map (Logger.zoom (Lens.snd ρ τ))) (fun p => J0 p.1 ∧ I0 p.2)
      (fun p => J1 p.1 ∧ I1 p.2) (fun p => J2 p.1 ∧ I2 p.2) (fun p => J3 p.1 ∧ I3 p.2) where
  start s p hp :=
    let ⟨t, h1, h2⟩ := h.start s p.1 hp.1
    let ⟨u, h3, h4⟩ := h'.start s p.2 hp.2
    ⟨(t, u), everyone_cons (zoom_ok (Lens.fst ρ τ) h1) (everyone_snd (p := (t, p.2)) h3), h2, h4⟩
  resume s p hp :=
    let ⟨t, h1, h2⟩ := h.resume s p.1 hp.1
    let ⟨u, h3, h4⟩ := h'.resume s p.2 hp.2
    ⟨(t, u), everyone_cons (zoom_ok (Lens.fst ρ τ) h1) (everyone_snd (p := (t, p.2)) h3), h2, h4⟩
  next s p hp :=
    let ⟨t, h1, h2⟩ := h.next s p.1 hp.1
    let ⟨u, h3, h4⟩ := h'.next s p.2 hp.2
    ⟨(t, u), everyone_cons (zoom_ok (Lens.fst ρ τ) h1) (everyone_snd (p := (t, p.2)) h3), h2, h4⟩
  finish s p hp :=
    let ⟨t, h1, h2⟩ := h.finish s p.1 hp.1
    let ⟨u, h3, h4⟩ := h'.finish s p.2 hp.2
    ⟨(t, u), everyone_cons (zoom_ok (Lens.fst ρ τ) h1) (everyone_snd (p := (t, p.2)) h3), h2, h4⟩
  again p hp := ⟨(h.again _ hp.1).2, h'.again _ hp.2⟩

/-- A `StatisticsLogger` and a `TimeLogger` together meet the condition. -/
example (write : String → M τ Unit) (now : M τ Nat) (L : Lens τ (Option Nat)) (hw : ∀ s, Total (write s))
    (hn : Total now) :=
  more_fails_not (C70_statistics (T := List F32) .release) (one_fails_not (C70_time L hw hn))

end

/-! ## The stop checkers without fields -/

/-- `MaxIterations` -/
theorem maxIterations_eq (n : Nat) : (Stop.maxIterations n : AlgState T → M σ Bool) =
    stopWhen (fun s => decide (n ≤ s.iteration)) := rfl

/-- `Threshold` -/
theorem threshold_eq (t : F64) : (Stop.threshold t : AlgState T → M σ Bool) =
    stopWhen (fun s => match s.best with | none => false | some (_, goal) => goal.le t) := rfl

/-- A composition of checkers without fields is one. -/
theorem any_eq (Ps : List (AlgState T → Bool)) : (Stop.any (Ps.map stopWhen) : AlgState T → M σ Bool) =
    stopWhen (fun s => Ps.any (fun P => P s)) := by
  induction Ps with
  | nil => rfl
  | cons P Ps ih =>
    funext s
    have h := congrFun ih s
    show (do if ← stopWhen P s then pure true else Stop.any (Ps.map stopWhen) s : M σ Bool) = _
    rw [h]
    funext u
    show (if P s = true then (pure true : M σ Bool) else stopWhen _ s) u = _
    cases hP : P s <;> simp [stopWhen, hP]

/-- A composition of checkers without fields is one. -/
theorem all_eq (Ps : List (AlgState T → Bool)) : (Stop.all (Ps.map stopWhen) : AlgState T → M σ Bool) =
    stopWhen (fun s => Ps.all (fun P => P s)) := by
  induction Ps with
  | nil => rfl
  | cons P Ps ih =>
    funext s
    have h := congrFun ih s
    show (do if !(← stopWhen P s) then pure false else Stop.all (Ps.map stopWhen) s : M σ Bool) = _
    rw [h]
    funext u
    show (if (!P s) = true then (pure false : M σ Bool) else stopWhen _ s) u = _
    cases hP : P s <;> simp [stopWhen, hP]

/-! ## In parts or in one go -/

variable {ls : List (Logger τ T)} {I0 I1 I2 I3 : τ → Prop}

/-- C112 (genetic): a run in one go with the stop checker `P` that ends (`hf`) ends as the run in parts: `find_min` with the
first stop checker, then `next_iterations` with each of the others, the last of which is `P`. All of them stop at the latest
when `P` does (`hQ`); how early they stop, and how many there are, does not matter. The components may keep any state of
their own and the loggers theirs, as long as the loggers do not fail. -/
theorem C112_genetic (h : AllNeverFail ls I0 I1 I2 I3) (o : GA.Opt σ T) (P Q : AlgState T → Bool)
    (Qs : List (AlgState T → Bool)) (hQ : ∀ Q' ∈ Q :: Qs, ∀ s, P s = true → Q' s = true)
    (hl : (Q :: Qs).getLast? = some P) (f : Nat) (w : World (σ × τ) T) (hw : I0 w.user.2)
    (hf : GA.run (o.watched ls) (GA.inParts f P []) w ≠ .error .fuel) :
    EndsAlike GA.Opt.pop (GA.run (o.watched ls) (GA.inParts f Q Qs) w) (GA.run (o.watched ls) (GA.inParts f P []) w) :=
  GA.parts_of_whole h o P Q Qs hQ hl f w hw hf

/-- C112 (genetic), the other way round: if the run in parts ends then so does the run in one go, and as it. -/
theorem C112_genetic_whole (h : AllNeverFail ls I0 I1 I2 I3) (o : GA.Opt σ T) (P Q : AlgState T → Bool)
    (Qs : List (AlgState T → Bool)) (hQ : ∀ Q' ∈ Q :: Qs, ∀ s, P s = true → Q' s = true)
    (hl : (Q :: Qs).getLast? = some P) (f : Nat) (w : World (σ × τ) T) (hw : I0 w.user.2)
    (hf : GA.run (o.watched ls) (GA.inParts f Q Qs) w ≠ .error .fuel) :
    ∃ f', EndsAlike GA.Opt.pop (GA.run (o.watched ls) (GA.inParts f Q Qs) w)
      (GA.run (o.watched ls) (GA.inParts f' P []) w) :=
  GA.whole_of_parts h o P Q Qs hQ hl f w hw hf

/-- C112 (genetic) for a limit of the number of generations: `find_min` up to `n` generations, and then `next_iterations` up
to `m`, does what `find_min` up to `m` generations does. -/
theorem C112_genetic_max (h : AllNeverFail ls I0 I1 I2 I3) (o : GA.Opt σ T) {n m : Nat} (hnm : n ≤ m) (f : Nat)
    (w : World (σ × τ) T) (hw : I0 w.user.2)
    (hf : GA.run (o.watched ls) [.setStopChecker (Stop.maxIterations m), .findMin f] w ≠ .error .fuel) :
    EndsAlike GA.Opt.pop (GA.run (o.watched ls) [.setStopChecker (Stop.maxIterations n), .findMin f,
      .setStopChecker (Stop.maxIterations m), .nextIterations f] w)
      (GA.run (o.watched ls) [.setStopChecker (Stop.maxIterations m), .findMin f] w) :=
  C112_genetic h o (fun s => decide (m ≤ s.iteration)) (fun s => decide (n ≤ s.iteration))
    [fun s => decide (m ≤ s.iteration)] (by
      intro Q' hQ' s hs
      simp only [List.mem_cons, List.not_mem_nil, or_false] at hQ'
      rcases hQ' with rfl | rfl
      · simp only [decide_eq_true_eq] at hs ⊢
        omega
      · exact hs) rfl f w hw hf

section

variable [FloatT α] {ls : List (Logger τ (List α))}

/-- C112 (swarm): a run in one go with the stop checker `P` that ends (`hf`) ends as the run in parts: `find_min` with the
first stop checker, then `next_iterations` with each of the others, the last of which is `P`. All of them stop at the latest
when `P` does (`hQ`); how early they stop, and how many there are, does not matter. The components may keep any state of
their own and the loggers theirs, as long as the loggers do not fail. -/
theorem C112_swarm (h : AllNeverFail ls I0 I1 I2 I3) (o : PSO.Opt σ α) (P Q : AlgState (List α) → Bool)
    (Qs : List (AlgState (List α) → Bool)) (hQ : ∀ Q' ∈ Q :: Qs, ∀ s, P s = true → Q' s = true)
    (hl : (Q :: Qs).getLast? = some P) (f : Nat) (w : World (σ × τ) (List α)) (hw : I0 w.user.2)
    (hf : PSO.run (o.watched ls) (PSO.inParts f P []) w ≠ .error .fuel) :
    EndsAlike PSO.Opt.swarm (PSO.run (o.watched ls) (PSO.inParts f Q Qs) w)
      (PSO.run (o.watched ls) (PSO.inParts f P []) w) :=
  PSO.parts_of_whole h o P Q Qs hQ hl f w hw hf

/-- C112 (swarm), the other way round: if the run in parts ends then so does the run in one go, and as it. -/
theorem C112_swarm_whole (h : AllNeverFail ls I0 I1 I2 I3) (o : PSO.Opt σ α) (P Q : AlgState (List α) → Bool)
    (Qs : List (AlgState (List α) → Bool)) (hQ : ∀ Q' ∈ Q :: Qs, ∀ s, P s = true → Q' s = true)
    (hl : (Q :: Qs).getLast? = some P) (f : Nat) (w : World (σ × τ) (List α)) (hw : I0 w.user.2)
    (hf : PSO.run (o.watched ls) (PSO.inParts f Q Qs) w ≠ .error .fuel) :
    ∃ f', EndsAlike PSO.Opt.swarm (PSO.run (o.watched ls) (PSO.inParts f Q Qs) w)
      (PSO.run (o.watched ls) (PSO.inParts f' P []) w) :=
  PSO.whole_of_parts h o P Q Qs hQ hl f w hw hf

/-- C112 (swarm) for a limit of the number of iterations: `find_min` up to `n` iterations, and then `next_iterations` up to
`m`, does what `find_min` up to `m` iterations does. -/
theorem C112_swarm_max (h : AllNeverFail ls I0 I1 I2 I3) (o : PSO.Opt σ α) {n m : Nat} (hnm : n ≤ m) (f : Nat)
    (w : World (σ × τ) (List α)) (hw : I0 w.user.2)
    (hf : PSO.run (o.watched ls) [.setStopChecker (Stop.maxIterations m), .findMin f] w ≠ .error .fuel) :
    EndsAlike PSO.Opt.swarm (PSO.run (o.watched ls) [.setStopChecker (Stop.maxIterations n), .findMin f,
      .setStopChecker (Stop.maxIterations m), .nextIterations f] w)
      (PSO.run (o.watched ls) [.setStopChecker (Stop.maxIterations m), .findMin f] w) :=
  C112_swarm h o (fun s => decide (m ≤ s.iteration)) (fun s => decide (n ≤ s.iteration))
    [fun s => decide (m ≤ s.iteration)] (by
      intro Q' hQ' s hs
      simp only [List.mem_cons, List.not_mem_nil, or_false] at hQ'
      rcases hQ' with rfl | rfl
      · simp only [decide_eq_true_eq] at hs ⊢
        omega
      · exact hs) rfl f w hw hf

end

/-! ### Concrete runs -/

/-- The demonstration optimizer, with a `StatisticsLogger` that has recorded nothing yet -/
def demoWorld : World (List Nat × Stats.Statistics (List F64)) (List F64) := ⟨(Demo.script, ⟨[], []⟩), []⟩

/-- One generation and then one more, or both in one go: the run of `Demo.opt` with a `StatisticsLogger` ends alike, and it
does end. -/
example : EndsAlike GA.Opt.pop
    (GA.run (Demo.opt.watched [Stats.logger .release]) [.setStopChecker (Stop.maxIterations 1), .findMin 5,
      .setStopChecker (Stop.maxIterations 2), .nextIterations 5] demoWorld)
    (GA.run (Demo.opt.watched [Stats.logger .release]) [.setStopChecker (Stop.maxIterations 2), .findMin 5]
      demoWorld) := by
  have h : M.okAnd (GA.run (Demo.opt.watched [Stats.logger .release]) [.setStopChecker (Stop.maxIterations 2), .findMin 5]
      demoWorld) (fun r _ => r.2.pop.iteration == 2) = true := by decide +kernel
  generalize demoWorld = w at h ⊢
  generalize Demo.opt = o at h ⊢
  refine C112_genetic_max (n := 1) (m := 2) (one_fails_not (C70_statistics .release)) o (by omega) 5 w trivial ?_
  intro he
  rw [he] at h
  cases h

example : EndsAlike PSO.Opt.swarm
    (PSO.run (SwarmDemo.opt.watched [Stats.logger .release]) [.setStopChecker (Stop.maxIterations 1), .findMin 5,
      .setStopChecker (Stop.maxIterations 2), .nextIterations 5] demoWorld)
    (PSO.run (SwarmDemo.opt.watched [Stats.logger .release]) [.setStopChecker (Stop.maxIterations 2), .findMin 5]
      demoWorld) := by
  have h : M.okAnd (PSO.run (SwarmDemo.opt.watched [Stats.logger .release])
      [.setStopChecker (Stop.maxIterations 2), .findMin 5] demoWorld)
      (fun r _ => r.2.swarm.iteration == 2) = true := by decide +kernel
  generalize demoWorld = w at h ⊢
  generalize SwarmDemo.opt = o at h ⊢
  refine C112_swarm_max (n := 1) (m := 2) (one_fails_not (C70_statistics .release)) o (by omega) 5 w trivial ?_
  intro he
  rw [he] at h
  cases h

/-! ## Asking the stop checker again -/

/-- `GoalNotChange` may be asked again. -/
theorem goalNotChange_asksAgain (p : Profile) : AsksAgain (Stop.goalNotChange p : AlgState T → M Stop.GNC Bool) := by
  intro s u b u' h
  obtain ⟨best, it⟩ := s
  cases best with
  | none =>
    cases h
    rfl
  | some q =>
    obtain ⟨x, g⟩ := q
    -- the update, as a function
    let up (c : Stop.GNC) : Stop.GNC :=
      if c.delta.lt (g.sub c.oldGoal).abs then { c with oldGoal := g, changeIter := it } else c
    have e : ∀ c : Stop.GNC, Stop.goalNotChange p (⟨some (x, g), it⟩ : AlgState T) c =
        match usizeSub p it (up c).changeIter with
        | .ok d => .ok (decide ((up c).maxIter < d), up c)
        | .error e => .error e := by
      intro c
      show (M.ofExcept (usizeSub p it (up c).changeIter) >>= fun d => pure (decide ((up c).maxIter < d))) (up c) = _
      rw [M.bind_run]
      cases usizeSub p it (up c).changeIter <;> rfl
    have hup : up (up u) = up u := by
      show (if (up u).delta.lt (g.sub (up u).oldGoal).abs then _ else _) = _
      by_cases hc : u.delta.lt (g.sub u.oldGoal).abs = true
      · have h1 : up u = { u with oldGoal := g, changeIter := it } := if_pos hc
        rw [h1]
        split <;> rfl
      · have h1 : up u = u := if_neg hc
        rw [h1, if_neg hc]
    have h' := h
    rw [e] at h'
    cases hd : usizeSub p it (up u).changeIter with
    | error e => rw [hd] at h'; cases h'
    | ok d =>
      rw [hd] at h'
      cases h'
      rw [e, hup, hd]

theorem stopWhen_asksAgain (P : AlgState T → Bool) : AsksAgain (stopWhen P : AlgState T → M σ Bool) := by
  intro s u b u' h
  cases h
  rfl

theorem zoom_asksAgain (L : Lens σ τ) {stop : AlgState T → M τ Bool} (h : AsksAgain stop) :
    AsksAgain (fun s => L.zoom (stop s)) := by
  intro s u b u' h1
  cases h2 : stop s (L.get u) with
  | error e => simp only [Lens.zoom, h2] at h1; cases h1
  | ok q =>
    obtain ⟨b', t⟩ := q
    simp only [Lens.zoom, h2] at h1
    cases h1
    have h3 := h s _ _ _ h2
    simp only [Lens.zoom, L.get_set, h3, L.set_set]

theorem stopWhen_undisturbed (P : AlgState T → Bool) (d : AlgState T → M σ Bool) : Undisturbed (stopWhen P) d := by
  intro s u b b' u' h _
  cases h
  rfl

theorem undisturbed_stopWhen (c : AlgState T → M σ Bool) (P : AlgState T → Bool) : Undisturbed c (stopWhen P) := by
  intro s u b b' u' h h'
  cases h'
  exact h

/-- Objects with separate fields do not disturb each other. -/
theorem zoom_undisturbed {ρ : Type} (L : Lens σ τ) (K : Lens σ ρ) (hLK : ∀ t u, L.get (K.set t u) = L.get u)
    (c : AlgState T → M τ Bool) (d : AlgState T → M ρ Bool) :
    Undisturbed (fun s => L.zoom (c s)) (fun s => K.zoom (d s)) := by
  intro s u b b' u' h h'
  cases h1 : c s (L.get u) with
  | error e => simp only [Lens.zoom, h1] at h; cases h
  | ok q =>
    obtain ⟨x, t⟩ := q
    simp only [Lens.zoom, h1, Except.ok.injEq, Prod.mk.injEq] at h
    obtain ⟨rfl, h2⟩ := h
    have ht : L.get u = t := by rw [← L.get_set t u, h2]
    cases h3 : d s (K.get u) with
    | error e => simp only [Lens.zoom, h3] at h'; cases h'
    | ok q' =>
      obtain ⟨y, t'⟩ := q'
      simp only [Lens.zoom, h3] at h'
      cases h'
      have h4 : L.get (K.set t' u) = t := (hLK t' u).trans ht
      rw [ht] at h1
      simp only [Lens.zoom, h4, h1]
      rw [← h4, L.set_get]

theorem any_run (c : AlgState T → M σ Bool) (cs : List (AlgState T → M σ Bool)) (s : AlgState T) (u : σ) :
    Stop.any (c :: cs) s u = match c s u with
      | .ok (true, u1) => .ok (true, u1)
      | .ok (false, u1) => Stop.any cs s u1
      | .error e => .error e := by
  show (do if ← c s then pure true else Stop.any cs s : M σ Bool) u = _
  rw [M.bind_run]
  rcases c s u with e | ⟨b, u1⟩
  · rfl
  · cases b <;> rfl

theorem all_run (c : AlgState T → M σ Bool) (cs : List (AlgState T → M σ Bool)) (s : AlgState T) (u : σ) :
    Stop.all (c :: cs) s u = match c s u with
      | .ok (false, u1) => .ok (false, u1)
      | .ok (true, u1) => Stop.all cs s u1
      | .error e => .error e := by
  show (do if !(← c s) then pure false else Stop.all cs s : M σ Bool) u = _
  rw [M.bind_run]
  rcases c s u with e | ⟨b, u1⟩
  · rfl
  · cases b <;> rfl

theorem undisturbed_any {c : AlgState T → M σ Bool} : ∀ {cs : List (AlgState T → M σ Bool)},
    (∀ d ∈ cs, Undisturbed c d) → Undisturbed c (Stop.any cs)
  | [], _ => by intro s u b b' u' h h'; cases h'; exact h
  | d :: cs, hd => by
    intro s u b b' u' h h'
    rw [any_run] at h'
    cases h1 : d s u with
    | error e => rw [h1] at h'; cases h'
    | ok q =>
      obtain ⟨b1, u1⟩ := q
      have h2 := hd d (by simp) s u b b1 u1 h h1
      rw [h1] at h'
      cases b1
      · exact undisturbed_any (fun d hd' => hd d (by simp [hd'])) s u1 b b' u' h2 h'
      · cases h'
        exact h2

theorem undisturbed_all {c : AlgState T → M σ Bool} : ∀ {cs : List (AlgState T → M σ Bool)},
    (∀ d ∈ cs, Undisturbed c d) → Undisturbed c (Stop.all cs)
  | [], _ => by intro s u b b' u' h h'; cases h'; exact h
  | d :: cs, hd => by
    intro s u b b' u' h h'
    rw [all_run] at h'
    cases h1 : d s u with
    | error e => rw [h1] at h'; cases h'
    | ok q =>
      obtain ⟨b1, u1⟩ := q
      have h2 := hd d (by simp) s u b b1 u1 h h1
      rw [h1] at h'
      cases b1
      · cases h'
        exact h2
      · exact undisturbed_all (fun d hd' => hd d (by simp [hd'])) s u1 b b' u' h2 h'

theorem any_asksAgain : ∀ {cs : List (AlgState T → M σ Bool)}, (∀ c ∈ cs, AsksAgain c) → cs.Pairwise Undisturbed →
    AsksAgain (Stop.any cs)
  | [], _, _ => by intro s u b u' h; cases h; rfl
  | c :: cs, hc, hp => by
    intro s u b u' h
    rw [any_run] at h ⊢
    obtain ⟨hp1, hp2⟩ := List.pairwise_cons.1 hp
    cases h1 : c s u with
    | error e => rw [h1] at h; cases h
    | ok q =>
      obtain ⟨b1, u1⟩ := q
      have h2 := hc c (by simp) _ _ _ _ h1
      rw [h1] at h
      cases b1
      · rw [undisturbed_any hp1 s u1 false b u' h2 h]
        exact any_asksAgain (fun c hc' => hc c (by simp [hc'])) hp2 s u1 b u' h
      · cases h
        rw [h2]

theorem all_asksAgain : ∀ {cs : List (AlgState T → M σ Bool)}, (∀ c ∈ cs, AsksAgain c) → cs.Pairwise Undisturbed →
    AsksAgain (Stop.all cs)
  | [], _, _ => by intro s u b u' h; cases h; rfl
  | c :: cs, hc, hp => by
    intro s u b u' h
    rw [all_run] at h ⊢
    obtain ⟨hp1, hp2⟩ := List.pairwise_cons.1 hp
    cases h1 : c s u with
    | error e => rw [h1] at h; cases h
    | ok q =>
      obtain ⟨b1, u1⟩ := q
      have h2 := hc c (by simp) _ _ _ _ h1
      rw [h1] at h
      cases b1
      · cases h
        rw [h2]
      · rw [undisturbed_all hp1 s u1 true b u' h2 h]
        exact all_asksAgain (fun c hc' => hc c (by simp [hc'])) hp2 s u1 b u' h

/-- C112: every stop checker of the library may be asked again: MaxIterations, Threshold, GoalNotChange with its fields
anywhere, and a composition of such ones if none changes the fields of one before it, which is so for objects with separate
fields. -/
theorem C112_checkers : (∀ n, AsksAgain (Stop.maxIterations n : AlgState T → M σ Bool)) ∧
    (∀ t, AsksAgain (Stop.threshold t : AlgState T → M σ Bool)) ∧
    (∀ p (L : Lens σ Stop.GNC), AsksAgain (fun s : AlgState T => L.zoom (Stop.goalNotChange p s))) ∧
    (∀ cs : List (AlgState T → M σ Bool), (∀ c ∈ cs, AsksAgain c) → cs.Pairwise Undisturbed →
      AsksAgain (Stop.any cs) ∧ AsksAgain (Stop.all cs)) ∧
    (∀ (τ ρ : Type) (L : Lens σ τ) (K : Lens σ ρ) (c : AlgState T → M τ Bool) (d : AlgState T → M ρ Bool),
      (∀ t u, L.get (K.set t u) = L.get u) → Undisturbed (fun s => L.zoom (c s)) (fun s => K.zoom (d s))) :=
  ⟨fun _ => stopWhen_asksAgain _, fun _ => stopWhen_asksAgain _, fun p L => zoom_asksAgain L (goalNotChange_asksAgain p),
    fun _ h h' => ⟨any_asksAgain h h', all_asksAgain h h'⟩,
    fun _ _ L K c d h => zoom_undisturbed L K h c d⟩

/-- The composition of the statistics programs -/
example (p : Profile) (L : Lens σ Stop.GNC) : AsksAgain (Stop.any [fun s : AlgState T => L.zoom (Stop.goalNotChange p s),
    Stop.maxIterations 3000]) :=
  (C112_checkers.2.2.2.1 _ (by
    intro c hc
    simp only [List.mem_cons, List.not_mem_nil, or_false] at hc
    rcases hc with rfl | rfl
    · exact zoom_asksAgain L (goalNotChange_asksAgain p)
    · exact stopWhen_asksAgain _) (List.pairwise_pair.2 (undisturbed_stopWhen _ _))).1

/-- C112 (genetic): calling `next_iterations` once more after `find_min` or `next_iterations` has returned, with the same
stop checker, returns the same and does nothing: no iteration is done, no goal evaluated, and nothing is changed but the
fields of the loggers. The stop checker may be asked again (`hs`), as the library's may. -/
theorem C112_genetic_again (h : AllNeverFail ls I0 I1 I2 I3) (o : GA.Opt σ T) (hs : AsksAgain o.comps.stop) (f f' : Nat)
    (hf' : 0 < f') (w w' : World (σ × τ) T) (r : Option (Solution T)) (o' : GA.Opt (σ × τ) T)
    (hr : (I0 w.user.2 ∧ GA.findMin f (o.watched ls) w = .ok ((r, o'), w')) ∨
      (I1 w.user.2 ∧ GA.nextIterations f (o.watched ls) w = .ok ((r, o'), w'))) :
    ∃ w'', GA.nextIterations f' o' w' = .ok ((r, o'), w'') ∧ w''.user.1 = w'.user.1 ∧ work w''.trace = work w'.trace := by
  rcases hr with ⟨hw, hr⟩ | ⟨hw, hr⟩
  · exact (GA.find_again h o hs f f' hf' hw hr).2
  · exact (GA.next_again h o hs f f' hf' hw hr).2

/-- C112 (swarm): calling `next_iterations` once more after `find_min` or `next_iterations` has returned, with the same stop
checker, returns the same and does nothing. -/
theorem C112_swarm_again [FloatT α] {ls : List (Logger τ (List α))} (h : AllNeverFail ls I0 I1 I2 I3) (o : PSO.Opt σ α)
    (hs : AsksAgain o.comps.stop) (f f' : Nat) (hf' : 0 < f') (w w' : World (σ × τ) (List α))
    (r : Option (Solution (List α))) (o' : PSO.Opt (σ × τ) α)
    (hr : (I0 w.user.2 ∧ PSO.findMin f (o.watched ls) w = .ok ((r, o'), w')) ∨
      (I1 w.user.2 ∧ PSO.nextIterations f (o.watched ls) w = .ok ((r, o'), w'))) :
    ∃ w'', PSO.nextIterations f' o' w' = .ok ((r, o'), w'') ∧ w''.user.1 = w'.user.1 ∧
      work w''.trace = work w'.trace := by
  rcases hr with ⟨hw, hr⟩ | ⟨hw, hr⟩
  · exact (PSO.find_again h o hs f f' hf' hw hr).2
  · exact (PSO.next_again h o hs f f' hf' hw hr).2

/-! ## More iterations -/

section

open PSO _root_.Verif.Spec

variable [FloatT α]

theorem step_notWorse {c : Comps σ α} {s s' : Swarm α} {b : Particle α} {w w' : World σ (List α)} (hb : s.best = some b)
    (h : step c s w = .ok (s', w')) : ∃ b', s'.best = some b' ∧ NotWorse b'.value b.value := by
  obtain ⟨w1, h1, -⟩ := step_ok.1 h
  obtain ⟨evs, s1, hm, rfl, -⟩ := core_ok h1
  exact (SwarmCaught.updated s1).1.2.1 b (hm.same.1.trans hb)

theorem loop_notWorse {c : Comps σ α} : ∀ {f : Nat} {s s' : Swarm α} {b : Particle α} {w w' : World σ (List α)},
    s.best = some b → loop c f s w = .ok (s', w') → ∃ b', s'.best = some b' ∧ NotWorse b'.value b.value := by
  intro f
  induction f with
  | zero => intro s s' b w w' _ h; cases h
  | succ f ih =>
    intro s s' b w w' hb h
    obtain ⟨x, t, -, h⟩ := loop_succ_ok.1 h
    rcases h with ⟨-, rfl, -⟩ | ⟨-, s1, w1, h1, h2⟩
    · exact ⟨b, hb, notWorse_refl _⟩
    · obtain ⟨b1, e1, e2⟩ := step_notWorse hb h1
      obtain ⟨b2, e3, e4⟩ := ih e1 h2
      exact ⟨b2, e3, notWorse_trans e4 e2⟩

/-- C112: the swarm's `next_iterations` never returns anything worse than what had been found before. -/
theorem C112_swarm_continue (f : Nat) (o o' : Opt σ α) (w w' : World σ (List α)) (x : List α) (v : F64)
    (r : Option (Solution (List α))) (hb : o.swarm.state.best = some (x, v))
    (h : nextIterations f o w = .ok ((r, o'), w')) : ∃ x' v', r = some (x', v') ∧ NotWorse v' v := by
  obtain ⟨s, w1, w2, -, h1, -, rfl, -⟩ := nextIterations_ok.1 h
  have e : ∀ s : Swarm α, s.state.best = s.best.map (fun p => (p.coordinates, p.value)) := by
    intro s
    unfold Swarm.state
    cases s.best <;> rfl
  rw [e] at hb
  cases hs : o.swarm.best with
  | none => rw [hs] at hb; cases hb
  | some b =>
    rw [hs] at hb
    cases hb
    obtain ⟨b', e1, e2⟩ := loop_notWorse hs h1
    exact ⟨b'.coordinates, b'.value, by rw [e, e1]; rfl, e2⟩

theorem run_append (o : Opt σ α) (ks ks' : List (Call σ α)) (w : World σ (List α)) :
    run o (ks ++ ks') w = (run o ks >>= fun r => run r.2 ks' >>= fun r' => pure (r.1 ++ r'.1, r'.2)) w := by
  induction ks generalizing o w with
  | nil =>
    show _ = ((pure ([], o) : M _ _) >>= _) w
    rw [M.bind_run, M.pure_run]
    simp only
    rw [List.nil_append, M.bind_run]
    cases run o ks' w with
    | error e => rfl
    | ok q => rfl
  | cons k ks ih =>
    rw [List.cons_append, PSO.run_cons', PSO.run_cons']
    simp only [M.bind_assoc']
    rw [M.bind_run, M.bind_run]
    cases call o k w with
    | error e => rfl
    | ok q =>
      obtain ⟨q, w1⟩ := q
      simp only
      rw [M.bind_run, ih, M.bind_run, M.bind_run]
      cases run q.2 ks w1 with
      | error e => rfl
      | ok q' =>
        obtain ⟨q', w2⟩ := q'
        simp only [M.bind_run, M.pure_run]
        cases run q'.2 ks' w2 with
        | error e => rfl
        | ok q'' => rfl

theorem best_eq (s : Swarm α) : s.state.best = s.best.map (fun p => (p.coordinates, p.value)) := by
  unfold Swarm.state
  cases s.best <;> rfl

/-- C112: more iterations never hurt a swarm. Let two runs from the same state, with the same random numbers, end; the first
with a stop checker `P` that stops only where that of the second, `Q`, stops as well. What the first returns is not worse. -/
theorem C112_swarm_more {ls : List (Logger τ (List α))} (h : AllNeverFail ls I0 I1 I2 I3) (o : Opt σ α)
    (P Q : AlgState (List α) → Bool) (hQ : ∀ s, P s = true → Q s = true) (f f' : Nat) (w w1 w2 : World (σ × τ) (List α))
    (hw : I0 w.user.2) (r1 r2 : Option (Solution (List α))) (o1 o2 : Opt (σ × τ) α)
    (h1 : run (o.watched ls) (inParts f P []) w = .ok (([none, some r1], o1), w1))
    (h2 : run (o.watched ls) (inParts f' Q []) w = .ok (([none, some r2], o2), w2)) (x : List α) (v : F64)
    (hb : r2 = some (x, v)) : ∃ x' v', r1 = some (x', v') ∧ NotWorse v' v := by
  have e : ∀ f P, run (o.watched ls) (inParts f P []) w = (findMin f ⟨inPart o.comps ls P, o.swarm⟩ >>= fun r =>
      pure ([none, some r.1], r.2)) w := by
    intro f P
    have e1 : run (o.watched ls) (inParts f P []) w =
        (run ⟨inPart o.comps ls P, o.swarm⟩ [.findMin f] >>= fun rs => pure (none :: rs.1, rs.2)) w := rfl
    rw [e1, PSO.run_cons', PSO.call_find']
    simp only [M.bind_assoc', M.bind_run]
    cases findMin f ⟨inPart o.comps ls P, o.swarm⟩ w <;> rfl
  have up : ∀ (f d : Nat) P r o' w', run (o.watched ls) (inParts f P []) w = .ok (([none, some r], o'), w') →
      findMin (f + d) ⟨inPart o.comps ls P, o.swarm⟩ w = .ok ((r, o'), w') := by
    intro f d P r o' w' hr
    rw [e] at hr
    obtain ⟨⟨r3, o3⟩, w3, h3, h4⟩ := M.bind_eq_ok.1 hr
    cases h4
    rw [findMin_more ⟨inPart o.comps ls P, o.swarm⟩ f d w (by rw [h3]; simp), h3]
  have h1' := up f f' P r1 o1 w1 h1
  have h2' := up f' f Q r2 o2 w2 h2
  rw [Nat.add_comm] at h2'
  have e1 : run (o.watched ls) (inParts (f + f') P []) w = .ok (([none, some r1], o1), w1) := by
    rw [e, M.bind_run, h1']
    rfl
  have e2 : run (o.watched ls) (inParts (f + f') Q []) w = .ok (([none, some r2], o2), w2) := by
    rw [e, M.bind_run, h2']
    rfl
  have h3 := C112_swarm h o P Q [P] (by
    intro Q' hQ' s hs
    simp only [List.mem_cons, List.not_mem_nil, or_false] at hQ'
    rcases hQ' with rfl | rfl
    · exact hQ s hs
    · exact hs) rfl (f + f') w hw (by rw [e1]; simp)
  have e3 : (inParts (f + f') Q [P] : List (Call (σ × τ) α)) = inParts (f + f') Q [] ++
      [.setStopChecker (stopWhen P), .nextIterations (f + f')] := rfl
  have e4 : run o2 [.setStopChecker (stopWhen P), .nextIterations (f + f')] w2 =
      (nextIterations (f + f') ⟨{ o2.comps with stop := stopWhen P }, o2.swarm⟩ >>= fun r =>
        pure ([none, some r.1], r.2)) w2 := by
    have e5 : run o2 [.setStopChecker (stopWhen P), .nextIterations (f + f')] w2 =
        (run ⟨{ o2.comps with stop := stopWhen P }, o2.swarm⟩ [.nextIterations (f + f')] >>= fun rs =>
          pure (none :: rs.1, rs.2)) w2 := rfl
    rw [e5, PSO.run_cons', PSO.call_next']
    simp only [M.bind_assoc', M.bind_run]
    cases nextIterations (f + f') ⟨{ o2.comps with stop := stopWhen P }, o2.swarm⟩ w2 <;> rfl
  rw [e1, e3, run_append, M.bind_run, e2] at h3
  simp only [M.bind_run, e4] at h3
  have hb2 : o2.swarm.state.best = some (x, v) := by
    obtain ⟨p, w3, w4, -, -, h6⟩ := findMin_ok.1 h2'
    obtain ⟨p', w5, w6, -, -, -, h7, rfl⟩ := nextIterations_ok.1 h6
    rw [← hb, h7]
  cases h8 : nextIterations (f + f') ⟨{ o2.comps with stop := stopWhen P }, o2.swarm⟩ w2 with
  | error er => rw [h8] at h3; exact h3.elim
  | ok q =>
    obtain ⟨⟨r', o'⟩, w'⟩ := q
    rw [h8] at h3
    obtain ⟨h9, -⟩ := h3
    have h10 : r' = r1 := by simpa using h9
    subst h10
    exact C112_swarm_continue _ ⟨{ o2.comps with stop := stopWhen P }, o2.swarm⟩ _ _ _ x v _ hb2 h8

end

/-- The stop checker is replaced by a new `GoalNotChange` object: its fields are those of the second of two such objects. -/
def renewed : List (GA.Call (Stop.GNC × Stop.GNC) F64) :=
  [.setStopChecker (Stop.maxIterations 2), .findMin 9,
    .setStopChecker (fun s => (Lens.snd _ _).zoom (Stop.goalNotChange .debug s)), .nextIterations 9]

/-- The same `GoalNotChange` object for the run in one go -/
def renewedNot : List (GA.Call (Stop.GNC × Stop.GNC) F64) :=
  [.setStopChecker (fun s => (Lens.snd _ _).zoom (Stop.goalNotChange .debug s)), .findMin 9]

/-- One individual that stays as it is -/
def still : GA.Opt (Stop.GNC × Stop.GNC) F64 :=
  GA.new (fun x => pure x) (Stop.maxIterations 0) (pure [Fl.ofNat 5]) (fun _ => pure []) (fun _ => pure [])
    (fun x => pure x) [] []

/-- C112 fails for a stop checker with fields: a GoalNotChange that is given to the optimizer for the continuation begins to
count when it is first asked. The run in one go ends after five iterations, the run in two parts after six. -/
theorem C112_checker_witness :
    M.okAnd (GA.run still renewedNot ⟨(Stop.GNC.new 3 Fl.zero, Stop.GNC.new 3 Fl.zero), []⟩)
      (fun r _ => r.2.pop.iteration == 5) = true ∧
    M.okAnd (GA.run still renewed ⟨(Stop.GNC.new 3 Fl.zero, Stop.GNC.new 3 Fl.zero), []⟩)
      (fun r _ => r.2.pop.iteration == 6) = true := by decide +kernel

/-- C112 fails for the genetic optimizer: more generations may give a worse answer for the same random numbers, with
the library's LimitPopulation. After one generation the answer is 1, after two it is 2. -/
theorem C112_genetic_worse :
    M.okAnd (GA.run worseOpt [.setStopChecker (Stop.maxIterations 1), .findMin 3] ⟨[9, 9, 2, 3, 7, 7], []⟩)
      (fun r _ => r.2.pop.state.best.map (·.2) == some (Fl.ofNat 1)) = true ∧
    M.okAnd (GA.run worseOpt [.setStopChecker (Stop.maxIterations 2), .findMin 3] ⟨[9, 9, 2, 3, 7, 7], []⟩)
      (fun r _ => r.2.pop.state.best.map (·.2) == some (Fl.ofNat 2)) = true := by decide +kernel

/-! ## The two programs that continue a run -/

section

open Examples

theorem endsAlike_cons {O C V : Type} {agents : O → C} {v : V} {x y z : Except Err ((List V × O) × World (σ × τ) T)}
    (hx : x = match y with | .ok ((vs, o), w) => .ok ((v :: vs, o), w) | .error e => .error e)
    (hy : ∀ vs o w, y = .ok ((vs, o), w) → vs ≠ []) (h : EndsAlike agents x z) : EndsAlike agents y z := by
  subst hx
  rcases y with e | ⟨⟨vs, o⟩, w⟩
  · exact h
  · obtain ⟨b, bs, rfl⟩ := List.exists_cons_of_ne_nil (hy vs o w rfl)
    rcases z with e | ⟨⟨vs', o'⟩, w'⟩
    · exact h.elim
    · exact ⟨(by rw [← h.1]; rfl), h.2⟩

theorem genetic_default (o : GA.Opt σ T) (ls : List (Logger τ T)) {n : Nat} (hs : o.comps.stop = Stop.maxIterations n)
    (k : GA.Call (σ × τ) T) (ks : List (GA.Call (σ × τ) T)) (w : World (σ × τ) T) {C : Type} {agents : GA.Opt (σ × τ) T → C}
    {z : Except Err ((List (GA.Ret T) × GA.Opt (σ × τ) T) × World (σ × τ) T)}
    (h : EndsAlike agents (GA.run (o.watched ls) (.setStopChecker (Stop.maxIterations n) :: k :: ks) w) z) :
    EndsAlike agents (GA.run (o.watched ls) (k :: ks) w) z := by
  obtain ⟨c, p⟩ := o
  obtain ⟨_, stop, _, _, _, _, _, _, _⟩ := c
  obtain rfl : stop = Stop.maxIterations n := hs
  refine endsAlike_cons (v := none) ?_ ?_ h
  · generalize ho : GA.Opt.watched _ ls = o'
    have e : (⟨{ o'.comps with stop := Stop.maxIterations n }, o'.pop⟩ : GA.Opt (σ × τ) T) = o' := by
      subst ho
      rfl
    have e1 : GA.run o' (.setStopChecker (Stop.maxIterations n) :: k :: ks) w =
        (GA.run ⟨{ o'.comps with stop := Stop.maxIterations n }, o'.pop⟩ (k :: ks) >>= fun rs =>
          pure (none :: rs.1, rs.2)) w := rfl
    rw [e1, e, M.bind_run]
    rcases GA.run o' (k :: ks) w with e | ⟨⟨_, _⟩, _⟩ <;> rfl
  · intro vs o' w' h1
    rw [GA.run_cons'] at h1
    obtain ⟨q, w1, -, h2⟩ := M.bind_eq_ok.1 h1
    obtain ⟨rs, w2, -, h3⟩ := M.bind_eq_ok.1 h2
    cases h3
    simp

theorem swarm_default [FloatT α] (o : PSO.Opt σ α) (ls : List (Logger τ (List α))) {n : Nat}
    (hs : o.comps.stop = Stop.maxIterations n) (k : PSO.Call (σ × τ) α) (ks : List (PSO.Call (σ × τ) α))
    (w : World (σ × τ) (List α)) {C : Type} {agents : PSO.Opt (σ × τ) α → C}
    {z : Except Err ((List (PSO.Ret α) × PSO.Opt (σ × τ) α) × World (σ × τ) (List α))}
    (h : EndsAlike agents (PSO.run (o.watched ls) (.setStopChecker (Stop.maxIterations n) :: k :: ks) w) z) :
    EndsAlike agents (PSO.run (o.watched ls) (k :: ks) w) z := by
  obtain ⟨c, p⟩ := o
  obtain ⟨_, stop, _, _, _, _, _, _⟩ := c
  obtain rfl : stop = Stop.maxIterations n := hs
  refine endsAlike_cons (v := none) ?_ ?_ h
  · generalize ho : PSO.Opt.watched _ ls = o'
    have e : (⟨{ o'.comps with stop := Stop.maxIterations n }, o'.swarm⟩ : PSO.Opt (σ × τ) α) = o' := by
      subst ho
      rfl
    have e1 : PSO.run o' (.setStopChecker (Stop.maxIterations n) :: k :: ks) w =
        (PSO.run ⟨{ o'.comps with stop := Stop.maxIterations n }, o'.swarm⟩ (k :: ks) >>= fun rs =>
          pure (none :: rs.1, rs.2)) w := rfl
    rw [e1, e, M.bind_run]
    rcases PSO.run o' (k :: ks) w with e | ⟨⟨_, _⟩, _⟩ <;> rfl
  · intro vs o' w' h1
    rw [PSO.run_cons'] at h1
    obtain ⟨q, w1, -, h2⟩ := M.bind_eq_ok.1 h1
    obtain ⟨rs, w2, -, h3⟩ := M.bind_eq_ok.1 h2
    cases h3
    simp

/-- C112: genetic-schwefel-iterative.rs, with whatever loggers, ends as it would with 500 generations in one go. -/
theorem C112_genetic_program {ls : List (Logger τ (List F32))} (h : AllNeverFail ls I0 I1 I2 I3) (P : Platform σ) (s s' : σ)
    (o : GA.Opt σ (List F32)) (ho : geneticSchwefelIterative P s = .ok (o, s')) (f : Nat) (w : World (σ × τ) (List F32))
    (hw : I0 w.user.2)
    (hf : GA.run (o.watched ls) [.setStopChecker (Stop.maxIterations 500), .findMin f] w ≠ .error .fuel) :
    EndsAlike GA.Opt.pop (GA.run (o.watched ls) (iterativeCalls f) w)
      (GA.run (o.watched ls) [.setStopChecker (Stop.maxIterations 500), .findMin f] w) := by
  have hs : o.comps.stop = Stop.maxIterations 100 := by
    obtain ⟨c, s1, -, h1⟩ := M.bind_eq_ok.1 ho
    obtain ⟨st, s2, h2, h3⟩ := M.bind_eq_ok.1 h1
    cases h2
    cases h3
    rfl
  exact genetic_default o ls hs _ _ w (C112_genetic_max h o (by omega) f w hw hf)

/-- C112: particleswarm-schwefel-iterative.rs, with whatever loggers, ends as it would with 150 iterations in one go. -/
theorem C112_swarm_program {ls : List (Logger τ (List F32))} (h : AllNeverFail ls I0 I1 I2 I3) (P : Platform σ) (s s' : σ)
    (o : PSO.Opt σ F32) (ho : swarmSchwefelIterative P s = .ok (o, s')) (f : Nat) (w : World (σ × τ) (List F32))
    (hw : I0 w.user.2)
    (hf : PSO.run (o.watched ls) [.setStopChecker (Stop.maxIterations 150), .findMin f] w ≠ .error .fuel) :
    EndsAlike PSO.Opt.swarm (PSO.run (o.watched ls) (swarmIterativeCalls f) w)
      (PSO.run (o.watched ls) [.setStopChecker (Stop.maxIterations 150), .findMin f] w) := by
  have hs : o.comps.stop = Stop.maxIterations 50 := by
    obtain ⟨c, s1, -, h1⟩ := M.bind_eq_ok.1 ho
    obtain ⟨st, s2, h2, h3⟩ := M.bind_eq_ok.1 h1
    cases h2
    cases h3
    rfl
  exact swarm_default o ls hs _ _ w (C112_swarm_max h o (by omega) f w hw hf)

end

/-! ### Concrete runs -/

/-- A call of `next_iterations` after the run of `Demo.opt` leaves the generation number at two. -/
example : M.okAnd (GA.run (Demo.opt.watched [Stats.logger .release]) [.findMin 3, .nextIterations 1] demoWorld)
    (fun r _ => r.2.pop.iteration == 2) = true ∧
    M.okAnd (PSO.run (SwarmDemo.opt.watched [Stats.logger .release]) [.findMin 3, .nextIterations 1] demoWorld)
    (fun r _ => r.2.swarm.iteration == 2) = true := by decide +kernel

end Verif.Props.Split
