import Verif.Proofs.Record
import Verif.Proofs.Attach
import Verif.Props.Demo
import Verif.Props.SwarmDemo

/-!
# C50, C51: what `StatisticsLogger` records
-/

namespace Verif.Props

open Verif Spec Stats

variable {σ T α : Type}

/-! ## C50 -/

/-- A `Statistics` with these contents holds, after a history that left `ext` in the trace and whose calls returned `rs`,
one more result for each run and the rows of the history. -/
def Recorded (s : Statistics T) (ext : List (Ev T)) (rs : List (Option (Option (Solution T)))) (s' : Statistics T) :
    Prop :=
  s'.results = s.results ++ rs.filterMap id ∧ s'.convergence = ext.foldl rowStep s.convergence

theorem Recorded.one {s s' : Statistics T} {ext : List (Ev T)} {r : Option (Solution T)}
    (h : s'.results = s.results ++ [r] ∧ s'.convergence = ext.foldl rowStep s.convergence) :
    Recorded s ext [some r] s' := ⟨by simpa using h.1, h.2⟩

theorem Recorded.trans {s s1 s2 : Statistics T} {e1 e2 : List (Ev T)} {r1 r2 : List (Option (Option (Solution T)))}
    (h1 : Recorded s e1 r1 s1) (h2 : Recorded s1 e2 r2 s2) : Recorded s (e1 ++ e2) (r1 ++ r2) s2 :=
  ⟨by rw [h2.1, h1.1]; simp, by rw [h2.2, h1.2, List.foldl_append]⟩

/-- C50 (genetic), any contents: each call of a run method adds its value to the results, and the rows are those of the
history. -/
theorem C50_genetic (p : Profile) (L : Lens σ (Statistics T)) (i : Nat) (o o' : GA.Opt σ T) (ks : List (GA.Call σ T))
    (hp : Spec.Always (GA.PrivateLogger L (Stats.logger p) i) o.comps ks) (w w' : World σ T)
    (rs : List (GA.Ret T)) (hr : GA.run o ks w = .ok ((rs, o'), w')) :
    ∃ ext, w'.trace = w.trace ++ ext ∧ Recorded (L.get w.user) ext rs (L.get w'.user) := by
  induction ks generalizing o w rs with
  | nil =>
    obtain ⟨h, rfl⟩ := M.pure_eq_ok.1 hr
    cases h
    exact ⟨[], by simp, by simp [Recorded]⟩
  | cons k ks ih =>
    obtain ⟨r, o1, w1, rs', h1, h2, rfl⟩ := GA.run_cons_ok.1 hr
    have hi : i < o.comps.loggers.length := by
      have := hp.1.logger_eq
      by_contra hc
      rw [List.getElem?_eq_none (by omega)] at this
      cases this
    obtain ⟨ext2, ht2, hrec2⟩ := ih o1 (by rw [GA.call_comps h1]; exact hp.2) w1 rs' h2
    have key : ∃ ext, w1.trace = w.trace ++ ext ∧ Recorded (L.get w.user) ext [r] (L.get w1.user) := by
      obtain ⟨ext0, ht0, hinf⟩ := (hp.1.winv w.trace (L.get w.user)).call k w _ w1 ⟨[], by simp, .nil⟩ h1
      cases k with
      | findMin fuel =>
        obtain ⟨⟨r1, o2⟩, w2, h3, h4⟩ := M.bind_eq_ok.1 h1
        obtain ⟨h5, rfl⟩ := M.pure_eq_ok.1 h4
        cases h5
        obtain ⟨ext, sts, ht, hrb, hcr⟩ := GA.findMin_record hi h3
        obtain rfl : ext0 = ext := List.append_cancel_left (ht0.symm.trans ht)
        refine ⟨ext0, ht, .one ?_⟩
        rw [hrb]
        exact hcr.record hinf
      | nextIterations fuel =>
        obtain ⟨⟨r1, o2⟩, w2, h3, h4⟩ := M.bind_eq_ok.1 h1
        obtain ⟨h5, rfl⟩ := M.pure_eq_ok.1 h4
        cases h5
        obtain ⟨ext, sts, ht, hrb, hcr⟩ := GA.nextIterations_record hi h3
        obtain rfl : ext0 = ext := List.append_cancel_left (ht0.symm.trans ht)
        refine ⟨ext0, ht, .one ?_⟩
        rw [hrb]
        exact hcr.record hinf
      | _ =>
        obtain ⟨h5, rfl⟩ := M.pure_eq_ok.1 h1
        cases h5
        exact ⟨[], by simp, by simp [Recorded]⟩
    obtain ⟨ext1, ht1, hrec1⟩ := key
    exact ⟨ext1 ++ ext2, by rw [ht2, ht1, List.append_assoc], hrec1.trans hrec2⟩

/-- C50 (swarm), any contents. -/
theorem C50_swarm [FloatT α] (p : Profile) (L : Lens σ (Statistics (List α))) (i : Nat) (o o' : PSO.Opt σ α)
    (ks : List (PSO.Call σ α)) (hp : Spec.Swarm.Always (PSO.PrivateLogger L (Stats.logger p) i) o.comps ks)
    (w w' : World σ (List α)) (rs : List (PSO.Ret α)) (hr : PSO.run o ks w = .ok ((rs, o'), w')) :
    ∃ ext, w'.trace = w.trace ++ ext ∧ Recorded (L.get w.user) ext rs (L.get w'.user) := by
  induction ks generalizing o w rs with
  | nil =>
    obtain ⟨h, rfl⟩ := M.pure_eq_ok.1 hr
    cases h
    exact ⟨[], by simp, by simp [Recorded]⟩
  | cons k ks ih =>
    obtain ⟨r, o1, w1, rs', h1, h2, rfl⟩ := PSO.run_cons_ok.1 hr
    have hi : i < o.comps.loggers.length := by
      have := hp.1.logger_eq
      by_contra hc
      rw [List.getElem?_eq_none (by omega)] at this
      cases this
    obtain ⟨ext2, ht2, hrec2⟩ := ih o1 (by rw [PSO.call_comps h1]; exact hp.2) w1 rs' h2
    have key : ∃ ext, w1.trace = w.trace ++ ext ∧ Recorded (L.get w.user) ext [r] (L.get w1.user) := by
      obtain ⟨ext0, ht0, hinf⟩ := (hp.1.winv w.trace (L.get w.user)).call k w _ w1 ⟨[], by simp, .nil⟩ h1
      cases k with
      | findMin fuel =>
        obtain ⟨⟨r1, o2⟩, w2, h3, h4⟩ := M.bind_eq_ok.1 h1
        obtain ⟨h5, rfl⟩ := M.pure_eq_ok.1 h4
        cases h5
        obtain ⟨ext, sts, ht, hrb, hcr⟩ := PSO.findMin_record hi h3
        obtain rfl : ext0 = ext := List.append_cancel_left (ht0.symm.trans ht)
        refine ⟨ext0, ht, .one ?_⟩
        rw [hrb]
        exact hcr.record hinf
      | nextIterations fuel =>
        obtain ⟨⟨r1, o2⟩, w2, h3, h4⟩ := M.bind_eq_ok.1 h1
        obtain ⟨h5, rfl⟩ := M.pure_eq_ok.1 h4
        cases h5
        obtain ⟨ext, sts, ht, hrb, hcr⟩ := PSO.nextIterations_record hi h3
        obtain rfl : ext0 = ext := List.append_cancel_left (ht0.symm.trans ht)
        refine ⟨ext0, ht, .one ?_⟩
        rw [hrb]
        exact hcr.record hinf
      | _ =>
        obtain ⟨h5, rfl⟩ := M.pure_eq_ok.1 h1
        cases h5
        exact ⟨[], by simp, by simp [Recorded]⟩
    obtain ⟨ext1, ht1, hrec1⟩ := key
    exact ⟨ext1 ++ ext2, by rw [ht2, ht1, List.append_assoc], hrec1.trans hrec2⟩

/-- C50 (genetic): for a fresh `Statistics` the results are the values of the calls, in order, and the rows are those of
the history. -/
theorem C50_genetic_fresh (p : Profile) (L : Lens σ (Statistics T)) (i : Nat) (o o' : GA.Opt σ T)
    (ks : List (GA.Call σ T)) (hp : Spec.Always (GA.PrivateLogger L (Stats.logger p) i) o.comps ks) (w w' : World σ T)
    (hnew : L.get w.user = Statistics.new) (h0 : w.trace = []) (rs : List (GA.Ret T))
    (hr : GA.run o ks w = .ok ((rs, o'), w')) :
    (L.get w'.user).results = rs.filterMap id ∧ (L.get w'.user).convergence = rowsOf w'.trace := by
  obtain ⟨ext, ht, h1, h2⟩ := C50_genetic p L i o o' ks hp w w' rs hr
  rw [h1, h2, hnew, ht, h0]
  exact ⟨rfl, rfl⟩

/-- C50 (swarm), fresh. -/
theorem C50_swarm_fresh [FloatT α] (p : Profile) (L : Lens σ (Statistics (List α))) (i : Nat) (o o' : PSO.Opt σ α)
    (ks : List (PSO.Call σ α)) (hp : Spec.Swarm.Always (PSO.PrivateLogger L (Stats.logger p) i) o.comps ks)
    (w w' : World σ (List α)) (hnew : L.get w.user = Statistics.new) (h0 : w.trace = []) (rs : List (PSO.Ret α))
    (hr : PSO.run o ks w = .ok ((rs, o'), w')) :
    (L.get w'.user).results = rs.filterMap id ∧ (L.get w'.user).convergence = rowsOf w'.trace := by
  obtain ⟨ext, ht, h1, h2⟩ := C50_swarm p L i o o' ks hp w w' rs hr
  rw [h1, h2, hnew, ht, h0]
  exact ⟨rfl, rfl⟩

/-- C50: `run_count` is the number of calls of `find_min` and `next_iterations`, not the number of rows. -/
theorem C50_genetic_run_count (p : Profile) (L : Lens σ (Statistics T)) (i : Nat) (o o' : GA.Opt σ T)
    (ks : List (GA.Call σ T)) (hp : Spec.Always (GA.PrivateLogger L (Stats.logger p) i) o.comps ks) (w w' : World σ T)
    (hnew : L.get w.user = Statistics.new) (h0 : w.trace = []) (rs : List (GA.Ret T))
    (hr : GA.run o ks w = .ok ((rs, o'), w')) :
    (L.get w'.user).runCount = (rs.filter (·.isSome)).length := by
  unfold Statistics.runCount
  rw [(C50_genetic_fresh p L i o o' ks hp w w' hnew h0 rs hr).1]
  clear hr
  induction rs with
  | nil => rfl
  | cons r rs ih => cases r <;> simp_all

/-- C50 -/
theorem C50_swarm_run_count [FloatT α] (p : Profile) (L : Lens σ (Statistics (List α))) (i : Nat) (o o' : PSO.Opt σ α)
    (ks : List (PSO.Call σ α)) (hp : Spec.Swarm.Always (PSO.PrivateLogger L (Stats.logger p) i) o.comps ks)
    (w w' : World σ (List α)) (hnew : L.get w.user = Statistics.new) (h0 : w.trace = []) (rs : List (PSO.Ret α))
    (hr : PSO.run o ks w = .ok ((rs, o'), w')) :
    (L.get w'.user).runCount = (rs.filter (·.isSome)).length := by
  unfold Statistics.runCount
  rw [(C50_swarm_fresh p L i o o' ks hp w w' hnew h0 rs hr).1]
  clear hr
  induction rs with
  | nil => rfl
  | cons r rs ih => cases r <;> simp_all

/-- The rows: one for each creation of a population or swarm ... -/
theorem C50_row_count (tr : List (Ev T)) :
    (rowsOf tr).length = (tr.filter (fun | .created _ => true | _ => false)).length := by
  unfold rowsOf
  suffices h : ∀ rows : List (List (Option (Solution T))), (tr.foldl rowStep rows).length =
      rows.length + (tr.filter (fun | .created _ => true | _ => false)).length by simpa using h []
  induction tr with
  | nil => intro rows; rfl
  | cons e tr ih =>
    intro rows
    rw [List.foldl_cons, ih]
    cases e <;> (simp [rowStep, appendLast_length]; try omega)

/-- ... and the row of the last run holds the best solutions of all iterations since, in order. -/
theorem C50_last_row (before after : List (Ev T)) (xs : List T) (h : ∀ ys, .created ys ∉ after) :
    rowsOf (before ++ .created xs :: after) = rowsOf before ++
      [after.filterMap (fun | .generation _ best _ _ => some best | _ => none)] := by
  unfold rowsOf
  rw [List.foldl_append, List.foldl_cons]
  show after.foldl rowStep (before.foldl rowStep [] ++ [[]]) = _
  generalize before.foldl rowStep [] = rows
  suffices hh : ∀ row : List (Option (Solution T)), after.foldl rowStep (rows ++ [row]) = rows ++
      [row ++ after.filterMap (fun | .generation _ best _ _ => some best | _ => none)] by simpa using hh []
  induction after with
  | nil => intro row; simp
  | cons e after ih =>
    intro row
    rw [List.foldl_cons]
    have ih := ih (fun ys hy => h ys (by simp [hy]))
    cases e with
    | created ys => exact absurd (by simp) (h ys)
    | generation a b c d => simp [rowStep, appendLast_snoc, ih]
    | _ => simp [rowStep, ih]

/-! ## C51 -/

/-- C51 (one direction, for a logger that is already one of the components): a `StatisticsLogger` that was never started gets through a first `next_iterations`
only if no iteration is done. -/
theorem C51_genetic_private (p : Profile) (L : Lens σ (Statistics T)) (i : Nat) (o o' : GA.Opt σ T)
    (hp : GA.PrivateLogger L (Stats.logger p) i o.comps) (w w' : World σ T)
    (hnew : (L.get w.user).convergence = []) (fuel : Nat) (r : Option (Solution T))
    (hr : GA.nextIterations fuel o w = .ok ((r, o'), w')) :
    o'.pop = o.pop ∧ ∃ ext, w'.trace = w.trace ++ ext ∧ generationsOf ext = [] := by
  have hi : i < o.comps.loggers.length := by
    have := hp.logger_eq
    by_contra hc
    rw [List.getElem?_eq_none (by omega)] at this
    cases this
  obtain ⟨ext0, ht0, hinf⟩ := (hp.winv w.trace (L.get w.user)).nextIterations fuel w _ w' ⟨[], by simp, .nil⟩ hr
  obtain ⟨p2, w3, w4, h4, h5, h6, hr2, rfl⟩ := GA.nextIterations_ok.1 hr
  obtain ⟨k, w5, s', hkf, hk, hend, rfl⟩ := GA.loop_turns h5
  obtain ⟨ext, sts, ht, hlen, hrec⟩ := GA.turns_record hi hk
  have ht' : w'.trace = w.trace ++ (GA.logBlock .resume o.pop.state 0 o.comps.loggers.length ++ ext ++
      [.check p2.state true] ++ GA.logBlock .finish p2.state 0 o.comps.loggers.length) := by
    rw [GA.callLoggers_trace h6]
    simp only
    rw [ht, GA.callLoggers_trace h4]
    simp
  obtain rfl := List.append_cancel_left (ht0.symm.trans ht')
  simp only [callbacksOf_append, callbacksOf_logBlock _ _ hi, hrec.told] at hinf
  cases sts with
  | cons st sts =>
    cases hinf with
    | cons h1 hinf =>
      cases h1
      exact absurd hnew (informed_next hinf)
  | nil =>
    subst hlen
    obtain ⟨rfl, rfl⟩ := M.pure_eq_ok.1 hk
    obtain rfl : ext = [] := by simpa using ht
    refine ⟨rfl, _, ht0, ?_⟩
    simp only [generationsOf_append, generationsOf_logBlock]
    rfl

/-- C51 (swarm), the same. -/
theorem C51_swarm_private [FloatT α] (p : Profile) (L : Lens σ (Statistics (List α))) (i : Nat) (o o' : PSO.Opt σ α)
    (hp : PSO.PrivateLogger L (Stats.logger p) i o.comps) (w w' : World σ (List α))
    (hnew : (L.get w.user).convergence = []) (fuel : Nat) (r : Option (Solution (List α)))
    (hr : PSO.nextIterations fuel o w = .ok ((r, o'), w')) :
    o'.swarm = o.swarm ∧ ∃ ext, w'.trace = w.trace ++ ext ∧ generationsOf ext = [] := by
  have hi : i < o.comps.loggers.length := by
    have := hp.logger_eq
    by_contra hc
    rw [List.getElem?_eq_none (by omega)] at this
    cases this
  obtain ⟨ext0, ht0, hinf⟩ := (hp.winv w.trace (L.get w.user)).nextIterations fuel w _ w' ⟨[], by simp, .nil⟩ hr
  obtain ⟨p2, w3, w4, h4, h5, h6, hr2, rfl⟩ := PSO.nextIterations_ok.1 hr
  obtain ⟨k, w5, s', hkf, hk, hend, rfl⟩ := PSO.loop_turns h5
  obtain ⟨ext, sts, ht, hlen, hrec⟩ := PSO.turns_record hi hk
  have ht' : w'.trace = w.trace ++ (GA.logBlock .resume o.swarm.state 0 o.comps.loggers.length ++ ext ++
      [.check p2.state true] ++ GA.logBlock .finish p2.state 0 o.comps.loggers.length) := by
    rw [GA.callLoggers_trace h6]
    simp only
    rw [ht, GA.callLoggers_trace h4]
    simp
  obtain rfl := List.append_cancel_left (ht0.symm.trans ht')
  simp only [callbacksOf_append, callbacksOf_logBlock _ _ hi, hrec.told] at hinf
  cases sts with
  | cons st sts =>
    cases hinf with
    | cons h1 hinf =>
      cases h1
      exact absurd hnew (informed_next hinf)
  | nil =>
    subst hlen
    obtain ⟨rfl, rfl⟩ := M.pure_eq_ok.1 hk
    obtain rfl : ext = [] := by simpa using ht
    refine ⟨rfl, _, ht0, ?_⟩
    simp only [generationsOf_append, generationsOf_logBlock]
    rfl

/-! ## Concrete runs -/

/-- The demo optimizers with a `StatisticsLogger` between their two loggers. -/
def statGA (p : Profile) : GA.Opt (List Nat × Statistics (List F64)) (List F64) := Demo.opt.attach 1 (Stats.logger p)
def statSwarm (p : Profile) : PSO.Opt (List Nat × Statistics (List F64)) F64 :=
  SwarmDemo.opt.attach 1 (Stats.logger p)

def statWorld : World (List Nat × Statistics (List F64)) (List F64) := ⟨(Demo.script, Statistics.new), []⟩

/-- A history with two runs, the second one resumed. -/
def statGACalls : List (GA.Call (List Nat × Statistics (List F64)) (List F64)) :=
  [.findMin 3, .findMin 3, .setStopChecker (Stop.maxIterations 3), .nextIterations 3]
def statSwarmCalls : List (PSO.Call (List Nat × Statistics (List F64)) F64) :=
  [.findMin 3, .findMin 3, .setStopChecker (Stop.maxIterations 3), .nextIterations 3]

theorem maxIterations_leaves {τ : Type} (L : Lens σ τ) (n : Nat) (s : AlgState T) :
    Leaves L (Stop.maxIterations n s) := by
  intro w a w' h
  obtain ⟨-, rfl⟩ := M.pure_eq_ok.1 h
  rfl

theorem private_calls_ga {τ : Type} {L : Lens σ τ} {l : Logger τ T} {i : Nat} {c : GA.Comps σ T}
    (h : GA.PrivateLogger L l i c) : Spec.Always (GA.PrivateLogger L l i) c
      [.findMin 3, .findMin 3, .setStopChecker (Stop.maxIterations 3), .nextIterations 3] := by
  have h' : GA.PrivateLogger L l i { c with stop := Stop.maxIterations 3 } :=
    ⟨h.logger_eq, ⟨h.operators.creator, h.operators.pairing, h.operators.cross, h.operators.mutation,
      h.operators.selections, h.operators.preBirths⟩, h.goal, fun s => maxIterations_leaves _ 3 s, h.loggers⟩
  exact ⟨h, h, h, h', h'⟩

theorem private_calls_swarm {τ : Type} {L : Lens σ τ} {l : Logger τ (List α)} {i : Nat} {c : PSO.Comps σ α}
    (h : PSO.PrivateLogger L l i c) : Spec.Swarm.Always (PSO.PrivateLogger L l i) c
      [.findMin 3, .findMin 3, .setStopChecker (Stop.maxIterations 3), .nextIterations 3] := by
  have h' : PSO.PrivateLogger L l i { c with stop := Stop.maxIterations 3 } :=
    ⟨h.logger_eq, ⟨h.operators.coordInit, h.operators.velInit, h.operators.velCalc, h.operators.postVel,
      h.operators.postMove⟩, h.goal, fun s => maxIterations_leaves _ 3 s, h.loggers⟩
  exact ⟨h, h, h, h', h'⟩

example (p : Profile) : Spec.Always (GA.PrivateLogger (Lens.snd _ _) (Stats.logger p) 1) (statGA p).comps statGACalls :=
  private_calls_ga (GA.attach_private Demo.opt (i := 1) (by decide) (Stats.logger p))

example (p : Profile) : Spec.Swarm.Always (PSO.PrivateLogger (Lens.snd _ _) (Stats.logger p) 1) (statSwarm p).comps
    statSwarmCalls :=
  private_calls_swarm (PSO.attach_private SwarmDemo.opt (i := 1) (by decide) (Stats.logger p))

example : M.okAnd (GA.run (statGA .debug) statGACalls statWorld) (fun _ w =>
    w.user.2.results.length == 3 && w.user.2.convergence.map List.length == [2, 3]) = true := by decide +kernel

example : M.okAnd (PSO.run (statSwarm .release) statSwarmCalls statWorld) (fun _ w =>
    w.user.2.results.length == 3 && w.user.2.convergence.map List.length == [2, 3]) = true := by decide +kernel

/-- C51, the panic: the swarm optimizer, which can do iterations without `find_min`, panics in its first
`next_iterations` because of the logger. Without the logger the same call returns. -/
theorem C51_swarm_false (p : Profile) : (∃ e, PSO.nextIterations 3 (statSwarm p) statWorld = .error e ∧ e ≠ .fuel) ∧
    ∃ a, PSO.nextIterations 3 SwarmDemo.opt SwarmDemo.world = .ok a := by
  refine ⟨?_, ?_⟩
  · have : ∀ p, (match PSO.nextIterations 3 (statSwarm p) statWorld with
        | .error e => decide (e ≠ .fuel)
        | .ok _ => false) = true := by
      intro p; cases p <;> decide +kernel
    have := this p
    revert this
    cases PSO.nextIterations 3 (statSwarm p) statWorld with
    | error e => intro h; exact ⟨e, rfl, of_decide_eq_true h⟩
    | ok a => intro h; cases h
  · have : M.okAnd (PSO.nextIterations 3 SwarmDemo.opt SwarmDemo.world) (fun _ _ => true) = true := by decide +kernel
    revert this
    unfold M.okAnd
    cases PSO.nextIterations 3 SwarmDemo.opt SwarmDemo.world with
    | error e => intro h; cases h
    | ok a => intro h; exact ⟨a, rfl⟩

end Verif.Props
