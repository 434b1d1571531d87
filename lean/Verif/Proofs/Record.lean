import Verif.Spec.Record
import Verif.Model.Statistics
import Verif.Proofs.Private
import Verif.Proofs.GeneticTurns
import Verif.Proofs.SwarmTurns
import Verif.Props.GeneticRun
import Verif.Props.SwarmRun

/-!
# What `StatisticsLogger` makes of its callbacks
-/

set_option linter.unusedSectionVars false

namespace Verif

open Spec Stats

variable {σ T α : Type}

section lists

variable {β : Type}

theorem appendLast_snoc (rows : List (List β)) (row : List β) (b : β) :
    appendLast (rows ++ [row]) b = rows ++ [row ++ [b]] := by
  induction rows with
  | nil => rfl
  | cons r rows ih =>
    rw [List.cons_append, List.cons_append, ← ih]
    cases h : rows ++ [row] with
    | nil => simp at h
    | cons r2 rs => rfl

theorem appendLast_length (rows : List (List β)) (b : β) : (appendLast rows b).length = rows.length := by
  rcases List.eq_nil_or_concat rows with rfl | ⟨rs, r, rfl⟩
  · rfl
  · rw [List.concat_eq_append, appendLast_snoc]; simp

theorem foldl_appendLast (rows : List (List β)) : ∀ (bs : List β) (row : List β),
    bs.foldl appendLast (rows ++ [row]) = rows ++ [row ++ bs] := by
  intro bs
  induction bs with
  | nil => intro row; simp
  | cons b bs ih => intro row; rw [List.foldl_cons, appendLast_snoc, ih]; simp

end lists

/-- What one callback adds. -/
def recordStep (s : Statistics T) : LogKind × AlgState T → Statistics T
  | (.start, _) => { s with convergence := s.convergence ++ [[]] }
  | (.resume, _) => s
  | (.next, st) => { s with convergence := appendLast s.convergence st.best }
  | (.finish, st) => { s with results := s.results ++ [st.best] }

theorem addConvergence_ok {p : Profile} {st : AlgState T} {s s' : Statistics T} :
    addConvergence p st s = .ok ((), s') ↔
      s.convergence ≠ [] ∧ s' = { s with convergence := appendLast s.convergence st.best } := by
  obtain ⟨res, conv⟩ := s
  unfold addConvergence
  rcases List.eq_nil_or_concat conv with rfl | ⟨rows, row, rfl⟩
  · constructor
    · intro h
      obtain ⟨_, _, h1, h⟩ := M.bind_eq_ok.1 h
      cases h1
      obtain ⟨i, _, h2, h⟩ := M.bind_eq_ok.1 h
      obtain ⟨row, _, h3, h⟩ := M.bind_eq_ok.1 h
      obtain ⟨h4, -⟩ := M.index_eq_ok.1 h3
      simp at h4
    · rintro ⟨h, -⟩; exact absurd rfl h
  · rw [List.concat_eq_append, appendLast_snoc]
    have hsub : usizeSub p (rows ++ [row]).length 1 = .ok rows.length := by
      simp [usizeSub]
    constructor
    · intro h
      refine ⟨by simp, ?_⟩
      obtain ⟨_, _, h1, h⟩ := M.bind_eq_ok.1 h
      cases h1
      obtain ⟨i, _, h2, h⟩ := M.bind_eq_ok.1 h
      obtain ⟨h2, rfl⟩ := M.ofExcept_eq_ok.1 h2
      simp only at h2
      rw [hsub] at h2
      cases h2
      obtain ⟨row', _, h3, h⟩ := M.bind_eq_ok.1 h
      obtain ⟨h4, rfl⟩ := M.index_eq_ok.1 h3
      have : row' = row := by simpa using h4.symm
      subst this
      cases h
      simp
    · rintro ⟨-, rfl⟩
      refine M.bind_eq_ok.2 ⟨_, _, rfl, ?_⟩
      refine M.bind_eq_ok.2 ⟨rows.length, _, M.ofExcept_eq_ok.2 ⟨hsub, rfl⟩, ?_⟩
      refine M.bind_eq_ok.2 ⟨row, _, M.index_eq_ok.2 ⟨by simp, rfl⟩, ?_⟩
      show Except.ok _ = _
      simp

theorem logger_on_ok {p : Profile} {k : LogKind} {st : AlgState T} {s s' : Statistics T}
    (h : (Stats.logger p).on k st s = .ok ((), s')) : s' = recordStep s (k, st) := by
  cases k with
  | start => cases h; rfl
  | resume => cases h; rfl
  | next => exact (addConvergence_ok.1 h).2
  | finish => cases h; rfl

/-- The object is a function of the callbacks it received. -/
theorem informed_record {p : Profile} {s s' : Statistics T} {ks : List (LogKind × AlgState T)}
    (h : Informed (Stats.logger p) s ks s') : s' = ks.foldl recordStep s := by
  induction h with
  | nil => rfl
  | cons h1 _ ih => rw [ih, List.foldl_cons, logger_on_ok h1]

/-- It has been started before an iteration is reported to it. -/
theorem informed_next {p : Profile} {s s' : Statistics T} {ks : List (LogKind × AlgState T)} {st : AlgState T}
    (h : Informed (Stats.logger p) s ((.next, st) :: ks) s') : s.convergence ≠ [] := by
  cases h with
  | cons h1 _ => exact (addConvergence_ok.1 h1).1

/-- Reported iterations. -/
theorem record_next (s : Statistics T) (sts : List (AlgState T)) :
    (sts.map (fun st => (LogKind.next, st))).foldl recordStep s =
      { s with convergence := (sts.map AlgState.best).foldl appendLast s.convergence } := by
  induction sts generalizing s with
  | nil => rfl
  | cons st sts ih => rw [List.map_cons, List.foldl_cons, ih]; rfl

namespace Spec

@[simp] theorem callbacksOf_append (i : Nat) (a b : List (Ev T)) :
    callbacksOf i (a ++ b) = callbacksOf i a ++ callbacksOf i b := List.filterMap_append ..

theorem callbacksOf_logBlock (k : LogKind) (s : AlgState T) {i n : Nat} (h : i < n) :
    callbacksOf i (GA.logBlock k s 0 n) = [(k, s)] := by
  unfold callbacksOf GA.logBlock
  rw [List.filterMap_map, ← List.range_eq_range']
  induction n with
  | zero => omega
  | succ n ih =>
    rw [List.range_succ, List.filterMap_append]
    by_cases hin : i < n
    · rw [ih hin]
      have : ¬ n = i := by omega
      simp [this]
    · have : n = i := by omega
      subst this
      rw [filterMap_nil_of]
      · simp
      · intro a ha
        have : a ≠ n := by have := List.mem_range.1 ha; omega
        simp [this]

theorem callbacksOf_silent {i : Nat} {evs : List (Ev T)} (h : ∀ e ∈ evs, Silent e) : callbacksOf i evs = [] := by
  refine filterMap_nil_of fun e he => ?_
  have := h e he
  cases e <;> first | rfl | exact absurd this id

@[simp] theorem iterationsOf_append (a b : List (Ev T)) :
    iterationsOf (a ++ b) = iterationsOf a ++ iterationsOf b := List.filterMap_append ..

theorem iterationsOf_logBlock (k : LogKind) (s : AlgState T) (i n : Nat) : iterationsOf (GA.logBlock k s i n) = [] := by
  refine filterMap_nil_of fun e he => ?_
  obtain ⟨j, -, rfl⟩ := List.mem_map.1 he
  rfl

theorem iterationsOf_silent {evs : List (Ev T)} (h : ∀ e ∈ evs, Silent e) : iterationsOf evs = [] := by
  refine filterMap_nil_of fun e he => ?_
  have := h e he
  cases e <;> first | rfl | exact absurd this id

theorem rows_silent {evs : List (Ev T)} (h : ∀ e ∈ evs, Silent e ∧ ∀ xs, e ≠ .created xs)
    (rows : List (List (Option (Solution T)))) : evs.foldl rowStep rows = rows := by
  induction evs generalizing rows with
  | nil => rfl
  | cons e evs ih =>
    rw [List.foldl_cons, ih (fun e he => h e (by simp [he]))]
    have := h e (by simp)
    cases e with
    | created xs => exact absurd rfl (this.2 xs)
    | generation => exact absurd this.1 id
    | _ => rfl

theorem rows_logBlock (k : LogKind) (s : AlgState T) (i n : Nat) (rows : List (List (Option (Solution T)))) :
    (GA.logBlock k s i n).foldl rowStep rows = rows := by
  unfold GA.logBlock
  induction List.range' i n generalizing rows with
  | nil => rfl
  | cons a l ih => rw [List.map_cons, List.foldl_cons, ih]; rfl

end Spec

/-- What logger `i` is told of `k` turns, and the rows these turns deserve. -/
structure TurnsRecord (i : Nat) (ext : List (Ev T)) (sts : List (AlgState T)) : Prop where
  told : callbacksOf i ext = sts.map (fun st => (LogKind.next, st))
  rows : ∀ rows, ext.foldl rowStep rows = (sts.map AlgState.best).foldl appendLast rows
  iters : iterationsOf ext = sts

theorem TurnsRecord.nil (i : Nat) : TurnsRecord (T := T) i [] [] := ⟨rfl, fun _ => rfl, rfl⟩

theorem TurnsRecord.cons {i n : Nat} (hi : i < n) {sil ext : List (Ev T)} {s0 s1 : AlgState T}
    {sts : List (AlgState T)} {ag : List (Solution T)} {ws : Option (Solution T)}
    (hs : ∀ e ∈ sil, Silent e ∧ ∀ xs, e ≠ .created xs) (h : TurnsRecord i ext sts) :
    TurnsRecord i ([.check s0 false] ++ (sil ++ [.generation ag s1.best ws s1.iteration]) ++ GA.logBlock .next s1 0 n ++ ext)
      (s1 :: sts) where
  told := by
    simp only [callbacksOf_append, callbacksOf_silent (fun e he => (hs e he).1), callbacksOf_logBlock _ _ hi, h.told]
    rfl
  rows := fun rows => by
    simp only [List.foldl_append, rows_silent hs, rows_logBlock, h.rows]
    rfl
  iters := by
    simp only [iterationsOf_append, iterationsOf_silent (fun e he => (hs e he).1), iterationsOf_logBlock, h.iters]
    rfl

/-- What logger `i` is told of a call, and the rows this call deserves. -/
structure CallRecord (i : Nat) (fresh : Bool) (ext : List (Ev T)) (sts : List (AlgState T)) (final : AlgState T) :
    Prop where
  told : ∃ s0, callbacksOf i ext = (if fresh then [(LogKind.start, s0)] else []) ++ [(.resume, s0)] ++
    sts.map (fun st => (.next, st)) ++ [(.finish, final)]
  rows : ∀ rows, ext.foldl rowStep rows =
    (sts.map AlgState.best).foldl appendLast (if fresh then rows ++ [[]] else rows)
  iters : iterationsOf ext = sts

theorem CallRecord.record {i : Nat} {fresh : Bool} {ext : List (Ev T)} {sts : List (AlgState T)} {final : AlgState T}
    (h : CallRecord i fresh ext sts final) {p : Profile} {s s' : Statistics T}
    (hi : Informed (Stats.logger p) s (callbacksOf i ext) s') :
    s'.results = s.results ++ [final.best] ∧ s'.convergence = ext.foldl rowStep s.convergence := by
  obtain ⟨s0, ht⟩ := h.told
  rw [informed_record hi, ht, h.rows]
  cases fresh <;> simp [List.foldl_append, recordStep, record_next]

namespace GA

theorem turns_record {c : Comps σ T} {i : Nat} (hi : i < c.loggers.length) :
    ∀ {k : Nat} {p p' : Population T} {w w' : World σ T}, turns c k p w = .ok (p', w') →
      ∃ ext sts, w'.trace = w.trace ++ ext ∧ sts.length = k ∧ TurnsRecord i ext sts := by
  intro k
  induction k with
  | zero =>
    intro p p' w w' h
    obtain ⟨rfl, rfl⟩ := M.pure_eq_ok.1 h
    exact ⟨[], [], by simp, rfl, .nil i⟩
  | succ k ih =>
    intro p p' w w' h
    obtain ⟨s', -, p1, w1, h1, h2⟩ := turns_succ_ok.1 h
    obtain ⟨ext, sts, ht, hk, hr⟩ := ih h2
    obtain ⟨w2, h3, h4⟩ := step_ok.1 h1
    obtain ⟨evs, g, ht2, -⟩ := core_ok h3
    obtain ⟨sil, rfl, hs⟩ := Props.generation_not_created g
    refine ⟨_, p1.state :: sts, ?_, by simp [hk], hr.cons (s0 := p.state) (ag := agents p1)
      (ws := p1.worst.map Individual.sol) hi hs⟩
    rw [ht, callLoggers_trace h4, ht2]; simp; rfl

theorem nextIterations_record {o o' : Opt σ T} {i : Nat} (hi : i < o.comps.loggers.length) {fuel : Nat}
    {r : Option (Solution T)} {w w' : World σ T} (hr : nextIterations fuel o w = .ok ((r, o'), w')) :
    ∃ ext sts, w'.trace = w.trace ++ ext ∧ r = o'.pop.state.best ∧ CallRecord i false ext sts o'.pop.state := by
  obtain ⟨p2, w3, w4, h4, h5, h6, hr2, rfl⟩ := nextIterations_ok.1 hr
  obtain ⟨k, w5, s', hkf, hk, hend, rfl⟩ := loop_turns h5
  obtain ⟨ext, sts, ht, -, hrec⟩ := turns_record hi hk
  refine ⟨logBlock .resume o.pop.state 0 o.comps.loggers.length ++ ext ++ [.check p2.state true] ++
      logBlock .finish p2.state 0 o.comps.loggers.length, sts, ?_, hr2, ⟨o.pop.state, ?_⟩, ?_, ?_⟩
  · rw [callLoggers_trace h6]
    simp only
    rw [ht, callLoggers_trace h4]
    simp
  · simp only [callbacksOf_append, callbacksOf_logBlock _ _ hi, hrec.told]
    simp [callbacksOf]
  · intro rows
    simp only [List.foldl_append, rows_logBlock, hrec.rows]
    rfl
  · simp only [iterationsOf_append, iterationsOf_logBlock, hrec.iters]
    simp [iterationsOf]

theorem findMin_record {o o' : Opt σ T} {i : Nat} (hi : i < o.comps.loggers.length) {fuel : Nat}
    {r : Option (Solution T)} {w w' : World σ T} (hr : findMin fuel o w = .ok ((r, o'), w')) :
    ∃ ext sts, w'.trace = w.trace ++ ext ∧ r = o'.pop.state.best ∧ CallRecord i true ext sts o'.pop.state := by
  obtain ⟨p, w1, w2, h1, h2, h3⟩ := findMin_ok.1 hr
  obtain ⟨xs, vals, -, -, rfl, ht0⟩ := begin_ok h1
  have hs : ∀ e ∈ List.zipWith Ev.goal xs vals, Silent e ∧ ∀ ys, e ≠ .created ys := by
    intro e he
    obtain ⟨_, _, _, _, rfl⟩ := mem_zipWith he; exact ⟨trivial, fun _ h => by cases h⟩
  obtain ⟨p2, w3, w4, h4, h5, h6, hr2, rfl⟩ := nextIterations_ok.1 h3
  obtain ⟨k, w5, s', hkf, hk, hend, rfl⟩ := loop_turns h5
  obtain ⟨ext, sts, ht, -, hrec⟩ := turns_record hi hk
  refine ⟨[.created xs] ++ List.zipWith Ev.goal xs vals ++ logBlock .start ⟨none, 0⟩ 0 o.comps.loggers.length ++
    logBlock .resume ⟨none, 0⟩ 0 o.comps.loggers.length ++ ext ++ [.check p2.state true] ++
      logBlock .finish p2.state 0 o.comps.loggers.length, sts, ?_, hr2, ⟨⟨none, 0⟩, ?_⟩, ?_, ?_⟩
  · rw [callLoggers_trace h6]
    simp only
    rw [ht, callLoggers_trace h4, callLoggers_trace h2, ht0]
    simp [Population.state]
  · simp only [callbacksOf_append, callbacksOf_logBlock _ _ hi, hrec.told, callbacksOf_silent (fun e he => (hs e he).1)]
    simp [callbacksOf]
  · intro rows
    simp only [List.foldl_append, rows_logBlock, hrec.rows, rows_silent hs]
    rfl
  · simp only [iterationsOf_append, iterationsOf_logBlock, hrec.iters, iterationsOf_silent (fun e he => (hs e he).1)]
    simp [iterationsOf]

end GA

namespace PSO

variable [FloatT α]

open GA (logBlock callLoggers_trace)

theorem turns_record {c : Comps σ α} {i : Nat} (hi : i < c.loggers.length) :
    ∀ {k : Nat} {p p' : Swarm α} {w w' : World σ (List α)}, turns c k p w = .ok (p', w') →
      ∃ ext sts, w'.trace = w.trace ++ ext ∧ sts.length = k ∧ TurnsRecord i ext sts := by
  intro k
  induction k with
  | zero =>
    intro p p' w w' h
    obtain ⟨rfl, rfl⟩ := M.pure_eq_ok.1 h
    exact ⟨[], [], by simp, rfl, .nil i⟩
  | succ k ih =>
    intro p p' w w' h
    obtain ⟨s', -, p1, w1, h1, h2⟩ := turns_succ_ok.1 h
    obtain ⟨ext, sts, ht, hk, hr⟩ := ih h2
    obtain ⟨w2, h3, h4⟩ := step_ok.1 h1
    obtain ⟨sil, s1, hm, -, ht2⟩ := core_ok h3
    have hs : ∀ e ∈ sil, Silent e ∧ ∀ xs, e ≠ .created xs := by
      intro e he
      have := hm.events e he
      refine ⟨silent_of_moveEv this, ?_⟩
      rintro xs rfl
      exact this
    refine ⟨_, p1.state :: sts, ?_, by simp [hk], hr.cons (s0 := p.state) (ag := agents p1)
      (ws := p1.worst.map Particle.sol) hi hs⟩
    rw [ht, callLoggers_trace h4, ht2]; simp; rfl

theorem nextIterations_record {o o' : Opt σ α} {i : Nat} (hi : i < o.comps.loggers.length) {fuel : Nat}
    {r : Option (Solution (List α))} {w w' : World σ (List α)} (hr : nextIterations fuel o w = .ok ((r, o'), w')) :
    ∃ ext sts, w'.trace = w.trace ++ ext ∧ r = o'.swarm.state.best ∧ CallRecord i false ext sts o'.swarm.state := by
  obtain ⟨p2, w3, w4, h4, h5, h6, hr2, rfl⟩ := nextIterations_ok.1 hr
  obtain ⟨k, w5, s', hkf, hk, hend, rfl⟩ := loop_turns h5
  obtain ⟨ext, sts, ht, -, hrec⟩ := turns_record hi hk
  refine ⟨logBlock .resume o.swarm.state 0 o.comps.loggers.length ++ ext ++ [.check p2.state true] ++
      logBlock .finish p2.state 0 o.comps.loggers.length, sts, ?_, hr2, ⟨o.swarm.state, ?_⟩, ?_, ?_⟩
  · rw [callLoggers_trace h6]
    simp only
    rw [ht, callLoggers_trace h4]
    simp
  · simp only [callbacksOf_append, callbacksOf_logBlock _ _ hi, hrec.told]
    simp [callbacksOf]
  · intro rows
    simp only [List.foldl_append, rows_logBlock, hrec.rows]
    rfl
  · simp only [iterationsOf_append, iterationsOf_logBlock, hrec.iters]
    simp [iterationsOf]

theorem findMin_record {o o' : Opt σ α} {i : Nat} (hi : i < o.comps.loggers.length) {fuel : Nat}
    {r : Option (Solution (List α))} {w w' : World σ (List α)} (hr : findMin fuel o w = .ok ((r, o'), w')) :
    ∃ ext sts, w'.trace = w.trace ++ ext ∧ r = o'.swarm.state.best ∧ CallRecord i true ext sts o'.swarm.state := by
  obtain ⟨p, w1, w2, h1, h2, h3⟩ := findMin_ok.1 hr
  obtain ⟨raws, xs, vs, ps, -, -, -, -, -, hp, ht0⟩ := begin_ok h1
  have hs : ∀ e ∈ List.zipWith Ev.moved raws xs ++ ps.map (fun p => Ev.goal p.coordinates p.value),
      Silent e ∧ ∀ ys, e ≠ .created ys := by
    intro e he
    simp only [List.mem_append, List.mem_map] at he
    rcases he with he | ⟨p, -, rfl⟩
    · obtain ⟨_, _, _, _, rfl⟩ := mem_zipWith he; exact ⟨trivial, fun _ h => by cases h⟩
    · exact ⟨trivial, fun _ h => by cases h⟩
  obtain ⟨p2, w3, w4, h4, h5, h6, hr2, rfl⟩ := nextIterations_ok.1 h3
  obtain ⟨k, w5, s', hkf, hk, hend, rfl⟩ := loop_turns h5
  obtain ⟨ext, sts, ht, -, hrec⟩ := turns_record hi hk
  refine ⟨[.created raws] ++ (List.zipWith Ev.moved raws xs ++ ps.map (fun p => Ev.goal p.coordinates p.value)) ++
    logBlock .start p.state 0 o.comps.loggers.length ++
    logBlock .resume p.state 0 o.comps.loggers.length ++ ext ++ [.check p2.state true] ++
      logBlock .finish p2.state 0 o.comps.loggers.length, sts, ?_, hr2, ⟨p.state, ?_⟩, ?_, ?_⟩
  · rw [callLoggers_trace h6]
    simp only
    rw [ht, callLoggers_trace h4, callLoggers_trace h2, ht0]
    simp
  · simp only [callbacksOf_append, callbacksOf_logBlock _ _ hi, hrec.told, callbacksOf_silent (fun e he => (hs e he).1)]
    simp [callbacksOf]
  · intro rows
    simp only [List.foldl_append, rows_logBlock, hrec.rows, rows_silent hs]
    rfl
  · simp only [iterationsOf_append, iterationsOf_logBlock, hrec.iters, iterationsOf_silent (fun e he => (hs e he).1)]
    simp [iterationsOf]

end PSO
end Verif
