import Verif.Proofs.GeneticInv

/-!
# Turns of the genetic loop
-/

namespace Verif.Spec

variable {T : Type}

@[simp] theorem logsOf_append (a b : List (Ev T)) : logsOf (a ++ b) = logsOf a ++ logsOf b :=
  List.filterMap_append ..
@[simp] theorem goalArgs_append (a b : List (Ev T)) : goalArgs (a ++ b) = goalArgs a ++ goalArgs b :=
  List.filterMap_append ..
@[simp] theorem generationsOf_append (a b : List (Ev T)) :
    generationsOf (a ++ b) = generationsOf a ++ generationsOf b := List.filterMap_append ..
@[simp] theorem checksOf_append (a b : List (Ev T)) : checksOf (a ++ b) = checksOf a ++ checksOf b :=
  List.filterMap_append ..

theorem logsOf_logBlock (k : LogKind) (s : AlgState T) (n : Nat) :
    logsOf (GA.logBlock k s 0 n) = block n k s := by
  unfold logsOf GA.logBlock block
  rw [List.filterMap_map, List.range_eq_range']
  induction List.range' 0 n with
  | nil => rfl
  | cons a l ih => simpa using ih

theorem filterMap_nil_of {α β : Type} {f : α → Option β} {l : List α} (h : ∀ a ∈ l, f a = none) :
    l.filterMap f = [] := List.filterMap_eq_nil_iff.2 h

theorem mem_logBlock {k : LogKind} {s : AlgState T} {i n : Nat} {e : Ev T}
    (h : e ∈ GA.logBlock k s i n) : ∃ j, e = .log j k s := by
  unfold GA.logBlock at h
  obtain ⟨j, -, rfl⟩ := List.mem_map.1 h
  exact ⟨j, rfl⟩

theorem goalArgs_logBlock (k : LogKind) (s : AlgState T) (i n : Nat) :
    goalArgs (GA.logBlock k s i n) = [] := by
  refine filterMap_nil_of fun e he => ?_
  obtain ⟨j, rfl⟩ := mem_logBlock he; rfl

theorem generationsOf_logBlock (k : LogKind) (s : AlgState T) (i n : Nat) :
    generationsOf (GA.logBlock k s i n) = [] := by
  refine filterMap_nil_of fun e he => ?_
  obtain ⟨j, rfl⟩ := mem_logBlock he; rfl

theorem checksOf_logBlock (k : LogKind) (s : AlgState T) (i n : Nat) :
    checksOf (GA.logBlock k s i n) = [] := by
  refine filterMap_nil_of fun e he => ?_
  obtain ⟨j, rfl⟩ := mem_logBlock he; rfl

theorem logsOf_silent {evs : List (Ev T)} (h : ∀ e ∈ evs, Silent e) : logsOf evs = [] := by
  refine filterMap_nil_of fun e he => ?_
  have := h e he
  cases e <;> first | rfl | exact absurd this id

theorem generationsOf_silent {evs : List (Ev T)} (h : ∀ e ∈ evs, Silent e) : generationsOf evs = [] := by
  refine filterMap_nil_of fun e he => ?_
  have := h e he
  cases e <;> first | rfl | exact absurd this id

theorem checksOf_silent {evs : List (Ev T)} (h : ∀ e ∈ evs, Silent e) : checksOf evs = [] := by
  refine filterMap_nil_of fun e he => ?_
  have := h e he
  cases e <;> first | rfl | exact absurd this id

end Verif.Spec

namespace Verif.GA

open Verif Spec

variable {σ T : Type}

/-- The loop is some number of turns and a final consultation that says stop. -/
theorem loop_turns {c : Comps σ T} : ∀ {fuel : Nat} {p p' : Population T} {w w' : World σ T},
    loop c fuel p w = .ok (p', w') → ∃ k w1 s', k < fuel ∧ turns c k p w = .ok (p', w1) ∧
      c.stop p'.state w1.user = .ok (true, s') ∧ w' = ⟨s', w1.trace ++ [.check p'.state true]⟩ := by
  intro fuel
  induction fuel with
  | zero => intro p p' w w' h; simp [loop, M.fail] at h
  | succ fuel ih =>
    intro p p' w w' h
    obtain ⟨b, s', hs, h⟩ := loop_succ_ok.1 h
    rcases h with ⟨rfl, rfl, rfl⟩ | ⟨rfl, p1, w1, h1, h2⟩
    · exact ⟨0, w, s', by omega, rfl, hs, rfl⟩
    · obtain ⟨k, w2, s2, hk, ht, hs2, hw⟩ := ih h2
      exact ⟨k + 1, w2, s2, by omega, turns_succ_ok.2 ⟨s', hs, p1, w1, h1, ht⟩, hs2, hw⟩

theorem turns_loop {c : Comps σ T} : ∀ {k : Nat} {p p' : Population T} {w w1 : World σ T} {s' : σ},
    turns c k p w = .ok (p', w1) → c.stop p'.state w1.user = .ok (true, s') →
    ∀ fuel, k < fuel → loop c fuel p w = .ok (p', ⟨s', w1.trace ++ [.check p'.state true]⟩) := by
  intro k
  induction k with
  | zero =>
    intro p p' w w1 s' h hs fuel hf
    obtain ⟨rfl, rfl⟩ := M.pure_eq_ok.1 h
    obtain ⟨n, rfl⟩ : ∃ n, fuel = n + 1 := ⟨fuel - 1, by omega⟩
    exact loop_succ_ok.2 ⟨true, s', hs, .inl ⟨rfl, rfl, rfl⟩⟩
  | succ k ih =>
    intro p p' w w1 s' h hs fuel hf
    obtain ⟨n, rfl⟩ : ∃ n, fuel = n + 1 := ⟨fuel - 1, by omega⟩
    obtain ⟨s2, hs2, p1, w2, h1, h2⟩ := turns_succ_ok.1 h
    exact loop_succ_ok.2 ⟨false, s2, hs2, .inr ⟨rfl, p1, w2, h1, ih h2 hs n (by omega)⟩⟩

/-- What `k` turns leave in the trace. `sts` are the states after each turn. -/
theorem turns_spec {c : Comps σ T} (hc : Legal c) : ∀ {k : Nat} {p p' : Population T} {w w' : World σ T},
    turns c k p w = .ok (p', w') →
      p'.iteration = p.iteration + k ∧ ∃ ext sts, w'.trace = w.trace ++ ext ∧
        logsOf ext = sts.flatMap (block c.loggers.length .next) ∧
        sts.map AlgState.iteration = List.range' (p.iteration + 1) k ∧
        generationsOf ext = List.range' (p.iteration + 1) k ∧
        checksOf ext = ((p.state :: sts).dropLast).map (fun s => (s, false)) ∧
        (p.state :: sts).getLast? = some p'.state := by
  intro k
  induction k with
  | zero =>
    intro p p' w w' h
    obtain ⟨rfl, rfl⟩ := M.pure_eq_ok.1 h
    exact ⟨rfl, [], [], by simp, rfl, rfl, rfl, rfl, rfl⟩
  | succ k ih =>
    intro p p' w w' h
    obtain ⟨s', -, p1, w1, h1, h2⟩ := turns_succ_ok.1 h
    obtain ⟨hit, ext, sts, ht, hl, hi, hg, hch, hlast⟩ := ih h2
    obtain ⟨w2, h3, h4⟩ := step_ok.1 h1
    obtain ⟨evs, g, ht2, -⟩ := core_ok h3
    obtain ⟨sil, rfl, hs, -⟩ := g.split
    have hi1 := g.iteration hc
    refine ⟨by omega, [.check p.state false] ++ (sil ++ [.generation (agents p1) p1.state.best
      (p1.worst.map Individual.sol) p1.iteration]) ++ logBlock .next p1.state 0 c.loggers.length ++ ext,
      p1.state :: sts, ?_, ?_, ?_, ?_, ?_, ?_⟩
    · rw [ht, callLoggers_trace h4, ht2]; simp
    · rw [logsOf_append, logsOf_append, logsOf_append, logsOf_append, logsOf_silent hs, logsOf_logBlock, hl]
      simp [logsOf]
    · rw [List.map_cons, hi, List.range'_succ]
      show p1.iteration :: _ = _
      rw [hi1]
    · rw [generationsOf_append, generationsOf_append, generationsOf_append, generationsOf_append,
        generationsOf_silent hs, generationsOf_logBlock, hg, hi1, List.range'_succ]
      simp [generationsOf, hi1]
    · rw [checksOf_append, checksOf_append, checksOf_append, checksOf_append,
        checksOf_silent hs, checksOf_logBlock, hch]
      simp [checksOf]
    · rw [List.getLast?_cons_cons]; exact hlast

/-- The number of goal calls etc. of `find_min`'s prelude. -/
theorem begin_events {c : Comps σ T} {p' : Population T} {w w' : World σ T}
    (h : begin c w = .ok (p', w')) : ∃ xs ext, Returned c.creator xs ∧ w'.trace = w.trace ++ ext ∧
      logsOf ext = [] ∧ generationsOf ext = [] ∧ checksOf ext = [] ∧ p'.state = ⟨none, 0⟩ := by
  obtain ⟨xs, vals, hx, -, rfl, ht⟩ := begin_ok h
  have hs : ∀ e ∈ Ev.created xs :: List.zipWith Ev.goal xs vals, Silent e := by
    intro e he
    rcases List.mem_cons.1 he with rfl | he
    · trivial
    · obtain ⟨_, _, _, _, rfl⟩ := mem_zipWith he; trivial
  exact ⟨xs, _, hx, ht, logsOf_silent hs, generationsOf_silent hs, checksOf_silent hs, rfl⟩

/-- What `next_iterations` leaves in the trace, and what it returns. -/
theorem nextIterations_spec {o o' : Opt σ T} (hl : Legal o.comps) {fuel : Nat} {r : Option (Solution T)}
    {w w' : World σ T} (hr : nextIterations fuel o w = .ok ((r, o'), w')) :
    ∃ k sts ext, k < fuel ∧ w'.trace = w.trace ++ ext ∧ o'.comps = o.comps ∧
      o'.pop.iteration = o.pop.iteration + k ∧ r = o'.pop.state.best ∧
      logsOf ext = block o.comps.loggers.length .resume o.pop.state ++
        sts.flatMap (block o.comps.loggers.length .next) ++
        block o.comps.loggers.length .finish o'.pop.state ∧
      sts.map AlgState.iteration = List.range' (o.pop.iteration + 1) k ∧
      generationsOf ext = List.range' (o.pop.iteration + 1) k ∧
      checksOf ext = ((o.pop.state :: sts).dropLast).map (fun s => (s, false)) ++ [(o'.pop.state, true)] ∧
      (o.pop.state :: sts).getLast? = some o'.pop.state ∧
      (∃ w1 w2 s', turns o.comps k o.pop w1 = .ok (o'.pop, w2) ∧
        o.comps.stop o'.pop.state w2.user = .ok (true, s')) := by
  obtain ⟨p2, w3, w4, h4, h5, h6, hr2, rfl⟩ := nextIterations_ok.1 hr
  obtain ⟨k, w5, s', hkf, hk, hend, rfl⟩ := loop_turns h5
  obtain ⟨hit, ext, sts, ht, hlg, hsi, hg, hch, hlast⟩ := turns_spec hl hk
  refine ⟨k, sts, logBlock .resume o.pop.state 0 o.comps.loggers.length ++ ext ++ [.check p2.state true] ++
      logBlock .finish p2.state 0 o.comps.loggers.length, hkf, ?_, rfl, hit, hr2, ?_, hsi, ?_, ?_, hlast,
      w3, w5, s', hk, hend⟩
  · rw [callLoggers_trace h6]
    simp only
    rw [ht, callLoggers_trace h4]
    simp
  · simp only [logsOf_append, logsOf_logBlock, hlg]
    simp [logsOf]
  · simp only [generationsOf_append, generationsOf_logBlock, hg]
    simp [generationsOf]
  · simp only [checksOf_append, checksOf_logBlock, hch]
    simp [checksOf]

/-- What `find_min` leaves in the trace, and what it returns. -/
theorem findMin_spec {o o' : Opt σ T} (hl : Legal o.comps) {fuel : Nat} {r : Option (Solution T)}
    {w w' : World σ T} (hr : findMin fuel o w = .ok ((r, o'), w')) :
    ∃ k sts ext, k < fuel ∧ w'.trace = w.trace ++ ext ∧ o'.comps = o.comps ∧
      o'.pop.iteration = k ∧ r = o'.pop.state.best ∧
      logsOf ext = block o.comps.loggers.length .start ⟨none, 0⟩ ++ block o.comps.loggers.length .resume ⟨none, 0⟩ ++
        sts.flatMap (block o.comps.loggers.length .next) ++
        block o.comps.loggers.length .finish o'.pop.state ∧
      sts.map AlgState.iteration = List.range' 1 k ∧
      generationsOf ext = List.range' 1 k ∧
      checksOf ext = ((⟨none, 0⟩ :: sts).dropLast).map (fun s => (s, false)) ++ [(o'.pop.state, true)] ∧
      (⟨none, 0⟩ :: sts).getLast? = some o'.pop.state ∧
      (∃ p0 w1 w2 s', p0.iteration = 0 ∧ turns o.comps k p0 w1 = .ok (o'.pop, w2) ∧
        o.comps.stop o'.pop.state w2.user = .ok (true, s')) := by
  obtain ⟨p, w1, w2, h1, h2, h3⟩ := findMin_ok.1 hr
  obtain ⟨xs, ext0, -, ht0, hlg0, hg0, hc0, hst⟩ := begin_events h1
  obtain ⟨k, sts, ext, hkf, ht, hc, hit, hrr, hlg, hsi, hg, hch, hlast, w3, w4, s', htu, hend⟩ :=
    nextIterations_spec (o := ⟨o.comps, p⟩) hl h3
  have hp0 : p.iteration = 0 := congrArg AlgState.iteration hst
  simp only [hst, hp0, Nat.zero_add] at hit hlg hsi hg hch hlast
  refine ⟨k, sts, ext0 ++ logBlock .start ⟨none, 0⟩ 0 o.comps.loggers.length ++ ext, hkf, ?_, hc, hit, hrr, ?_, hsi,
    ?_, ?_, hlast, p, w3, w4, s', hp0, htu, hend⟩
  · rw [ht, callLoggers_trace h2, ht0, hst]; simp
  · simp only [logsOf_append, logsOf_logBlock, hlg0, hlg]
    simp
  · simp only [generationsOf_append, generationsOf_logBlock, hg0, hg]
    simp
  · simp only [checksOf_append, checksOf_logBlock, hc0, hch]
    simp

end Verif.GA
