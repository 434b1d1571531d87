import Verif.Props.SwarmRun
import Verif.Props.StatLogger

/-!
# The row of bests of one call of `find_min` of a swarm
-/

namespace Verif.PSO

open Verif Spec Spec.Swarm

variable {σ α : Type} [FloatT α]

/-- The bests at the ends of the iterations, in order. -/
def bestsOf {T : Type} (tr : List (Ev T)) : List (Option (Solution T)) :=
  tr.filterMap (fun | .generation _ best _ _ => some best | _ => none)

theorem bestsOf_append {T : Type} (a b : List (Ev T)) : bestsOf (a ++ b) = bestsOf a ++ bestsOf b := by simp [bestsOf]

theorem goalsOf_append' {T : Type} (a b : List (Ev T)) : goalsOf (a ++ b) = goalsOf a ++ goalsOf b := by simp [goalsOf]

theorem bestsOf_silent {T : Type} {l : List (Ev T)} (h : ∀ e ∈ l, Silent e) : bestsOf l = [] := by
  unfold bestsOf
  rw [List.filterMap_eq_nil_iff]
  intro e he
  have := h e he
  cases e <;> simp_all [Silent]

theorem bestsOf_logBlock {T : Type} (k : LogKind) (s : AlgState T) (i n : Nat) : bestsOf (GA.logBlock k s i n) = [] := by
  unfold GA.logBlock bestsOf; simp

theorem goalsOf_logBlock {T : Type} (k : LogKind) (s : AlgState T) (i n : Nat) : goalsOf (GA.logBlock k s i n) = [] := by
  unfold GA.logBlock goalsOf; simp

theorem created_logBlock {T : Type} (k : LogKind) (s : AlgState T) (i n : Nat) (xs : List T) : Ev.created xs ∉ GA.logBlock k s i n := by
  unfold GA.logBlock; simp

/-- What `k` turns leave in the trace: `k` bests, and before the `i`-th of them all particles have moved `i + 1` times. -/
theorem turns_bests {c : Comps σ α} : ∀ {k : Nat} {p p' : Swarm α} {w w' : World σ (List α)},
    turns c k p w = .ok (p', w') → ∃ ext, w'.trace = w.trace ++ ext ∧ (∀ xs, .created xs ∉ ext) ∧
      p'.particles.length = p.particles.length ∧
      (bestsOf ext).length = k ∧ (bestsOf ext = [] ∨ (bestsOf ext).getLast? = some p'.state.best) ∧
      (goalsOf ext).length = p.particles.length * k ∧
      ∀ (i : Nat) best, (bestsOf ext)[i]? = some best → ∃ before ags worst it after,
        ext = before ++ .generation ags best worst it :: after ∧ (goalsOf before).length = p.particles.length * (i + 1) := by
  intro k
  induction k with
  | zero =>
    intro p p' w w' h
    obtain ⟨rfl, rfl⟩ := M.pure_eq_ok.1 h
    exact ⟨[], by simp, by simp, rfl, rfl, .inl rfl, by simp [goalsOf], by simp [bestsOf]⟩
  | succ k ih =>
    intro p p' w w' h
    obtain ⟨s', -, p1, w1, h1, h2⟩ := turns_succ_ok.1 h
    obtain ⟨ext, ht, hnc, hlen, hbl, hlast, hgl, hrow⟩ := ih h2
    obtain ⟨w2, h3, h4⟩ := step_ok.1 h1
    obtain ⟨evs, s1, hm, hp1, ht2⟩ := core_ok h3
    obtain ⟨hg1, hall⟩ := hm.all
    have hl : s1.particles.length = p.particles.length := hm.same.2.2.2
    have hl' : p1.particles.length = p.particles.length := by
      rw [hp1]
      show s1.updateBest.updateWorst.particles.length = _
      rw [updateWorst_particles, updateBest_particles, hl]
    have hgevs : (goalsOf evs).length = p.particles.length := by rw [hg1, List.length_map, hl]
    have hsil : bestsOf evs = [] := bestsOf_silent fun e he => silent_of_moveEv (hm.events e he)
    obtain ⟨g, hg⟩ : ∃ g : Ev (List α), g = .generation (agents p1) p1.state.best (p1.worst.map Particle.sol) p1.iteration := ⟨_, rfl⟩
    have htr : w'.trace = w.trace ++ ([.check p.state false] ++ evs ++ [g] ++
        GA.logBlock .next p1.state 0 c.loggers.length ++ ext) := by
      rw [ht, GA.callLoggers_trace h4, ht2, hg]
      simp only [List.append_assoc]
    have hb : bestsOf ([.check p.state false] ++ evs ++ [g] ++ GA.logBlock .next p1.state 0 c.loggers.length ++ ext) =
        p1.state.best :: bestsOf ext := by
      rw [bestsOf_append, bestsOf_append, bestsOf_append, bestsOf_append, bestsOf_logBlock, hsil, hg]
      simp [bestsOf]
    have hgc : goalsOf ([.check p.state false] ++ evs ++ [g] ++ GA.logBlock .next p1.state 0 c.loggers.length) = goalsOf evs := by
      rw [goalsOf_append', goalsOf_append', goalsOf_append', goalsOf_logBlock, hg]
      simp [goalsOf]
    refine ⟨_, htr, ?_, by rw [hlen, hl'], ?_, ?_, ?_, ?_⟩
    · intro xs hx
      simp only [List.mem_append, List.mem_cons, List.not_mem_nil, or_false] at hx
      rcases hx with (((hx | hx) | hx) | hx) | hx
      · cases hx
      · exact absurd (hm.events _ hx) (by simp [MoveEv])
      · rw [hg] at hx; cases hx
      · exact created_logBlock _ _ _ _ _ hx
      · exact hnc xs hx
    · rw [hb, List.length_cons, hbl]
    · right
      rw [hb]
      rcases hlast with h0 | h0
      · rw [h0] at hbl ⊢
        obtain rfl : k = 0 := hbl.symm
        obtain ⟨rfl, -⟩ := M.pure_eq_ok.1 h2
        rfl
      · rw [List.getLast?_cons, h0]; rfl
    · rw [goalsOf_append', hgc, List.length_append, hgevs, hgl, hl']; ring
    · intro i best hi
      rw [hb] at hi
      cases i with
      | zero =>
        obtain rfl : p1.state.best = best := by simpa using hi
        refine ⟨[.check p.state false] ++ evs, agents p1, (p1.worst.map Particle.sol), p1.iteration,
          GA.logBlock .next p1.state 0 c.loggers.length ++ ext, by rw [hg]; simp only [List.append_assoc]; rfl, ?_⟩
        rw [goalsOf_append', List.length_append, hgevs]
        simp [goalsOf]
      | succ i =>
        obtain ⟨before, ags, worst, it, after, h5, h6⟩ := hrow i best (by simpa using hi)
        refine ⟨[.check p.state false] ++ evs ++ [g] ++ GA.logBlock .next p1.state 0 c.loggers.length ++ before, ags, worst, it,
          after, by rw [h5]; simp only [List.append_assoc], ?_⟩
        rw [goalsOf_append', hgc, List.length_append, hgevs, h6, hl']
        ring

theorem goalArgs_length {T : Type} (l : List (Ev T)) : (goalArgs l).length = (goalsOf l).length := by
  induction l with
  | nil => rfl
  | cons e l ih => cases e <;> simp_all [goalArgs, goalsOf]

theorem goalsSince_eq {T : Type} {a b : List (Ev T)} {xs : List T} (h : ∀ ys, .created ys ∉ b) :
    goalsSince (a ++ .created xs :: b) = goalsOf b := by
  rw [show a ++ Ev.created xs :: b = (a ++ [Ev.created xs]) ++ b by simp, goalsSince_append, goalsSince_created]
  · rfl
  · intro e he
    cases e with
    | created ys => exact absurd he (h ys)
    | _ => trivial

/-- One `find_min`: a row of as many bests as there were iterations, the last one is what is returned, and before the `i`-th
all particles have been evaluated `i + 2` times. -/
theorem findMin_row {o o' : Opt σ α} {fuel : Nat} {r : Option (Solution (List α))} {w w' : World σ (List α)}
    (hr : findMin fuel o w = .ok ((r, o'), w')) (h0 : w.trace = []) : ∃ row, rowsOf w'.trace = [row] ∧
      row.length = o'.swarm.iteration ∧ (row = [] ∨ row.getLast? = some r) ∧
      (goalArgs w'.trace).length = (goalsSince w'.trace).length ∧
      ∀ (i : Nat) best, row[i]? = some best → ∃ before ags worst it after,
        w'.trace = before ++ .generation ags best worst it :: after ∧
        goalsSince before = (goalsSince w'.trace).take (o'.swarm.particles.length * (i + 2)) := by
  obtain ⟨p, w1, w2, h1, h2, h3⟩ := findMin_ok.1 hr
  obtain ⟨p2, w3, w4, h4, h5, h6, hr', rfl⟩ := nextIterations_ok.1 h3
  obtain ⟨k, w5, s', -, hk, hend, rfl⟩ := loop_turns h5
  obtain ⟨ext, ht, hnc, hlen, hbl, hlast, hgl, hrow⟩ := turns_bests hk
  obtain ⟨hit, -⟩ := turns_spec hk
  obtain ⟨raws, xs, vs, ps, -, -, hl1, hl2, hps, hp, ht1⟩ := begin_ok h1
  have hmoved : ∀ raws xs : List (List α), goalsOf (List.zipWith Ev.moved raws xs) = [] ∧
      bestsOf (List.zipWith Ev.moved raws xs) = [] ∧ ∀ ys, Ev.created ys ∉ List.zipWith Ev.moved raws xs := by
    intro raws
    induction raws with
    | nil => intro xs; simp [goalsOf, bestsOf]
    | cons a raws ih =>
      intro xs
      cases xs with
      | nil => simp [goalsOf, bestsOf]
      | cons x xs =>
        obtain ⟨h1, h2, h3⟩ := ih xs
        exact ⟨h1, h2, fun ys hy => by
          rcases List.mem_cons.1 hy with h | h
          · cases h
          · exact h3 ys h⟩
  obtain ⟨hm1, hm2, hm3⟩ := hmoved raws xs
  have hgl0 : goalsOf (ps.map (fun p => Ev.goal p.coordinates p.value)) = ps.map Particle.sol := by
    unfold goalsOf
    induction ps with
    | nil => rfl
    | cons p ps ih => simp [Particle.sol]
  have hb0 : bestsOf (ps.map (fun p => Ev.goal p.coordinates p.value)) = [] := by
    unfold bestsOf; simp
  have e1 := GA.callLoggers_trace h6
  have e2 := GA.callLoggers_trace h4
  have e3 := GA.callLoggers_trace h2
  obtain ⟨A, hA⟩ : ∃ A : List (Ev (List α)), A = List.zipWith Ev.moved raws xs ++ ps.map (fun p => Ev.goal p.coordinates p.value) ++
      GA.logBlock .start p.state 0 o.comps.loggers.length ++ GA.logBlock .resume p.state 0 o.comps.loggers.length := ⟨_, rfl⟩
  obtain ⟨B, hB⟩ : ∃ B : List (Ev (List α)), B = [.check p2.state true] ++ GA.logBlock .finish p2.state 0 o.comps.loggers.length :=
    ⟨_, rfl⟩
  have htr : w'.trace = .created raws :: (A ++ ext ++ B) := by
    rw [e1]; simp only
    rw [ht, e2, e3, ht1, h0, hA, hB]
    simp only [List.append_assoc, List.nil_append, List.cons_append]
  have hAg : goalsOf A = ps.map Particle.sol := by
    rw [hA, goalsOf_append', goalsOf_append', goalsOf_append', goalsOf_logBlock, goalsOf_logBlock, hm1, hgl0]; simp
  have hAb : bestsOf A = [] := by
    rw [hA, bestsOf_append, bestsOf_append, bestsOf_append, bestsOf_logBlock, bestsOf_logBlock, hm2, hb0]; simp
  have hAc : ∀ ys, .created ys ∉ A := by
    intro ys hy
    rw [hA] at hy
    simp only [List.mem_append, List.mem_map] at hy
    rcases hy with ((hy | ⟨q, -, hy⟩) | hy) | hy
    · exact hm3 ys hy
    · cases hy
    · exact created_logBlock _ _ _ _ _ hy
    · exact created_logBlock _ _ _ _ _ hy
  have hBg : goalsOf B = [] := by rw [hB, goalsOf_append', goalsOf_logBlock]; simp [goalsOf]
  have hBb : bestsOf B = [] := by rw [hB, bestsOf_append, bestsOf_logBlock]; simp [bestsOf]
  have hBc : ∀ ys, .created ys ∉ B := by
    intro ys hy
    rw [hB] at hy
    simp only [List.mem_append, List.mem_cons, List.not_mem_nil, or_false] at hy
    rcases hy with hy | hy
    · cases hy
    · exact created_logBlock _ _ _ _ _ hy
  have hall : ∀ ys, .created ys ∉ A ++ ext ++ B := by
    intro ys hy
    simp only [List.mem_append] at hy
    rcases hy with (hy | hy) | hy
    · exact hAc ys hy
    · exact hnc ys hy
    · exact hBc ys hy
  have hN : p.particles.length = ps.length := by rw [hp]
  have hrows : rowsOf w'.trace = [bestsOf ext] := by
    rw [htr]
    have := Props.C50_last_row [] (A ++ ext ++ B) raws hall
    simp only [List.nil_append] at this
    rw [this]
    show rowsOf [] ++ [bestsOf (A ++ ext ++ B)] = _
    rw [bestsOf_append, bestsOf_append, hAb, hBb]
    simp [rowsOf]
  have hgs : goalsSince w'.trace = goalsOf A ++ goalsOf ext := by
    rw [htr]
    have := goalsSince_eq (a := []) (xs := raws) hall
    simp only [List.nil_append] at this
    rw [this, goalsOf_append', goalsOf_append', hBg, List.append_nil]
  have hi0 : p.iteration = 0 := by rw [hp]
  refine ⟨bestsOf ext, hrows, ?_, ?_, ?_, ?_⟩
  · rw [hbl]; show k = p2.iteration; rw [hit]; show k = p.iteration + k; omega
  · rcases hlast with h | h
    · exact .inl h
    · exact .inr (by rw [h, hr'])
  · rw [hgs, goalArgs_length, htr, ← goalsOf_append']
    show (goalsOf (A ++ ext ++ B)).length = _
    rw [goalsOf_append', hBg, List.append_nil]
  · intro i best hi
    obtain ⟨before, ags, worst, it, after, h7, h8⟩ := hrow i best hi
    refine ⟨.created raws :: (A ++ before), ags, worst, it, after ++ B, ?_, ?_⟩
    · rw [htr, h7]; simp
    · have := goalsSince_eq (a := []) (xs := raws) (b := A ++ before) (by
        intro ys hy
        rcases List.mem_append.1 hy with hy | hy
        · exact hAc ys hy
        · exact hnc ys (by rw [h7]; exact List.mem_append_left _ hy))
      simp only [List.nil_append] at this
      rw [this, hgs, h7, goalsOf_append', goalsOf_append']
      have hc : p2.particles.length * (i + 2) = (goalsOf A ++ goalsOf before).length := by
        rw [List.length_append, hAg, List.length_map, h8, hlen, hN]; ring
      show _ = List.take (p2.particles.length * (i + 2)) _
      rw [hc, ← List.append_assoc, List.take_left' rfl]

end Verif.PSO
