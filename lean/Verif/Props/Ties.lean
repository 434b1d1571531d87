import Verif.Spec.Ties
import Verif.Props.SwarmApi
import Verif.Props.SwarmRun
import Verif.Props.GeneticApi

/-!
# C90: which of several equally good solutions is reported
-/

set_option linter.unusedSectionVars false

namespace Verif.Spec

variable {T : Type} {r : F64 → F64 → Prop} {xs ys : List (Solution T)} {b : Solution T}

theorem FirstBest.append_right (h : FirstBest r xs b) (hy : ∀ a ∈ ys, r b.2 a.2) : FirstBest r (xs ++ ys) b := by
  obtain ⟨p, q, rfl, h1, h2⟩ := h
  refine ⟨p, q ++ ys, by simp, h1, fun a ha => ?_⟩
  rcases List.mem_append.1 ha with ha | ha
  · exact h2 a ha
  · exact hy a ha

theorem FirstBest.append_left (h : FirstBest r ys b) (hx : ∀ a ∈ xs, ¬ r a.2 b.2) : FirstBest r (xs ++ ys) b := by
  obtain ⟨p, q, rfl, h1, h2⟩ := h
  refine ⟨xs ++ p, q, by simp, fun a ha => ?_, h2⟩
  rcases List.mem_append.1 ha with ha | ha
  · exact hx a ha
  · exact h1 a ha

/-- If `x` loses against `y`, the first best of the list from `y` on is that of the whole list. -/
theorem FirstBest.lose {x y : Solution T} (trans : ∀ a b c, r a b → r b c → r a c) (h : FirstBest r (y :: ys) b)
    (hy : r b.2 y.2) (hx : ¬ r x.2 y.2) : FirstBest r (x :: y :: ys) b :=
  h.append_left (xs := [x]) (by
    intro a ha hb
    rw [List.mem_singleton.1 ha] at hb
    exact hx (trans _ _ _ hb hy))

/-- If `x` does not lose against `y`, then `y` may be left out. -/
theorem FirstBest.win {x y : Solution T} (trans : ∀ a b c, r a b → r b c → r a c) (h : FirstBest r (x :: ys) b)
    (hx : r x.2 y.2) : FirstBest r (x :: y :: ys) b := by
  obtain ⟨p, q, he, h1, h2⟩ := h
  cases p with
  | nil =>
    simp only [List.nil_append, List.cons.injEq] at he
    obtain ⟨rfl, rfl⟩ := he
    refine ⟨[], y :: ys, rfl, by simp, fun a ha => ?_⟩
    rcases List.mem_cons.1 ha with rfl | ha
    · exact hx
    · exact h2 a ha
  | cons z p =>
    simp only [List.cons_append, List.cons.injEq] at he
    obtain ⟨rfl, rfl⟩ := he
    refine ⟨x :: y :: p, q, rfl, fun a ha => ?_, h2⟩
    have hx1 := h1 x (by simp)
    rcases List.mem_cons.1 ha with rfl | ha
    · exact hx1
    rcases List.mem_cons.1 ha with rfl | ha
    · exact fun hb => hx1 (trans _ _ _ hx hb)
    · exact h1 a (by simp [ha])

theorem LastWorst.lose {x y : Solution T} (h : LastWorst r (y :: ys) b) (hb : r b.2 x.2) : LastWorst r (x :: y :: ys) b := by
  obtain ⟨p, q, he, h1, h2⟩ := h
  refine ⟨x :: p, q, by rw [he]; rfl, fun a ha => ?_, h2⟩
  rcases List.mem_cons.1 ha with rfl | ha
  · exact hb
  · exact h1 a ha

theorem LastWorst.win {x y : Solution T} (h : LastWorst r (x :: ys) b) (hb : r b.2 y.2)
    (hx : ¬ r y.2 x.2) : LastWorst r (x :: y :: ys) b := by
  obtain ⟨p, q, he, h1, h2⟩ := h
  cases p with
  | nil =>
    simp only [List.nil_append, List.cons.injEq] at he
    obtain ⟨rfl, rfl⟩ := he
    refine ⟨[], y :: ys, rfl, by simp, fun a ha => ?_⟩
    rcases List.mem_cons.1 ha with rfl | ha
    · exact hx
    · exact h2 a ha
  | cons z p =>
    simp only [List.cons_append, List.cons.injEq] at he
    obtain ⟨rfl, rfl⟩ := he
    refine ⟨x :: y :: p, q, rfl, fun a ha => ?_, h2⟩
    rcases List.mem_cons.1 ha with rfl | ha
    · exact h1 a (by simp)
    rcases List.mem_cons.1 ha with rfl | ha
    · exact hb
    · exact h1 a (by simp [ha])

end Verif.Spec

/-! ## The swarm -/

namespace Verif.PSO

open Verif Spec Spec.Swarm Verif.Props

variable {σ α : Type} [FloatT α]

theorem minLoop_first : ∀ (ps : List (Particle α)) (x : Particle α),
    FirstBest NotWorse ((x :: ps).map Particle.sol) (minLoop x ps).sol := by
  intro ps
  induction ps with
  | nil => intro x; exact ⟨[], [], rfl, by simp, by simp⟩
  | cons y ys ih =>
    intro x
    rw [minLoop]
    by_cases hc : compareFloats x.value y.value = .gt
    · have hc' : (compareFloats x.value y.value == .gt) = true := by simpa using hc
      rw [hc', if_pos rfl]
      exact (ih y).lose (fun _ _ _ => notWorse_trans) ((minLoop_spec ys y).2 y (by simp)) (compare_gt.1 hc)
    · have hc' : (compareFloats x.value y.value == .gt) = false := by simpa using hc
      rw [hc']
      simp only [Bool.false_eq_true, if_false]
      exact (ih x).win (fun _ _ _ => notWorse_trans) ((C38_meaning _ _).1.1 hc)

theorem findBest_first {ps : List (Particle α)} {b : Particle α} (h : findBest ps = some b) :
    FirstBest NotWorse (ps.map Particle.sol) b.sol := by
  cases ps with
  | nil => cases h
  | cons p ps => cases h; exact minLoop_first ps p

/-- The best of the swarm is the first best of `xs`. -/
def KeepsFirst (s : Swarm α) (xs : List (Solution (List α))) : Prop :=
  ∀ b, s.best = some b → FirstBest NotWorse xs b.sol

theorem keepsFirst_update {s : Swarm α} {xs : List (Solution (List α))} (h0 : s.best = none → xs = []) (h : KeepsFirst s xs) :
    KeepsFirst s.updateBest.updateWorst.nextIteration (xs ++ s.particles.map Particle.sol) := by
  intro b hb
  rw [show s.updateBest.updateWorst.nextIteration.best = s.updateBest.best from updateWorst_best _] at hb
  unfold Swarm.updateBest at hb
  cases hf : findBest s.particles with
  | none =>
    rw [hf] at hb
    rw [findBest_spec.1.1 hf]
    simpa using h b hb
  | some nb =>
    rw [hf] at hb
    have hn := findBest_first hf
    obtain ⟨-, hm⟩ := findBest_spec.2 nb hf
    cases hob : s.best with
    | none =>
      rw [hob] at hb
      cases hb
      rw [h0 hob]
      simpa using hn
    | some ob =>
      rw [hob] at hb
      simp only at hb
      have hob' := h ob hob
      split at hb
      · rename_i hlt
        have hlt : ¬ NotWorse ob.value nb.value := compare_lt.1 (by simpa using hlt)
        cases hb
        refine hn.append_left fun a ha hb => hlt ?_
        obtain ⟨p, q, rfl, h1, h2⟩ := hob'
        rcases List.mem_append.1 ha with ha | ha
        · exact notWorse_trans ((notWorse_total _ _).resolve_right (h1 a ha)) hb
        rcases List.mem_cons.1 ha with rfl | ha
        · exact hb
        · exact notWorse_trans (h2 a ha) hb
      · rename_i hlt
        have hlt : compareFloats nb.value ob.value ≠ .lt := by simpa using hlt
        rw [hob] at hb
        cases hb
        refine hob'.append_right fun a ha => ?_
        obtain ⟨p, hp, rfl⟩ := List.mem_map.1 ha
        exact notWorse_trans ((C38_meaning _ _).2.1.1 hlt) (hm p hp)

/-- What an event shows is the first of the best points evaluated in this run before it. -/
def ShowsFirst (before : List (Ev (List α))) (e : Ev (List α)) : Prop :=
  ∀ b, shownBest e = some (some b) → FirstBest NotWorse (goalsSince before) b

theorem showsFirst_of_none {e : Ev (List α)} (h : shownBest e = none) (b : List (Ev (List α))) : ShowsFirst b e := by
  intro b h'; rw [h] at h'; cases h'

theorem KeepsFirst.state {s : Swarm α} {xs : List (Solution (List α))} (h : KeepsFirst s xs) :
    ∀ b, s.state.best = some b → FirstBest NotWorse xs b := by
  intro b hb
  obtain ⟨p, hp, rfl⟩ := Option.map_eq_some_iff.1 hb
  exact h p hp

theorem inv_first : Inv (σ := σ) (α := α) (fun _ => True) (fun s tr =>
    Throughout ShowsFirst tr ∧ (s.best = none → goalsSince tr = []) ∧ KeepsFirst s (goalsSince tr)) where
  log := by
    rintro s tr i k ⟨h1, h2, h3⟩
    have hg : goalsSince (tr ++ [.log i k s.state]) = goalsSince tr := by rw [goalsSince_snoc]
    rw [hg]
    refine ⟨throughout_snoc.2 ⟨h1, ?_⟩, h2, h3⟩
    rintro b h; exact h3.state b (Option.some.inj h)
  check := by
    rintro s tr b ⟨h1, h2, h3⟩
    have hg : goalsSince (tr ++ [.check s.state b]) = goalsSince tr := by rw [goalsSince_snoc]
    rw [hg]
    refine ⟨throughout_snoc.2 ⟨h1, ?_⟩, h2, h3⟩
    rintro b h; exact h3.state b (Option.some.inj h)
  begin := by
    rintro c s s' w w' - ⟨h1, -, -⟩ hr
    obtain ⟨ht, hs, -⟩ := begin_table hr
    have hfl : goalsSince w'.trace = s'.particles.map Particle.sol := by rw [ht.flat]; simp
    refine ⟨?_, ?_, ?_⟩
    · obtain ⟨raws, xs, vs, ps, -, -, -, -, hps, -, htr⟩ := begin_ok hr
      rw [htr]
      refine throughout_append (fun e he b => showsFirst_of_none ?_ b) h1
      simp only [List.cons_append, List.mem_cons, List.mem_append, List.mem_map] at he
      rcases he with rfl | he | ⟨p, -, rfl⟩
      · rfl
      · obtain ⟨_, _, _, _, rfl⟩ := mem_zipWith he; rfl
      · rfl
    · intro h
      rw [hs] at h
      rw [hfl, findBest_spec.1.1 h]; rfl
    · intro b hb
      rw [hs] at hb
      rw [hfl]
      exact findBest_first hb
  core := by
    rintro c s s' w w' - ⟨h1, h2, h3⟩ hr
    obtain ⟨evs, s1, hm, hs, ht⟩ := core_ok hr
    have hsame := hm.same
    have hgb : goalsSince (w.trace ++ evs) = goalsSince w.trace ++ s1.particles.map Particle.sol := by
      rw [goalsSince_append, hm.all.1]
      intro e he
      have := hm.events e he
      cases e <;> first | trivial | exact absurd this id
    have hgs : goalsSince w'.trace = goalsSince (w.trace ++ evs) := by
      rw [ht, ← List.append_assoc, goalsSince_snoc]
    have hx := keepsFirst_update (s := s1) (xs := goalsSince w.trace) (by rw [hsame.1]; exact h2)
      (by intro b hb; rw [hsame.1] at hb; exact h3 b hb)
    rw [← hs] at hx
    refine ⟨?_, ?_, by rw [hgs, hgb]; exact hx⟩
    · rw [ht, ← List.append_assoc]
      refine throughout_snoc.2 ⟨throughout_append (fun e he b => showsFirst_of_none ?_ b) h1, ?_⟩
      · have := hm.events e he
        cases e <;> first | rfl | exact absurd this id
      · rintro b h
        rw [hgb]; exact hx.state b (Option.some.inj h)
    · intro hb
      rw [hs, show s1.updateBest.updateWorst.nextIteration.best = s1.updateBest.best from updateWorst_best _] at hb
      unfold Swarm.updateBest at hb
      cases hf : findBest s1.particles with
      | none =>
        rw [hf] at hb
        rw [hgs, hgb, findBest_spec.1.1 hf, h2 (by rw [← hsame.1]; exact hb)]; rfl
      | some nb =>
        rw [hf] at hb
        simp only at hb
        split at hb
        · cases hb
        · split at hb
          · cases hb
          · rename_i hob _; rw [hob] at hb; cases hb

theorem first_fresh {o : Opt σ α} {w : World σ (List α)} (h : Fresh o w) :
    Throughout ShowsFirst w.trace ∧ (o.swarm.best = none → goalsSince w.trace = []) ∧ KeepsFirst o.swarm (goalsSince w.trace) := by
  obtain ⟨h1, h2⟩ := h
  rw [h1, h2]
  exact ⟨throughout_nil, fun _ => rfl, by intro b hb; cases hb⟩

end Verif.PSO

namespace Verif.Props.Swarm

open Verif Spec Spec.Swarm PSO

variable {σ α : Type} [FloatT α]

/-- C90 (swarm): whatever the components do, every best solution shown to a stop checker or a logger is the first, in the order of
the goal calls of the run, of the best points evaluated before. -/
theorem C90_swarm_shown (o o' : Opt σ α) (w w' : World σ (List α)) (ks : List (Call σ α)) (pt : Point)
    (h0 : Fresh o w) (hr : runTo o ks pt w = .ok (o', w'))
    (before after : List (Ev (List α))) (e : Ev (List α)) (b : Solution (List α))
    (ht : w'.trace = before ++ e :: after) (he : shownBest e = some (some b)) : FirstBest NotWorse (goalsSince before) b :=
  (inv_first.runTo (PSO.always_true _ _) hr (first_fresh h0)).1.1 before e after ht b he

/-- C90 (swarm): what `find_min` returns, after any history. -/
theorem C90_swarm_findMin (o o1 o2 : Opt σ α) (w w1 w2 : World σ (List α)) (ks : List (Call σ α)) (fuel : Nat)
    (b : Solution (List α)) (h0 : Fresh o w) (hr : runTo o ks .done w = .ok (o1, w1))
    (hf : findMin fuel o1 w1 = .ok ((some b, o2), w2)) : FirstBest NotWorse (goalsSince w2.trace) b := by
  have h1 := (inv_first.runTo (PSO.always_true _ _) hr (first_fresh h0)).1
  have h2 : run o1 [.findMin fuel] w1 = .ok (([some (some b)], o2), w2) :=
    M.bind_eq_ok.2 ⟨(some (some b), o2), w2, M.bind_eq_ok.2 ⟨_, _, hf, rfl⟩, rfl⟩
  exact (inv_first.run (PSO.always_true _ _) h2 h1).1.2.2.state b (C26_swarm_findMin o1 o2 fuel w1 w2 _ hf).1.symm

/-- C90 (swarm): what `next_iterations` returns, after any history. -/
theorem C90_swarm_nextIterations (o o1 o2 : Opt σ α) (w w1 w2 : World σ (List α)) (ks : List (Call σ α)) (fuel : Nat)
    (b : Solution (List α)) (h0 : Fresh o w) (hr : runTo o ks .done w = .ok (o1, w1))
    (hf : nextIterations fuel o1 w1 = .ok ((some b, o2), w2)) : FirstBest NotWorse (goalsSince w2.trace) b := by
  have h1 := (inv_first.runTo (PSO.always_true _ _) hr (first_fresh h0)).1
  have h2 : run o1 [.nextIterations fuel] w1 = .ok (([some (some b)], o2), w2) :=
    M.bind_eq_ok.2 ⟨(some (some b), o2), w2, M.bind_eq_ok.2 ⟨_, _, hf, rfl⟩, rfl⟩
  exact (inv_first.run (PSO.always_true _ _) h2 h1).1.2.2.state b (C26_swarm_nextIterations o1 o2 fuel w1 w2 _ hf).1.symm

/-- The hypotheses are met: the first `find_min` of the example swarm. -/
example : Fresh SwarmDemo.opt SwarmDemo.world ∧ runTo SwarmDemo.opt [] .done SwarmDemo.world = .ok (SwarmDemo.opt, SwarmDemo.world) ∧
    ∃ b o2 w2, findMin 3 SwarmDemo.opt SwarmDemo.world = .ok ((some b, o2), w2) := by
  have h : M.okAnd (findMin 3 SwarmDemo.opt SwarmDemo.world) (fun r _ => r.1.isSome) = true := by decide +kernel
  obtain ⟨⟨r, o2⟩, w2, h1, h2⟩ := M.okAnd_iff.1 h
  obtain ⟨b, rfl⟩ := Option.isSome_iff_exists.1 h2
  exact ⟨demo_fresh, rfl, b, o2, w2, h1⟩

end Verif.Props.Swarm

/-! ## The genetic optimizer -/

namespace Verif.Population

open Verif Spec

variable {σ T : Type}

theorem asGood_trans (a b c : F64) (h1 : AsGood a b) (h2 : AsGood b c) : AsGood a c := by
  rcases h2 with h2 | h2
  · exact .inl h2
  · rcases h1 with h1 | h1
    · have := (Fl.le_iff.1 h2).1
      rw [h1] at this; cases this
    · rw [Fl.le_iff] at h1 h2
      exact .inr (Fl.le_iff.2 ⟨h1.1, h2.2.1, by omega⟩)

theorem asGood_of {x y : F64} (h : BestLe x y) : AsGood x y := by
  cases hy : y.isNan with
  | true => exact .inl hy
  | false => exact .inr (h hy)

theorem asBad_of {x y : F64} (h : WorstGe x y) : AsBad x y := by
  cases hy : y.isNan with
  | true => exact .inl hy
  | false => exact .inr (h hy)

/-- What the comparison for the best says. -/
theorem minCmp_strict (a b : Individual T) (s : σ) : ∃ o, minCmp a b s = .ok (o, s) ∧
    (o = .gt → ¬ AsGood a.fitness b.fitness ∨ (a.fitness.isNan = true ∧ b.fitness.isNan = true)) ∧
    (o ≠ .gt → AsGood a.fitness b.fitness ∧ a.fitness.isNan = false) := by
  unfold minCmp AsGood
  by_cases ha : a.fitness.isNan = true
  · refine ⟨.gt, by cases b.fitness.isNan <;> simp [ha, M.pure_run], fun _ => ?_, by simp⟩
    by_cases hb : b.fitness.isNan = true
    · exact .inr ⟨ha, hb⟩
    · refine .inl ?_
      rintro (h | h)
      · exact hb h
      · have := (Fl.le_iff.1 h).1; rw [ha] at this; cases this
  · simp only [Bool.not_eq_true] at ha
    by_cases hb : b.fitness.isNan = true
    · exact ⟨.lt, by simp [ha, hb, M.pure_run], by simp, fun _ => ⟨.inl hb, ha⟩⟩
    · simp only [Bool.not_eq_true] at hb
      simp only [ha, hb, Bool.false_and, Bool.false_eq_true, if_false, Fl.partialCmp, Bool.or_false]
      by_cases h1 : a.fitness.toInt < b.fitness.toInt
      · refine ⟨.lt, by simp [h1, M.unwrap, M.pure_run], by simp, fun _ => ⟨.inr ?_, trivial⟩⟩
        rw [Fl.le_iff]; exact ⟨ha, hb, by omega⟩
      · by_cases h2 : a.fitness.toInt = b.fitness.toInt
        · refine ⟨.eq, by simp [h2, M.unwrap, M.pure_run], by simp, fun _ => ⟨.inr ?_, trivial⟩⟩
          rw [Fl.le_iff]; exact ⟨ha, hb, by omega⟩
        · refine ⟨.gt, by simp [h1, h2, M.unwrap, M.pure_run], fun _ => .inl ?_, by simp⟩
          rintro (h | h)
          · cases h
          · have := (Fl.le_iff.1 h).2.2; omega

/-- What the comparison for the worst says. -/
theorem maxCmp_strict (a b : Individual T) (s : σ) : ∃ o, maxCmp a b s = .ok (o, s) ∧
    (o = .gt → ¬ AsBad b.fitness a.fitness ∧ AsBad a.fitness b.fitness) ∧ (o ≠ .gt → AsBad b.fitness a.fitness) := by
  unfold maxCmp AsBad
  by_cases ha : a.fitness.isNan = true
  · exact ⟨.lt, by cases b.fitness.isNan <;> simp [ha, M.pure_run], by simp, fun _ => .inl ha⟩
  · simp only [Bool.not_eq_true] at ha
    by_cases hb : b.fitness.isNan = true
    · refine ⟨.gt, by simp [ha, hb, M.pure_run], fun _ => ⟨?_, .inl hb⟩, by simp⟩
      rintro (h | h)
      · rw [ha] at h; cases h
      · have := (Fl.le_iff.1 h).2.1; rw [hb] at this; cases this
    · simp only [Bool.not_eq_true] at hb
      simp only [ha, hb, Bool.false_and, Bool.false_eq_true, if_false, Fl.partialCmp, Bool.or_false]
      by_cases h1 : a.fitness.toInt < b.fitness.toInt
      · refine ⟨.lt, by simp [h1, M.unwrap, M.pure_run], by simp, fun _ => .inr ?_⟩
        rw [Fl.le_iff]; exact ⟨ha, hb, by omega⟩
      · by_cases h2 : a.fitness.toInt = b.fitness.toInt
        · refine ⟨.eq, by simp [h2, M.unwrap, M.pure_run], by simp, fun _ => .inr ?_⟩
          rw [Fl.le_iff]; exact ⟨ha, hb, by omega⟩
        · refine ⟨.gt, by simp [h1, h2, M.unwrap, M.pure_run], fun _ => ⟨?_, .inr ?_⟩, by simp⟩
          · rintro (h | h)
            · cases h
            · have := (Fl.le_iff.1 h).2.2; omega
          · rw [Fl.le_iff]; exact ⟨hb, ha, by omega⟩

/-- The best of a non-empty list of individuals: the first of the best, but the last one if all are NaN. -/
def Chosen (xs : List (Solution T)) (b : Solution T) : Prop :=
  ((∃ a ∈ xs, a.2.isNan = false) → FirstBest AsGood xs b) ∧ ((∀ a ∈ xs, a.2.isNan = true) → xs.getLast? = some b)

theorem minByLoop_chosen : ∀ (xs : List (Individual T)) (x : Individual T) (s : σ),
    ∃ b, minByLoop minCmp x xs s = .ok (b, s) ∧ Chosen ((x :: xs).map Individual.sol) b.sol := by
  intro xs
  induction xs with
  | nil =>
    intro x s
    exact ⟨x, rfl, fun _ => ⟨[], [], rfl, by simp, by simp⟩, fun _ => rfl⟩
  | cons y ys ih =>
    intro x s
    obtain ⟨o, ho, hgt, hle⟩ := minCmp_strict x y s
    by_cases h : o = .gt
    · subst h
      obtain ⟨b, hb, hc1, hc2⟩ := ih y s
      obtain ⟨b', hb', -, hall⟩ := minByLoop_run ys y s
      rw [hb] at hb'
      cases hb'
      have hby : AsGood b.fitness y.fitness := asGood_of (hall y (by simp))
      refine ⟨b, M.bind_eq_ok.2 ⟨_, s, ho, hb⟩, ?_, ?_⟩
      · rintro ⟨a, ha, hn⟩
        rcases hgt rfl with hxy | ⟨hx, hy⟩
        · have hyn : y.fitness.isNan = false := by
            by_contra hc
            exact hxy (.inl (by simpa using hc))
          exact (hc1 ⟨y.sol, by simp, hyn⟩).lose asGood_trans hby hxy
        · have hmem : ∃ a ∈ (y :: ys).map Individual.sol, a.2.isNan = false := by
            rcases List.mem_cons.1 ha with rfl | ha
            · simp only [Individual.sol] at hn; rw [hx] at hn; cases hn
            · exact ⟨a, ha, hn⟩
          refine (hc1 hmem).append_left (xs := [x.sol]) ?_
          intro a ha
          rw [List.mem_singleton.1 ha]
          rintro (h | h)
          · obtain ⟨c, hc, hcn⟩ := hmem
            obtain ⟨i, hi, rfl⟩ := List.mem_map.1 hc
            have := (Fl.le_iff.1 (hall i hi hcn)).1
            simp only [Individual.sol] at h
            rw [h] at this; cases this
          · have := (Fl.le_iff.1 h).1
            simp only [Individual.sol] at this
            rw [hx] at this; cases this
      · intro hn
        have := hc2 (fun a ha => hn a (List.mem_cons_of_mem _ ha))
        simpa using this
    · obtain ⟨b, hb, hc1, -⟩ := ih x s
      obtain ⟨hxy, hxn⟩ := hle h
      refine ⟨b, M.bind_eq_ok.2 ⟨_, s, ho, ?_⟩, ?_, ?_⟩
      · cases o <;> simp_all
      · intro _
        exact (hc1 ⟨x.sol, by simp, hxn⟩).win asGood_trans hxy
      · intro hn
        have := hn x.sol (by simp)
        simp only [Individual.sol] at this
        rw [hxn] at this; cases this

theorem maxByLoop_last : ∀ (xs : List (Individual T)) (x : Individual T) (s : σ),
    ∃ b, maxByLoop maxCmp x xs s = .ok (b, s) ∧ LastWorst AsBad ((x :: xs).map Individual.sol) b.sol := by
  intro xs
  induction xs with
  | nil => intro x s; exact ⟨x, rfl, [], [], rfl, by simp, by simp⟩
  | cons y ys ih =>
    intro x s
    obtain ⟨o, ho, hgt, hle⟩ := maxCmp_strict x y s
    obtain ⟨b0, hb0, -, hall⟩ := maxByLoop_run (y :: ys) x s
    by_cases h : o = .gt
    · subst h
      obtain ⟨b, hb, hc⟩ := ih x s
      have hrun : maxByLoop maxCmp x (y :: ys) s = .ok (b, s) := M.bind_eq_ok.2 ⟨_, s, ho, hb⟩
      rw [hrun] at hb0
      cases hb0
      exact ⟨_, hrun, hc.win (y := y.sol) (asBad_of (hall y (by simp))) (hgt rfl).1⟩
    · obtain ⟨b, hb, hc⟩ := ih y s
      have hrun : maxByLoop maxCmp x (y :: ys) s = .ok (b, s) :=
        M.bind_eq_ok.2 ⟨_, s, ho, by cases o <;> simp_all⟩
      rw [hrun] at hb0
      cases hb0
      exact ⟨_, hrun, hc.lose (x := x.sol) (asBad_of (hall x (by simp)))⟩

theorem updateBestWorst_ties {p p' : Population T} {s s' : σ} (h : updateBestWorst p s = .ok (p', s')) (hne : p'.individuals ≠ []) :
    ∃ b v, p'.best = some b ∧ p'.worst = some v ∧ Chosen (p'.individuals.map Individual.sol) b.sol ∧
      LastWorst AsBad (p'.individuals.map Individual.sol) v.sol := by
  obtain ⟨inds, best, worst, it⟩ := p
  cases inds with
  | nil =>
    obtain ⟨p1, h1, h2, -⟩ := updateBestWorst_run (⟨[], best, worst, it⟩ : Population T) s
    rw [h] at h1; cases h1
    exact absurd h2 hne
  | cons x xs =>
    obtain ⟨b, hb, hb1⟩ := minByLoop_chosen xs x s
    obtain ⟨v, hv, hv1⟩ := maxByLoop_last xs x s
    have : updateBestWorst (⟨x :: xs, best, worst, it⟩ : Population T) s = .ok (⟨x :: xs, some b, some v, it⟩, s) := by
      unfold updateBestWorst
      refine M.bind_eq_ok.2 ⟨some b, s, M.bind_eq_ok.2 ⟨b, s, hb, rfl⟩, ?_⟩
      exact M.bind_eq_ok.2 ⟨some v, s, M.bind_eq_ok.2 ⟨v, s, hv, rfl⟩, rfl⟩
    rw [this] at h; cases h
    exact ⟨b, v, rfl, rfl, hb1, hv1⟩

end Verif.Population

namespace Verif.Props

open Verif Spec GA

variable {σ T : Type}

theorem core_ties {c : Comps σ T} {p p' : Population T} {w w' : World σ T} (h : GA.core c p w = .ok (p', w'))
    (hne : p'.individuals ≠ []) : ∃ b v, p'.best = some b ∧ p'.worst = some v ∧ Population.Chosen (agents p') b.sol ∧
      LastWorst AsBad (agents p') v.sol := by
  unfold GA.core at h
  obtain ⟨_, _, -, h⟩ := M.bind_eq_ok.1 h
  obtain ⟨_, _, -, h⟩ := M.bind_eq_ok.1 h
  obtain ⟨_, _, -, h⟩ := M.bind_eq_ok.1 h
  obtain ⟨_, _, -, h⟩ := M.bind_eq_ok.1 h
  obtain ⟨_, _, -, h⟩ := M.bind_eq_ok.1 h
  obtain ⟨p5, _, h5, h⟩ := M.bind_eq_ok.1 h
  obtain ⟨_, _, -, h⟩ := M.bind_eq_ok.1 h
  obtain ⟨rfl, -⟩ := M.pure_eq_ok.1 h
  exact Population.updateBestWorst_ties (p' := p5) h5 hne

/-- What a generation record shows. -/
def ReportsChosen (e : Ev T) : Prop :=
  ∀ ags best worst it, e = .generation ags best worst it → ags ≠ [] →
    ∃ b v, best = some b ∧ worst = some v ∧ Population.Chosen ags b ∧ LastWorst AsBad ags v

theorem reportsChosen_silent {e : Ev T} (h : Silent e) : ReportsChosen e := by
  rintro ags best worst it rfl; exact absurd h id

theorem inv_chosen : Inv (σ := σ) (T := T) (fun _ => True)
    (fun p tr => (∀ e ∈ tr, ReportsChosen e) ∧
      (1 ≤ p.iteration → p.individuals ≠ [] → ∃ b v, p.best = some b ∧ p.worst = some v ∧
        Population.Chosen (agents p) b.sol ∧ LastWorst AsBad (agents p) v.sol)) where
  log := by
    rintro p tr i k ⟨h1, h2⟩
    refine ⟨?_, h2⟩
    intro e he
    rcases List.mem_append.1 he with he | he
    · exact h1 e he
    · rw [List.mem_singleton] at he; subst he; rintro _ _ _ _ h; cases h
  check := by
    rintro p tr b ⟨h1, h2⟩
    refine ⟨?_, h2⟩
    intro e he
    rcases List.mem_append.1 he with he | he
    · exact h1 e he
    · rw [List.mem_singleton] at he; subst he; rintro _ _ _ _ h; cases h
  begin := by
    rintro c p p' w w' - ⟨h1, -⟩ hr
    obtain ⟨xs, vals, -, -, rfl, ht⟩ := begin_ok hr
    refine ⟨?_, fun h => by simp at h⟩
    rw [ht]
    intro e he
    rcases List.mem_append.1 he with he | he
    · exact h1 e he
    · rcases List.mem_cons.1 he with rfl | he
      · exact reportsChosen_silent trivial
      · obtain ⟨_, _, _, _, rfl⟩ := mem_zipWith he; exact reportsChosen_silent trivial
  core := by
    rintro c p p' w w' - ⟨h1, -⟩ hr
    have hties := core_ties hr
    obtain ⟨evs, g, ht, -⟩ := core_ok hr
    obtain ⟨sil, rfl, hs, -⟩ := g.split
    refine ⟨?_, fun _ => hties⟩
    rw [ht]
    intro e he
    rcases List.mem_append.1 he with he | he
    · exact h1 e he
    rcases List.mem_append.1 he with he | he
    · exact reportsChosen_silent (hs e he)
    · rw [List.mem_singleton] at he
      subst he
      rintro ags best worst it h hne
      cases h
      obtain ⟨b, v, hb, hv, hb2, hv2⟩ := hties (by intro h; apply hne; unfold agents; rw [h]; rfl)
      exact ⟨b.sol, v.sol, by simp [Population.state, hb], by simp [hv], hb2, hv2⟩

/-- C90 (genetic): in every generation with survivors, whatever the components do, the reported best is the first survivor, in the
order of the population, that is at least as good as all others, and the reported worst is the last one that is at least as bad as
all others. If all fitnesses are NaN, the best is the last survivor. -/
theorem C90_genetic (o o' : Opt σ T) (w w' : World σ T) (ks : List (Call σ T)) (pt : Point)
    (h0 : Fresh o w) (hr : runTo o ks pt w = .ok (o', w'))
    (ags : List (Solution T)) (best worst : Option (Solution T)) (it : Nat)
    (hm : Ev.generation ags best worst it ∈ w'.trace) (hne : ags ≠ []) :
    ∃ b v, best = some b ∧ worst = some v ∧
      ((∃ a ∈ ags, a.2.isNan = false) → FirstBest AsGood ags b) ∧ ((∀ a ∈ ags, a.2.isNan = true) → ags.getLast? = some b) ∧
      LastWorst AsBad ags v := by
  obtain ⟨b, v, h1, h2, h3, h4⟩ :=
    (inv_chosen.runTo (always_true _ (fun _ => trivial) _ _) hr (by rw [h0.1, h0.2]; simp)).1.1 _ hm _ _ _ _ rfl hne
  exact ⟨b, v, h1, h2, h3.1, h3.2, h4⟩

/-- C90 (genetic): what `find_min` returns, after any history, if at least one generation was made and a survivor has a fitness that
is not NaN. -/
theorem C90_genetic_findMin (o o1 o2 : Opt σ T) (w w1 w2 : World σ T) (ks : List (Call σ T)) (fuel : Nat)
    (r : Option (Solution T)) (h0 : Fresh o w) (hr : runTo o ks .done w = .ok (o1, w1)) (hl : Legal o1.comps)
    (hf : findMin fuel o1 w1 = .ok ((r, o2), w2)) (hit : 1 ≤ o2.pop.iteration)
    (hnan : ∃ a ∈ agents o2.pop, a.2.isNan = false) : ∃ b, r = some b ∧ FirstBest AsGood (agents o2.pop) b := by
  have h1 := (inv_chosen.runTo (always_true _ (fun _ => trivial) _ _) hr (by rw [h0.1, h0.2]; simp)).1
  have h2 : run o1 [.findMin fuel] w1 = .ok (([some r], o2), w2) :=
    M.bind_eq_ok.2 ⟨(some r, o2), w2, M.bind_eq_ok.2 ⟨_, _, hf, rfl⟩, rfl⟩
  obtain ⟨b, v, hb, -, hc, -⟩ := (inv_chosen.run (always_true _ (fun _ => trivial) _ _) h2 h1).1.2 hit
    (by rintro h; obtain ⟨a, ha, -⟩ := hnan; unfold agents at ha; rw [h] at ha; cases ha)
  refine ⟨b.sol, ?_, hc.1 hnan⟩
  rw [(C26_genetic_findMin o1 o2 hl fuel w1 w2 r hf).1]
  simp [Population.state, hb]

/-- C90 (genetic), for `next_iterations`. -/
theorem C90_genetic_nextIterations (o o1 o2 : Opt σ T) (w w1 w2 : World σ T) (ks : List (Call σ T)) (fuel : Nat)
    (r : Option (Solution T)) (h0 : Fresh o w) (hr : runTo o ks .done w = .ok (o1, w1)) (hl : Legal o1.comps)
    (hf : nextIterations fuel o1 w1 = .ok ((r, o2), w2)) (hit : 1 ≤ o2.pop.iteration)
    (hnan : ∃ a ∈ agents o2.pop, a.2.isNan = false) : ∃ b, r = some b ∧ FirstBest AsGood (agents o2.pop) b := by
  have h1 := (inv_chosen.runTo (always_true _ (fun _ => trivial) _ _) hr (by rw [h0.1, h0.2]; simp)).1
  have h2 : run o1 [.nextIterations fuel] w1 = .ok (([some r], o2), w2) :=
    M.bind_eq_ok.2 ⟨(some r, o2), w2, M.bind_eq_ok.2 ⟨_, _, hf, rfl⟩, rfl⟩
  obtain ⟨b, v, hb, -, hc, -⟩ := (inv_chosen.run (always_true _ (fun _ => trivial) _ _) h2 h1).1.2 hit
    (by rintro h; obtain ⟨a, ha, -⟩ := hnan; unfold agents at ha; rw [h] at ha; cases ha)
  refine ⟨b.sol, ?_, hc.1 hnan⟩
  rw [(C26_genetic_nextIterations o1 o2 hl fuel w1 w2 r hf).1]
  simp [Population.state, hb]

/-- Ties in a population: of the individuals 10, 11, 12, 13, 14 with the fitnesses 2, 1, 1, 2, NaN the best is 11, the worst 13. -/
example : M.okAnd (Population.updateBestWorst (⟨[⟨10, Fl.ofNat 2, true⟩, ⟨11, Fl.one, true⟩, ⟨12, Fl.one, true⟩,
    ⟨13, Fl.ofNat 2, true⟩, ⟨14, Fl.nan, true⟩], none, none, 0⟩ : Population Nat) ())
    (fun p _ => (p.best.map (·.chromosomes)) == some 11 && (p.worst.map (·.chromosomes)) == some 13) = true := by decide +kernel

/-- C90: among fitnesses that are all NaN it is not the first individual that is reported. -/
theorem C90_nan_witness : M.okAnd (Population.updateBestWorst (⟨[⟨10, Fl.nan, true⟩, ⟨11, Fl.nan, true⟩], none, none, 0⟩ : Population Nat) ())
    (fun p _ => (p.best.map (·.chromosomes)) == some 11) = true := by decide +kernel

/-- The hypotheses are met: the first `find_min` of the example optimizer. -/
example : Fresh Demo.opt Demo.world ∧ runTo Demo.opt [] .done Demo.world = .ok (Demo.opt, Demo.world) ∧ Legal Demo.opt.comps ∧
    ∃ r o2 w2, findMin 3 Demo.opt Demo.world = .ok ((r, o2), w2) ∧ 1 ≤ o2.pop.iteration ∧
      ∃ a ∈ agents o2.pop, a.2.isNan = false := by
  have h : M.okAnd (findMin 3 Demo.opt Demo.world) (fun r _ => decide (1 ≤ r.2.pop.iteration) &&
      (agents r.2.pop).any (fun a => !a.2.isNan)) = true := by decide +kernel
  obtain ⟨⟨r, o2⟩, w2, h1, h2⟩ := M.okAnd_iff.1 h
  simp only [Bool.and_eq_true, decide_eq_true_eq, List.any_eq_true, Bool.not_eq_true'] at h2
  exact ⟨demo_fresh, rfl, demo_legal, r, o2, w2, h1, h2.1, h2.2⟩

end Verif.Props
