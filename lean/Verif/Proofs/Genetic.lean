import Verif.Spec.Genetic
import Verif.IEEE.Lemmas

/-!
# Executions of the genetic optimizer
-/

namespace Verif.GA

open Verif Spec

variable {σ T : Type}

/-! ## Loggers -/

/-- The events of one round of logger calls. -/
def logBlock (k : LogKind) (s : AlgState T) (i n : Nat) : List (Ev T) :=
  (List.range' i n).map (fun j => .log j k s)

theorem callLoggers_trace {k : LogKind} {s : AlgState T} :
    ∀ {ls : List (Logger σ T)} {i : Nat} {w w' : World σ T} {u : Unit},
      callLoggers k s i ls w = .ok (u, w') → w'.trace = w.trace ++ logBlock k s i ls.length := by
  intro ls
  induction ls with
  | nil =>
    intro i w w' u h
    obtain ⟨-, rfl⟩ := M.pure_eq_ok.1 h
    simp [logBlock]
  | cons l ls ih =>
    intro i w w' u h
    unfold callLoggers at h
    obtain ⟨u1, w1, h1, h⟩ := M.bind_eq_ok.1 h
    obtain ⟨u2, w2, h2, h⟩ := M.bind_eq_ok.1 h
    rw [ih h, (World.emit_eq_ok.1 h2).2, (World.lift_eq_ok.1 h1).2]
    simp [logBlock, List.range'_succ]

/-! ## Parts of a step -/

theorem append_ok {c : Comps σ T} : ∀ {xs : List T} {p p' : Population T} {w w' : World σ T},
    append c p xs w = .ok (p', w') → ∃ vals,
      List.Forall₂ (fun x v => Returned (c.goal x) v) xs vals ∧
      p' = { p with individuals := p.individuals ++ newborn xs vals } ∧
      w'.trace = w.trace ++ List.zipWith Ev.goal xs vals := by
  intro xs
  induction xs with
  | nil =>
    intro p p' w w' h
    obtain ⟨rfl, rfl⟩ := M.foldL_nil_ok.1 h
    exact ⟨[], .nil, by simp [newborn], by simp⟩
  | cons x xs ih =>
    intro p p' w w' h
    obtain ⟨p1, w1, h1, h2⟩ := M.foldL_cons_ok.1 h
    unfold push at h1
    obtain ⟨v, w2, h3, h1⟩ := M.bind_eq_ok.1 h1
    obtain ⟨u, w3, h4, h1⟩ := M.bind_eq_ok.1 h1
    obtain ⟨rfl, rfl⟩ := M.pure_eq_ok.1 h1
    obtain ⟨vals, hv, rfl, ht⟩ := ih h2
    refine ⟨v :: vals, .cons ⟨_, _, (World.lift_eq_ok.1 h3).1⟩ hv, ?_, ?_⟩
    · simp [newborn]
    · rw [ht, (World.emit_eq_ok.1 h4).2, (World.lift_eq_ok.1 h3).2]; simp

theorem crossFamilies_ok {c : Comps σ T} {p : Population T} :
    ∀ {fams : List (List Nat)} {kids : List (List T)} {w w' : World σ T},
      M.mapL (crossFamily c p) fams w = .ok (kids, w') → ∃ parents,
        List.Forall₂ (List.Forall₂ (fun i x => (p.individuals.map Individual.chromosomes)[i]? = some x))
          fams parents ∧
        List.Forall₂ (fun ps ks => Returned (c.cross ps) ks) parents kids ∧
        w'.trace = w.trace ++ List.zipWith Ev.crossed parents kids := by
  intro fams
  induction fams with
  | nil =>
    intro kids w w' h
    obtain ⟨rfl, rfl⟩ := M.mapL_nil_ok.1 h
    exact ⟨[], .nil, .nil, by simp⟩
  | cons fam fams ih =>
    intro kids w w' h
    obtain ⟨ks, kids', w1, h1, h2, rfl⟩ := M.mapL_cons_ok.1 h
    obtain ⟨parents, hp, hc, ht⟩ := ih h2
    unfold crossFamily at h1
    obtain ⟨ps, w2, h3, h1⟩ := M.bind_eq_ok.1 h1
    obtain ⟨ks', w3, h4, h1⟩ := M.bind_eq_ok.1 h1
    obtain ⟨u, w4, h5, h1⟩ := M.bind_eq_ok.1 h1
    obtain ⟨rfl, rfl⟩ := M.pure_eq_ok.1 h1
    have hw2 : w2 = w := by
      refine M.mapL_state (I := fun t => t = w) ?_ rfl h3
      intro i _ s0 x s0' he hx
      obtain ⟨ind, s1, hi, hx⟩ := M.bind_eq_ok.1 hx
      obtain ⟨-, rfl⟩ := M.index_eq_ok.1 hi
      obtain ⟨-, rfl⟩ := M.pure_eq_ok.1 hx
      exact he
    subst hw2
    refine ⟨ps :: parents, .cons ?_ hp, .cons ⟨_, _, (World.lift_eq_ok.1 h4).1⟩ hc, ?_⟩
    · refine M.mapL_forall₂ ?_ h3
      intro i _ s0 x s0' hx
      obtain ⟨ind, s1, hi, hx⟩ := M.bind_eq_ok.1 hx
      obtain ⟨hind, rfl⟩ := M.index_eq_ok.1 hi
      obtain ⟨rfl, -⟩ := M.pure_eq_ok.1 hx
      rw [List.getElem?_map, hind]; rfl
    · rw [ht, (World.emit_eq_ok.1 h5).2, (World.lift_eq_ok.1 h4).2]; simp

theorem mutate_ok {c : Comps σ T} : ∀ {xs ys : List T} {w w' : World σ T},
    mutate c xs w = .ok (ys, w') →
      List.Forall₂ (fun x y => Returned (c.mutation x) y) xs ys ∧
      w'.trace = w.trace ++ List.zipWith Ev.mutated xs ys := by
  intro xs
  induction xs with
  | nil =>
    intro ys w w' h
    obtain ⟨rfl, rfl⟩ := M.mapL_nil_ok.1 h
    exact ⟨.nil, by simp⟩
  | cons x xs ih =>
    intro ys w w' h
    obtain ⟨y, ys', w1, h1, h2, rfl⟩ := M.mapL_cons_ok.1 h
    obtain ⟨hm, ht⟩ := ih h2
    obtain ⟨y', w2, h3, h1⟩ := M.bind_eq_ok.1 h1
    obtain ⟨u, w3, h4, h1⟩ := M.bind_eq_ok.1 h1
    obtain ⟨rfl, rfl⟩ := M.pure_eq_ok.1 h1
    refine ⟨.cons ⟨_, _, (World.lift_eq_ok.1 h3).1⟩ hm, ?_⟩
    rw [ht, (World.emit_eq_ok.1 h4).2, (World.lift_eq_ok.1 h3).2]; simp

theorem preBirth_ok {p : Population T} :
    ∀ {fs : List (Population T → List T → M σ (List T))} {i : Nat} {xs ys : List T} {w w' : World σ T},
      preBirth p i fs xs w = .ok (ys, w') → ∃ evs, PreBirths p i fs xs evs ys ∧
        w'.trace = w.trace ++ evs := by
  intro fs
  induction fs with
  | nil =>
    intro i xs ys w w' h
    obtain ⟨rfl, rfl⟩ := M.pure_eq_ok.1 h
    exact ⟨[], .nil, by simp⟩
  | cons f fs ih =>
    intro i xs ys w w' h
    unfold preBirth at h
    obtain ⟨zs, w1, h1, h⟩ := M.bind_eq_ok.1 h
    obtain ⟨u, w2, h2, h⟩ := M.bind_eq_ok.1 h
    obtain ⟨evs, he, ht⟩ := ih h
    refine ⟨_, .cons ⟨_, _, (World.lift_eq_ok.1 h1).1⟩ he, ?_⟩
    rw [ht, (World.emit_eq_ok.1 h2).2, (World.lift_eq_ok.1 h1).2]; simp

theorem select_ok :
    ∀ {fs : List (Population T → M σ (Population T))} {i : Nat} {p q : Population T} {w w' : World σ T},
      select i fs p w = .ok (q, w') → ∃ evs, Selections i fs p evs q ∧ w'.trace = w.trace ++ evs := by
  intro fs
  induction fs with
  | nil =>
    intro i p q w w' h
    obtain ⟨rfl, rfl⟩ := M.pure_eq_ok.1 h
    exact ⟨[], .nil, by simp⟩
  | cons f fs ih =>
    intro i p q w w' h
    unfold select at h
    obtain ⟨p1, w1, h1, h⟩ := M.bind_eq_ok.1 h
    obtain ⟨u, w2, h2, h⟩ := M.bind_eq_ok.1 h
    obtain ⟨evs, he, ht⟩ := ih h
    refine ⟨_, .cons ⟨_, _, (World.lift_eq_ok.1 h1).1⟩ he, ?_⟩
    rw [ht, (World.emit_eq_ok.1 h2).2, (World.lift_eq_ok.1 h1).2]; simp

end Verif.GA

/-! ## Best and worst -/

namespace Verif.Population

variable {σ T : Type}

/-- `a` is at least as good as `b` for the reported best: NaN is worse than all numbers. -/
def BestLe (a b : F64) : Prop := b.isNan = false → a.le b = true

/-- `a` is at least as bad as `b` for the reported worst: NaN counts as smaller than all numbers. -/
def WorstGe (a b : F64) : Prop := b.isNan = false → b.le a = true

theorem BestLe.trans {a b c : F64} (h1 : BestLe a b) (h2 : BestLe b c) : BestLe a c := by
  intro hc
  have hb := Fl.le_iff.1 (h2 hc)
  have ha := Fl.le_iff.1 (h1 hb.1)
  rw [Fl.le_iff]; exact ⟨ha.1, hb.2.1, by omega⟩

theorem BestLe.refl (a : F64) : BestLe a a := fun h => Fl.le_refl h

theorem WorstGe.refl (a : F64) : WorstGe a a := fun h => Fl.le_refl h

theorem WorstGe.trans {a b c : F64} (h1 : WorstGe a b) (h2 : WorstGe b c) : WorstGe a c := by
  intro hc
  have hb := Fl.le_iff.1 (h2 hc)
  have ha := Fl.le_iff.1 (h1 hb.2.1)
  rw [Fl.le_iff]; exact ⟨hb.1, ha.2.1, by omega⟩

theorem minCmp_run (a b : Individual T) (s : σ) : ∃ o, minCmp a b s = .ok (o, s) ∧
    (o = .gt → BestLe b.fitness a.fitness) ∧ (o ≠ .gt → BestLe a.fitness b.fitness) := by
  unfold minCmp
  by_cases ha : a.fitness.isNan = true
  · refine ⟨.gt, by cases b.fitness.isNan <;> simp [ha, M.pure_run], ?_, by simp⟩
    intro _ h; rw [ha] at h; cases h
  · simp only [Bool.not_eq_true] at ha
    by_cases hb : b.fitness.isNan = true
    · refine ⟨.lt, by simp [ha, hb, M.pure_run], by simp, ?_⟩
      intro _ h; rw [hb] at h; cases h
    · simp only [Bool.not_eq_true] at hb
      simp only [ha, hb, Bool.false_and, Bool.false_eq_true, if_false, Fl.partialCmp, Bool.or_false]
      by_cases h1 : a.fitness.toInt < b.fitness.toInt
      · refine ⟨.lt, by simp [h1, M.unwrap, M.pure_run], by simp, fun _ _ => ?_⟩
        rw [Fl.le_iff]; exact ⟨ha, hb, by omega⟩
      · by_cases h2 : a.fitness.toInt = b.fitness.toInt
        · refine ⟨.eq, by simp [h2, M.unwrap, M.pure_run], by simp, fun _ _ => ?_⟩
          rw [Fl.le_iff]; exact ⟨ha, hb, by omega⟩
        · refine ⟨.gt, by simp [h1, h2, M.unwrap, M.pure_run], fun _ _ => ?_, by simp⟩
          rw [Fl.le_iff]; exact ⟨hb, ha, by omega⟩

theorem maxCmp_run (a b : Individual T) (s : σ) : ∃ o, maxCmp a b s = .ok (o, s) ∧
    (o = .gt → WorstGe a.fitness b.fitness) ∧ (o ≠ .gt → WorstGe b.fitness a.fitness) := by
  unfold maxCmp
  by_cases ha : a.fitness.isNan = true
  · refine ⟨.lt, by cases b.fitness.isNan <;> simp [ha, M.pure_run], by simp, ?_⟩
    intro _ h; rw [ha] at h; cases h
  · simp only [Bool.not_eq_true] at ha
    by_cases hb : b.fitness.isNan = true
    · refine ⟨.gt, by simp [ha, hb, M.pure_run], ?_, by simp⟩
      intro _ h; rw [hb] at h; cases h
    · simp only [Bool.not_eq_true] at hb
      simp only [ha, hb, Bool.false_and, Bool.false_eq_true, if_false, Fl.partialCmp, Bool.or_false]
      by_cases h1 : a.fitness.toInt < b.fitness.toInt
      · refine ⟨.lt, by simp [h1, M.unwrap, M.pure_run], by simp, fun _ _ => ?_⟩
        rw [Fl.le_iff]; exact ⟨ha, hb, by omega⟩
      · by_cases h2 : a.fitness.toInt = b.fitness.toInt
        · refine ⟨.eq, by simp [h2, M.unwrap, M.pure_run], by simp, fun _ _ => ?_⟩
          rw [Fl.le_iff]; exact ⟨ha, hb, by omega⟩
        · refine ⟨.gt, by simp [h1, h2, M.unwrap, M.pure_run], fun _ _ => ?_, by simp⟩
          rw [Fl.le_iff]; exact ⟨hb, ha, by omega⟩

theorem minByLoop_run : ∀ (xs : List (Individual T)) (x : Individual T) (s : σ),
    ∃ b, minByLoop minCmp x xs s = .ok (b, s) ∧ b ∈ x :: xs ∧
      ∀ i ∈ x :: xs, BestLe b.fitness i.fitness := by
  intro xs
  induction xs with
  | nil =>
    intro x s
    refine ⟨x, rfl, by simp, ?_⟩
    intro i hi
    rw [List.mem_singleton] at hi; subst hi; exact BestLe.refl _
  | cons y ys ih =>
    intro x s
    obtain ⟨o, ho, hgt, hle⟩ := minCmp_run x y s
    by_cases h : o = .gt
    · subst h
      obtain ⟨b, hb, hmem, hall⟩ := ih y s
      refine ⟨b, M.bind_eq_ok.2 ⟨_, s, ho, hb⟩, by simp at hmem ⊢; tauto, ?_⟩
      intro i hi
      rcases List.mem_cons.1 hi with rfl | hi
      · exact (hall y (by simp)).trans (hgt rfl)
      · exact hall i hi
    · obtain ⟨b, hb, hmem, hall⟩ := ih x s
      refine ⟨b, M.bind_eq_ok.2 ⟨_, s, ho, ?_⟩, by simp at hmem ⊢; tauto, ?_⟩
      · cases o <;> simp_all
      · intro i hi
        rcases List.mem_cons.1 hi with rfl | hi
        · exact hall i (by simp)
        · rcases List.mem_cons.1 hi with rfl | hi
          · exact (hall x (by simp)).trans (hle h)
          · exact hall i (by simp [hi])

theorem maxByLoop_run : ∀ (xs : List (Individual T)) (x : Individual T) (s : σ),
    ∃ b, maxByLoop maxCmp x xs s = .ok (b, s) ∧ b ∈ x :: xs ∧
      ∀ i ∈ x :: xs, WorstGe b.fitness i.fitness := by
  intro xs
  induction xs with
  | nil =>
    intro x s
    refine ⟨x, rfl, by simp, ?_⟩
    intro i hi
    rw [List.mem_singleton] at hi; subst hi; exact WorstGe.refl _
  | cons y ys ih =>
    intro x s
    obtain ⟨o, ho, hgt, hle⟩ := maxCmp_run x y s
    by_cases h : o = .gt
    · subst h
      obtain ⟨b, hb, hmem, hall⟩ := ih x s
      refine ⟨b, M.bind_eq_ok.2 ⟨_, s, ho, hb⟩, by simp at hmem ⊢; tauto, ?_⟩
      intro i hi
      rcases List.mem_cons.1 hi with rfl | hi
      · exact hall i (by simp)
      · rcases List.mem_cons.1 hi with rfl | hi
        · exact (hall x (by simp)).trans (hgt rfl)
        · exact hall i (by simp [hi])
    · obtain ⟨b, hb, hmem, hall⟩ := ih y s
      refine ⟨b, M.bind_eq_ok.2 ⟨_, s, ho, ?_⟩, by simp at hmem ⊢; tauto, ?_⟩
      · cases o <;> simp_all
      · intro i hi
        rcases List.mem_cons.1 hi with rfl | hi
        · exact (hall y (by simp)).trans (hle h)
        · exact hall i hi

/-- The best and the worst individual are up to date: for a non-empty population they are members and extremal; an
empty population leaves the old ones `(b, w)`. -/
structure UpToDate (p : Population T) (b w : Option (Individual T)) : Prop where
  best : p.individuals ≠ [] → ∃ x, p.best = some x ∧ x ∈ p.individuals ∧
    ∀ i ∈ p.individuals, BestLe x.fitness i.fitness
  worst : p.individuals ≠ [] → ∃ x, p.worst = some x ∧ x ∈ p.individuals ∧
    ∀ i ∈ p.individuals, WorstGe x.fitness i.fitness
  old : p.individuals = [] → p.best = b ∧ p.worst = w

/-- `update_best_worst_individuals` never panics. -/
theorem updateBestWorst_run (p : Population T) (s : σ) :
    ∃ p', updateBestWorst p s = .ok (p', s) ∧ p'.individuals = p.individuals ∧
      p'.iteration = p.iteration ∧ UpToDate p' p.best p.worst := by
  obtain ⟨inds, best, worst, it⟩ := p
  cases inds with
  | nil =>
    exact ⟨_, rfl, rfl, rfl, ⟨fun h => absurd rfl h, fun h => absurd rfl h, fun _ => ⟨rfl, rfl⟩⟩⟩
  | cons x xs =>
    obtain ⟨b, hb, hbm, hba⟩ := minByLoop_run xs x s
    obtain ⟨w, hw, hwm, hwa⟩ := maxByLoop_run xs x s
    refine ⟨⟨x :: xs, some b, some w, it⟩, ?_, rfl, rfl,
      ⟨fun _ => ⟨b, rfl, hbm, hba⟩, fun _ => ⟨w, rfl, hwm, hwa⟩, fun h => by simp at h⟩⟩
    unfold updateBestWorst
    refine M.bind_eq_ok.2 ⟨some b, s, M.bind_eq_ok.2 ⟨b, s, hb, rfl⟩, ?_⟩
    exact M.bind_eq_ok.2 ⟨some w, s, M.bind_eq_ok.2 ⟨w, s, hw, rfl⟩, rfl⟩

end Verif.Population

namespace Verif.GA

open Verif Spec

variable {σ T : Type}

/-! ## A whole step -/

/-- One turn of the loop without the loggers. -/
def core (c : Comps σ T) (p : Population T) : M (World σ T) (Population T) := do
  let children ← runPairing c p
  let mutants ← mutate c children
  let born ← preBirth p 0 c.preBirths mutants
  let p ← append c p born
  let p ← select 0 c.selections p
  let p := p.removeDead
  let p ← p.updateBestWorst
  let p := p.nextIteration
  World.emit (.generation (agents p) p.state.best (p.worst.map Individual.sol) p.iteration)
  pure p

theorem step_ok {c : Comps σ T} {p p' : Population T} {w w' : World σ T} :
    step c p w = .ok (p', w') ↔ ∃ w1, core c p w = .ok (p', w1) ∧
      callLoggers .next p'.state 0 c.loggers w1 = .ok ((), w') := by
  unfold step core
  simp only [M.bind_eq_ok, M.pure_eq_ok]
  constructor
  · rintro ⟨a1, s1, h1, a2, s2, h2, a3, s3, h3, a4, s4, h4, a5, s5, h5, a6, s6, h6, u, s7, h7, u', s8, h8, rfl, rfl⟩
    exact ⟨s7, ⟨a1, s1, h1, a2, s2, h2, a3, s3, h3, a4, s4, h4, a5, s5, h5, a6, s6, h6, u, s7, h7, rfl, rfl⟩, h8⟩
  · rintro ⟨w1, ⟨a1, s1, h1, a2, s2, h2, a3, s3, h3, a4, s4, h4, a5, s5, h5, a6, s6, h6, u, s7, h7, rfl, rfl⟩, h8⟩
    exact ⟨a1, s1, h1, a2, s2, h2, a3, s3, h3, a4, s4, h4, a5, s5, h5, a6, s6, h6, u, s7, h7, (), w', h8, rfl, rfl⟩

/-- What one turn of the loop does. -/
theorem core_ok {c : Comps σ T} {p p' : Population T} {w w' : World σ T}
    (h : core c p w = .ok (p', w')) :
    ∃ evs, ∃ g : Generation c p evs p', w'.trace = w.trace ++ evs ∧
      p'.UpToDate g.q.best g.q.worst := by
  unfold core at h
  obtain ⟨children, w1, h1, h⟩ := M.bind_eq_ok.1 h
  obtain ⟨mutants, w2, h2, h⟩ := M.bind_eq_ok.1 h
  obtain ⟨born, w3, h3, h⟩ := M.bind_eq_ok.1 h
  obtain ⟨p1, w4, h4, h⟩ := M.bind_eq_ok.1 h
  obtain ⟨q, w5, h5, h⟩ := M.bind_eq_ok.1 h
  obtain ⟨p2, w6, h6, h⟩ := M.bind_eq_ok.1 h
  obtain ⟨u, w7, h7, h⟩ := M.bind_eq_ok.1 h
  obtain ⟨rfl, rfl⟩ := M.pure_eq_ok.1 h
  unfold runPairing at h1
  obtain ⟨families, w8, h8, h1⟩ := M.bind_eq_ok.1 h1
  obtain ⟨u', w9, h9, h1⟩ := M.bind_eq_ok.1 h1
  obtain ⟨kids, w10, h10, h1⟩ := M.bind_eq_ok.1 h1
  obtain ⟨rfl, rfl⟩ := M.pure_eq_ok.1 h1
  obtain ⟨parents, hp, hc, ht1⟩ := crossFamilies_ok h10
  obtain ⟨hm, ht2⟩ := mutate_ok h2
  obtain ⟨preEvs, hpre, ht3⟩ := preBirth_ok h3
  obtain ⟨vals, hv, rfl, ht4⟩ := append_ok h4
  obtain ⟨selEvs, hs, ht5⟩ := select_ok h5
  obtain ⟨p3, h6', hi, hit, hup⟩ := Population.updateBestWorst_run q.removeDead w5
  rw [h6'] at h6
  cases h6
  refine ⟨_, ⟨families, parents, kids, mutants, preEvs, born, vals, selEvs, q,
    ⟨_, _, (World.lift_eq_ok.1 h8).1⟩, hp, hc, hm, hpre, hv, hs, hi, ?_, rfl⟩, ?_,
    ⟨hup.best, hup.worst, hup.old⟩⟩
  · show _ + 1 = _
    rw [hit]; rfl
  · rw [(World.emit_eq_ok.1 h7).2, ht5, ht4, ht3, ht2, ht1, (World.emit_eq_ok.1 h9).2,
      (World.lift_eq_ok.1 h8).2]
    simp only [List.append_assoc]

/-! ## Invariants of histories -/

/-- `find_min` up to the start callbacks. -/
def begin (c : Comps σ T) : M (World σ T) (Population T) := do
  let start ← World.lift c.creator
  World.emit (.created start)
  append c Population.empty start

theorem begin_ok {c : Comps σ T} {p' : Population T} {w w' : World σ T}
    (h : begin c w = .ok (p', w')) : ∃ xs vals, Returned c.creator xs ∧
      List.Forall₂ (fun x v => Returned (c.goal x) v) xs vals ∧
      p' = ⟨newborn xs vals, none, none, 0⟩ ∧
      w'.trace = w.trace ++ (.created xs :: List.zipWith Ev.goal xs vals) := by
  unfold begin at h
  obtain ⟨xs, w1, h1, h⟩ := M.bind_eq_ok.1 h
  obtain ⟨u, w2, h2, h⟩ := M.bind_eq_ok.1 h
  obtain ⟨vals, hv, rfl, ht⟩ := append_ok h
  refine ⟨xs, vals, ⟨_, _, (World.lift_eq_ok.1 h1).1⟩, hv, by simp [Population.empty], ?_⟩
  rw [ht, (World.emit_eq_ok.1 h2).2, (World.lift_eq_ok.1 h1).2]; simp

theorem findMin_ok {fuel : Nat} {o o' : Opt σ T} {r : Option (Solution T)} {w w' : World σ T} :
    findMin fuel o w = .ok ((r, o'), w') ↔ ∃ p w1 w2, begin o.comps w = .ok (p, w1) ∧
      callLoggers .start p.state 0 o.comps.loggers w1 = .ok ((), w2) ∧
      nextIterations fuel { o with pop := p } w2 = .ok ((r, o'), w') := by
  unfold findMin begin
  simp only [M.bind_eq_ok]
  constructor
  · rintro ⟨xs, w1, h1, u, w2, h2, p, w3, h3, u', w4, h4, h⟩
    exact ⟨p, w3, w4, ⟨xs, w1, h1, u, w2, h2, h3⟩, h4, h⟩
  · rintro ⟨p, w3, w4, ⟨xs, w1, h1, u, w2, h2, h3⟩, h4, h⟩
    exact ⟨xs, w1, h1, u, w2, h2, p, w3, h3, (), w4, h4, h⟩

theorem findMinHead_ok {o o' : Opt σ T} {w w' : World σ T} :
    findMinHead o w = .ok (o', w') ↔ ∃ p w1 w2, begin o.comps w = .ok (p, w1) ∧
      callLoggers .start p.state 0 o.comps.loggers w1 = .ok ((), w2) ∧
      callLoggers .resume p.state 0 o.comps.loggers w2 = .ok ((), w') ∧ o' = { o with pop := p } := by
  unfold findMinHead begin
  simp only [M.bind_eq_ok, M.pure_eq_ok]
  constructor
  · rintro ⟨xs, w1, h1, u, w2, h2, p, w3, h3, u', w4, h4, u'', w5, h5, rfl, rfl⟩
    exact ⟨p, w3, w4, ⟨xs, w1, h1, u, w2, h2, h3⟩, h4, h5, rfl⟩
  · rintro ⟨p, w3, w4, ⟨xs, w1, h1, u, w2, h2, h3⟩, h4, h5, rfl⟩
    exact ⟨xs, w1, h1, u, w2, h2, p, w3, h3, (), w4, h4, (), w', h5, rfl, rfl⟩

theorem nextIterations_ok {fuel : Nat} {o o' : Opt σ T} {r : Option (Solution T)} {w w' : World σ T} :
    nextIterations fuel o w = .ok ((r, o'), w') ↔ ∃ p w1 w2,
      callLoggers .resume o.pop.state 0 o.comps.loggers w = .ok ((), w1) ∧
      loop o.comps fuel o.pop w1 = .ok (p, w2) ∧
      callLoggers .finish p.state 0 o.comps.loggers w2 = .ok ((), w') ∧
      r = p.state.best ∧ o' = { o with pop := p } := by
  unfold nextIterations
  simp only [M.bind_eq_ok, M.pure_eq_ok, Prod.mk.injEq]
  have key : ∀ p : Population T, (match p.best with
      | none => none
      | some i => some (i.chromosomes, i.fitness)) = p.state.best := by
    intro p; unfold Population.state; cases p.best <;> rfl
  constructor
  · rintro ⟨u, w1, h1, p, w2, h2, u', w3, h3, ⟨rfl, rfl⟩, rfl⟩
    exact ⟨p, w1, w2, h1, h2, h3, key p, rfl⟩
  · rintro ⟨p, w1, w2, h1, h2, h3, rfl, rfl⟩
    exact ⟨(), w1, h1, p, w2, h2, (), w', h3, ⟨key p, rfl⟩, rfl⟩

theorem loop_succ_ok {c : Comps σ T} {fuel : Nat} {p p' : Population T} {w w' : World σ T} :
    loop c (fuel + 1) p w = .ok (p', w') ↔ ∃ b s', c.stop p.state w.user = .ok (b, s') ∧
      ((b = true ∧ p' = p ∧ w' = ⟨s', w.trace ++ [.check p.state true]⟩) ∨
       (b = false ∧ ∃ p1 w1, step c p ⟨s', w.trace ++ [.check p.state false]⟩ = .ok (p1, w1) ∧
          loop c fuel p1 w1 = .ok (p', w'))) := by
  rw [loop]
  simp only [M.bind_eq_ok]
  constructor
  · rintro ⟨b, w1, h1, u, w2, h2, h⟩
    obtain ⟨h1a, h1b⟩ := World.lift_eq_ok.1 h1
    obtain ⟨h2a, h2b⟩ := World.emit_eq_ok.1 h2
    refine ⟨b, _, h1a, ?_⟩
    have hw2 : w2 = ⟨w1.user, w.trace ++ [.check p.state b]⟩ := by
      cases w2; simp only at h2a h2b; rw [h2a, h2b, h1b]
    cases b with
    | true =>
      simp only [if_true] at h
      obtain ⟨rfl, rfl⟩ := M.pure_eq_ok.1 h
      exact .inl ⟨rfl, rfl, hw2⟩
    | false =>
      simp only [Bool.false_eq_true, if_false] at h
      obtain ⟨p1, w3, h3, h4⟩ := M.bind_eq_ok.1 h
      rw [hw2] at h3
      exact .inr ⟨rfl, p1, w3, h3, h4⟩
  · rintro ⟨b, s', h1, h⟩
    refine ⟨b, ⟨s', w.trace⟩, World.lift_eq_ok.2 ⟨h1, rfl⟩, (), ⟨s', w.trace ++ [.check p.state b]⟩,
      World.emit_eq_ok.2 ⟨rfl, rfl⟩, ?_⟩
    rcases h with ⟨rfl, rfl, rfl⟩ | ⟨rfl, p1, w1, h2, h3⟩
    · rfl
    · exact M.bind_eq_ok.2 ⟨p1, w1, h2, h3⟩

theorem turns_succ_ok {c : Comps σ T} {n : Nat} {p p' : Population T} {w w' : World σ T} :
    turns c (n + 1) p w = .ok (p', w') ↔ ∃ s', c.stop p.state w.user = .ok (false, s') ∧
       ∃ p1 w1, step c p ⟨s', w.trace ++ [.check p.state false]⟩ = .ok (p1, w1) ∧
          turns c n p1 w1 = .ok (p', w') := by
  rw [turns]
  simp only [M.bind_eq_ok]
  constructor
  · rintro ⟨b, w1, h1, u, w2, h2, h⟩
    obtain ⟨h1a, h1b⟩ := World.lift_eq_ok.1 h1
    obtain ⟨h2a, h2b⟩ := World.emit_eq_ok.1 h2
    have hw2 : w2 = ⟨w1.user, w.trace ++ [.check p.state b]⟩ := by
      cases w2; simp only at h2a h2b; rw [h2a, h2b, h1b]
    cases b with
    | true => simp [M.fail] at h
    | false =>
      simp only [Bool.false_eq_true, if_false] at h
      obtain ⟨p1, w3, h3, h4⟩ := M.bind_eq_ok.1 h
      rw [hw2] at h3
      exact ⟨_, h1a, p1, w3, h3, h4⟩
  · rintro ⟨s', h1, p1, w1, h2, h3⟩
    exact ⟨false, ⟨s', w.trace⟩, World.lift_eq_ok.2 ⟨h1, rfl⟩, (),
      ⟨s', w.trace ++ [.check p.state false]⟩, World.emit_eq_ok.2 ⟨rfl, rfl⟩,
      M.bind_eq_ok.2 ⟨p1, w1, h2, h3⟩⟩

/-- Invariance hypotheses for properties of the population and the trace. -/
structure Inv (P : Comps σ T → Prop) (I : Population T → List (Ev T) → Prop) : Prop where
  log : ∀ p tr i k, I p tr → I p (tr ++ [.log i k p.state])
  check : ∀ p tr b, I p tr → I p (tr ++ [.check p.state b])
  begin : ∀ c p p' w w', P c → I p w.trace → begin c w = .ok (p', w') → I p' w'.trace
  core : ∀ c p p' w w', P c → I p w.trace → core c p w = .ok (p', w') → I p' w'.trace

namespace Inv

variable {P : Comps σ T → Prop} {I : Population T → List (Ev T) → Prop}

theorem logs (h : Inv P I) {p : Population T} {k : LogKind} :
    ∀ (n i : Nat) (tr : List (Ev T)), I p tr → I p (tr ++ logBlock k p.state i n) := by
  intro n
  induction n with
  | zero => intro i tr hI; simpa [logBlock] using hI
  | succ n ih =>
    intro i tr hI
    have := ih (i + 1) _ (h.log p tr i k hI)
    simpa [logBlock, List.range'_succ] using this

theorem callLoggers (h : Inv P I) {p : Population T} {k : LogKind} {ls : List (Logger σ T)}
    {w w' : World σ T} {u : Unit} (hr : callLoggers k p.state 0 ls w = .ok (u, w'))
    (hI : I p w.trace) : I p w'.trace := by
  rw [callLoggers_trace hr]
  exact h.logs _ _ _ hI

theorem step (h : Inv P I) {c : Comps σ T} {p p' : Population T} {w w' : World σ T} (hc : P c)
    (hr : step c p w = .ok (p', w')) (hI : I p w.trace) : I p' w'.trace := by
  obtain ⟨w1, h1, h2⟩ := step_ok.1 hr
  exact h.callLoggers h2 (h.core c p p' w w1 hc hI h1)

theorem loop (h : Inv P I) {c : Comps σ T} (hc : P c) :
    ∀ {fuel : Nat} {p p' : Population T} {w w' : World σ T},
      loop c fuel p w = .ok (p', w') → I p w.trace → I p' w'.trace := by
  intro fuel
  induction fuel with
  | zero => intro p p' w w' hr; simp [GA.loop, M.fail] at hr
  | succ fuel ih =>
    intro p p' w w' hr hI
    obtain ⟨b, s', -, hr⟩ := loop_succ_ok.1 hr
    rcases hr with ⟨rfl, rfl, rfl⟩ | ⟨rfl, p1, w1, h1, h2⟩
    · exact h.check _ _ _ hI
    · exact ih h2 (h.step hc h1 (h.check _ _ _ hI))

theorem turns (h : Inv P I) {c : Comps σ T} (hc : P c) :
    ∀ {n : Nat} {p p' : Population T} {w w' : World σ T},
      turns c n p w = .ok (p', w') → I p w.trace → I p' w'.trace := by
  intro n
  induction n with
  | zero =>
    intro p p' w w' hr hI
    obtain ⟨rfl, rfl⟩ := M.pure_eq_ok.1 hr
    exact hI
  | succ n ih =>
    intro p p' w w' hr hI
    obtain ⟨s', -, p1, w1, h1, h2⟩ := turns_succ_ok.1 hr
    exact ih h2 (h.step hc h1 (h.check _ _ _ hI))

theorem nextIterations (h : Inv P I) {fuel : Nat} {o o' : Opt σ T} {r : Option (Solution T)}
    {w w' : World σ T} (hc : P o.comps) (hr : nextIterations fuel o w = .ok ((r, o'), w'))
    (hI : I o.pop w.trace) : I o'.pop w'.trace := by
  obtain ⟨p, w1, w2, h1, h2, h3, -, rfl⟩ := nextIterations_ok.1 hr
  exact h.callLoggers h3 (h.loop hc h2 (h.callLoggers h1 hI))

theorem findMin (h : Inv P I) {fuel : Nat} {o o' : Opt σ T} {r : Option (Solution T)}
    {w w' : World σ T} (hc : P o.comps) (hr : findMin fuel o w = .ok ((r, o'), w'))
    (hI : I o.pop w.trace) : I o'.pop w'.trace := by
  obtain ⟨p, w1, w2, h1, h2, h3⟩ := findMin_ok.1 hr
  exact h.nextIterations (o := { o with pop := p }) hc h3
    (h.callLoggers h2 (h.begin _ _ _ _ _ hc hI h1))

theorem call (h : Inv P I) {k : Call σ T} {o o' : Opt σ T} {r : Ret T} {w w' : World σ T}
    (hc : P o.comps) (hr : call o k w = .ok ((r, o'), w')) (hI : I o.pop w.trace) :
    I o'.pop w'.trace := by
  cases k with
  | findMin fuel =>
    obtain ⟨⟨r1, o1⟩, w1, h1, h2⟩ := M.bind_eq_ok.1 hr
    obtain ⟨h3, rfl⟩ := M.pure_eq_ok.1 h2
    cases h3
    exact h.findMin hc h1 hI
  | nextIterations fuel =>
    obtain ⟨⟨r1, o1⟩, w1, h1, h2⟩ := M.bind_eq_ok.1 hr
    obtain ⟨h3, rfl⟩ := M.pure_eq_ok.1 h2
    cases h3
    exact h.nextIterations hc h1 hI
  | _ =>
    obtain ⟨h3, rfl⟩ := M.pure_eq_ok.1 hr
    cases h3
    exact hI

end Inv

theorem nextIterations_comps {fuel : Nat} {o o' : Opt σ T} {r : Option (Solution T)}
    {w w' : World σ T} (hr : nextIterations fuel o w = .ok ((r, o'), w')) : o'.comps = o.comps := by
  obtain ⟨p, w1, w2, -, -, -, -, rfl⟩ := nextIterations_ok.1 hr
  rfl

theorem findMin_comps {fuel : Nat} {o o' : Opt σ T} {r : Option (Solution T)}
    {w w' : World σ T} (hr : findMin fuel o w = .ok ((r, o'), w')) : o'.comps = o.comps := by
  obtain ⟨p, w1, w2, -, -, h3⟩ := findMin_ok.1 hr
  exact nextIterations_comps (o := { o with pop := p }) h3

theorem call_comps {k : Call σ T} {o o' : Opt σ T} {r : Ret T} {w w' : World σ T}
    (hr : call o k w = .ok ((r, o'), w')) : o'.comps = setComps o.comps k := by
  cases k with
  | findMin fuel =>
    obtain ⟨⟨r1, o1⟩, w1, h1, h2⟩ := M.bind_eq_ok.1 hr
    obtain ⟨h3, rfl⟩ := M.pure_eq_ok.1 h2
    cases h3
    exact findMin_comps h1
  | nextIterations fuel =>
    obtain ⟨⟨r1, o1⟩, w1, h1, h2⟩ := M.bind_eq_ok.1 hr
    obtain ⟨h3, rfl⟩ := M.pure_eq_ok.1 h2
    cases h3
    exact nextIterations_comps h1
  | _ =>
    obtain ⟨h3, rfl⟩ := M.pure_eq_ok.1 hr
    cases h3
    rfl

theorem run_cons_ok {k : Call σ T} {ks : List (Call σ T)} {o o' : Opt σ T} {rs : List (Ret T)}
    {w w' : World σ T} : run o (k :: ks) w = .ok ((rs, o'), w') ↔
      ∃ r o1 w1 rs', call o k w = .ok ((r, o1), w1) ∧ run o1 ks w1 = .ok ((rs', o'), w') ∧
        rs = r :: rs' := by
  rw [run]
  simp only [M.bind_eq_ok, M.pure_eq_ok, Prod.exists, Prod.mk.injEq]
  constructor
  · rintro ⟨r, o1, w1, h1, rs', o2, w2, h2, ⟨rfl, rfl⟩, rfl⟩
    exact ⟨r, o1, w1, rs', h1, h2, rfl⟩
  · rintro ⟨r, o1, w1, rs', h1, h2, rfl⟩
    exact ⟨r, o1, w1, h1, rs', o', w', h2, ⟨rfl, rfl⟩, rfl⟩

theorem Inv.run {P : Comps σ T → Prop} {I : Population T → List (Ev T) → Prop} (h : Inv P I) :
    ∀ {ks : List (Call σ T)} {o o' : Opt σ T} {rs : List (Ret T)} {w w' : World σ T},
      Always P o.comps ks → run o ks w = .ok ((rs, o'), w') → I o.pop w.trace →
      I o'.pop w'.trace ∧ P o'.comps := by
  intro ks
  induction ks with
  | nil =>
    intro o o' rs w w' hP hr hI
    obtain ⟨h1, rfl⟩ := M.pure_eq_ok.1 hr
    cases h1
    exact ⟨hI, hP⟩
  | cons k ks ih =>
    intro o o' rs w w' hP hr hI
    obtain ⟨r, o1, w1, rs', h1, h2, rfl⟩ := run_cons_ok.1 hr
    refine ih ?_ h2 (h.call hP.1 h1 hI)
    rw [call_comps h1]; exact hP.2

/-- The invariant holds at every point of every history. -/
theorem Inv.runTo {P : Comps σ T → Prop} {I : Population T → List (Ev T) → Prop} (h : Inv P I)
    {ks : List (Call σ T)} {pt : Point} {o o' : Opt σ T} {w w' : World σ T}
    (hP : Always P o.comps ks) (hr : runTo o ks pt w = .ok (o', w')) (hI : I o.pop w.trace) :
    I o'.pop w'.trace ∧ P o'.comps := by
  unfold GA.runTo at hr
  obtain ⟨⟨rs, o1⟩, w1, h1, h2⟩ := M.bind_eq_ok.1 hr
  obtain ⟨hI1, hP1⟩ := h.run hP h1 hI
  cases pt with
  | done =>
    obtain ⟨rfl, rfl⟩ := M.pure_eq_ok.1 h2
    exact ⟨hI1, hP1⟩
  | inFindMin n =>
    obtain ⟨o2, w2, h3, h2⟩ := M.bind_eq_ok.1 h2
    obtain ⟨p, w3, h4, h2⟩ := M.bind_eq_ok.1 h2
    obtain ⟨rfl, rfl⟩ := M.pure_eq_ok.1 h2
    obtain ⟨p1, w4, w5, h5, h6, h7, rfl⟩ := findMinHead_ok.1 h3
    exact ⟨h.turns hP1 h4 (h.callLoggers h7 (h.callLoggers h6 (h.begin _ _ _ _ _ hP1 hI1 h5))), hP1⟩
  | inNextIterations n =>
    obtain ⟨u, w2, h3, h2⟩ := M.bind_eq_ok.1 h2
    obtain ⟨p, w3, h4, h2⟩ := M.bind_eq_ok.1 h2
    obtain ⟨rfl, rfl⟩ := M.pure_eq_ok.1 h2
    exact ⟨h.turns hP1 h4 (h.callLoggers h3 hI1), hP1⟩

end Verif.GA
