import Verif.Spec.Bounding
import Verif.Proofs.GeneticTurns
import Verif.Props.Selection
import Verif.Props.Demo

/-!
# C22 - C27, C31, C32, C67, C68: runs of the genetic optimizer

A history is a list of public calls, followed by a point: after the last call, or inside one more `find_min` or
`next_iterations` after `n` turns of its loop (so statements also cover runs that never stop).
-/

namespace Verif.Props

open Verif Spec GA

variable {σ T : Type}

/-! ## Library selections are legal -/

theorem legal_of_onlyKills {sel : Population T → M σ (Population T)}
    (h : ∀ p s p' s', sel p s = .ok (p', s') → OnlyKills p p') : LegalSelection sel := by
  intro p s p' s' hr
  obtain ⟨h1, h2, h3, h4⟩ := h p s p' s' hr
  refine ⟨h1, h2, h3, fun j hj => .inl ?_⟩
  have : List.Forall₂ (fun (i j : Individual T) => j.sol = i.sol) p.individuals p'.individuals :=
    h4.imp (fun i j ⟨a, b, _⟩ => by unfold Individual.sol; rw [a, b])
  have hm : p'.individuals.map Individual.sol = p.individuals.map Individual.sol := by
    clear h4 h hr hj h1 h2 h3
    generalize p'.individuals = l' at this
    generalize p.individuals = l at this
    induction this with
    | nil => rfl
    | cons a _ ih => rw [List.map_cons, List.map_cons, a, ih]
  rw [← hm]; exact List.mem_map_of_mem hj

/-- Every selection of the library is legal. -/
theorem legal_library {f : Fmt} (sel : Population (List (Fl f)) → M σ (Population (List (Fl f))))
    (h : LibSelection sel) : LegalSelection sel :=
  legal_of_onlyKills (fun p s p' s' hr => (C17_one sel h p p' s s' hr).1)

theorem demo_legal : Legal Demo.opt.comps := by
  intro sel hs
  have : sel = Selection.killFitnessNaN ∨ sel = Selection.limitPopulation 4 := by
    simpa [Demo.opt, GA.new] using hs
  rcases this with rfl | rfl
  · exact legal_library _ .killFitnessNaN
  · exact legal_library _ (.limitPopulation 4)

theorem demo_fresh : Fresh Demo.opt Demo.world := ⟨rfl, rfl⟩

/-- A history of the demo optimizer: two runs, then one turn into a third. -/
theorem demo_history : M.okAnd (runTo Demo.opt [.findMin 3, .setStopChecker (Stop.maxIterations 3),
    .nextIterations 3] (.inFindMin 1) Demo.world)
    (fun o w => o.pop.iteration == 1 && (goalArgs w.trace).length == 16) = true := by decide +kernel

theorem demo_always : Always Legal Demo.opt.comps [.findMin 3, .setStopChecker (Stop.maxIterations 3),
    .nextIterations 3] := ⟨demo_legal, demo_legal, demo_legal, demo_legal⟩

/-! ## C22 -/

/-- C22: at every point of every history everything the optimizer holds or has shown to loggers and stop
checkers had been evaluated with exactly the value shown. -/
theorem C22_evaluated (o o' : Opt σ T) (w w' : World σ T) (ks : List (Call σ T)) (pt : Point)
    (h0 : Fresh o w) (hl : Always Legal o.comps ks) (hr : runTo o ks pt w = .ok (o', w')) :
    OnlyEvaluated w'.trace ∧ (∀ i ∈ o'.pop.individuals, Evaluated w'.trace i.sol) ∧
      (∀ i, o'.pop.best = some i → Evaluated w'.trace i.sol) ∧
      (∀ i, o'.pop.worst = some i → Evaluated w'.trace i.sol) := by
  have := inv_evaluated.runTo hl hr (by
    rw [h0.1, h0.2]
    refine ⟨?_, by simp [AllEvaluated]⟩
    intro b e a h; simp at h)
  exact ⟨this.1.1, this.1.2⟩

/-- C22: what a call returns was evaluated. -/
theorem C22_returned (o o' : Opt σ T) (w w' : World σ T) (ks : List (Call σ T)) (rs : List (Ret T))
    (h0 : Fresh o w) (hl : Always Legal o.comps ks) (hr : run o ks w = .ok ((rs, o'), w'))
    (a : Solution T) (ha : some (some a) ∈ rs) : Evaluated w'.trace a := by
  obtain ⟨-, hret⟩ := inv_evaluated.run_ret hl hr (by
    rw [h0.1, h0.2]
    refine ⟨?_, by simp [AllEvaluated]⟩
    intro b e a h; simp at h)
  obtain ⟨p, tr, ext, hI, hb, ht⟩ := hret _ ha
  rw [ht]
  exact (hI.2.state a hb.symm).append

theorem always_goal (g : T → M σ F64) : ∀ (ks : List (Call σ T)) (c : Comps σ T), c.goal = g →
    Always (fun c => c.goal = g) c ks := by
  intro ks
  induction ks with
  | nil => intro c h; exact h
  | cons k ks ih =>
    intro c h
    refine ⟨h, ih _ ?_⟩
    cases k <;> exact h

theorem zipWith_goal {g : T → M σ F64} {xs : List T} {vals : List F64}
    (h : List.Forall₂ (fun x v => Returned (g x) v) xs vals) {x : T} {v : F64}
    (hm : Ev.goal x v ∈ List.zipWith Ev.goal xs vals) : Returned (g x) v := by
  induction h with
  | nil => simp at hm
  | cons h1 _ ih =>
    rw [List.zipWith_cons_cons, List.mem_cons] at hm
    rcases hm with hm | hm
    · cases hm; exact h1
    · exact ih hm

theorem inv_goal (g : T → M σ F64) : Inv (σ := σ) (T := T) (fun c => c.goal = g)
    (fun _ tr => ∀ x v, Ev.goal x v ∈ tr → Returned (g x) v) where
  log := by intro p tr i k h x v hm; exact h x v (by simpa using hm)
  check := by intro p tr b h x v hm; exact h x v (by simpa using hm)
  begin := by
    rintro c p p' w w' rfl h hr x v hm
    obtain ⟨xs, vals, -, hv, -, ht⟩ := begin_ok hr
    rw [ht, List.mem_append, List.mem_cons] at hm
    rcases hm with hm | hm | hm
    · exact h x v hm
    · cases hm
    · exact zipWith_goal hv hm
  core := by
    rintro c p p' w w' rfl h hr x v hm
    obtain ⟨evs, gen, ht, -⟩ := core_ok hr
    rw [ht, List.mem_append] at hm
    rcases hm with hm | hm
    · exact h x v hm
    · rw [gen.events_ok] at hm
      simp only [List.mem_append, List.mem_singleton, reduceCtorEq, false_or, or_false] at hm
      have hpre : ∀ {fs : List (Population T → List T → M σ (List T))} {i xs evs ys},
          PreBirths p i fs xs evs ys → Ev.goal x v ∉ evs := by
        intro fs i xs evs ys hp
        induction hp with
        | nil => simp
        | cons _ _ ih => simpa using ih
      have hsel : ∀ {fs : List (Population T → M σ (Population T))} {i q evs q'},
          Selections i fs q evs q' → Ev.goal x v ∉ evs := by
        intro fs i q evs q' hp
        induction hp with
        | nil => simp
        | cons _ _ ih => simpa using ih
      rcases hm with (((hm | hm) | hm) | hm) | hm
      · obtain ⟨_, _, _, _, h'⟩ := mem_zipWith hm; cases h'
      · obtain ⟨_, _, _, _, h'⟩ := mem_zipWith hm; cases h'
      · exact absurd hm (hpre gen.preBirth_ok)
      · exact zipWith_goal gen.goal_ok hm
      · exact absurd hm (hsel gen.select_ok)

/-- C22: every recorded goal value is what the goal object returned. -/
theorem C22_goal (o o' : Opt σ T) (w w' : World σ T) (ks : List (Call σ T)) (pt : Point)
    (h0 : Fresh o w) (hr : runTo o ks pt w = .ok (o', w')) (x : T) (v : F64)
    (hm : Ev.goal x v ∈ w'.trace) : Returned (o.comps.goal x) v :=
  ((inv_goal o.comps.goal).runTo (always_goal _ _ _ rfl) hr (by rw [h0.2]; simp)).1 x v hm

/-- C22: with a pure goal function `g`, every individual's fitness is `g` of its chromosomes, and the pair returned by
`find_min` or `next_iterations` satisfies `value = g(point)`. -/
theorem C22_pure (g : T → F64) (o o' : Opt σ T) (hg : o.comps.goal = fun x => pure (g x))
    (w w' : World σ T) (ks : List (Call σ T)) (rs : List (Ret T))
    (h0 : Fresh o w) (hl : Always Legal o.comps ks) (hr : run o ks w = .ok ((rs, o'), w')) :
    (∀ i ∈ o'.pop.individuals, i.fitness = g i.chromosomes) ∧
    (∀ x v, some (some (x, v)) ∈ rs → v = g x) := by
  have hto : runTo o ks .done w = .ok (o', w') := by
    unfold runTo; exact M.bind_eq_ok.2 ⟨_, _, hr, rfl⟩
  have key : ∀ x v, Ev.goal x v ∈ w'.trace → v = g x := by
    intro x v hm
    obtain ⟨s, s', h⟩ := C22_goal o o' w w' ks .done h0 hto x v hm
    rw [hg] at h
    exact (M.pure_eq_ok.1 h).1.symm
  constructor
  · intro i hi
    exact key _ _ ((C22_evaluated o o' w w' ks .done h0 hl hto).2.1 i hi)
  · intro x v hm
    exact key _ _ (C22_returned o o' w w' ks rs h0 hl hr (x, v) hm)

example : Fresh Demo.opt Demo.world ∧ Always Legal Demo.opt.comps
    [.findMin 3, .setStopChecker (Stop.maxIterations 3), .nextIterations 3] ∧
    ∃ o' w', runTo Demo.opt [.findMin 3, .setStopChecker (Stop.maxIterations 3), .nextIterations 3]
      (.inFindMin 1) Demo.world = .ok (o', w') := by
  obtain ⟨o', w', h, -⟩ := M.okAnd_iff.1 demo_history
  exact ⟨demo_fresh, demo_always, o', w', h⟩

/-! ## C23 -/

/-- `b` is reported as the best of `xs`: a member, no number is better, NaN only if all are NaN. -/
def IsBest (xs : List (Solution T)) (b : Solution T) : Prop :=
  b ∈ xs ∧ ∀ a ∈ xs, a.2.isNan = false → b.2.isNan = false ∧ a.2.lt b.2 = false

/-- `b` is reported as the worst of `xs`: a member, no number is worse, NaN only if all are NaN. -/
def IsWorst (xs : List (Solution T)) (b : Solution T) : Prop :=
  b ∈ xs ∧ ∀ a ∈ xs, a.2.isNan = false → b.2.isNan = false ∧ b.2.lt a.2 = false

theorem isBest_of {p : Population T} {x : Individual T} (hm : x ∈ p.individuals)
    (h : ∀ i ∈ p.individuals, Population.BestLe x.fitness i.fitness) : IsBest (agents p) x.sol := by
  refine ⟨List.mem_map_of_mem hm, ?_⟩
  intro a ha hn
  obtain ⟨i, hi, rfl⟩ := List.mem_map.1 ha
  have := Fl.le_iff.1 (h i hi hn)
  exact ⟨this.1, by rw [← Bool.not_eq_true, Fl.lt_iff]; simp only [Individual.sol]; omega⟩

theorem isWorst_of {p : Population T} {x : Individual T} (hm : x ∈ p.individuals)
    (h : ∀ i ∈ p.individuals, Population.WorstGe x.fitness i.fitness) : IsWorst (agents p) x.sol := by
  refine ⟨List.mem_map_of_mem hm, ?_⟩
  intro a ha hn
  obtain ⟨i, hi, rfl⟩ := List.mem_map.1 ha
  have := Fl.le_iff.1 (h i hi hn)
  exact ⟨this.2.1, by rw [← Bool.not_eq_true, Fl.lt_iff]; simp only [Individual.sol]; omega⟩

/-- The best and worst reported in an event are extremal. -/
def ReportsExtremes (e : Ev T) : Prop :=
  ∀ ags best worst it, e = .generation ags best worst it → ags ≠ [] →
    (∃ b, best = some b ∧ IsBest ags b) ∧ (∃ b, worst = some b ∧ IsWorst ags b)

theorem reportsExtremes_silent {e : Ev T} (h : Silent e) : ReportsExtremes e := by
  rintro ags best worst it rfl; exact absurd h id

theorem inv_extremes : Inv (σ := σ) (T := T) (fun _ => True)
    (fun p tr => (∀ e ∈ tr, ReportsExtremes e) ∧
      (1 ≤ p.iteration → p.individuals ≠ [] → ∃ b w, p.best = some b ∧ p.worst = some w ∧
        IsBest (agents p) b.sol ∧ IsWorst (agents p) w.sol)) where
  log := by
    rintro p tr i k ⟨h1, h2⟩
    refine ⟨?_, h2⟩
    intro e he
    rcases List.mem_append.1 he with he | he
    · exact h1 e he
    · rw [List.mem_singleton] at he; subst he; rintro _ _ _ _ h; cases h
  check := by
    rintro p tr b ⟨h1, h2⟩
    refine ⟨?_, h2⟩
    intro e he
    rcases List.mem_append.1 he with he | he
    · exact h1 e he
    · rw [List.mem_singleton] at he; subst he; rintro _ _ _ _ h; cases h
  begin := by
    rintro c p p' w w' - ⟨h1, -⟩ hr
    obtain ⟨xs, vals, -, -, rfl, ht⟩ := begin_ok hr
    refine ⟨?_, fun h => by simp at h⟩
    rw [ht]
    intro e he
    rcases List.mem_append.1 he with he | he
    · exact h1 e he
    · rcases List.mem_cons.1 he with rfl | he
      · exact reportsExtremes_silent trivial
      · obtain ⟨_, _, _, _, rfl⟩ := mem_zipWith he; exact reportsExtremes_silent trivial
  core := by
    rintro c p p' w w' - ⟨h1, -⟩ hr
    obtain ⟨evs, g, ht, hup⟩ := core_ok hr
    obtain ⟨sil, rfl, hs, -⟩ := g.split
    have hex : p'.individuals ≠ [] → ∃ b w, p'.best = some b ∧ p'.worst = some w ∧
        IsBest (agents p') b.sol ∧ IsWorst (agents p') w.sol := by
      intro hne
      obtain ⟨b, hb, hbm, hba⟩ := hup.best hne
      obtain ⟨w, hw, hwm, hwa⟩ := hup.worst hne
      exact ⟨b, w, hb, hw, isBest_of hbm hba, isWorst_of hwm hwa⟩
    refine ⟨?_, fun _ => hex⟩
    rw [ht]
    intro e he
    rcases List.mem_append.1 he with he | he
    · exact h1 e he
    rcases List.mem_append.1 he with he | he
    · exact reportsExtremes_silent (hs e he)
    · rw [List.mem_singleton] at he
      subst he
      rintro ags best worst it h hne
      cases h
      obtain ⟨b, w, hb, hw, hb2, hw2⟩ := hex (by intro h; apply hne; unfold agents; rw [h]; rfl)
      exact ⟨⟨b.sol, by simp [Population.state, hb], hb2⟩, ⟨w.sol, by simp [hw], hw2⟩⟩

/-- C23: in every generation of every history, whatever the components do, the reported best and worst are extremal
among the survivors (if there are any). -/
theorem C23_extremes (o o' : Opt σ T) (w w' : World σ T) (ks : List (Call σ T)) (pt : Point)
    (h0 : Fresh o w) (hr : runTo o ks pt w = .ok (o', w'))
    (ags : List (Solution T)) (best worst : Option (Solution T)) (it : Nat)
    (hm : Ev.generation ags best worst it ∈ w'.trace) (hne : ags ≠ []) :
    (∃ b, best = some b ∧ IsBest ags b) ∧ (∃ b, worst = some b ∧ IsWorst ags b) := by
  have hP : ∀ (ks : List (Call σ T)) c, Always (fun _ => True) c ks := by
    intro ks; induction ks with
    | nil => intro _; trivial
    | cons k ks ih => intro _; exact ⟨trivial, ih _⟩
  exact (inv_extremes.runTo (hP _ _) hr (by rw [h0.1, h0.2]; simp)).1.1 _ hm _ _ _ _ rfl hne

theorem always_true (P : Comps σ T → Prop) (hP : ∀ c, P c) :
    ∀ (ks : List (Call σ T)) c, Always P c ks := by
  intro ks; induction ks with
  | nil => intro _; exact hP _
  | cons k ks ih => intro _; exact ⟨hP _, ih _⟩

/-- C23, for the state itself: after at least one generation, if anyone is alive. -/
theorem C23_state (o o' : Opt σ T) (w w' : World σ T) (ks : List (Call σ T)) (pt : Point)
    (h0 : Fresh o w) (hr : runTo o ks pt w = .ok (o', w'))
    (h1 : 1 ≤ o'.pop.iteration) (h2 : o'.pop.individuals ≠ []) :
    ∃ b v, o'.pop.best = some b ∧ o'.pop.worst = some v ∧
      IsBest (agents o'.pop) b.sol ∧ IsWorst (agents o'.pop) v.sol :=
  (inv_extremes.runTo (always_true _ (fun _ => trivial) _ _) hr (by rw [h0.1, h0.2]; simp)).1.2 h1 h2

/-- A NaN among the survivors is never the best or the worst while there is a number. -/
example : M.okAnd (Population.updateBestWorst (⟨[⟨(), Fl.nan, true⟩, ⟨(), Fl.ofNat 2, true⟩,
    ⟨(), Fl.inf false, true⟩, ⟨(), Fl.one, true⟩, ⟨(), Fl.nan, true⟩], none, none, 0⟩ : Population Unit) ())
    (fun p _ => (p.best.map (·.fitness)) == some Fl.one && (p.worst.map (·.fitness)) == some (Fl.inf false)) =
    true := by decide +kernel

/-! ## C27 -/

theorem owed_fold_const {s : List T × List T} :
    ∀ {evs : List (Ev T)}, (∀ e ∈ evs, ∀ s, owedStep s e = s) → evs.foldl owedStep s = s := by
  intro evs
  induction evs with
  | nil => intro _; rfl
  | cons e evs ih =>
    intro h
    rw [List.foldl_cons, h e (by simp)]
    exact ih (fun e he => h e (by simp [he]))

theorem owed_mutated {d : List T} : ∀ {ys xs acc : List T}, xs.length = ys.length →
    (List.zipWith Ev.mutated xs ys).foldl owedStep (d, acc) = (d, acc ++ ys) := by
  intro ys
  induction ys with
  | nil => intro xs acc h; cases xs <;> simp at h ⊢
  | cons y ys ih =>
    intro xs acc h
    cases xs with
    | nil => simp at h
    | cons x xs =>
      rw [List.zipWith_cons_cons, List.foldl_cons]
      show (List.zipWith Ev.mutated xs ys).foldl owedStep (d, acc ++ [y]) = _
      rw [ih (by simpa using h)]; simp

theorem owed_preBirths {p : Population T} {d : List T} :
    ∀ {fs : List (Population T → List T → M σ (List T))} {i xs evs ys},
      PreBirths p i fs xs evs ys → evs.foldl owedStep (d, xs) = (d, ys) := by
  intro fs i xs evs ys h
  induction h with
  | nil => rfl
  | cons _ _ ih => rw [List.foldl_cons]; exact ih

theorem goalArgs_goals : ∀ {xs : List T} {vals : List F64}, xs.length = vals.length →
    goalArgs (List.zipWith Ev.goal xs vals) = xs := by
  intro xs
  induction xs with
  | nil => intro vals _; rfl
  | cons x xs ih =>
    intro vals h
    cases vals with
    | nil => simp at h
    | cons v vals =>
      show x :: goalArgs (List.zipWith Ev.goal xs vals) = _
      rw [ih (by simpa using h)]

theorem goalArgs_nil {evs : List (Ev T)} (h : ∀ e ∈ evs, ∀ x v, e ≠ .goal x v) : goalArgs evs = [] := by
  refine filterMap_nil_of fun e he => ?_
  cases e with
  | goal x v => exact absurd rfl (h _ he x v)
  | _ => rfl

theorem selections_kind : ∀ {fs : List (Population T → M σ (Population T))} {i q evs q'},
    Selections i fs q evs q' → ∀ e ∈ evs, ∃ j a b, e = .selected j a b := by
  intro fs i q evs q' h
  induction h with
  | nil => simp
  | cons _ _ ih =>
    intro e he
    rcases List.mem_cons.1 he with rfl | he
    · exact ⟨_, _, _, rfl⟩
    · exact ih e he

theorem preBirths_kind {p : Population T} : ∀ {fs : List (Population T → List T → M σ (List T))} {i xs evs ys},
    PreBirths p i fs xs evs ys → ∀ e ∈ evs, ∃ j a b, e = .preBorn j a b := by
  intro fs i q evs q' h
  induction h with
  | nil => simp
  | cons _ _ ih =>
    intro e he
    rcases List.mem_cons.1 he with rfl | he
    · exact ⟨_, _, _, rfl⟩
    · exact ih e he

theorem generation_owed {c : Comps σ T} {p p' : Population T} {evs : List (Ev T)}
    (g : Generation c p evs p') (s : List T × List T) :
    evs.foldl owedStep s = (s.1 ++ g.born, g.born) ∧ goalArgs evs = g.born := by
  constructor
  · refine (congrArg (List.foldl owedStep s) g.events_ok).trans ?_
    simp only [List.foldl_append, List.foldl_cons, List.foldl_nil]
    have h1 : owedStep s (.paired (agents p) g.families) = (s.1, []) := rfl
    rw [h1, owed_fold_const (evs := List.zipWith Ev.crossed g.parents g.children), owed_mutated,
      List.nil_append, owed_preBirths g.preBirth_ok,
      owed_fold_const (evs := List.zipWith Ev.goal g.born g.vals), owed_fold_const (evs := g.selEvs)]
    · rfl
    · intro e he s
      obtain ⟨_, _, _, rfl⟩ := selections_kind g.select_ok e he; rfl
    · intro e he s
      obtain ⟨_, _, _, _, rfl⟩ := mem_zipWith he; rfl
    · exact g.mutation_ok.length_eq
    · intro e he s
      obtain ⟨_, _, _, _, rfl⟩ := mem_zipWith he; rfl
  · refine (congrArg goalArgs g.events_ok).trans ?_
    simp only [goalArgs_append]
    rw [goalArgs_goals g.goal_ok.length_eq,
      goalArgs_nil (evs := List.zipWith Ev.crossed g.parents g.children),
      goalArgs_nil (evs := List.zipWith Ev.mutated g.children.flatten g.mutants),
      goalArgs_nil (evs := g.preEvs), goalArgs_nil (evs := g.selEvs)]
    · simp [goalArgs]
    · intro e he
      obtain ⟨_, _, _, rfl⟩ := selections_kind g.select_ok e he
      intro _ _ h; cases h
    · intro e he
      obtain ⟨_, _, _, rfl⟩ := preBirths_kind g.preBirth_ok e he
      intro _ _ h; cases h
    · intro e he
      obtain ⟨_, _, _, _, rfl⟩ := mem_zipWith he; intro _ _ h; cases h
    · intro e he
      obtain ⟨_, _, _, _, rfl⟩ := mem_zipWith he; intro _ _ h; cases h

theorem inv_owed : Inv (σ := σ) (T := T) (fun _ => True) (fun _ tr => goalArgs tr = owed tr) where
  log := by
    intro p tr i k h
    unfold owed at h ⊢
    rw [goalArgs_append, h, List.foldl_append]
    simp [goalArgs, owedStep]
  check := by
    intro p tr b h
    unfold owed at h ⊢
    rw [goalArgs_append, h, List.foldl_append]
    simp [goalArgs, owedStep]
  begin := by
    rintro c p p' w w' - h hr
    obtain ⟨xs, vals, -, hv, -, ht⟩ := begin_ok hr
    unfold owed at h ⊢
    rw [ht, goalArgs_append, h, List.foldl_append, List.foldl_cons,
      owed_fold_const (evs := List.zipWith Ev.goal xs vals)]
    · have : goalArgs (.created xs :: List.zipWith Ev.goal xs vals) =
          goalArgs (List.zipWith Ev.goal xs vals) := rfl
      rw [this, goalArgs_goals hv.length_eq]; rfl
    · intro e he s
      obtain ⟨_, _, _, _, rfl⟩ := mem_zipWith he; rfl
  core := by
    rintro c p p' w w' - h hr
    obtain ⟨evs, g, ht, -⟩ := core_ok hr
    unfold owed at h ⊢
    rw [ht, goalArgs_append, h, List.foldl_append, (generation_owed g _).1, (generation_owed g ([], [])).2]

/-- C27 (genetic): at every point of every history the goal has been called exactly on the created chromosomes and on
the children that came through all pre-birth filters, once each and in that order. -/
theorem C27_genetic (o o' : Opt σ T) (w w' : World σ T) (ks : List (Call σ T)) (pt : Point)
    (h0 : Fresh o w) (hr : runTo o ks pt w = .ok (o', w')) : goalArgs w'.trace = owed w'.trace :=
  (inv_owed.runTo (always_true _ (fun _ => trivial) _ _) hr (by rw [h0.2]; rfl)).1

/-! ## C32 -/

theorem inv_alive : Inv (σ := σ) (T := T) (fun _ => True)
    (fun p _ => ∀ i ∈ p.individuals, i.alive = true) where
  log := fun _ _ _ _ h => h
  check := fun _ _ _ h => h
  begin := by
    rintro c p p' w w' - - hr
    obtain ⟨xs, vals, -, -, rfl, -⟩ := begin_ok hr
    intro i hi; exact (mem_newborn hi).2.1
  core := by
    rintro c p p' w w' - - hr i hi
    obtain ⟨evs, g, -, -⟩ := core_ok hr
    rw [g.alive_ok] at hi
    exact (List.mem_filter.1 hi).2

/-- C32: at any point of any history, the next turn of the loop is a generation in the sense of
`Spec.Generation` (pairing, crossing, mutation, pre-birth, goal, selections, removal of the dead, in this order),
followed by the loggers; and all individuals are alive when it begins. -/
theorem C32_pipeline (o o1 : Opt σ T) (w w1 w2 : World σ T) (ks : List (Call σ T)) (pt : Point)
    (p' : Population T) (h0 : Fresh o w) (hr : runTo o ks pt w = .ok (o1, w1))
    (hs : step o1.comps o1.pop w1 = .ok (p', w2)) :
    (∀ i ∈ o1.pop.individuals, i.alive = true) ∧
    ∃ evs, ∃ _ : Generation o1.comps o1.pop evs p', w2.trace = w1.trace ++ evs ++
      (List.range o1.comps.loggers.length).map (fun i => .log i .next p'.state) := by
  constructor
  · exact (inv_alive.runTo (always_true _ (fun _ => trivial) _ _) hr (by rw [h0.1]; simp)).1
  · obtain ⟨w3, h3, h4⟩ := step_ok.1 hs
    obtain ⟨evs, g, ht, -⟩ := core_ok h3
    refine ⟨evs, g, ?_⟩
    rw [callLoggers_trace h4, ht]
    unfold logBlock
    rw [List.range_eq_range']

example : M.okAnd ((do
      let o ← runTo Demo.opt [.findMin 3] (.inNextIterations 0)
      step o.comps o.pop : M (World (List Nat) (List F64)) (Population (List F64))) Demo.world)
    (fun p _ => p.iteration == 3) = true := by decide +kernel

/-! ## C67 -/

/-- The generation numbers shown by an event agree with the replay of what happened before. -/
def NumberOK (before : List (Ev T)) : Ev T → Prop
  | .log _ _ s => s.iteration = generationsSince before
  | .check s _ => s.iteration = generationsSince before
  | .generation _ _ _ i => i = generationsSince before + 1
  | _ => True

theorem generationsSince_snoc (a : List (Ev T)) (e : Ev T) : generationsSince (a ++ [e]) =
    (match e with
      | .created _ => 0
      | .generation _ _ _ _ => generationsSince a + 1
      | _ => generationsSince a) := by
  unfold generationsSince; rw [List.foldl_append]; cases e <;> rfl

def NumbersOK (tr : List (Ev T)) : Prop :=
  ∀ before e after, tr = before ++ e :: after → NumberOK before e

theorem numbersOK_snoc {tr : List (Ev T)} {e : Ev T} :
    NumbersOK (tr ++ [e]) ↔ NumbersOK tr ∧ NumberOK tr e := by
  constructor
  · intro h
    refine ⟨?_, h tr e [] rfl⟩
    intro b e' a hb
    exact h b e' (a ++ [e]) (by rw [hb]; simp)
  · rintro ⟨h1, h2⟩ b e' a hb
    rcases List.eq_nil_or_concat a with rfl | ⟨a', x, rfl⟩
    · have := List.append_inj' hb rfl
      obtain ⟨rfl, h3⟩ := this
      simp only [List.cons.injEq, and_true] at h3
      subst h3; exact h2
    · rw [List.concat_eq_append, ← List.cons_append, ← List.append_assoc] at hb
      exact h1 b e' a' (List.append_inj' hb rfl).1

theorem numbersOK_silent {tr : List (Ev T)} :
    ∀ {evs : List (Ev T)}, (∀ e ∈ evs, Silent e) → NumbersOK tr → NumbersOK (tr ++ evs) := by
  intro evs
  induction evs using List.reverseRecOn with
  | nil => intro _ h; simpa using h
  | append_singleton evs e ih =>
    intro hs h
    rw [← List.append_assoc, numbersOK_snoc]
    refine ⟨ih (fun e he => hs e (by simp [he])) h, ?_⟩
    have := hs e (by simp)
    cases e <;> first | trivial | exact absurd this id

theorem since_keep {a : List (Ev T)} : ∀ {b : List (Ev T)},
    (∀ e ∈ b, Silent e ∧ ∀ xs, e ≠ .created xs) → generationsSince (a ++ b) = generationsSince a := by
  intro b
  induction b using List.reverseRecOn with
  | nil => intro _; simp
  | append_singleton b e ih =>
    intro h
    rw [← List.append_assoc, generationsSince_snoc, ih (fun e he => h e (by simp [he]))]
    have := h e (by simp)
    cases e with
    | created xs => exact absurd rfl (this.2 xs)
    | generation => exact absurd this.1 id
    | _ => rfl

theorem generation_not_created {c : Comps σ T} {p p' : Population T} {evs : List (Ev T)}
    (g : Generation c p evs p') : ∃ sil, evs = sil ++
      [.generation (agents p') p'.state.best (p'.worst.map Individual.sol) p'.iteration] ∧
      (∀ e ∈ sil, Silent e ∧ ∀ xs, e ≠ .created xs) := by
  refine ⟨_, g.events_ok, ?_⟩
  intro e he
  simp only [List.mem_append, List.mem_singleton] at he
  rcases he with ((((rfl | he) | he) | he) | he) | he
  · exact ⟨trivial, fun _ h => by cases h⟩
  · obtain ⟨_, _, _, _, rfl⟩ := mem_zipWith he; exact ⟨trivial, fun _ h => by cases h⟩
  · obtain ⟨_, _, _, _, rfl⟩ := mem_zipWith he; exact ⟨trivial, fun _ h => by cases h⟩
  · obtain ⟨_, _, _, rfl⟩ := preBirths_kind g.preBirth_ok e he; exact ⟨trivial, fun _ h => by cases h⟩
  · obtain ⟨_, _, _, _, rfl⟩ := mem_zipWith he; exact ⟨trivial, fun _ h => by cases h⟩
  · obtain ⟨_, _, _, rfl⟩ := selections_kind g.select_ok e he; exact ⟨trivial, fun _ h => by cases h⟩

theorem inv_number : Inv (σ := σ) (T := T) Legal
    (fun p tr => NumbersOK tr ∧ p.iteration = generationsSince tr) where
  log := by
    rintro p tr i k ⟨h1, h2⟩
    refine ⟨numbersOK_snoc.2 ⟨h1, h2⟩, ?_⟩
    rw [generationsSince_snoc, h2]
  check := by
    rintro p tr b ⟨h1, h2⟩
    refine ⟨numbersOK_snoc.2 ⟨h1, h2⟩, ?_⟩
    rw [generationsSince_snoc, h2]
  begin := by
    rintro c p p' w w' - ⟨h1, -⟩ hr
    obtain ⟨xs, vals, -, -, rfl, ht⟩ := begin_ok hr
    have hs : ∀ e ∈ List.zipWith Ev.goal xs vals, Silent e ∧ ∀ ys, e ≠ .created ys := by
      intro e he
      obtain ⟨_, _, _, _, rfl⟩ := mem_zipWith he; exact ⟨trivial, fun _ h => by cases h⟩
    have ht' : w'.trace = (w.trace ++ [.created xs]) ++ List.zipWith Ev.goal xs vals := by
      rw [ht]; simp
    rw [ht']
    constructor
    · apply numbersOK_silent (fun e he => (hs e he).1)
      exact numbersOK_snoc.2 ⟨h1, trivial⟩
    · rw [since_keep hs, generationsSince_snoc]
  core := by
    rintro c p p' w w' hc ⟨h1, h2⟩ hr
    obtain ⟨evs, g, ht, -⟩ := core_ok hr
    obtain ⟨sil, rfl, hs⟩ := generation_not_created g
    have hit := g.iteration hc
    rw [ht, ← List.append_assoc]
    constructor
    · rw [numbersOK_snoc]
      refine ⟨numbersOK_silent (fun e he => (hs e he).1) h1, ?_⟩
      show p'.iteration = _
      rw [since_keep hs, ← h2, hit]
    · rw [generationsSince_snoc, since_keep hs, ← h2]; exact hit

/-- C67: at every point of every history the iteration number is the number of generations completed since the last
`find_min` created its population; this is also what stop checkers and loggers were shown at all earlier times. -/
theorem C67_number (o o' : Opt σ T) (w w' : World σ T) (ks : List (Call σ T)) (pt : Point)
    (h0 : Fresh o w) (hl : Always Legal o.comps ks) (hr : runTo o ks pt w = .ok (o', w')) :
    NumbersOK w'.trace ∧ o'.pop.iteration = generationsSince w'.trace :=
  (inv_number.runTo hl hr (by
    rw [h0.1, h0.2]
    refine ⟨?_, rfl⟩
    intro b e a h; simp at h)).1

/-! ## C24 -/

theorem maxIterations_bounding (n : Nat) : Bounding n (Stop.maxIterations n : AlgState T → M σ Bool) := by
  intro s w b w' hle h
  rw [← (M.pure_eq_ok.1 h).1]
  exact decide_eq_true hle

theorem ga_turns_bounded {n : Nat} {c : Comps σ T} (hstop : Bounding n c.stop) (hl : Legal c) :
    ∀ (k : Nat) (q q' : Population T) (v v' : World σ T), turns c k q v = .ok (q', v') →
      q'.iteration = q.iteration + k ∧ (0 < k → q.iteration + k ≤ n) := by
  intro k
  induction k with
  | zero =>
    intro q q' v v' h
    obtain ⟨rfl, -⟩ := M.pure_eq_ok.1 h
    exact ⟨rfl, fun h => absurd h (by omega)⟩
  | succ k ih =>
    intro q q' v v' ht
    obtain ⟨s1, hs1, q1, v1, hq1, hq2⟩ := turns_succ_ok.1 ht
    have hno' : ¬ n ≤ q.iteration := fun hle => by simpa using hstop q.state _ _ _ hle hs1
    obtain ⟨v2, hc, -⟩ := step_ok.1 hq1
    obtain ⟨evs, g, -, -⟩ := core_ok hc
    have hi := g.iteration hl
    obtain ⟨h1, h2⟩ := ih q1 q' v1 v' hq2
    refine ⟨by omega, fun _ => ?_⟩
    rcases Nat.eq_zero_or_pos k with h0 | h0
    · omega
    · have := h2 h0; omega

/-- C24 (genetic): with `MaxIterations(n)` a `find_min` that returns has completed exactly `n` generations, numbered
1 to `n`. -/
theorem C24_genetic_findMin (n : Nat) (o o' : Opt σ T) (hstop : o.comps.stop = Stop.maxIterations n)
    (hl : Legal o.comps) (w w' : World σ T) (fuel : Nat) (r : Option (Solution T))
    (hr : findMin fuel o w = .ok ((r, o'), w')) :
    o'.pop.iteration = n ∧ ∃ ext, w'.trace = w.trace ++ ext ∧ generationsOf ext = List.range' 1 n := by
  obtain ⟨k, sts, ext, -, ht, -, hit, -, -, -, hg, -, -, p0, w1, w2, s', h0, htu, hend⟩ := findMin_spec hl hr
  rw [hstop] at hend
  have hn : n ≤ o'.pop.iteration := of_decide_eq_true (M.pure_eq_ok.1 hend).1
  have hm := ga_turns_bounded (hstop ▸ maxIterations_bounding n) hl k _ _ _ _ htu
  have hkn : k = n := by omega
  exact ⟨by omega, ext, ht, hkn ▸ hg⟩

/-- C24 (genetic): `next_iterations` with `MaxIterations(n)` continues to generation `n`, and does nothing if it is already
reached: no generation and no goal call. -/
theorem C24_genetic_nextIterations (n : Nat) (o o' : Opt σ T) (hstop : o.comps.stop = Stop.maxIterations n)
    (hl : Legal o.comps) (w w' : World σ T) (fuel : Nat) (r : Option (Solution T))
    (hr : nextIterations fuel o w = .ok ((r, o'), w')) :
    o'.pop.iteration = max n o.pop.iteration ∧
    (∃ ext, w'.trace = w.trace ++ ext ∧
      generationsOf ext = List.range' (o.pop.iteration + 1) (n - o.pop.iteration)) ∧
    (n ≤ o.pop.iteration → o' = o ∧ ∃ ext, w'.trace = w.trace ++ ext ∧ goalArgs ext = []) := by
  obtain ⟨k, sts, ext, -, ht, -, hit, -, -, -, hg, -, -, w1, w2, s', htu, hend⟩ := nextIterations_spec hl hr
  rw [hstop] at hend
  have hn : n ≤ o'.pop.iteration := of_decide_eq_true (M.pure_eq_ok.1 hend).1
  have hm := ga_turns_bounded (hstop ▸ maxIterations_bounding n) hl k _ _ _ _ htu
  have hkn : k = n - o.pop.iteration := by omega
  refine ⟨by omega, ⟨ext, ht, hkn ▸ hg⟩, fun hle => ?_⟩
  obtain ⟨p2, w3, w4, h4, h5, h6, -, rfl⟩ := nextIterations_ok.1 hr
  obtain ⟨k', w5, s', -, hk', hend', rfl⟩ := loop_turns h5
  have h0 : k' = 0 := by
    have := ga_turns_bounded (hstop ▸ maxIterations_bounding n) hl k' _ _ _ _ hk'
    omega
  subst h0
  obtain ⟨rfl, rfl⟩ := M.pure_eq_ok.1 hk'
  refine ⟨rfl, logBlock .resume o.pop.state 0 o.comps.loggers.length ++ [.check o.pop.state true] ++
    logBlock .finish o.pop.state 0 o.comps.loggers.length, ?_, ?_⟩
  · rw [callLoggers_trace h6]
    simp only
    rw [callLoggers_trace h4]
    simp
  · simp only [goalArgs_append, goalArgs_logBlock]
    rfl

end Verif.Props
