import Verif.Proofs.Recombine
import Verif.Props.GeneticSize

/-!
# The initial population of a run and the best value found
-/

namespace Verif.GA

open Verif Spec Props

variable {σ T : Type}

theorem callLoggers_created {k : LogKind} {s : AlgState T} {i : Nat} {ls : List (Logger σ T)} {w w' : World σ T} {u : Unit}
    (h : callLoggers k s i ls w = .ok (u, w')) : lastCreated w'.trace = lastCreated w.trace := by
  rw [callLoggers_trace h]
  refine lastCreated_append fun e he => ?_
  unfold logBlock at he
  obtain ⟨_, _, rfl⟩ := List.mem_map.1 he
  trivial

theorem loop_created {c : Comps σ T} : ∀ {fuel : Nat} {p p' : Population T} {w w' : World σ T},
    loop c fuel p w = .ok (p', w') → lastCreated w'.trace = lastCreated w.trace := by
  intro fuel
  induction fuel with
  | zero => intro p p' w w' hr; simp [GA.loop, M.fail] at hr
  | succ fuel ih =>
    intro p p' w w' hr
    obtain ⟨b, s', -, ⟨-, -, rfl⟩ | ⟨-, p1, w1, h1, h2⟩⟩ := loop_succ_ok.1 hr
    · exact lastCreated_append (by simp [NotCreated])
    · obtain ⟨w2, h3, h4⟩ := step_ok.1 h1
      obtain ⟨evs, g, ht, -⟩ := core_ok h3
      rw [ih h2, callLoggers_created h4, ht, lastCreated_append (generation_notCreated g)]
      exact lastCreated_append (by simp [NotCreated])

/-- The chromosomes of the beginning are those that the creator returns when the run starts. -/
theorem findMin_created {fuel : Nat} {o o' : Opt σ T} {r : Option (Solution T)} {w w' : World σ T}
    (h : findMin fuel o w = .ok ((r, o'), w')) : ∃ xs s', o.comps.creator w.user = .ok (xs, s') ∧ lastCreated w'.trace = xs := by
  obtain ⟨p, w1, w2, h1, h2, h3⟩ := findMin_ok.1 h
  obtain ⟨p1, w3, w4, h4, h5, h6, -, -⟩ := nextIterations_ok.1 h3
  rw [callLoggers_created h6, loop_created h5, callLoggers_created h4, callLoggers_created h2]
  unfold begin at h1
  obtain ⟨xs, v1, k1, h1⟩ := M.bind_eq_ok.1 h1
  obtain ⟨u, v2, k2, h1⟩ := M.bind_eq_ok.1 h1
  obtain ⟨vals, -, -, ht⟩ := append_ok h1
  refine ⟨xs, _, (World.lift_eq_ok.1 k1).1, ?_⟩
  rw [ht, lastCreated_append, (World.emit_eq_ok.1 k2).2, lastCreated_created]
  intro e he
  obtain ⟨_, _, _, _, rfl⟩ := mem_zipWith he
  trivial

theorem newborn_of_goal {x : T} {v : F64} : ∀ {xs : List T} {vals : List F64}, Ev.goal x v ∈ List.zipWith Ev.goal xs vals →
    (⟨x, v, true⟩ : Individual T) ∈ newborn xs vals := by
  intro xs
  induction xs with
  | nil => intro vals h; simp at h
  | cons y xs ih =>
    intro vals h
    cases vals with
    | nil => simp at h
    | cons u vals =>
      rw [List.zipWith_cons_cons, List.mem_cons] at h
      unfold newborn
      rw [List.zipWith_cons_cons, List.mem_cons]
      rcases h with h | h
      · cases h; exact .inl rfl
      · exact .inr (ih h)

theorem generation_goal_born {c : Comps σ T} {p p' : Population T} {evs : List (Ev T)}
    (g : Generation c p evs p') {x : T} {v : F64} (h : Ev.goal x v ∈ evs) : (⟨x, v, true⟩ : Individual T) ∈ newborn g.born g.vals := by
  have h : Ev.goal x v ∈ _ := g.events_ok ▸ h
  simp only [List.mem_append, List.mem_singleton, reduceCtorEq, false_or, or_false] at h
  have hpre : ∀ {fs : List (Population T → List T → M σ (List T))} {i xs evs ys},
      PreBirths p i fs xs evs ys → Ev.goal x v ∉ evs := by
    intro fs i xs evs ys hp
    induction hp with
    | nil => simp
    | cons _ _ ih => simpa using ih
  have hsel : ∀ {fs : List (Population T → M σ (Population T))} {i q evs q'},
      Selections i fs q evs q' → Ev.goal x v ∉ evs := by
    intro fs i q evs q' hp
    induction hp with
    | nil => simp
    | cons _ _ ih => simpa using ih
  rcases h with (((h | h) | h) | h) | h
  · obtain ⟨_, _, _, _, h'⟩ := mem_zipWith h; cases h'
  · obtain ⟨_, _, _, _, h'⟩ := mem_zipWith h; cases h'
  · exact absurd h (hpre g.preBirth_ok)
  · exact newborn_of_goal h
  · exact absurd h (hsel g.select_ok)

/-- All individuals live, the best one is up to date after a generation, and no finite value of the run is better than all of them. -/
structure Holds (p : Population T) (tr : List (Ev T)) : Prop where
  alive : ∀ i ∈ p.individuals, i.alive = true
  values : ∀ a ∈ goalsSince tr, a.2.isFinite = true → ∃ j ∈ p.individuals, j.fitness.isFinite = true ∧ j.fitness.le a.2 = true
  best : p.iteration ≠ 0 → p.individuals ≠ [] → ∃ x, p.best = some x ∧ ∀ i ∈ p.individuals, i.fitness.isNan = false → x.fitness.le i.fitness = true

theorem holds_begin {c : Comps σ T} {p' : Population T} {w w' : World σ T} (hr : begin c w = .ok (p', w')) : Holds p' w'.trace := by
  obtain ⟨xs, vals, hx, -, rfl, ht⟩ := begin_ok hr
  have hn : ∀ e ∈ List.zipWith Ev.goal xs vals, NotCreated e := by
    intro e he; obtain ⟨_, _, _, _, h'⟩ := mem_zipWith he; subst h'; trivial
  refine ⟨fun i hi => (mem_newborn hi).2.1, ?_, fun h => absurd rfl h⟩
  rw [ht, show (.created xs :: List.zipWith Ev.goal xs vals) = [.created xs] ++ List.zipWith Ev.goal xs vals from rfl,
    ← List.append_assoc, goalsSince_append hn, goalsSince_created, List.nil_append]
  intro a ha hf
  unfold goalsOf at ha
  obtain ⟨e, he, h2⟩ := List.mem_filterMap.1 ha
  cases e <;> simp at h2
  subst h2
  exact ⟨_, newborn_of_goal he, hf, Fl.le_refl (Fl.isNan_of_isFinite hf)⟩

theorem inv_holds : Inv (σ := σ) (T := T) (fun c => ∀ sel ∈ c.selections, KeepsBest sel) Holds where
  log := by
    rintro p tr i k h
    exact ⟨h.alive, by rw [goalsSince_snoc]; exact h.values, h.best⟩
  check := by
    rintro p tr b h
    exact ⟨h.alive, by rw [goalsSince_snoc]; exact h.values, h.best⟩
  begin := fun _ _ _ _ _ _ _ hr => holds_begin hr
  core := by
    rintro c p p' w w' hk ⟨h1, h2, h3⟩ hr
    obtain ⟨evs, g, ht, hup⟩ := core_ok hr
    have hn := generation_notCreated g
    have keep : ∀ i ∈ p.individuals ++ newborn g.born g.vals, i.alive = true → i.fitness.isFinite = true →
        ∃ j ∈ p'.individuals, j.fitness.isFinite = true ∧ j.fitness.le i.fitness = true := by
      intro i hi ha hf
      obtain ⟨j, hj, ja, jf, hle⟩ := selections_keep hk g.select_ok i hi ha hf
      exact ⟨j, by rw [g.alive_ok]; exact List.mem_filter.2 ⟨hj, ja⟩, jf, hle⟩
    refine ⟨?_, ?_, fun _ he => ?_⟩
    · intro i hi
      rw [g.alive_ok] at hi
      exact (List.mem_filter.1 hi).2
    · rw [ht, goalsSince_append hn]
      intro a ha hf
      rcases List.mem_append.1 ha with ha | ha
      · obtain ⟨j, hj, jf, hle⟩ := h2 a ha hf
        obtain ⟨i, hi, hif, hle2⟩ := keep j (List.mem_append_left _ hj) (h1 j hj) jf
        exact ⟨i, hi, hif, Fl.le_trans hle2 hle⟩
      · unfold goalsOf at ha
        obtain ⟨e, he, h5⟩ := List.mem_filterMap.1 ha
        cases e <;> simp at h5
        subst h5
        exact keep _ (List.mem_append_right _ (generation_goal_born g he)) rfl hf
    · obtain ⟨x, hx, -, hb⟩ := hup.best he
      exact ⟨x, hx, hb⟩

/-- The points of the initial population are evaluated. -/
theorem inv_initial : Inv (σ := σ) (T := T) (fun _ => True) (fun _ tr => ∀ x ∈ lastCreated tr, ∃ v, (x, v) ∈ goalsSince tr) where
  log := by
    rintro p tr i k h
    rw [lastCreated_append (by simp [NotCreated]), goalsSince_snoc]; exact h
  check := by
    rintro p tr b h
    rw [lastCreated_append (by simp [NotCreated]), goalsSince_snoc]; exact h
  begin := by
    rintro c p p' w w' - - hr
    obtain ⟨xs, vals, -, hv, rfl, ht⟩ := begin_ok hr
    have hn : ∀ e ∈ List.zipWith Ev.goal xs vals, NotCreated e := by
      intro e he; obtain ⟨_, _, _, _, h'⟩ := mem_zipWith he; subst h'; trivial
    rw [ht, show (.created xs :: List.zipWith Ev.goal xs vals) = [.created xs] ++ List.zipWith Ev.goal xs vals from rfl,
      ← List.append_assoc, lastCreated_append hn, lastCreated_created, goalsSince_append hn, goalsSince_created, List.nil_append]
    intro x hx
    obtain ⟨j, hj, rfl⟩ := List.getElem_of_mem hx
    have hl := hv.length_eq
    refine ⟨vals[j], ?_⟩
    unfold goalsOf
    refine List.mem_filterMap.2 ⟨.goal xs[j] vals[j], ?_, rfl⟩
    refine List.mem_iff_getElem.2 ⟨j, by rw [List.length_zipWith]; omega, by rw [List.getElem_zipWith]⟩
  core := by
    rintro c p p' w w' - h hr
    obtain ⟨evs, g, ht, -⟩ := core_ok hr
    have hn := generation_notCreated g
    rw [ht, lastCreated_append hn, goalsSince_append hn]
    intro x hx
    obtain ⟨v, hv⟩ := h x hx
    exact ⟨v, List.mem_append_left _ hv⟩

end Verif.GA
