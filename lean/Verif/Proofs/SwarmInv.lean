import Verif.Spec.SwarmHistory
import Verif.Proofs.SwarmTurns
import Verif.Proofs.Throughout
import Verif.Props.SwarmOrder

/-!
# The history of the goal values in a swarm run
-/

set_option linter.unusedSectionVars false

namespace Verif.Spec

variable {T : Type}

theorem goalsSince_snoc (tr : List (Ev T)) (e : Ev T) : goalsSince (tr ++ [e]) = (match e with
    | .created _ => []
    | .goal x v => goalsSince tr ++ [(x, v)]
    | _ => goalsSince tr) := by
  unfold goalsSince; rw [List.foldl_append]; cases e <;> rfl

theorem goalsSince_append {tr : List (Ev T)} : ∀ {evs : List (Ev T)}, (∀ e ∈ evs, NotCreated e) →
    goalsSince (tr ++ evs) = goalsSince tr ++ goalsOf evs := by
  intro evs
  induction evs using List.reverseRecOn with
  | nil => intro _; simp [goalsOf]
  | append_singleton evs e ih =>
    intro h
    rw [← List.append_assoc, goalsSince_snoc, ih (fun e he => h e (by simp [he]))]
    have := h e (by simp)
    unfold goalsOf
    rw [List.filterMap_append]
    cases e <;> first | exact absurd this id | simp

theorem goalsSince_created (tr : List (Ev T)) (xs : List T) : goalsSince (tr ++ [.created xs]) = [] := by
  rw [goalsSince_snoc]

theorem evaluated_of_goalsSince : ∀ {tr : List (Ev T)} {a : Solution T}, a ∈ goalsSince tr → Evaluated tr a := by
  intro tr
  induction tr using List.reverseRecOn with
  | nil => intro a h; simp [goalsSince] at h
  | append_singleton tr e ih =>
    intro a h
    rw [goalsSince_snoc] at h
    unfold Evaluated at ih ⊢
    cases e with
    | created _ => simp at h
    | goal x v =>
      simp only [List.mem_append, List.mem_singleton] at h ⊢
      rcases h with h | rfl
      · exact .inl (ih h)
      · exact .inr rfl
    | _ => exact List.mem_append_left _ (ih h)

theorem IsBestOf.snoc_row {xs ys : List (Solution T)} {b : Solution T} (h : IsBestOf xs b)
    (hy : ∀ a ∈ ys, NotWorse b.2 a.2) : IsBestOf (xs ++ ys) b :=
  ⟨List.mem_append_left _ h.1, fun a ha => (List.mem_append.1 ha).elim (h.2 a) (hy a)⟩

end Verif.Spec

namespace Verif.PSO

open Verif Spec Spec.Swarm Verif.Props

variable {σ α : Type} [FloatT α]

theorem minLoop_spec : ∀ (ps : List (Particle α)) (x : Particle α), minLoop x ps ∈ x :: ps ∧
    ∀ p ∈ x :: ps, NotWorse (minLoop x ps).value p.value := by
  intro ps
  induction ps with
  | nil => intro x; exact ⟨by simp [minLoop], by simp [minLoop, notWorse_refl]⟩
  | cons y ys ih =>
    intro x
    rw [minLoop]
    by_cases hc : compareFloats x.value y.value = .gt
    · have hc' : (compareFloats x.value y.value == .gt) = true := by simpa using hc
      rw [hc', if_pos rfl]
      obtain ⟨h1, h2⟩ := ih y
      refine ⟨List.mem_cons_of_mem _ h1, ?_⟩
      intro p hp
      rcases List.mem_cons.1 hp with rfl | hp
      · refine notWorse_trans (h2 y (by simp)) ?_
        exact (notWorse_total _ _).resolve_right (compare_gt.1 hc)
      · exact h2 p hp
    · have hc' : (compareFloats x.value y.value == .gt) = false := by simpa using hc
      rw [hc']
      simp only [Bool.false_eq_true, if_false]
      obtain ⟨h1, h2⟩ := ih x
      refine ⟨?_, ?_⟩
      · rcases List.mem_cons.1 h1 with h | h
        · rw [h]; simp
        · simp [h]
      · intro p hp
        rcases List.mem_cons.1 hp with rfl | hp
        · exact h2 _ (by simp)
        · rcases List.mem_cons.1 hp with rfl | hp
          · exact notWorse_trans (h2 x (by simp)) ((C38_meaning _ _).1.1 hc)
          · exact h2 p (by simp [hp])

theorem maxLoop_spec : ∀ (ps : List (Particle α)) (x : Particle α), maxLoop x ps ∈ x :: ps ∧
    ∀ p ∈ x :: ps, NotWorse p.value (maxLoop x ps).value := by
  intro ps
  induction ps with
  | nil => intro x; exact ⟨by simp [maxLoop], by simp [maxLoop, notWorse_refl]⟩
  | cons y ys ih =>
    intro x
    rw [maxLoop]
    by_cases hc : compareFloats x.value y.value = .gt
    · have hc' : (compareFloats x.value y.value == .gt) = true := by simpa using hc
      rw [hc', if_pos rfl]
      obtain ⟨h1, h2⟩ := ih x
      refine ⟨?_, ?_⟩
      · rcases List.mem_cons.1 h1 with h | h
        · rw [h]; simp
        · simp [h]
      · intro p hp
        rcases List.mem_cons.1 hp with rfl | hp
        · exact h2 _ (by simp)
        · rcases List.mem_cons.1 hp with rfl | hp
          · exact notWorse_trans ((notWorse_total _ _).resolve_right (compare_gt.1 hc)) (h2 x (by simp))
          · exact h2 p (by simp [hp])
    · have hc' : (compareFloats x.value y.value == .gt) = false := by simpa using hc
      rw [hc']
      simp only [Bool.false_eq_true, if_false]
      obtain ⟨h1, h2⟩ := ih y
      refine ⟨List.mem_cons_of_mem _ h1, ?_⟩
      intro p hp
      rcases List.mem_cons.1 hp with rfl | hp
      · exact notWorse_trans ((C38_meaning _ _).1.1 hc) (h2 y (by simp))
      · exact h2 p hp

theorem findBest_spec {ps : List (Particle α)} : (findBest ps = none ↔ ps = []) ∧
    ∀ b, findBest ps = some b → b ∈ ps ∧ ∀ p ∈ ps, NotWorse b.value p.value := by
  cases ps with
  | nil => simp [findBest]
  | cons p ps =>
    refine ⟨by simp [findBest], fun b h => ?_⟩
    simp only [findBest, Option.some.injEq] at h
    subst h
    exact minLoop_spec ps p

theorem findWorst_spec {ps : List (Particle α)} : (findWorst ps = none ↔ ps = []) ∧
    ∀ b, findWorst ps = some b → b ∈ ps ∧ ∀ p ∈ ps, NotWorse p.value b.value := by
  cases ps with
  | nil => simp [findWorst]
  | cons p ps =>
    refine ⟨by simp [findWorst], fun b h => ?_⟩
    simp only [findWorst, Option.some.injEq] at h
    subst h
    exact maxLoop_spec ps p

/-- `s.best` and `s.worst` are extremes of the list `xs` of evaluated solutions. -/
structure Extremes (s : Swarm α) (xs : List (Solution (List α))) : Prop where
  best_none : s.best = none ↔ xs = []
  best : ∀ b, s.best = some b → IsBestOf xs b.sol
  worst_none : s.worst = none ↔ xs = []
  worst : ∀ b, s.worst = some b → IsWorstOf xs b.sol

theorem extremes_update {s : Swarm α} {xs : List (Solution (List α))} (h : Extremes s xs) :
    Extremes s.updateBest.updateWorst.nextIteration (xs ++ s.particles.map Particle.sol) := by
  have hb : s.updateBest.updateWorst.nextIteration.best = s.updateBest.best := by
    show s.updateBest.updateWorst.best = _
    rw [updateWorst_best]
  have hw : s.updateBest.updateWorst.nextIteration.worst = s.updateWorst.worst := by
    show s.updateBest.updateWorst.worst = _
    unfold Swarm.updateWorst
    rw [updateBest_particles, updateBest_worst]
    split
    · rw [updateBest_worst]
    · split
      · rfl
      · split
        · rfl
        · rw [updateBest_worst]
  have key1 : (s.updateBest.best = none ↔ xs ++ s.particles.map Particle.sol = []) ∧
      ∀ b, s.updateBest.best = some b → IsBestOf (xs ++ s.particles.map Particle.sol) b.sol := by
    obtain ⟨f1, f2⟩ := findBest_spec (ps := s.particles)
    unfold Swarm.updateBest
    cases hf : findBest s.particles with
    | none =>
      have : s.particles = [] := f1.1 hf
      simp only [this, List.map_nil, List.append_nil]
      exact ⟨h.best_none, h.best⟩
    | some nb =>
      obtain ⟨m1, m2⟩ := f2 nb hf
      have hne : xs ++ s.particles.map Particle.sol ≠ [] := by
        intro hc
        have := (List.append_eq_nil_iff.1 hc).2
        rw [List.map_eq_nil_iff] at this
        rw [this] at m1; simp at m1
      have newOk : (∀ a ∈ xs, NotWorse nb.value a.2) → IsBestOf (xs ++ s.particles.map Particle.sol) nb.sol := by
        intro hx
        refine ⟨List.mem_append_right _ (List.mem_map_of_mem m1), fun a ha => ?_⟩
        rcases List.mem_append.1 ha with ha | ha
        · exact hx a ha
        · obtain ⟨p, hp, rfl⟩ := List.mem_map.1 ha
          exact m2 p hp
      cases hob : s.best with
      | none =>
        simp only
        refine ⟨by simp only [reduceCtorEq, false_iff]; exact hne, fun b hbb => ?_⟩
        cases hbb
        refine newOk ?_
        rw [h.best_none.1 hob]; simp
      | some ob =>
        simp only
        have hob' := h.best ob hob
        split
        · rename_i hlt
          have hlt : compareFloats nb.value ob.value = .lt := by simpa using hlt
          refine ⟨by simp only [reduceCtorEq, false_iff]; exact hne, fun b hbb => ?_⟩
          cases hbb
          refine newOk fun a ha => notWorse_trans ?_ (hob'.2 a ha)
          exact (notWorse_total _ _).resolve_right (compare_lt.1 hlt)
        · rename_i hlt
          have hlt : compareFloats nb.value ob.value ≠ .lt := by simpa using hlt
          refine ⟨by rw [hob]; simp only [reduceCtorEq, false_iff]; exact hne, fun b hbb => ?_⟩
          rw [hob] at hbb
          cases hbb
          refine hob'.snoc_row fun a ha => ?_
          obtain ⟨p, hp, rfl⟩ := List.mem_map.1 ha
          exact notWorse_trans ((C38_meaning _ _).2.1.1 hlt) (m2 p hp)
  have key2 : (s.updateWorst.worst = none ↔ xs ++ s.particles.map Particle.sol = []) ∧
      ∀ b, s.updateWorst.worst = some b → IsWorstOf (xs ++ s.particles.map Particle.sol) b.sol := by
    obtain ⟨f1, f2⟩ := findWorst_spec (ps := s.particles)
    unfold Swarm.updateWorst
    cases hf : findWorst s.particles with
    | none =>
      have : s.particles = [] := f1.1 hf
      simp only [this, List.map_nil, List.append_nil]
      exact ⟨h.worst_none, h.worst⟩
    | some nb =>
      obtain ⟨m1, m2⟩ := f2 nb hf
      have hne : xs ++ s.particles.map Particle.sol ≠ [] := by
        intro hc
        have := (List.append_eq_nil_iff.1 hc).2
        rw [List.map_eq_nil_iff] at this
        rw [this] at m1; simp at m1
      have newOk : (∀ a ∈ xs, NotWorse a.2 nb.value) → IsWorstOf (xs ++ s.particles.map Particle.sol) nb.sol := by
        intro hx
        refine ⟨List.mem_append_right _ (List.mem_map_of_mem m1), fun a ha => ?_⟩
        rcases List.mem_append.1 ha with ha | ha
        · exact hx a ha
        · obtain ⟨p, hp, rfl⟩ := List.mem_map.1 ha
          exact m2 p hp
      cases hob : s.worst with
      | none =>
        simp only
        refine ⟨by simp only [reduceCtorEq, false_iff]; exact hne, fun b hbb => ?_⟩
        cases hbb
        refine newOk ?_
        rw [h.worst_none.1 hob]; simp
      | some ob =>
        simp only
        have hob' := h.worst ob hob
        split
        · rename_i hlt
          have hlt : compareFloats nb.value ob.value = .gt := by simpa using hlt
          refine ⟨by simp only [reduceCtorEq, false_iff]; exact hne, fun b hbb => ?_⟩
          cases hbb
          refine newOk fun a ha => notWorse_trans (hob'.2 a ha) ?_
          exact (notWorse_total _ _).resolve_right (compare_gt.1 hlt)
        · rename_i hlt
          have hlt : compareFloats nb.value ob.value ≠ .gt := by simpa using hlt
          refine ⟨by rw [hob]; simp only [reduceCtorEq, false_iff]; exact hne, fun b hbb => ?_⟩
          rw [hob] at hbb
          cases hbb
          refine ⟨List.mem_append_left _ hob'.1, fun a ha => ?_⟩
          rcases List.mem_append.1 ha with ha | ha
          · exact hob'.2 a ha
          · obtain ⟨p, hp, rfl⟩ := List.mem_map.1 ha
            exact notWorse_trans (m2 p hp) ((C38_meaning _ _).1.1 hlt)
  exact ⟨by rw [hb]; exact key1.1, by rw [hb]; exact key1.2, by rw [hw]; exact key2.1, by rw [hw]; exact key2.2⟩

theorem extremes_initial (ps : List (Particle α)) (n : Nat) :
    Extremes ⟨ps, findBest ps, findWorst ps, n⟩ (ps.map Particle.sol) := by
  refine ⟨?_, ?_, ?_, ?_⟩
  · simp only [findBest_spec.1, List.map_eq_nil_iff]
  · intro b hb
    obtain ⟨h1, h2⟩ := findBest_spec.2 b hb
    refine ⟨List.mem_map_of_mem h1, fun a ha => ?_⟩
    obtain ⟨p, hp, rfl⟩ := List.mem_map.1 ha
    exact h2 p hp
  · simp only [findWorst_spec.1, List.map_eq_nil_iff]
  · intro b hb
    obtain ⟨h1, h2⟩ := findWorst_spec.2 b hb
    refine ⟨List.mem_map_of_mem h1, fun a ha => ?_⟩
    obtain ⟨p, hp, rfl⟩ := List.mem_map.1 ha
    exact h2 p hp

theorem personal_move {c : Comps σ α} {s : Swarm α} {p p' : Particle α} {evs : List (Ev (List α))}
    {col : List (Solution (List α))} (h : Personal p col) (m : Move c s p evs p') : Personal p' (col ++ [p'.sol]) := by
  obtain ⟨hb, hw⟩ := h
  constructor
  · have := m.best_ok
    split at this
    · rename_i hlt
      rw [this]
      refine ⟨by simp [Particle.sol], fun a ha => ?_⟩
      rcases List.mem_append.1 ha with ha | ha
      · exact notWorse_trans ((notWorse_total _ _).resolve_right (compare_lt.1 hlt)) (hb.2 a ha)
      · rw [List.mem_singleton.1 ha]; exact notWorse_refl _
    · rename_i hlt
      rw [this]
      refine hb.snoc_row fun a ha => ?_
      rw [List.mem_singleton.1 ha]
      exact (C38_meaning _ _).2.1.1 hlt
  · have := m.worst_ok
    split at this
    · rename_i hlt
      rw [this]
      refine ⟨by simp [Particle.sol], fun a ha => ?_⟩
      rcases List.mem_append.1 ha with ha | ha
      · exact notWorse_trans (hw.2 a ha) ((notWorse_total _ _).resolve_right (compare_gt.1 hlt))
      · rw [List.mem_singleton.1 ha]; exact notWorse_refl _
    · rename_i hlt
      rw [this]
      refine ⟨List.mem_append_left _ hw.1, fun a ha => ?_⟩
      rcases List.mem_append.1 ha with ha | ha
      · exact hw.2 a ha
      · rw [List.mem_singleton.1 ha]
        exact (C38_meaning _ _).1.1 hlt

theorem table_step {c : Comps σ α} {s s1 : Swarm α} {tr evs : List (Ev (List α))}
    {rows : List (List (Solution (List α)))} (h : Table s tr rows)
    (hm : Moves c (List.range s.particles.length) s evs s1) {s' : Swarm α} (hp : s'.particles = s1.particles)
    (hi : s'.iteration = s.iteration + 1) {e : Ev (List α)} (he : NotCreated e) (hg : goalsOf [e] = []) :
    Table s' (tr ++ (evs ++ [e])) (rows ++ [s'.particles.map Particle.sol]) := by
  obtain ⟨h1, h2⟩ := hm.all
  have hlen := h2.length_eq
  refine ⟨?_, by simp [h.count, hi], ?_, by simp, ?_⟩
  · rw [goalsSince_append, h.flat]
    · unfold goalsOf at *
      rw [List.filterMap_append, h1, hg, hp]
      simp
    · intro e' he'
      rcases List.mem_append.1 he' with he' | he'
      · have := hm.events e' he'
        cases e' <;> first | trivial | exact absurd this id
      · rw [List.mem_singleton.1 he']; exact he
  · intro row hrow
    rcases List.mem_append.1 hrow with hrow | hrow
    · rw [h.width row hrow, hp, hlen]
    · rw [List.mem_singleton.1 hrow]; simp
  · intro n p' hn
    have hn1 : s1.particles[n]? = some p' := by rw [← hp]; exact hn
    obtain ⟨hlt, hget⟩ := List.getElem?_eq_some_iff.1 hn1
    have := (List.forall₂_iff_get.1 h2).2 n (by omega) hlt
    obtain ⟨s2, evs2, -, -, -, -, -, ⟨m⟩⟩ := this
    simp only [List.get_eq_getElem, hget] at m
    have hpers := h.personal n _ (List.getElem?_eq_getElem (show n < s.particles.length by omega))
    have hcol : column n (rows ++ [s'.particles.map Particle.sol]) = column n rows ++ [p'.sol] := by
      unfold column
      rw [List.filterMap_append]
      simp [hn]
    rw [hcol]
    exact personal_move hpers m

theorem column_one {n : Nat} {row : List (Solution (List α))} {a : Solution (List α)} (h : row[n]? = some a) :
    column n [row] = [a] := by
  unfold column; simp [h]

theorem begin_table {c : Comps σ α} {s' : Swarm α} {w w' : World σ (List α)} (h : begin c w = .ok (s', w')) :
    Table s' w'.trace [s'.particles.map Particle.sol] ∧ s' = ⟨s'.particles, findBest s'.particles, findWorst s'.particles, 0⟩ ∧
      (∀ p ∈ s'.particles, p = Particle.new p.coordinates p.velocity p.value) := by
  obtain ⟨raws, xs, vs, ps, -, -, -, -, hps, rfl, ht⟩ := begin_ok h
  have hnew : ∀ p ∈ ps, p = Particle.new p.coordinates p.velocity p.value := by
    intro p hp
    obtain ⟨n, hn, rfl⟩ := List.getElem_of_mem hp
    have := ((List.forall₂_iff_get.1 hps).2 n (by rw [hps.length_eq]; exact hn) hn).2
    simp only [List.get_eq_getElem] at this
    rw [this]; rfl
  refine ⟨⟨?_, rfl, by simp, by simp, ?_⟩, rfl, hnew⟩
  · rw [ht, List.cons_append, ← List.singleton_append (l := List.zipWith _ _ _ ++ _), ← List.append_assoc,
      goalsSince_append, goalsSince_created]
    · unfold goalsOf
      rw [List.filterMap_append, filterMap_nil_of, List.filterMap_map]
      · simp only [List.nil_append, List.flatten_cons, List.flatten_nil, List.append_nil]
        clear hps ht h hnew
        induction ps with
        | nil => rfl
        | cons p ps ih => simp only [List.filterMap_cons, List.map_cons, Function.comp]; rw [← ih]; rfl
      · intro e he
        obtain ⟨_, _, _, _, rfl⟩ := mem_zipWith he; rfl
    · intro e he
      rcases List.mem_append.1 he with he | he
      · obtain ⟨_, _, _, _, rfl⟩ := mem_zipWith he; trivial
      · obtain ⟨p, -, rfl⟩ := List.mem_map.1 he; trivial
  · intro n p hn
    rw [column_one (a := p.sol) (by simpa using ⟨p, hn, rfl⟩)]
    have := hnew p (List.mem_of_getElem? hn)
    have e1 : (p.bestCoords, p.bestValue) = p.sol := by rw [this]; rfl
    have e2 : (p.worstCoords, p.worstValue) = p.sol := by rw [this]; rfl
    constructor
    · rw [e1]; exact ⟨by simp, by simp [notWorse_refl]⟩
    · rw [e2]; exact ⟨by simp, by simp [notWorse_refl]⟩

theorem showsExtremes_of_none {e : Ev (List α)} (h : shownBest e = none) (b : List (Ev (List α))) : ShowsExtremes b e := by
  refine ⟨by simp [h], ?_⟩
  rintro _ _ _ _ rfl; cases h

theorem Extremes.state {s : Swarm α} {xs : List (Solution (List α))} (h : Extremes s xs) :
    (s.state.best = none ↔ xs = []) ∧ ∀ b, s.state.best = some b → IsBestOf xs b := by
  constructor
  · rw [← h.best_none]; simp [Swarm.state]
  · intro b hb
    obtain ⟨p, hp, rfl⟩ := Option.map_eq_some_iff.1 hb
    exact h.best p hp

/-- The whole history of the current run is what the swarm says it is. -/
theorem inv_history : Inv (σ := σ) (α := α) (fun _ => True) (fun s tr =>
    Throughout ShowsExtremes tr ∧ Extremes s (goalsSince tr) ∧ ∃ rows, Table s tr rows) where
  log := by
    rintro s tr i k ⟨h1, h2, rows, h3⟩
    have hg : goalsSince (tr ++ [.log i k s.state]) = goalsSince tr := by rw [goalsSince_snoc]
    refine ⟨throughout_snoc.2 ⟨h1, ?_, by rintro _ _ _ _ h; cases h⟩, by rw [hg]; exact h2, rows,
      by rw [hg]; exact h3.flat, h3.count, h3.width, h3.last, h3.personal⟩
    rintro best h; cases h; exact h2.state
  check := by
    rintro s tr b ⟨h1, h2, rows, h3⟩
    have hg : goalsSince (tr ++ [.check s.state b]) = goalsSince tr := by rw [goalsSince_snoc]
    refine ⟨throughout_snoc.2 ⟨h1, ?_, by rintro _ _ _ _ h; cases h⟩, by rw [hg]; exact h2, rows,
      by rw [hg]; exact h3.flat, h3.count, h3.width, h3.last, h3.personal⟩
    rintro best h; cases h; exact h2.state
  begin := by
    rintro c s s' w w' - ⟨h1, -, -⟩ hr
    obtain ⟨ht, hs, -⟩ := begin_table hr
    refine ⟨?_, ?_, _, ht⟩
    · obtain ⟨raws, xs, vs, ps, -, -, -, -, hps, -, htr⟩ := begin_ok hr
      rw [htr]
      refine throughout_append (fun e he b => showsExtremes_of_none ?_ b) h1
      simp only [List.cons_append, List.mem_cons, List.mem_append, List.mem_map] at he
      rcases he with rfl | he | ⟨p, -, rfl⟩
      · rfl
      · obtain ⟨_, _, _, _, rfl⟩ := mem_zipWith he; rfl
      · rfl
    · have := extremes_initial s'.particles 0
      rw [hs, ht.flat]
      simpa using this
  core := by
    rintro c s s' w w' - ⟨h1, h2, rows, h3⟩ hr
    have hi := core_iteration hr
    obtain ⟨evs, s1, hm, hs, ht⟩ := core_ok hr
    have hsame := hm.same
    have h2' : Extremes s1 (goalsSince w.trace) :=
      ⟨by rw [hsame.1]; exact h2.best_none, by rw [hsame.1]; exact h2.best, by rw [hsame.2.1]; exact h2.worst_none,
        by rw [hsame.2.1]; exact h2.worst⟩
    have hx := extremes_update h2'
    rw [← hs] at hx
    have hp : s'.particles = s1.particles := by
      rw [hs]; show s1.updateBest.updateWorst.particles = _
      rw [updateWorst_particles, updateBest_particles]
    have htab := table_step h3 hm hp hi
      (e := .generation (agents s') s'.state.best (s'.worst.map Particle.sol) s'.iteration) trivial rfl
    rw [← ht] at htab
    have hgb : goalsSince (w.trace ++ evs) = goalsSince w.trace ++ s1.particles.map Particle.sol := by
      rw [goalsSince_append, hm.all.1]
      intro e he
      have := hm.events e he
      cases e <;> first | trivial | exact absurd this id
    have hgs : goalsSince w'.trace = goalsSince (w.trace ++ evs) := by
      rw [ht, ← List.append_assoc, goalsSince_snoc]
    refine ⟨?_, by rw [hgs, hgb]; exact hx, _, htab⟩
    rw [ht, ← List.append_assoc]
    refine throughout_snoc.2 ⟨throughout_append (fun e he b => showsExtremes_of_none ?_ b) h1, ?_, ?_⟩
    · have := hm.events e he
      cases e <;> first | rfl | exact absurd this id
    · rintro best h; cases h
      rw [hgb]; exact hx.state
    · rintro _ _ _ _ h; cases h
      rw [hgb]
      refine ⟨by rw [← hx.worst_none]; simp, ?_, ?_⟩
      · intro b hb
        obtain ⟨p, hp, rfl⟩ := Option.map_eq_some_iff.1 hb
        exact hx.worst p hp
      · intro a ha
        rw [agents, hp] at ha
        exact List.mem_append_right _ ha

theorem history_fresh {o : Opt σ α} {w : World σ (List α)} (h : Fresh o w) :
    Throughout ShowsExtremes w.trace ∧ Extremes o.swarm (goalsSince w.trace) ∧ ∃ rows, Table o.swarm w.trace rows := by
  obtain ⟨h1, h2⟩ := h
  rw [h1, h2]
  refine ⟨throughout_nil, ⟨by simp [goalsSince], by simp, by simp [goalsSince], by simp⟩, [[]],
    by simp [goalsSince], rfl, by simp, rfl, by simp⟩

theorem always_true : ∀ (ks : List (Call σ α)) (c : Comps σ α), Always (fun _ => True) c ks := by
  intro ks; induction ks with
  | nil => intro _; trivial
  | cons k ks ih => intro _; exact ⟨trivial, ih _⟩

end Verif.PSO
