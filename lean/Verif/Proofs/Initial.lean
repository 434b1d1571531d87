import Verif.Proofs.Rest
import Verif.Proofs.Recombine
import Verif.Proofs.ChanceFloat
import Verif.Proofs.Finds
import Verif.Spec.Recombine
import Verif.Props.ChanceFloat
import Verif.Props.GeneticSize

/-!
# The initial points of a run, and how likely they are in a region
-/

namespace Verif.PSO

open Verif Spec Spec.Swarm


variable {σ α : Type} [FloatT α]

theorem logBlock_notCreated {T : Type} {k : LogKind} {s : AlgState T} {i n : Nat} : ∀ e ∈ GA.logBlock k s i n, NotCreated e := by
  intro e he
  unfold GA.logBlock at he
  obtain ⟨_, _, rfl⟩ := List.mem_map.1 he
  trivial

theorem callLoggers_lastCreated {T : Type} {k : LogKind} {s : AlgState T} {i : Nat} {ls : List (Logger σ T)} {w w' : World σ T} {u : Unit}
    (h : callLoggers k s i ls w = .ok (u, w')) : lastCreated w'.trace = lastCreated w.trace := by
  rw [GA.callLoggers_trace h, GA.lastCreated_append logBlock_notCreated]

theorem core_lastCreated {c : Comps σ α} {p p' : PSO.Swarm α} {w w' : World σ (List α)} (hr : core c p w = .ok (p', w')) :
    lastCreated w'.trace = lastCreated w.trace := by
  obtain ⟨evs, s1, hm, rfl, ht⟩ := core_ok hr
  have hn : ∀ e ∈ evs, NotCreated e := by
    intro e he
    have := hm.events e he
    cases e <;> first | trivial | exact absurd this id
  rw [ht, ← List.append_assoc, GA.lastCreated_append (evs := [_]) (by simp [NotCreated]), GA.lastCreated_append hn]

theorem loop_lastCreated {c : Comps σ α} : ∀ {fuel : Nat} {p p' : PSO.Swarm α} {w w' : World σ (List α)},
    loop c fuel p w = .ok (p', w') → lastCreated w'.trace = lastCreated w.trace := by
  intro fuel
  induction fuel with
  | zero => intro p p' w w' hr; simp [PSO.loop, M.fail] at hr
  | succ fuel ih =>
    intro p p' w w' hr
    obtain ⟨b, s', -, ⟨-, -, rfl⟩ | ⟨-, p1, w1, h1, h2⟩⟩ := loop_succ_ok.1 hr
    · exact GA.lastCreated_append (by simp [NotCreated])
    · obtain ⟨w2, h3, h4⟩ := step_ok.1 h1
      rw [ih h2, callLoggers_lastCreated h4, core_lastCreated h3]
      exact GA.lastCreated_append (by simp [NotCreated])

theorem begin_created {c : Comps σ α} {s' : PSO.Swarm α} {w w' : World σ (List α)} (h : begin c w = .ok (s', w')) :
    ∃ xs t, c.coordInit w.user = .ok (xs, t) ∧ lastCreated w'.trace = xs := by
  unfold begin renewSwarm at h
  obtain ⟨raws, w1, h1, h⟩ := M.bind_eq_ok.1 h
  obtain ⟨u, w2, h2, h⟩ := M.bind_eq_ok.1 h
  obtain ⟨vs, w3, h3, h⟩ := M.bind_eq_ok.1 h
  obtain ⟨u', w4, h4, h⟩ := M.bind_eq_ok.1 h
  obtain ⟨ha, rfl⟩ := M.assert_eq_ok.1 h4
  obtain ⟨xs, w5, h5, h⟩ := M.bind_eq_ok.1 h
  obtain ⟨ps, w6, h6, h⟩ := M.bind_eq_ok.1 h
  obtain ⟨rfl, rfl⟩ := M.pure_eq_ok.1 h
  obtain ⟨k1, k2⟩ := hookAll_ok h5
  obtain ⟨k3, k4⟩ := newParticles_ok h6
  refine ⟨raws, _, (World.lift_eq_ok.1 h1).1, ?_⟩
  rw [k4, GA.lastCreated_append, k2, GA.lastCreated_append, (World.lift_eq_ok.1 h3).2, (World.emit_eq_ok.1 h2).2, GA.lastCreated_created]
  · intro e he; obtain ⟨_, _, _, _, rfl⟩ := mem_zipWith he; trivial
  · intro e he; obtain ⟨_, _, rfl⟩ := List.mem_map.1 he; trivial

/-- The points of the beginning are those that the initializer returns when the run starts. -/
theorem findMin_created {fuel : Nat} {o o' : Opt σ α} {r : Option (Solution (List α))} {w w' : World σ (List α)}
    (h : findMin fuel o w = .ok ((r, o'), w')) : ∃ xs s', o.comps.coordInit w.user = .ok (xs, s') ∧ lastCreated w'.trace = xs := by
  obtain ⟨p, w1, w2, h1, h2, h3⟩ := findMin_ok.1 h
  obtain ⟨p1, w3, w4, h4, h5, h6, -, -⟩ := nextIterations_ok.1 h3
  rw [callLoggers_lastCreated h6, loop_lastCreated h5, callLoggers_lastCreated h4, callLoggers_lastCreated h2]
  exact begin_created h1

theorem hooked_region {A : List α → Prop} {hs : List (List α → M σ (List α))} {x y : List α}
    (h : Hooked hs x y) (hk : ∀ h ∈ hs, ∀ v v', A v → Returned (h v) v' → A v') (hx : A x) : A y := by
  induction h with
  | nil => exact hx
  | cons h _ ih => exact ih (fun h' hm => hk h' (by simp [hm])) (hk _ (by simp) _ _ hx h)

/-- If one of the initial points is in a region which the hooks do not lead out of, then the goal was evaluated in this region. -/
theorem inv_region (A : List α → Prop) :
    Inv (σ := σ) (α := α) (fun c => ∀ h ∈ c.postMove, ∀ v v', A v → Returned (h v) v' → A v') (fun _ tr =>
      (∃ x ∈ lastCreated tr, A x) → ∃ a ∈ goalsSince tr, A a.1) where
  log := by
    rintro s tr j k h
    rw [GA.lastCreated_append (by simp [NotCreated]), goalsSince_snoc]; exact h
  check := by
    rintro s tr b h
    rw [GA.lastCreated_append (by simp [NotCreated]), goalsSince_snoc]; exact h
  begin := by
    rintro k s s' w w' hk - hr
    obtain ⟨raws, xs, vs, ps, hraw, hvs, hl, hx, hps, rfl, ht⟩ := begin_ok hr
    have hn : ∀ e ∈ List.zipWith Ev.moved raws xs ++ ps.map (fun p => Ev.goal p.coordinates p.value), NotCreated e := by
      intro e he
      rcases List.mem_append.1 he with he | he
      · obtain ⟨_, _, _, _, rfl⟩ := mem_zipWith he; trivial
      · obtain ⟨_, _, rfl⟩ := List.mem_map.1 he; trivial
    rw [ht, List.cons_append, ← List.singleton_append, ← List.append_assoc, GA.lastCreated_append hn, GA.lastCreated_created,
      goalsSince_append hn, goalsSince_created, List.nil_append]
    rintro ⟨x, hm, hA⟩
    obtain ⟨j, hj, rfl⟩ := List.getElem_of_mem hm
    have hlx := hx.length_eq
    have hlp := hps.length_eq
    rw [List.length_zip] at hlp
    have h3 := (List.forall₂_iff_get.1 hx).2 j hj (by omega)
    have h4 := (List.forall₂_iff_get.1 hps).2 j (by rw [List.length_zip]; omega) (by omega)
    simp only [List.get_eq_getElem, List.getElem_zip] at h3 h4
    refine ⟨(ps[j].coordinates, ps[j].value), ?_, ?_⟩
    · unfold goalsOf
      refine List.mem_filterMap.2 ⟨.goal ps[j].coordinates ps[j].value, ?_, rfl⟩
      exact List.mem_append_right _ (List.mem_map.2 ⟨ps[j], List.getElem_mem _, rfl⟩)
    · show A ps[j].coordinates
      rw [h4.2]
      exact hooked_region h3 hk hA
  core := by
    rintro k s s' w w' hk hI hr
    obtain ⟨evs, s1, hm, rfl, ht⟩ := core_ok hr
    have hn : ∀ e ∈ evs, NotCreated e := by
      intro e he
      have := hm.events e he
      cases e <;> first | trivial | exact absurd this id
    rw [ht, ← List.append_assoc, GA.lastCreated_append (evs := [_]) (by simp [NotCreated]), goalsSince_snoc,
      GA.lastCreated_append hn, goalsSince_append hn]
    intro h
    obtain ⟨a, ha, hA⟩ := hI h
    exact ⟨a, List.mem_append_left _ ha, hA⟩

end Verif.PSO
