import Verif.Spec.SwarmProgram
import Verif.Props.SwarmShape
import Verif.Props.SwarmBox
import Verif.Props.Checked
import Verif.Props.TestFuncFinite
import Verif.Proofs.LibLeaves

/-!
# C75: swarm programs put together from the library
-/

set_option linter.unusedSectionVars false

namespace Verif.Props.Swarm

open Verif Spec Spec.Swarm PSO

variable {σ : Type} {f : Fmt}

theorem bestOfRun (ivs : List (Fl f × Fl f)) (hivs : FiniteIncreasing ivs) (o o' : Opt σ (Fl f))
    (w w' : World σ (List (Fl f))) (ks : List (Call σ (Fl f))) (h0 : Fresh o w)
    (hb : Always (BoundaryLast ivs) o.comps ks) (hr : runTo o ks .done w = .ok (o', w'))
    (hfin : ∀ x v, InBox ivs x → Returned (o.comps.goal x) v → v.isFinite = true) (hn : o'.swarm.best ≠ none) :
    ∃ a, o'.swarm.state.best = some a ∧ BestOfRun ivs (fun x v => Returned (o.comps.goal x) v) (goalsSince w'.trace) a := by
  obtain ⟨b, hbest⟩ := Option.ne_none_iff_exists'.1 hn
  obtain ⟨-, h2, -, -⟩ := C39_state o o' w w' ks .done h0 hr
  obtain ⟨h3, h4⟩ := h2 b hbest
  obtain ⟨-, -, -, -, hshow⟩ := C41_swarm ivs hivs o o' w w' ks .done h0 hb hr
  have key : ∀ c ∈ goalsSince w'.trace, InBox ivs c.1 ∧ Returned (o.comps.goal c.1) c.2 ∧ c.2.isFinite = true := by
    intro c hc
    have hm : Ev.goal c.1 c.2 ∈ w'.trace := evaluated_of_goalsSince hc
    have h5 : InBox ivs c.1 := hshow _ hm
    have h6 := C22_swarm_goal o o' w w' ks .done h0 hr _ _ hm
    exact ⟨h5, h6, hfin _ _ h5 h6⟩
  refine ⟨(b.coordinates, b.value), ?_, h3, ?_, fun c hc => (key c hc).1, fun c hc => (key c hc).2.1, fun c hc => (key c hc).2.2⟩
  · unfold PSO.Swarm.state
    rw [hbest]; rfl
  · intro c hc
    rcases h4 c hc with ⟨-, -, h5⟩ | h5
    · exact h5
    · rw [(key c hc).2.2] at h5; cases h5

theorem always_next {P : Comps σ (Fl f) → Prop} {fuel : Nat} : ∀ {ks : List (Call σ (Fl f))} {c : Comps σ (Fl f)},
    Always P c ks → Always P c (ks ++ [.nextIterations fuel]) := by
  intro ks
  induction ks with
  | nil => intro c h; exact ⟨h, h⟩
  | cons k ks ih => intro c h; exact ⟨h.1, ih h.2⟩

theorem run_snoc {k : Call σ (Fl f)} : ∀ {ks : List (Call σ (Fl f))} {o o1 o2 : Opt σ (Fl f)} {w w1 w2 : World σ (List (Fl f))}
    {rs : List (Ret (Fl f))} {r : Ret (Fl f)}, run o ks w = .ok ((rs, o1), w1) → call o1 k w1 = .ok ((r, o2), w2) →
    run o (ks ++ [k]) w = .ok ((rs ++ [r], o2), w2) := by
  intro ks
  induction ks with
  | nil =>
    intro o o1 o2 w w1 w2 rs r h1 h2
    obtain ⟨h3, rfl⟩ := M.pure_eq_ok.1 h1
    cases h3
    exact M.bind_eq_ok.2 ⟨_, _, h2, M.bind_eq_ok.2 ⟨([], o2), w2, rfl, rfl⟩⟩
  | cons k' ks ih =>
    intro o o1 o2 w w1 w2 rs r h1 h2
    obtain ⟨⟨r3, o3⟩, w3, h3, h4⟩ := M.bind_eq_ok.1 h1
    obtain ⟨⟨r5, o5⟩, w5, h5, h6⟩ := M.bind_eq_ok.1 h4
    obtain ⟨h7, rfl⟩ := M.pure_eq_ok.1 h6
    cases h7
    exact M.bind_eq_ok.2 ⟨_, _, h3, M.bind_eq_ok.2 ⟨_, _, ih h5 h2, rfl⟩⟩

theorem runTo_done {ks : List (Call σ (Fl f))} {o o' : Opt σ (Fl f)} {w w' : World σ (List (Fl f))} {rs : List (Ret (Fl f))}
    (h : run o ks w = .ok ((rs, o'), w')) : runTo o ks .done w = .ok (o', w') := M.bind_eq_ok.2 ⟨_, _, h, rfl⟩

/-- C75: a swarm of `n` particles, put together from the library, with MoveToBoundary as its last hook, a goal that is finite
on the intervals and a stop checker that stops at iteration `m` at the latest: `find_min` returns the best of the points it
has evaluated, all of them in the intervals, after at most `m` iterations. -/
theorem C75_find_min (R : Rng σ) (hf : Fmt.Embeds f Fmt.f64) (d n m : Nat) (hn : n ≠ 0) (ivs : List (Fl f × Fl f))
    (hivs : FiniteIncreasing ivs) (o : Opt σ (Fl f)) (h : LibComps R d n o.comps) (hb : BoundaryLast ivs o.comps)
    (hfin : ∀ x v, InBox ivs x → Returned (o.comps.goal x) v → v.isFinite = true) (hs : Bounding m o.comps.stop)
    (fuel : Nat) (hfuel : m < fuel) (w : World σ (List (Fl f))) (h0 : Fresh o w) :
    SwarmEndsWell n m ivs (fun x v => Returned (o.comps.goal x) v) (findMin fuel o w) := by
  obtain ⟨r, o', w', h1, h2⟩ := C48_returns d n m o (C48_library R hf d n _ h) hs w fuel hfuel
  have hrun : run o [.findMin fuel] w = .ok (([some r], o'), w') :=
    run_snoc (ks := []) rfl (M.bind_eq_ok.2 ⟨_, _, h1, rfl⟩)
  obtain ⟨a, ha, hbest⟩ := bestOfRun ivs hivs o o' w w' [.findMin fuel] h0 ⟨hb, hb⟩ (runTo_done hrun) hfin (h2.hasBest hn)
  obtain ⟨k, -, -, p0, -, -, -, -, -, hp0, hit, hrr, -, -, -, -, -, w1, w2, s', htu, -⟩ := findMin_spec h1
  have hbd := turns_bounded hs k _ _ _ _ htu
  refine ⟨a, o', w', by rw [h1, hrr, ha], hbest, ?_, by omega⟩
  rw [C27_swarm o o' w w' _ .done h0 (runTo_done hrun), h2.count]

/-- C75: the same for `next_iterations` after any history with a `find_min` in it. -/
theorem C75_next_iterations (R : Rng σ) (hf : Fmt.Embeds f Fmt.f64) (d n m : Nat) (ivs : List (Fl f × Fl f))
    (hivs : FiniteIncreasing ivs) (o0 o : Opt σ (Fl f)) (ks : List (Call σ (Fl f))) (rs : List (Ret (Fl f)))
    (w0 w : World σ (List (Fl f))) (h0 : Fresh o0 w0) (h : Always (LibComps R d n) o0.comps ks)
    (hb : Always (BoundaryLast ivs) o0.comps ks)
    (hfin : ∀ x v, InBox ivs x → Returned (o0.comps.goal x) v → v.isFinite = true)
    (hr : run o0 ks w0 = .ok ((rs, o), w)) (hp : o.swarm.particles ≠ []) (hs : Bounding m o.comps.stop)
    (hi : o.swarm.iteration ≤ m) (fuel : Nat) (hfuel : m < o.swarm.iteration + fuel) :
    SwarmEndsWell n m ivs (fun x v => Returned (o0.comps.goal x) v) (nextIterations fuel o w) := by
  have hfits : Always (Fits d n) o0.comps ks := always_imp (fun c hc => C48_library R hf d n c hc) h
  rcases good_run ks hfits (k := 0) (.inr rfl) (by rw [h0.1]; exact shaped_empty) w0 with ⟨⟨rs1, o1⟩, w1, h1, hc, hk, hsh⟩ | ⟨-, h1⟩
  swap
  · rw [hr] at h1; cases h1
  rw [hr] at h1
  cases h1
  have hpos : o.swarm.particles.length ≠ 0 := fun he => hp (List.length_eq_zero_iff.1 he)
  have hcount : o.swarm.particles.length = countAfter n 0 ks := hsh.count
  have hk' : countAfter n 0 ks = n := by
    rcases hk with hk | hk
    · exact hk
    · omega
  rw [hk'] at hsh hcount
  have hn : n ≠ 0 := by omega
  rcases (total_nextIterations (o := o) hc hs hsh fuel hfuel (by omega) w : Good False _ _ _) with ⟨⟨r, o'⟩, w', h1, -, h2⟩ | ⟨hF, -⟩
  swap
  · exact hF.elim
  have hrun := run_snoc (k := .nextIterations fuel) hr (M.bind_eq_ok.2 ⟨_, _, h1, rfl⟩)
  obtain ⟨a, ha, hbest⟩ := bestOfRun ivs hivs o0 o' w0 w' _ h0 (always_next hb) (runTo_done hrun) hfin (h2.hasBest hn)
  obtain ⟨k, -, -, -, -, -, hit, hrr, -, -, -, -, -, w1, w2, s', htu, -⟩ := nextIterations_spec h1
  have hbd := turns_bounded hs k _ _ _ _ htu
  refine ⟨a, o', w', by rw [h1, hrr, ha], hbest, ?_, by omega⟩
  rw [C27_swarm o0 o' w0 w' _ .done h0 (runTo_done hrun), h2.count]

/-- The stop checker with one new GoalNotChange: also with overflow checks. -/
theorem C75_checked (R : Rng σ) (hf : Fmt.Embeds f Fmt.f64) (d n m : Nat) (hn : n ≠ 0) (ivs : List (Fl f × Fl f))
    (hivs : FiniteIncreasing ivs) (L : Lens σ Stop.GNC) (stop : Profile → AlgState (List (Fl f)) → M σ Bool)
    (hgnc : HasGNC L stop) (o : Opt σ (Fl f)) (hL : StopOwns L o.comps)
    (h : LibComps R d n (o.withStop (stop .release)).comps) (hb : BoundaryLast ivs o.comps)
    (hfin : ∀ x v, InBox ivs x → Returned (o.comps.goal x) v → v.isFinite = true) (hs : Bounding m (stop .release))
    (fuel : Nat) (hfuel : m < fuel) (w : World σ (List (Fl f))) (h0 : Fresh o w) (mi : Nat) (de : F64)
    (hw : L.get w.user = Stop.GNC.new mi de) (p : Profile) :
    SwarmEndsWell n m ivs (fun x v => Returned (o.comps.goal x) v) (findMin fuel (o.withStop (stop p)) w) := by
  obtain ⟨a, o', w', h1, h2, h3, h4⟩ := C75_find_min R hf d n m hn ivs hivs (o.withStop (stop .release)) h hb hfin hs fuel hfuel w h0
  obtain ⟨h5, -⟩ := findMin_agree hL (hasGNC_agree hgnc .release p) fuel w (by rw [hw]; rfl)
  rw [h1] at h5
  cases h6 : findMin fuel (o.withStop (stop p)) w with
  | error e => rw [h6] at h5; cases h5
  | ok q =>
    obtain ⟨⟨r, o2⟩, w2⟩ := q
    rw [h6] at h5
    simp only [seen, Except.map, Except.ok.injEq, Prod.mk.injEq] at h5
    obtain ⟨⟨rfl, h7⟩, rfl⟩ := h5
    exact ⟨a, o2, w', rfl, h2, by rw [← h7]; exact h3, by rw [← h7]; exact h4⟩

end Verif.Props.Swarm
