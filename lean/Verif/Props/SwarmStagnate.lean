import Verif.Proofs.LibNoFuel
import Verif.Props.SwarmProgram
import Verif.Props.StopTerminates

/-!
# C75: library swarms that are stopped by GoalNotChange alone
-/

set_option linter.unusedSectionVars false

namespace Verif.Props.Swarm

open Verif Spec Spec.Swarm PSO Fl

variable {σ : Type} {f : Fmt}

/-- C75: a swarm put together from the library, with MoveToBoundary as its last hook, whose stop checker stops if a new
`GoalNotChange(mi, de)` says so, returns by itself if `de` is positive and the goal is between `a` and `b` on the intervals: it
needs no MaxIterations. It takes at most `(⌊(b - a) / de⌋ + 2) * (mi + 1)` iterations. -/
theorem C75_stagnating (R : Rng σ) (hf : Fmt.Embeds f Fmt.f64) (d n : Nat) (hn : n ≠ 0) (ivs : List (Fl f × Fl f))
    (hivs : FiniteIncreasing ivs) (L : Lens σ Stop.GNC) (stop : Profile → AlgState (List (Fl f)) → M σ Bool)
    (hgnc : HasGNC L stop) (hcons : NeedsConsent L (Stop.goalNotChange .release) (stop .release)) (o : Opt σ (Fl f))
    (hL : StopOwns L o.comps) (h : LibComps R d n (o.withStop (stop .release)).comps) (hb : BoundaryLast ivs o.comps)
    (hnf : ∀ x, (o.comps.goal x).NoFuel) (a b : F64) (ha : a.isFinite = true) (hb' : b.isFinite = true)
    (hg : ∀ x v, InBox ivs x → Returned (o.comps.goal x) v → a.le v = true ∧ v.le b = true) (mi : Nat) (de : F64)
    (hde : (Fl.zero : F64).lt de = true) (N : Nat) (hN : N = (((b.toInt - a.toInt) / de.toInt).toNat + 2) * (mi + 1))
    (fuel : Nat) (hfuel : N < fuel) (w : World σ (List (Fl f))) (h0 : Fresh o w) (hw : L.get w.user = Stop.GNC.new mi de)
    (p : Profile) :
    SwarmEndsWell n N ivs (fun x v => Returned (o.comps.goal x) v) (findMin fuel (o.withStop (stop p)) w) := by
  have hfin : ∀ x v, InBox ivs x → Returned (o.comps.goal x) v → v.isFinite = true := fun x v hx hv =>
    Fl.isFinite_of_between ha hb' (hg x v hx hv).1 (hg x v hx hv).2
  have hinto := boundary_into ivs hivs (o.withStop (stop .release)).comps hb
  obtain ⟨-, k2, k3⟩ := C73_swarm_bounded .release L (o.withStop (stop .release))
    ⟨hcons, ⟨hL.operators.coordInit, hL.operators.velInit, hL.operators.velCalc, hL.operators.postVel, hL.operators.postMove⟩,
      hL.goal, hL.loggers⟩ (by
      rintro ⟨s, s', hr⟩
      obtain ⟨x, s'', h1, h2⟩ := libInit_works hf h.coordInit s
      rw [hr] at h1
      cases h1
      exact hn h2.1.symm) a b ha hb' (fun raw x v hx hv => hg x v (hinto raw x hx) hv) mi de hde w hw N hN fuel hfuel
  have hne := k2 (lib_noFuel h hnf)
  have hok : ∃ r o' w', findMin fuel (o.withStop (stop .release)) w = .ok ((r, o'), w') := by
    cases hr : findMin fuel (o.withStop (stop .release)) w with
    | ok q => exact ⟨q.1.1, q.1.2, q.2, rfl⟩
    | error e =>
      have herr : runTo (o.withStop (stop .release)) [.findMin fuel] .done w = .error e :=
        M.bind_eq_error.2 (.inl (M.bind_eq_error.2 (.inl (M.bind_eq_error.2 (.inl hr)))))
      rcases C48_library_no_panic R hf d n [.findMin fuel] (o.withStop (stop .release)) w h0 ⟨h, h⟩ .done with
        ⟨o', w', h1, -⟩ | h1
      · rw [herr] at h1; cases h1
      · rw [herr] at h1; cases h1; exact (hne hr).elim
  obtain ⟨r, o', w', h1⟩ := hok
  have hrun : run (o.withStop (stop .release)) [.findMin fuel] w = .ok (([some r], o'), w') :=
    run_snoc (ks := []) rfl (M.bind_eq_ok.2 ⟨_, _, h1, rfl⟩)
  have h2 : Shaped d n o'.swarm := by
    rcases C48_library_no_panic R hf d n [.findMin fuel] (o.withStop (stop .release)) w h0 ⟨h, h⟩ .done with ⟨o2, w2, h3, h4⟩ | h3
    · rw [runTo_done hrun] at h3; cases h3; exact h4
    · rw [runTo_done hrun] at h3; cases h3
  obtain ⟨q, hq, hbest⟩ := bestOfRun ivs hivs (o.withStop (stop .release)) o' w w' [.findMin fuel] h0 ⟨hb, hb⟩ (runTo_done hrun) hfin (h2.hasBest hn)
  obtain ⟨k, -, -, p0, -, -, -, -, -, hp0, hit, hrr, -⟩ := findMin_spec h1
  have hcnt := C27_swarm (o.withStop (stop .release)) o' w w' _ .done h0 (runTo_done hrun)
  rw [h2.count] at hcnt
  have hit' := k3 r o' w' h1
  obtain ⟨h5, -⟩ := findMin_agree hL (hasGNC_agree hgnc .release p) fuel w (by rw [hw]; rfl)
  rw [h1] at h5
  cases h6 : findMin fuel (o.withStop (stop p)) w with
  | error e => rw [h6] at h5; cases h5
  | ok x =>
    obtain ⟨⟨r2, o2⟩, w2⟩ := x
    rw [h6] at h5
    simp only [seen, Except.map, Except.ok.injEq, Prod.mk.injEq] at h5
    obtain ⟨⟨rfl, h7⟩, rfl⟩ := h5
    exact ⟨q, o2, w', by rw [hrr, hq], hbest, by rw [← h7]; exact hcnt, by rw [← h7]; exact hit'⟩

end Verif.Props.Swarm
