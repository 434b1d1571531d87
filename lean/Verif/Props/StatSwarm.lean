import Verif.Props.StatRecord
import Verif.Props.SwarmStagnate
import Verif.Props.RosenbrockRange

/-!
# C77: the runs of the swarm statistics programs
-/

namespace Verif.Props.Swarm

open Verif Spec Spec.Swarm PSO Examples Fl Stats Workers

variable {σ τ : Type}

/-- The optimizer `create_optimizer` ends up with. -/
def statMade (P : Platform σ) (goal : List F32 → M σ F64) (particles : Nat) (lo hi : F32) (dims : Nat) (maxVelocity : F32)
    (postMoves : List (List F32 → M σ (List F32))) (velocity : PSO.Swarm F32 → PSO.Particle F32 → M σ (List F32))
    (stop : AlgState (List F32) → M σ Bool) : Opt σ F32 :=
  ⟨⟨goal, stop, Creation.randomInit P.rng (box lo hi dims) particles, Creation.zeroInit dims particles, velocity,
    [Hooks.maxVelocityAbs maxVelocity], postMoves, []⟩, ⟨[], none, none, 0⟩⟩

/-- The post-move hooks of the programs: perhaps a RandomTeleport, then MoveToBoundary. -/
def StatMoves (P : Platform σ) (ivs : List (F32 × F32)) (hooks : List (List F32 → M σ (List F32))) : Prop :=
  hooks = [Hooks.moveToBoundary ivs] ∨
    ∃ p t s s', Hooks.Teleport.new ivs p s = .ok (t, (s' : σ)) ∧ hooks = [Hooks.teleport P.rng t, Hooks.moveToBoundary ivs]

section

variable {P : Platform σ} {goal : List F32 → M σ F64} {n d : Nat} {lo hi v : F32}
  {posts : List (List F32 → M σ (List F32))} {vel : PSO.Swarm F32 → PSO.Particle F32 → M σ (List F32)}
  {stop : AlgState (List F32) → M σ Bool}

theorem statMade_lib (hstop : LibStop stop) (h1 : lo.isFinite = true) (h2 : hi.isFinite = true) (h3 : lo.lt hi = true)
    (hgoal : ∀ x, x.length = d → Works (goal x) (fun _ => True)) (hv : LibCalc P.rng vel) (hp : StatMoves P (box lo hi d) posts) :
    LibComps P.rng d n (statMade P goal n lo hi d v posts vel stop).comps where
  coordInit := .random _ (by unfold box; rw [List.length_replicate]) (box_increasing h1 h2 h3)
  velInit := .zero
  velCalc := hv
  postVel := fun h hh => by
    rw [List.mem_singleton.1 hh]
    exact .abs v
  postMove := fun h hh => by
    have hlen : (box lo hi d).length = d := by unfold box; rw [List.length_replicate]
    rcases hp with hp | ⟨p, t, s, s', ht, hp⟩
    · simp only [statMade, hp, List.mem_singleton] at hh
      rw [hh]
      exact .boundary _ hlen
    · simp only [statMade, hp, List.mem_cons, List.not_mem_nil, or_false] at hh
      rcases hh with rfl | rfl
      · exact .teleport _ p t s s' hlen ht
      · exact .boundary _ hlen
  stop := hstop
  loggers := fun l hl => absurd hl List.not_mem_nil
  goal := hgoal

theorem statMade_owns {κ : Type} {L : Lens σ κ} (hL : Platform.Leaves L P) (hg : ∀ x, Spec.Leaves L (goal x))
    (hv : ∀ s p, Spec.Leaves L (vel s p)) (hp : StatMoves P (box lo hi d) posts) :
    StopOwns L (statMade P goal n lo hi d v posts vel stop).comps where
  operators :=
    { coordInit := Spec.Leaves.randomInit hL.rng _ _
      velInit := Spec.Leaves.zeroInit _ _
      velCalc := hv
      postVel := fun h hh x => by
        rw [List.mem_singleton.1 hh]
        exact Spec.Leaves.maxVelocityAbs v x
      postMove := fun h hh x => by
        rcases hp with hp | ⟨p, t, s, s', ht, hp⟩
        · simp only [statMade, hp, List.mem_singleton] at hh
          rw [hh]
          exact Spec.Leaves.moveToBoundary _ x
        · simp only [statMade, hp, List.mem_cons, List.not_mem_nil, or_false] at hh
          rcases hh with rfl | rfl
          · exact Spec.Leaves.teleport hL.rng t x
          · exact Spec.Leaves.moveToBoundary _ x }
  goal := hg
  loggers := fun l hl => absurd hl List.not_mem_nil

theorem statMade_boundary (hp : StatMoves P (box lo hi d) posts) :
    BoundaryLast (box lo hi d) (statMade P goal n lo hi d v posts vel stop).comps := by
  rcases hp with hp | ⟨p, t, s, s', ht, hp⟩
  · exact ⟨[], hp⟩
  · exact ⟨[Hooks.teleport P.rng t], hp⟩

/-- From the run of the optimizer to the job of a worker. -/
theorem stat_swarm {makePosts makeVel makeStop} {s s1 : σ} (h1 : makePosts s = .ok (posts, s)) (h2 : makeVel s = .ok (vel, s))
    (h3 : makeStop s = .ok (stop, s1)) (pr : Profile) (fuel : Nat) {m : Nat} (hn : n ≠ 0) (hfit : n * (m + 1) < 2 ^ 64)
    {ivs : List (F32 × F32)} {V : List F32 → F64 → Prop}
    (h : SwarmEndsWell n m ivs V (findMin fuel (statMade P goal n lo hi d v posts vel stop) ⟨s1, []⟩)) :
    ∃ r s', StatPrograms.swarmJob pr (StatPrograms.swarm P goal n lo hi d v makePosts makeVel makeStop) fuel s = .ok (r, s') ∧
      SwarmRecord n m ivs V r := by
  obtain ⟨r, s', h4, h5⟩ := swarm_recorded pr (statMade P goal n lo hi d v posts vel stop) fuel s1 ⟨rfl, rfl⟩ hn hfit h
  refine ⟨r, s', ?_, h5⟩
  have hmake : StatPrograms.swarm P goal n lo hi d v makePosts makeVel makeStop s =
      .ok (statMade P goal n lo hi d v posts vel stop, s1) :=
    M.bind_eq_ok.2 ⟨_, _, h1, M.bind_eq_ok.2 ⟨_, _, h2, M.bind_eq_ok.2 ⟨_, _, h3, rfl⟩⟩⟩
  obtain ⟨o, s2, h6, h7⟩ := M.bind_eq_ok.1 h4
  obtain ⟨rfl, rfl⟩ := M.pure_eq_ok.1 h6
  exact M.bind_eq_ok.2 ⟨_, _, hmake, h7⟩

theorem teleport_moves {p : F32} (h1 : (Fl.zero : F32).le p = true) (h2 : p.le Fl.one = true)
    (h3 : (box lo hi d).all (fun iv => iv.1.le iv.2 && iv.1.isFinite && iv.2.isFinite) = true) (s : σ) :
    ∃ posts, StatPrograms.teleportAndBound P (box lo hi d) p s = .ok (posts, s) ∧ StatMoves P (box lo hi d) posts := by
  have ht : Hooks.Teleport.new (box lo hi d) p s = .ok (⟨box lo hi d, p⟩, s) :=
    M.bind_eq_ok.2 ⟨(), s, M.assert_eq_ok.2 ⟨h1, rfl⟩, M.bind_eq_ok.2 ⟨(), s, M.assert_eq_ok.2 ⟨h2, rfl⟩, by rw [if_pos h3]; rfl⟩⟩
  exact ⟨_, M.bind_eq_ok.2 ⟨_, _, ht, rfl⟩, .inr ⟨p, _, s, s, ht, rfl⟩⟩

theorem canonical_made {phiP phiG k : F32} (h1 : FloatT.lt (FloatT.lit 4 1) (FloatT.add phiP phiG) = true)
    (h2 : FloatT.lt FloatT.zero k = true) (h3 : FloatT.lt k FloatT.one = true) (s : σ) :
    ∃ c, StatPrograms.canonical P phiP phiG k s = .ok (Velocity.canonical P.rng c, s) :=
  ⟨_, M.bind_eq_ok.2 ⟨_, s, M.bind_eq_ok.2 ⟨(), s, M.assert_eq_ok.2 ⟨h1, rfl⟩, M.bind_eq_ok.2 ⟨(), s, M.assert_eq_ok.2 ⟨h2, rfl⟩,
      M.bind_eq_ok.2 ⟨(), s, M.assert_eq_ok.2 ⟨h3, rfl⟩, rfl⟩⟩⟩, rfl⟩⟩

/-- The stop checker with three members. -/
def statStops (L : Lens σ Stop.GNC) (t : F64) (m : Nat) (p : Profile) : AlgState (List F32) → M σ Bool :=
  Stop.any [Stop.threshold t, fun s => L.zoom (Stop.goalNotChange p s), Stop.maxIterations m]

theorem statStops_gnc (L : Lens σ Stop.GNC) (t : F64) (m : Nat) : HasGNC L (statStops L t m) := by
  refine .any [fun _ => Stop.threshold t, fun p s => L.zoom (Stop.goalNotChange p s), fun _ => Stop.maxIterations m] ?_
  intro c hc
  simp only [List.mem_cons, List.not_mem_nil, or_false] at hc
  rcases hc with rfl | rfl | rfl
  · exact .other _ (fun s => by
      unfold Stop.threshold
      split <;> exact leaves_pure _ _)
  · exact .object
  · exact .other _ (fun s => leaves_pure _ _)

theorem statStops_lib (L : Lens σ Stop.GNC) (t : F64) (m : Nat) : LibStop (statStops L t m .release) := by
  refine .any _ ?_
  intro c hc
  simp only [List.mem_cons, List.not_mem_nil, or_false] at hc
  rcases hc with rfl | rfl | rfl
  · exact .threshold t
  · exact .goalNotChange L
  · exact .maxIterations m

/-- The programs with MoveToBoundary alone and three stop checkers. -/
theorem stat_three {L : Lens σ Stop.GNC} (hL : Platform.Leaves L P) (hgl : ∀ x, Spec.Leaves L (goal x))
    (hgoal : ∀ x, x.length = d → Works (goal x) (fun _ => True)) (hn : n ≠ 0)
    (h1 : lo.isFinite = true) (h2 : hi.isFinite = true) (h3 : lo.lt hi = true)
    (hfin : ∀ x v, InBox (box lo hi d) x → Returned (goal x) v → v.isFinite = true) (hv : LibCalc P.rng vel)
    (hvl : ∀ s p, Spec.Leaves L (vel s p)) (t : F64) (mi : Nat) (de : F64) (m : Nat) (hfit : n * (m + 1) < 2 ^ 64) (fuel : Nat)
    (hfuel : m < fuel) (s : σ) :
    ∃ r s', StatPrograms.swarmJob P.profile (StatPrograms.swarm P goal n lo hi d v (pure [Hooks.moveToBoundary (box lo hi d)])
        (pure vel) (StatPrograms.threeStops L P.profile t mi de m)) fuel s = .ok (r, s') ∧
      SwarmRecord n m (box lo hi d) (fun x v => Returned (goal x) v) r := by
  have hmoves : StatMoves P (box lo hi d) [Hooks.moveToBoundary (box lo hi d)] := .inl rfl
  have hmake : StatPrograms.threeStops L P.profile t mi de m s = .ok (statStops L t m P.profile, L.set (Stop.GNC.new mi de) s) :=
    M.bind_eq_ok.2 ⟨(), _, rfl, anyOf_ok (by simp) _⟩
  refine stat_swarm rfl rfl hmake P.profile fuel hn hfit ?_
  exact C75_checked P.rng Fmt.embeds_f32 d n m hn (box lo hi d) (box_increasing h1 h2 h3) L (statStops L t m) (statStops_gnc L t m)
    (statMade P goal n lo hi d v _ vel (statStops L t m P.profile)) (statMade_owns hL hgl hvl hmoves)
    (statMade_lib (statStops_lib L t m) h1 h2 h3 hgoal hv hmoves) (statMade_boundary hmoves) hfin (C37_bounding m _ (by simp))
    fuel hfuel _ ⟨rfl, rfl⟩ mi de (L.get_set _ s) P.profile

end

theorem schwefel_finite {P : Platform σ} (hP : Platform.Sound P) {x : List F32} {v : F64}
    (hx : InBox (box (minus 500 1) (plus 500 1) 3) x)
    (hv : Returned (TestFunc.goalFromFunction (@TestFunc.schwefelF64 _ P.libm) x : M σ F64) v) : v.isFinite = true := by
  rw [returned_pure hv]
  exact (C72_schwefel (.inl rfl) P.libm hP.libm x (box_moderate (by omega) (by decide +kernel) (by decide +kernel) hx)).1

theorem record_mono {n m m' : Nat} {ivs : List (F32 × F32)} {V V' : List F32 → F64 → Prop} {d : Data (List F32)}
    (h : SwarmRecord n m ivs V d) (hm : m ≤ m') (hv : ∀ x v, V x v → V' x v) : SwarmRecord n m' ivs V' d := by
  obtain ⟨ps, a, row, h1, h2, h3, h4, h5, h6⟩ := h
  have key : ∀ {ps a}, BestOfRun ivs V ps a → BestOfRun ivs V' ps a := fun h =>
    ⟨h.mem, h.least, h.inside, fun b hb => hv _ _ (h.values b hb), h.finite⟩
  refine ⟨ps, a, row, h1, h2, by omega, key h4, h5, fun i hi => ?_⟩
  obtain ⟨b, hb1, hb2⟩ := h6 i hi
  exact ⟨b, hb1, key hb2⟩

/-- C77: a run of particleswarm-schwefel-statistics.rs, on any platform with any random numbers, with or without overflow
checks, ends and leaves a faithful record. -/
theorem C77_swarm_schwefel (P : Platform σ) (hP : Platform.Sound P) (fuel : Nat) (hfuel : 3000 < fuel) (s : σ) :
    ∃ r s', StatPrograms.swarmJob P.profile (StatPrograms.swarmSchwefel P) fuel s = .ok (r, s') ∧
      SwarmRecord 30 3000 (box (minus 500 1) (plus 500 1) 3) (fun x v => v = @TestFunc.schwefelF64 _ P.libm x) r := by
  obtain ⟨posts, h1, h2⟩ := teleport_moves (P := P) (lo := minus 500 1) (hi := plus 500 1) (d := 3) (p := plus 5 100)
    (by decide +kernel) (by decide +kernel) (by decide +kernel) s
  obtain ⟨c, h3⟩ := canonical_made (P := P) (phiP := plus 32 10) (phiG := plus 1 1) (k := plus 9 10) (by decide +kernel)
    (by decide +kernel) (by decide +kernel) s
  obtain ⟨r, s', h4, h5⟩ := stat_swarm (goal := TestFunc.goalFromFunction (@TestFunc.schwefelF64 _ P.libm)) (n := 30) (m := 3000)
    (v := plus 700 1) h1 h3 (anyOf_ok (cs := [Stop.threshold (Fl.ofRat false 1 100000000), Stop.maxIterations 3000]) (by simp) s) P.profile fuel (by omega) (by omega)
    (C75_find_min P.rng Fmt.embeds_f32 3 30 3000 (by omega) (box (minus 500 1) (plus 500 1) 3)
      (box_increasing (by decide +kernel) (by decide +kernel) (by decide +kernel)) _
      (statMade_lib (any_threshold_max (Fl.ofRat false 1 100000000) 3000 (by omega)).1 (by decide +kernel) (by decide +kernel) (by decide +kernel)
        (fun x _ => pure_works trivial) (.canonical c) h2) (statMade_boundary h2) (fun x v hx hv => schwefel_finite hP hx hv)
      (any_threshold_max (Fl.ofRat false 1 100000000) 3000 (by omega)).2.1 fuel hfuel _ ⟨rfl, rfl⟩)
  exact ⟨r, s', h4, record_mono h5 (Nat.le_refl _) fun x v hv => returned_pure hv⟩

/-- C77: particleswarm-schwefel-statistics-full.rs -/
theorem C77_swarm_schwefel_full (P : Platform σ) (hP : Platform.Sound P) (L : Lens σ Stop.GNC) (hL : Platform.Leaves L P)
    (fuel : Nat) (hfuel : 1000 < fuel) (s : σ) :
    ∃ r s', StatPrograms.swarmJob P.profile (StatPrograms.swarmSchwefelFull P L) fuel s = .ok (r, s') ∧
      SwarmRecord 50 1000 (box (minus 500 1) (plus 500 1) 3) (fun x v => v = @TestFunc.schwefelF64 _ P.libm x) r := by
  obtain ⟨r, s', h4, h5⟩ := stat_three (P := P) (goal := TestFunc.goalFromFunction (@TestFunc.schwefelF64 _ P.libm)) (n := 50)
    (d := 3) (lo := minus 500 1) (hi := plus 500 1) (v := plus 700 1) (vel := Velocity.negReinf P.rng StatPrograms.fullVelocity)
    hL (fun x => leaves_pure _ _) (fun x _ => pure_works trivial) (by omega) (by decide +kernel) (by decide +kernel)
    (by decide +kernel) (fun x v hx hv => schwefel_finite hP hx hv) (.negative _)
    (fun s p => Spec.Leaves.negReinf hL.rng _ s p) (Fl.ofRat false 1 1000000) 50 (Fl.ofRat false 1 100000000) 1000 (by omega)
    fuel hfuel s
  exact ⟨r, s', h4, record_mono h5 (Nat.le_refl _) fun x v hv => returned_pure hv⟩

/-- C77: particleswarm-schwefel-statistics-inertia.rs -/
theorem C77_swarm_schwefel_inertia (P : Platform σ) (hP : Platform.Sound P) (L : Lens σ Stop.GNC) (hL : Platform.Leaves L P)
    (fuel : Nat) (hfuel : 400 < fuel) (s : σ) :
    ∃ r s', StatPrograms.swarmJob P.profile (StatPrograms.swarmSchwefelInertia P L) fuel s = .ok (r, s') ∧
      SwarmRecord 50 400 (box (minus 500 1) (plus 500 1) 3) (fun x v => v = @TestFunc.schwefelF64 _ P.libm x) r := by
  obtain ⟨r, s', h4, h5⟩ := stat_three (P := P) (goal := TestFunc.goalFromFunction (@TestFunc.schwefelF64 _ P.libm)) (n := 50)
    (d := 3) (lo := minus 500 1) (hi := plus 500 1) (v := plus 700 1)
    (vel := Velocity.inertia P.rng (plus 22 10) (plus 6 10) (Velocity.constInertia (plus 85 100)))
    hL (fun x => leaves_pure _ _) (fun x _ => pure_works trivial) (by omega) (by decide +kernel) (by decide +kernel)
    (by decide +kernel) (fun x v hx hv => schwefel_finite hP hx hv) (.inertia _ _ _ (.const _))
    (fun s p => Spec.Leaves.inertia hL.rng _ _ (fun _ => leaves_pure _ _) s p) (Fl.ofRat false 1 1000000) 50
    (Fl.ofRat false 1 100000000) 400 (by omega) fuel hfuel s
  exact ⟨r, s', h4, record_mono h5 (Nat.le_refl _) fun x v hv => returned_pure hv⟩

/-- C77: particleswarm-rastrigin-statistics-inertia.rs -/
theorem C77_swarm_rastrigin_inertia (P : Platform σ) (hP : Platform.Sound P) (L : Lens σ Stop.GNC) (hL : Platform.Leaves L P)
    (fuel : Nat) (hfuel : 400 < fuel) (s : σ) :
    ∃ r s', StatPrograms.swarmJob P.profile (StatPrograms.swarmRastriginInertia P L) fuel s = .ok (r, s') ∧
      SwarmRecord 50 400 (box (minus 512 100) (plus 512 100) 3) (fun x v => v = @TestFunc.rastriginF64 _ P.libm x) r := by
  obtain ⟨r, s', h4, h5⟩ := stat_three (P := P) (goal := TestFunc.goalFromFunction (@TestFunc.rastriginF64 _ P.libm)) (n := 50)
    (d := 3) (lo := minus 512 100) (hi := plus 512 100) (v := plus 700 1)
    (vel := Velocity.inertia P.rng (plus 22 10) (plus 6 10) (Velocity.constInertia (plus 85 100)))
    hL (fun x => leaves_pure _ _) (fun x _ => pure_works trivial) (by omega) (by decide +kernel) (by decide +kernel)
    (by decide +kernel) (fun x v hx hv => by
      rw [returned_pure hv]
      exact (C72_rastrigin (.inl rfl) P.libm hP.libm x
        (box_moderate (by omega) (by decide +kernel) (by decide +kernel) hx)).1) (.inertia _ _ _ (.const _))
    (fun s p => Spec.Leaves.inertia hL.rng _ _ (fun _ => leaves_pure _ _) s p) (Fl.ofRat false 1 1000000) 50
    (Fl.ofRat false 1 100000000) 400 (by omega) fuel hfuel s
  exact ⟨r, s', h4, record_mono h5 (Nat.le_refl _) fun x v hv => returned_pure hv⟩

/-- The stop checker of particleswarm-rosenbrock-statistics.rs -/
def rosenbrockStops (L : Lens σ Stop.GNC) (t : F64) (p : Profile) : AlgState (List F32) → M σ Bool :=
  Stop.any [Stop.threshold t, fun s => L.zoom (Stop.goalNotChange p s)]

/-- C77: particleswarm-rosenbrock-statistics.rs. It has no limit for the number of iterations; GoalNotChange ends it after at
most `10 ^ 17` of them. -/
theorem C77_swarm_rosenbrock (P : Platform σ) (L : Lens σ Stop.GNC) (hL : Platform.Leaves L P)
    (fuel : Nat) (hfuel : 10 ^ 17 < fuel) (s : σ) :
    ∃ r s', StatPrograms.swarmJob P.profile (StatPrograms.swarmRosenbrock P L) fuel s = .ok (r, s') ∧
      SwarmRecord 20 (10 ^ 17) (box (minus 2 1) (plus 2 1) 3)
        (fun x v => Returned (TestFunc.rosenbrockF64 P.profile x : M σ F64) v) r := by
  obtain ⟨posts, h1, h2⟩ := teleport_moves (P := P) (lo := minus 2 1) (hi := plus 2 1) (d := 3) (p := plus 0 1)
    (by decide +kernel) (by decide +kernel) (by decide +kernel) s
  obtain ⟨c, h3⟩ := canonical_made (P := P) (phiP := plus 34 10) (phiG := plus 1 1) (k := plus 9 10) (by decide +kernel)
    (by decide +kernel) (by decide +kernel) s
  have hmake : (do
      makeAt L (Stop.GNC.new 500 (Fl.ofRat false 1 10000000000))
      anyOf [Stop.threshold (Fl.ofRat false 1 100000000), fun s => L.zoom (Stop.goalNotChange P.profile s)] :
        M σ (AlgState (List F32) → M σ Bool)) s =
      .ok (rosenbrockStops L (Fl.ofRat false 1 100000000) P.profile, L.set (Stop.GNC.new 500 (Fl.ofRat false 1 10000000000)) s) :=
    M.bind_eq_ok.2 ⟨(), _, rfl, anyOf_ok (by simp) _⟩
  have hbnd : ((((Fl.ofRat false 7218 1 : F64).toInt - (Fl.ofRat true 7218 1 : F64).toInt) /
      (Fl.ofRat false 1 10000000000 : F64).toInt).toNat + 2) * (500 + 1) ≤ 10 ^ 17 := by decide +kernel
  have hde : (Fl.zero : F64).lt (Fl.ofRat false 1 10000000000) = true := by decide +kernel
  unfold StatPrograms.swarmRosenbrock
  generalize (Fl.ofRat false 1 100000000 : F64) = t at hmake ⊢
  generalize (Fl.ofRat false 1 10000000000 : F64) = de at hmake hbnd hde ⊢
  have hgnc : HasGNC L (rosenbrockStops L t) := by
    refine .any [fun _ => Stop.threshold t, fun p s => L.zoom (Stop.goalNotChange p s)] ?_
    intro c hc
    simp only [List.mem_cons, List.not_mem_nil, or_false] at hc
    rcases hc with rfl | rfl
    · exact .other _ (fun s => by
        unfold Stop.threshold
        split <;> exact leaves_pure _ _)
    · exact .object
  have hlib : LibStop (rosenbrockStops L t .release) := by
    refine .any _ ?_
    intro c hc
    simp only [List.mem_cons, List.not_mem_nil, or_false] at hc
    rcases hc with rfl | rfl
    · exact .threshold t
    · exact .goalNotChange L
  have hcons : NeedsConsent L (Stop.goalNotChange .release) (rosenbrockStops L t .release) :=
    C73_any L (Stop.goalNotChange .release) [Stop.threshold t] [] (by
      intro c hc s
      rw [List.mem_singleton.1 hc]
      unfold Stop.threshold
      split <;> exact leaves_pure _ _) (fun c hc => absurd hc List.not_mem_nil)
  have hrange : ∀ x v, InBox (box (minus 2 1) (plus 2 1) 3) x → Returned (TestFunc.rosenbrockF64 P.profile x : M σ F64) v →
      (Fl.ofRat true 7218 1 : F64).le v = true ∧ v.le (Fl.ofRat false 7218 1) = true := by
    rintro x v hx ⟨s, s', h⟩
    have hlen : x.length = 3 := by rw [← hx.length_eq]; unfold box; rw [List.length_replicate]
    obtain ⟨v', s1, h1, h2⟩ := C72_rosenbrock_square (σ := σ) (.inl rfl) P.profile x (by
        intro a ha
        obtain ⟨k, hk, rfl⟩ := List.mem_iff_getElem.1 ha
        have hk' : k < (box (minus 2 1) (plus 2 1) 3).length := by rw [hx.length_eq]; exact hk
        have hin := hx.get hk' hk
        simp only [List.get_eq_getElem] at hin
        rw [box_mem (List.getElem_mem hk')] at hin
        exact within_between (by decide +kernel) (by decide +kernel) hin) (by omega) (by rintro rfl; cases hlen) s
    rw [h] at h1
    cases h1
    rw [hlen] at h2
    have k1 : (Fl.ofRat true 7218 1 : F64).toInt = -(7218 * Fmt.f64.D : Nat) ∧ (Fl.ofRat true 7218 1 : F64).isFinite = true ∧
      (Fl.ofRat false 7218 1 : F64).toInt = (7218 * Fmt.f64.D : Nat) ∧ (Fl.ofRat false 7218 1 : F64).isFinite = true := by
      decide +kernel
    obtain ⟨k1, k2, k3, k4⟩ := k1
    have h3 := h2.2
    have nn : ∀ {y : F64}, y.isFinite = true → y.isNan = false := fun h => Fl.isNan_of_isFinite h
    constructor
    · refine Fl.le_iff.2 ⟨nn k2, nn h2.1, ?_⟩
      omega
    · refine Fl.le_iff.2 ⟨nn h2.1, nn k4, ?_⟩
      omega
  refine stat_swarm h1 h3 hmake P.profile fuel (by omega) (by omega) ?_
  obtain ⟨a, o', w', k1, k2, k3, k4⟩ := C75_stagnating P.rng Fmt.embeds_f32 3 20 (by omega) (box (minus 2 1) (plus 2 1) 3)
    (box_increasing (by decide +kernel) (by decide +kernel) (by decide +kernel)) L (rosenbrockStops L t) hgnc hcons
    (statMade P (TestFunc.rosenbrockF64 P.profile) 20 (minus 2 1) (plus 2 1) 3 (plus 2 1) posts (Velocity.canonical P.rng c)
      (rosenbrockStops L t P.profile))
    (statMade_owns hL (fun x => Spec.Leaves.rosenbrockF64 _ x) (fun s p => Spec.Leaves.canonical hL.rng c s p) h2)
    (statMade_lib hlib (by decide +kernel) (by decide +kernel) (by decide +kernel) (by
      intro x hx s
      obtain ⟨v, h, -⟩ := rosenbrock_fold P.profile x (by rintro rfl; cases hx) s (fun _ => True) trivial (fun _ _ _ _ => trivial)
      exact ⟨Fl.cast v, s, M.bind_eq_ok.2 ⟨v, s, h, rfl⟩, trivial⟩) (.canonical c) h2)
    (statMade_boundary h2) (fun x => M.NoFuel.rosenbrockF64 _ _) (Fl.ofRat true 7218 1) (Fl.ofRat false 7218 1)
    (by decide +kernel) (by decide +kernel) hrange 500 de hde _ rfl fuel (Nat.lt_of_le_of_lt hbnd hfuel)
    ⟨L.set (Stop.GNC.new 500 de) s, []⟩ ⟨rfl, rfl⟩ (L.get_set _ s) P.profile
  exact ⟨a, o', w', k1, k2, k3, Nat.le_trans k4 hbnd⟩

/-- A platform that meets the hypotheses, with overflow checks. -/
example (s) : ∃ r s', StatPrograms.swarmJob .debug (StatPrograms.swarmSchwefelFull demoPlatform (Lens.snd _ _)) 2000 s =
      .ok (r, s') ∧
      SwarmRecord 50 1000 (box (minus 500 1) (plus 500 1) 3) (fun x v => v = @TestFunc.schwefelF64 _ demoPlatform.libm x) r :=
  C77_swarm_schwefel_full demoPlatform demo_sound (Lens.snd _ _) demo_leaves 2000 (by omega) s

/-- A small program of the same form, with two particles in the plane: three iterations, eight points. -/
example : (match StatPrograms.swarmJob .debug (StatPrograms.swarm demoPlatform
      (TestFunc.goalFromFunction TestFunc.paraboloidF64) 2 (minus 5 1) (plus 5 1) 2 (plus 1 1)
      (StatPrograms.teleportAndBound demoPlatform (box (minus 5 1) (plus 5 1) 2) (plus 5 100))
      (StatPrograms.canonical demoPlatform (plus 32 10) (plus 1 1) (plus 9 10))
      (StatPrograms.threeStops (Lens.snd _ _) .debug (Fl.ofRat false 1 1000000) 50 (Fl.ofRat false 1 100000000) 3)) 10
      (([3, 1, 4, 1, 5, 9, 2, 6, 5, 3, 5, 8, 9, 7, 9, 3, 2, 3, 8, 4, 6], []), Stop.GNC.new 0 Fl.zero) with
    | .ok (d, _) => d.1.results.map Option.isSome == [true] && d.1.convergence.map List.length == [3] && d.2 == [8]
    | .error _ => false) = true := by decide +kernel

end Verif.Props.Swarm
