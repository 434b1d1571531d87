import Verif.Props.SwarmProgram
import Verif.Props.GeneticExamples

/-!
# C75: the swarm example programs
-/

namespace Verif.Props.Swarm

open Verif Spec Spec.Swarm PSO Examples Fl

variable {σ τ : Type} {f : Fmt}

theorem SwarmEndsWell.mono {n m : Nat} {ivs : List (Fl f × Fl f)} {V V' : List (Fl f) → F64 → Prop}
    {r : Except Err ((Option (Solution (List (Fl f))) × PSO.Opt σ (Fl f)) × World σ (List (Fl f)))}
    (h : SwarmEndsWell n m ivs V r) (hv : ∀ x v, V x v → V' x v) : SwarmEndsWell n m ivs V' r := by
  obtain ⟨a, o', w', h1, h2, h3, h4⟩ := h
  exact ⟨a, o', w', h1, ⟨h2.mem, h2.least, h2.inside, fun b hb => hv _ _ (h2.values b hb), h2.finite⟩, h3, h4⟩

theorem goalsSince_withoutLogs {T : Type} (tr : List (Ev T)) : goalsSince (withoutLogs tr) = goalsSince tr := by
  unfold goalsSince withoutLogs
  suffices ∀ (g : List (Solution T) → Ev T → List (Solution T)) (l : List (Solution T)),
      (∀ l i k s, g l (.log i k s) = l) →
      (tr.filter fun | .log _ _ _ => false | _ => true).foldl g l = tr.foldl g l from this _ _ (fun _ _ _ _ => rfl)
  intro g l hg
  induction tr generalizing l with
  | nil => rfl
  | cons e tr ih => cases e <;> simp [ih, hg]

/-- From an optimizer to the same with a TimeLogger. -/
theorem timed_swarm (t : Timer τ) (o : Opt σ F32) (i fuel : Nat) (w : World σ (List F32)) (u : τ) {n m : Nat}
    {ivs : List (F32 × F32)} {V : List F32 → F64 → Prop} (h : SwarmEndsWell n m ivs V (findMin fuel o w)) :
    SwarmEndsWell n m ivs V (findMin fuel (o.attach i t.logger) ⟨(w.user, u), w.trace⟩) := by
  obtain ⟨a, o', w', h1, hb, hc, hi⟩ := h
  have hrun : PSO.run o [.findMin fuel] w = .ok (([some (some a)], o'), w') :=
    run_snoc (ks := []) rfl (M.bind_eq_ok.2 ⟨_, _, h1, rfl⟩)
  obtain ⟨t', tr', h2, -, htr⟩ := (C70_swarm (C70_time t.field t.prints t.reads) o i fuel [] w u trivial).returns
    ([some (some a)], o'.swarm) w' (by
      show psoView (PSO.run o [.findMin fuel] w) = _
      rw [hrun]; rfl)
  have h2 : psoView (PSO.run (o.attach i t.logger) [.findMin fuel] ⟨(w.user, u), w.trace⟩) = _ := h2
  cases h3 : findMin fuel (o.attach i t.logger) ⟨(w.user, u), w.trace⟩ with
  | error e =>
    have : PSO.run (o.attach i t.logger) [.findMin fuel] ⟨(w.user, u), w.trace⟩ = .error e := by
      unfold PSO.run
      exact M.bind_eq_error.2 (.inl (M.bind_eq_error.2 (.inl h3)))
    rw [this] at h2; cases h2
  | ok q =>
    obtain ⟨⟨r, o2⟩, w2⟩ := q
    have : PSO.run (o.attach i t.logger) [.findMin fuel] ⟨(w.user, u), w.trace⟩ = .ok (([some r], o2), w2) :=
      run_snoc (ks := []) rfl (M.bind_eq_ok.2 ⟨_, _, h3, rfl⟩)
    rw [this] at h2
    simp only [psoView, Except.ok.injEq, Prod.mk.injEq, List.cons.injEq, Option.some.injEq, and_true] at h2
    obtain ⟨⟨rfl, h4⟩, rfl⟩ := h2
    have hg : goalsSince tr' = goalsSince w'.trace := by
      rw [← goalsSince_withoutLogs tr', htr, goalsSince_withoutLogs]
    exact ⟨a, o2, _, rfl, by rw [hg]; exact hb, by rw [hg, h4]; exact hc, by rw [h4]; exact hi⟩

/-- The optimizer a swarm program ends up with. -/
def swarmMade (P : Platform σ) (goal : List F32 → M σ F64) (stop : AlgState (List F32) → M σ Bool) (particles : Nat)
    (minval maxval : F32) (dims : Nat) (c : Velocity.Canonical F32) (postVel : List (List F32 → M σ (List F32))) : Opt σ F32 :=
  ⟨⟨goal, stop, Creation.randomInit P.rng (box minval maxval dims) particles, Creation.zeroInit dims particles,
    Velocity.canonical P.rng c, postVel, [Hooks.moveToBoundary (box minval maxval dims)], [P.verbose, P.resultOnly]⟩,
    ⟨[], none, none, 0⟩⟩

theorem swarm_ok {P : Platform σ} {goal : List F32 → M σ F64} {makeStop : M σ (AlgState (List F32) → M σ Bool)} {s s' : σ}
    {stop : AlgState (List F32) → M σ Bool} (hs : makeStop s = .ok (stop, s')) (particles : Nat) (lo hi : F32) (d : Nat)
    {phiP phiG k : F32} (h1 : FloatT.lt (FloatT.lit 4 1) (FloatT.add phiP phiG) = true) (h2 : FloatT.lt FloatT.zero k = true)
    (h3 : FloatT.lt k FloatT.one = true) (postVel : List (List F32 → M σ (List F32))) :
    ∃ c, swarm P goal makeStop particles lo hi d phiP phiG k postVel s =
      .ok (swarmMade P goal stop particles lo hi d c postVel, s') := by
  obtain ⟨c, hc⟩ : ∃ c, Velocity.Canonical.new (σ := σ) phiP phiG k s = .ok (c, s) :=
    ⟨_, M.bind_eq_ok.2 ⟨(), s, M.assert_eq_ok.2 ⟨h1, rfl⟩, M.bind_eq_ok.2 ⟨(), s, M.assert_eq_ok.2 ⟨h2, rfl⟩,
      M.bind_eq_ok.2 ⟨(), s, M.assert_eq_ok.2 ⟨h3, rfl⟩, rfl⟩⟩⟩⟩
  exact ⟨c, M.bind_eq_ok.2 ⟨c, s, hc, M.bind_eq_ok.2 ⟨stop, s', hs, rfl⟩⟩⟩

theorem swarmMade_lib {P : Platform σ} (hP : Platform.Sound P) {goal : List F32 → M σ F64}
    {stop : AlgState (List F32) → M σ Bool} (hstop : LibStop stop) (n : Nat) {lo hi : F32} {d : Nat}
    (h1 : lo.isFinite = true) (h2 : hi.isFinite = true) (h3 : lo.lt hi = true)
    (hgoal : ∀ x, x.length = d → Works (goal x) (fun _ => True)) (c : Velocity.Canonical F32)
    {postVel : List (List F32 → M σ (List F32))} (hv : ∀ h ∈ postVel, ∃ v, h = Hooks.maxVelocityAbs v) :
    LibComps P.rng d n (swarmMade P goal stop n lo hi d c postVel).comps where
  coordInit := .random _ (by unfold box; rw [List.length_replicate]) (box_increasing h1 h2 h3)
  velInit := .zero
  velCalc := .canonical c
  postVel := fun h hh => by
    obtain ⟨v, rfl⟩ := hv h hh
    exact .abs v
  postMove := fun h hh => by
    rw [List.mem_singleton.1 hh]
    exact .boundary _ (by unfold box; rw [List.length_replicate])
  stop := hstop
  loggers := by
    intro l hl
    simp only [swarmMade, List.mem_cons, List.not_mem_nil, or_false] at hl
    rcases hl with rfl | rfl
    · exact .verbose _ _ _ _ hP.print
    · exact .resultOnly _ _ _ _ hP.print
  goal := hgoal

theorem swarmMade_owns {κ : Type} {L : Lens σ κ} {P : Platform σ} (hL : Platform.Leaves L P) {goal : List F32 → M σ F64}
    (hg : ∀ x, Spec.Leaves L (goal x)) (stop : AlgState (List F32) → M σ Bool) (n : Nat) (lo hi : F32) (d : Nat)
    (c : Velocity.Canonical F32) {postVel : List (List F32 → M σ (List F32))}
    (hv : ∀ h ∈ postVel, ∃ v, h = Hooks.maxVelocityAbs v) :
    StopOwns L (swarmMade P goal stop n lo hi d c postVel).comps where
  operators :=
    { coordInit := Spec.Leaves.randomInit hL.rng _ _
      velInit := Spec.Leaves.zeroInit _ _
      velCalc := fun s p => Spec.Leaves.canonical hL.rng c s p
      postVel := fun h hh x => by
        obtain ⟨v, rfl⟩ := hv h hh
        exact Spec.Leaves.maxVelocityAbs v x
      postMove := fun h hh x => by
        rw [List.mem_singleton.1 hh]
        exact Spec.Leaves.moveToBoundary _ x }
  goal := hg
  loggers := by
    intro l hl k st
    simp only [swarmMade, List.mem_cons, List.not_mem_nil, or_false] at hl
    rcases hl with rfl | rfl
    · exact Spec.Leaves.verbose hL.print _ _ _ k st
    · exact Spec.Leaves.resultOnly hL.print _ _ _ k st

/-- The stop checker of the swarm programs. -/
def swarmStops (L : Lens σ Stop.GNC) (p : Profile) : AlgState (List F32) → M σ Bool :=
  Stop.any [Stop.threshold (Fl.ofRat false 1 1000000), fun s => L.zoom (Stop.goalNotChange p s), Stop.maxIterations 3000]

theorem swarmStops_gnc (L : Lens σ Stop.GNC) : HasGNC L (swarmStops L) := by
  unfold swarmStops
  generalize (Fl.ofRat false 1 1000000 : F64) = t
  refine .any [fun _ => Stop.threshold t, fun p s => L.zoom (Stop.goalNotChange p s), fun _ => Stop.maxIterations 3000] ?_
  intro c hc
  simp only [List.mem_cons, List.not_mem_nil, or_false] at hc
  rcases hc with rfl | rfl | rfl
  · exact .other _ (fun s => by
      unfold Stop.threshold
      split <;> exact leaves_pure _ _)
  · exact .object
  · exact .other _ (fun s => leaves_pure _ _)

theorem swarmStops_lib (L : Lens σ Stop.GNC) : LibStop (swarmStops L .release) := by
  unfold swarmStops
  generalize (Fl.ofRat false 1 1000000 : F64) = t
  refine .any _ ?_
  intro c hc
  simp only [List.mem_cons, List.not_mem_nil, or_false] at hc
  rcases hc with rfl | rfl | rfl
  · exact .threshold t
  · exact .goalNotChange L
  · exact .maxIterations 3000

theorem swarmStops_bound (L : Lens σ Stop.GNC) (p : Profile) : Bounding 3000 (swarmStops L p) := C37_bounding 3000 _ (by simp)

/-- What the swarm programs with one `find_min` have in common. -/
theorem swarm_program {P : Platform σ} (hP : Platform.Sound P) {L : Lens σ Stop.GNC} (hL : Platform.Leaves L P)
    {goal : List F32 → M σ F64} (hgl : ∀ x, Spec.Leaves L (goal x)) {d : Nat}
    (hgoal : ∀ x, x.length = d → Works (goal x) (fun _ => True)) {n : Nat} (hn : n ≠ 0) {lo hi : F32}
    (h1 : lo.isFinite = true) (h2 : hi.isFinite = true) (h3 : lo.lt hi = true)
    (hfin : ∀ x v, InBox (box lo hi d) x → Returned (goal x) v → v.isFinite = true) {phiP phiG k : F32}
    (h4 : FloatT.lt (FloatT.lit 4 1) (FloatT.add phiP phiG) = true) (h5 : FloatT.lt FloatT.zero k = true)
    (h6 : FloatT.lt k FloatT.one = true) {postVel : List (List F32 → M σ (List F32))}
    (hv : ∀ h ∈ postVel, ∃ v, h = Hooks.maxVelocityAbs v) (delta : F64) (t : Timer τ) (fuel : Nat) (hfuel : 3000 < fuel)
    (s : σ) (u : τ) : ∃ o s', swarm P goal (swarmStop L delta P.profile) n lo hi d phiP phiG k postVel s = .ok (o, s') ∧
    SwarmEndsWell n 3000 (box lo hi d) (fun x v => Returned (goal x) v)
      (findMin fuel (o.attach 2 t.logger) ⟨(s', u), []⟩) := by
  have hmake : swarmStop L delta P.profile s = .ok (swarmStops L P.profile, L.set (Stop.GNC.new 150 delta) s) :=
    M.bind_eq_ok.2 ⟨(), _, rfl, anyOf_ok (by simp) _⟩
  obtain ⟨c, hc⟩ := swarm_ok (P := P) (goal := goal) hmake n lo hi d h4 h5 h6 postVel
  refine ⟨_, _, hc, timed_swarm t _ 2 fuel ⟨_, []⟩ u ?_⟩
  exact C75_checked P.rng Fmt.embeds_f32 d n 3000 hn (box lo hi d) (box_increasing h1 h2 h3) L (swarmStops L) (swarmStops_gnc L)
    (swarmMade P goal (swarmStops L P.profile) n lo hi d c postVel) (swarmMade_owns hL hgl _ n lo hi d c hv)
    (swarmMade_lib hP (swarmStops_lib L) n h1 h2 h3 hgoal c hv) ⟨[], rfl⟩ hfin (swarmStops_bound L .release) fuel hfuel _
    ⟨rfl, rfl⟩ 150 delta (L.get_set _ s) P.profile

theorem pure_works {g : List F32 → F64} {x : List F32} {Q : F64 → Prop} (h : Q (g x)) :
    Works (TestFunc.goalFromFunction g x : M σ F64) Q := fun s => ⟨_, s, rfl, h⟩

theorem returned_pure {g : List F32 → F64} {x : List F32} {v : F64} (h : Returned (TestFunc.goalFromFunction g x : M σ F64) v) :
    v = g x := by
  obtain ⟨s, s', h⟩ := h
  exact (M.pure_eq_ok.1 h).1.symm

theorem no_hooks {h : List F32 → M σ (List F32)} (hh : h ∈ ([] : List (List F32 → M σ (List F32)))) :
    ∃ v, h = Hooks.maxVelocityAbs v := absurd hh List.not_mem_nil

theorem one_hook {v : F32} {h : List F32 → M σ (List F32)} (hh : h ∈ [Hooks.maxVelocityAbs v]) :
    ∃ v, h = Hooks.maxVelocityAbs v := ⟨v, List.mem_singleton.1 hh⟩

/-- C75: particleswarm-paraboloid.rs, on any platform with any random numbers, with or without overflow checks, ends after at
most 3000 iterations with the best of the points it has evaluated, all of them in `[-100, 100] ^ 5` and 80 per iteration. -/
theorem C75_paraboloid_program (P : Platform σ) (hP : Platform.Sound P) (L : Lens σ Stop.GNC) (hL : Platform.Leaves L P)
    (t : Timer τ) (fuel : Nat) (hfuel : 3000 < fuel) (s : σ) (u : τ) : ∃ o s', swarmParaboloid P L s = .ok (o, s') ∧
    SwarmEndsWell 80 3000 (box (minus 100 1) (plus 100 1) 5) (fun x v => v = TestFunc.paraboloidF64 x)
      (findMin fuel (o.attach 2 t.logger) ⟨(s', u), []⟩) := by
  obtain ⟨o, s', h1, h2⟩ := swarm_program hP hL (goal := TestFunc.goalFromFunction TestFunc.paraboloidF64) (d := 5) (n := 80)
    (lo := minus 100 1) (hi := plus 100 1) (phiP := plus 2 1) (phiG := plus 6 1) (k := plus 2 10)
    (postVel := [Hooks.maxVelocityAbs (plus 10 1)])
    (fun x => leaves_pure _ _) (fun x _ => pure_works trivial) (by omega) (by decide +kernel)
    (by decide +kernel) (by decide +kernel) (by
      intro x v hx hv
      rw [returned_pure hv]
      exact (C72_paraboloid (.inl rfl) x (box_moderate (by omega) (by decide +kernel) (by decide +kernel) hx)).1)
    (by decide +kernel) (by decide +kernel) (by decide +kernel) (fun h hh => one_hook hh) (Fl.ofRat false 1 10000000) t fuel
    hfuel s u
  exact ⟨o, s', h1, SwarmEndsWell.mono h2 fun x v hv => returned_pure hv⟩

/-- C75: particleswarm-rastrigin.rs -/
theorem C75_rastrigin_program (P : Platform σ) (hP : Platform.Sound P) (L : Lens σ Stop.GNC) (hL : Platform.Leaves L P)
    (t : Timer τ) (fuel : Nat) (hfuel : 3000 < fuel) (s : σ) (u : τ) : ∃ o s', swarmRastrigin P L s = .ok (o, s') ∧
    SwarmEndsWell 500 3000 (box (minus 512 100) (plus 512 100) 3) (fun x v => v = @TestFunc.rastriginF64 _ P.libm x)
      (findMin fuel (o.attach 2 t.logger) ⟨(s', u), []⟩) := by
  obtain ⟨o, s', h1, h2⟩ := swarm_program hP hL (goal := TestFunc.goalFromFunction (@TestFunc.rastriginF64 _ P.libm)) (d := 3)
    (n := 500) (lo := minus 512 100) (hi := plus 512 100) (phiP := plus 2 1) (phiG := plus 5 1) (k := plus 2 10)
    (postVel := [])
    (fun x => leaves_pure _ _) (fun x _ => pure_works trivial) (by omega) (by decide +kernel)
    (by decide +kernel) (by decide +kernel) (by
      intro x v hx hv
      rw [returned_pure hv]
      exact (C72_rastrigin (.inl rfl) P.libm hP.libm x
        (box_moderate (by omega) (by decide +kernel) (by decide +kernel) hx)).1)
    (by decide +kernel) (by decide +kernel) (by decide +kernel) (fun h hh => no_hooks hh) (Fl.ofRat false 1 100000000) t fuel
    hfuel s u
  exact ⟨o, s', h1, SwarmEndsWell.mono h2 fun x v hv => returned_pure hv⟩

/-- C75: particleswarm-rosenbrock.rs -/
theorem C75_rosenbrock_program (P : Platform σ) (hP : Platform.Sound P) (L : Lens σ Stop.GNC) (hL : Platform.Leaves L P)
    (t : Timer τ) (fuel : Nat) (hfuel : 3000 < fuel) (s : σ) (u : τ) : ∃ o s', swarmRosenbrock P L s = .ok (o, s') ∧
    SwarmEndsWell 1000 3000 (box (minus 2 1) (plus 2 1) 3)
      (fun x v => Returned (TestFunc.rosenbrockF64 P.profile x : M σ F64) v)
      (findMin fuel (o.attach 2 t.logger) ⟨(s', u), []⟩) := by
  refine swarm_program hP hL (goal := TestFunc.rosenbrockF64 P.profile) (d := 3) (n := 1000) (lo := minus 2 1)
    (hi := plus 2 1) (phiP := plus 1 1) (phiG := plus 8 1) (k := plus 2 10) (postVel := [])
    (fun x => Spec.Leaves.rosenbrockF64 _ x) ?_ (by omega) (by decide +kernel)
    (by decide +kernel) (by decide +kernel) ?_
    (by decide +kernel) (by decide +kernel) (by decide +kernel) (fun h hh => no_hooks hh) (Fl.ofRat false 1 100000000) t fuel
    hfuel s u
  · intro x hx s
    obtain ⟨v, h, -⟩ := rosenbrock_fold P.profile x (by rintro rfl; cases hx) s (fun _ => True) trivial (fun _ _ _ _ => trivial)
    exact ⟨Fl.cast v, s, M.bind_eq_ok.2 ⟨v, s, h, rfl⟩, trivial⟩
  · rintro x v hx ⟨s, s', h⟩
    obtain ⟨v', s1, h1, h2⟩ := C72_rosenbrock (σ := σ) (.inl rfl) P.profile x
      (box_moderate (by omega) (by decide +kernel) (by decide +kernel) hx) (by
        intro h0
        have := hx.length_eq
        rw [h0] at this
        simp [box] at this) s
    rw [h] at h1
    cases h1
    exact h2.1

/-- C75: particleswarm-schwefel.rs -/
theorem C75_schwefel_program (P : Platform σ) (hP : Platform.Sound P) (L : Lens σ Stop.GNC) (hL : Platform.Leaves L P)
    (t : Timer τ) (fuel : Nat) (hfuel : 3000 < fuel) (s : σ) (u : τ) : ∃ o s', swarmSchwefel P L s = .ok (o, s') ∧
    SwarmEndsWell 100 3000 (box (minus 500 1) (plus 500 1) 3) (fun x v => v = @TestFunc.schwefelF64 _ P.libm x)
      (findMin fuel (o.attach 2 t.logger) ⟨(s', u), []⟩) := by
  obtain ⟨o, s', h1, h2⟩ := swarm_program hP hL (goal := TestFunc.goalFromFunction (@TestFunc.schwefelF64 _ P.libm)) (d := 3)
    (n := 100) (lo := minus 500 1) (hi := plus 500 1) (phiP := plus 32 10) (phiG := plus 1 1) (k := plus 9 10)
    (postVel := [Hooks.maxVelocityAbs (plus 700 1)])
    (fun x => leaves_pure _ _) (fun x _ => pure_works trivial) (by omega) (by decide +kernel)
    (by decide +kernel) (by decide +kernel) (by
      intro x v hx hv
      rw [returned_pure hv]
      exact (C72_schwefel (.inl rfl) P.libm hP.libm x
        (box_moderate (by omega) (by decide +kernel) (by decide +kernel) hx)).1)
    (by decide +kernel) (by decide +kernel) (by decide +kernel) (fun h hh => one_hook hh) (Fl.ofRat false 1 100000000) t fuel
    hfuel s u
  exact ⟨o, s', h1, SwarmEndsWell.mono h2 fun x v hv => returned_pure hv⟩

/-- C75: particleswarm-schwefel-iterative.rs (without its TimeLogger) returns twice: after exactly 50 iterations with the best of
its 5100 evaluations, and after 100 more iterations with the best of all 15100. -/
theorem C75_schwefel_iterative_program (P : Platform σ) (hP : Platform.Sound P) (fuel : Nat) (hfuel : 150 < fuel) (s : σ) :
    ∃ o s', swarmSchwefelIterative P s = .ok (o, s') ∧
    ∃ a b o1 w1 o2 w2, findMin fuel o ⟨s', []⟩ = .ok ((some a, o1), w1) ∧
      BestOfRun (box (minus 500 1) (plus 500 1) 3) (fun x v => v = @TestFunc.schwefelF64 _ P.libm x) (goalsSince w1.trace) a ∧
      o1.swarm.iteration = 50 ∧ (goalsSince w1.trace).length = 5100 ∧
      run o (swarmIterativeCalls fuel) ⟨s', []⟩ = .ok (([some (some a), none, some (some b)], o2), w2) ∧
      BestOfRun (box (minus 500 1) (plus 500 1) 3) (fun x v => v = @TestFunc.schwefelF64 _ P.libm x) (goalsSince w2.trace) b ∧
      o2.swarm.iteration = 150 ∧ (goalsSince w2.trace).length = 15100 := by
  have hfin : ∀ x v, InBox (box (minus 500 1) (plus 500 1) 3) x →
      Returned (TestFunc.goalFromFunction (@TestFunc.schwefelF64 _ P.libm) x : M σ F64) v → v.isFinite = true := by
    intro x v hx hv
    rw [returned_pure hv]
    exact (C72_schwefel (.inl rfl) P.libm hP.libm x
      (box_moderate (by omega) (by decide +kernel) (by decide +kernel) hx)).1
  have hivs : FiniteIncreasing (box (minus 500 1) (plus 500 1) 3) :=
    box_increasing (by decide +kernel) (by decide +kernel) (by decide +kernel)
  have bound : ∀ m, Bounding m (Stop.maxIterations m : AlgState (List F32) → M σ Bool) := by
    intro m s w b w' hle h
    have := (M.pure_eq_ok.1 h).1
    rw [← this]; exact decide_eq_true hle
  have stops : ∀ (m : Nat) (st : AlgState (List F32)) (s s' : σ), Stop.maxIterations (σ := σ) m st s = .ok (true, s') →
      m ≤ st.iteration := fun m st s s' h => of_decide_eq_true (M.pure_eq_ok.1 h).1
  obtain ⟨c, hc⟩ := swarm_ok (P := P) (goal := TestFunc.goalFromFunction (@TestFunc.schwefelF64 _ P.libm))
    (makeStop := pure (Stop.maxIterations 50)) (s := s) (s' := s) (stop := Stop.maxIterations 50) rfl 100 (minus 500 1)
    (plus 500 1) 3 (phiP := plus 32 10) (phiG := plus 1 1) (k := plus 9 10) (by decide +kernel) (by decide +kernel)
    (by decide +kernel) [Hooks.maxVelocityAbs (plus 700 1)]
  refine ⟨_, s, hc, ?_⟩
  have lib : ∀ m, LibComps P.rng 3 100 (swarmMade P (TestFunc.goalFromFunction (@TestFunc.schwefelF64 _ P.libm))
      (Stop.maxIterations m) 100 (minus 500 1) (plus 500 1) 3 c [Hooks.maxVelocityAbs (plus 700 1)]).comps := fun m =>
    swarmMade_lib hP (.maxIterations m) 100 (by decide +kernel) (by decide +kernel) (by decide +kernel)
      (fun x _ => pure_works trivial) c (fun h hh => one_hook hh)
  obtain ⟨o, ho⟩ : ∃ o, o = swarmMade P (TestFunc.goalFromFunction (@TestFunc.schwefelF64 _ P.libm))
      (Stop.maxIterations 50) 100 (minus 500 1) (plus 500 1) 3 c [Hooks.maxVelocityAbs (plus 700 1)] := ⟨_, rfl⟩
  have hgoal : o.comps.goal = TestFunc.goalFromFunction (@TestFunc.schwefelF64 _ P.libm) := by rw [ho]; rfl
  have hstop : o.comps.stop = Stop.maxIterations 50 := by rw [ho]; rfl
  have hlib : LibComps P.rng 3 100 o.comps := by rw [ho]; exact lib 50
  have hlib' : LibComps P.rng 3 100 { o.comps with stop := Stop.maxIterations 150 } := by rw [ho]; exact lib 150
  have hbl : BoundaryLast (box (minus 500 1) (plus 500 1) 3) o.comps := by rw [ho]; exact ⟨[], rfl⟩
  have h0 : Fresh o (⟨s, []⟩ : World σ (List F32)) := by rw [ho]; exact ⟨rfl, rfl⟩
  rw [← ho]
  clear hc lib ho
  generalize box (minus 500 1) (plus 500 1) 3 = ivs at hfin hivs hbl ⊢
  obtain ⟨a, o1, w1, h1, h2, h3, h4⟩ := C75_find_min P.rng Fmt.embeds_f32 3 100 50 (by omega) _ hivs o hlib hbl
    (by rw [hgoal]; exact hfin) (by rw [hstop]; exact bound 50) fuel (by omega) ⟨s, []⟩ h0
  obtain ⟨k, -, -, p0, -, -, -, hc1, -, -, -, -, -, -, -, -, -, v1, v2, s', -, hend⟩ := findMin_spec h1
  rw [hstop] at hend
  have i1 : o1.swarm.iteration = 50 := Nat.le_antisymm h4 (stops 50 _ _ _ hend)
  rw [hgoal] at h2
  have hrun : run o [.findMin fuel, .setStopChecker (Stop.maxIterations 150)] ⟨s, []⟩ =
      .ok (([some (some a), none], ⟨{ o1.comps with stop := Stop.maxIterations 150 }, o1.swarm⟩), w1) :=
    run_snoc (ks := [.findMin fuel]) (run_snoc (ks := []) rfl (M.bind_eq_ok.2 ⟨_, _, h1, rfl⟩)) rfl
  have hp : o1.swarm.particles ≠ [] := by
    obtain ⟨r, o', w', k1, k2⟩ := C48_returns 3 100 50 o (C48_library P.rng Fmt.embeds_f32 3 100 _ hlib)
      (by rw [hstop]; exact bound 50) ⟨s, []⟩ fuel (by omega)
    rw [h1] at k1
    cases k1
    intro he
    have := k2.count
    rw [he] at this
    cases this
  obtain ⟨b, o2, w2, k1, k2, k3, k4⟩ := C75_next_iterations P.rng Fmt.embeds_f32 3 100 150 _ hivs o
    ⟨{ o1.comps with stop := Stop.maxIterations 150 }, o1.swarm⟩
    [.findMin fuel, .setStopChecker (Stop.maxIterations 150)] _ ⟨s, []⟩ w1 h0 ⟨hlib, hlib, hlib'⟩ ⟨hbl, hbl, hbl⟩
    (by rw [hgoal]; exact hfin) hrun hp (bound 150) (by show o1.swarm.iteration ≤ 150; omega) fuel
    (by show 150 < o1.swarm.iteration + fuel; omega)
  obtain ⟨k, -, -, -, -, -, -, -, -, -, -, -, -, v1, v2, s', -, hend2⟩ := nextIterations_spec k1
  have i2 : o2.swarm.iteration = 150 := Nat.le_antisymm k4 (stops 150 _ _ _ hend2)
  rw [hgoal] at k2
  exact ⟨a, b, o1, w1, o2, w2, h1,
    ⟨h2.mem, h2.least, h2.inside, fun b hb => returned_pure (h2.values b hb), h2.finite⟩, i1, by rw [h3, i1],
    run_snoc hrun (M.bind_eq_ok.2 ⟨_, _, k1, rfl⟩),
    ⟨k2.mem, k2.least, k2.inside, fun b hb => returned_pure (k2.values b hb), k2.finite⟩, i2, by rw [k3, i2]⟩

/-! ## A platform as the theorems ask for -/

/-- Random numbers from a list, output into a list of strings, and a place for the GoalNotChange. -/
def demoPlatform : Platform ((List Nat × List String) × Stop.GNC) where
  rng :=
    { nat := fun lo hi s => let r := Rng.script.nat lo hi s.1.1; (r.1, (r.2, s.1.2), s.2)
      natIncl := fun lo hi s => let r := Rng.script.natIncl lo hi s.1.1; (r.1, (r.2, s.1.2), s.2)
      fl := fun lo hi s => let r := Rng.script.fl lo hi s.1.1; (r.1, (r.2, s.1.2), s.2)
      flIncl := fun lo hi s => let r := Rng.script.flIncl lo hi s.1.1; (r.1, (r.2, s.1.2), s.2)
      nat_range := fun lo hi s => Rng.script.nat_range lo hi s.1.1
      natIncl_range := fun lo hi s => Rng.script.natIncl_range lo hi s.1.1
      fl_range := fun lo hi s => Rng.script.fl_range lo hi s.1.1
      flIncl_range := fun lo hi s => Rng.script.flIncl_range lo hi s.1.1 }
  profile := .debug
  libm := ⟨id, fun x _ => x, fun _ => Fl.zero, fun _ => Fl.one⟩
  print := fun x s => .ok ((), (s.1.1, s.1.2 ++ [x]), s.2)
  showGene := fun _ _ => "x"
  showGoal := fun _ _ => "v"

theorem demo_sound : Platform.Sound demoPlatform :=
  ⟨fun _ s => ⟨(), _, rfl, trivial⟩, fun _ _ => ⟨(by decide +kernel : Within 1 (Fl.zero : F32)),
    (by decide +kernel : Within 1 (Fl.one : F32))⟩⟩

theorem demo_leaves : Platform.Leaves (Lens.snd _ _) demoPlatform :=
  ⟨⟨fun _ _ _ => rfl, fun _ _ _ => rfl, fun _ _ _ => rfl, fun _ _ _ => rfl⟩, fun x s a s' h => by cases h; rfl⟩

/-- A clock that stands still. -/
def demoTimer : Timer (List String × Option Nat) where
  print := fun x s => .ok ((), s.1 ++ [x], s.2)
  now := pure 0
  field := Lens.snd _ _
  prints := fun _ _ => ⟨(), _, rfl⟩
  reads := fun s => ⟨0, s, rfl⟩

example (s) : ∃ o s', swarmParaboloid demoPlatform (Lens.snd _ _) s = .ok (o, s') ∧
    SwarmEndsWell 80 3000 (box (minus 100 1) (plus 100 1) 5) (fun x v => v = TestFunc.paraboloidF64 x)
      (findMin 4000 (o.attach 2 demoTimer.logger) ⟨(s', ([], none)), []⟩) :=
  C75_paraboloid_program demoPlatform demo_sound (Lens.snd _ _) demo_leaves demoTimer 4000 (by omega) s ([], none)

/-- The same program with `n` particles in the plane and at most 3 iterations: what it returns, where it ends and how many
points it has evaluated. -/
def demoRun (n : Nat) : Option (Option (Solution (List F32)) × Nat × Nat) :=
  match swarm demoPlatform (TestFunc.goalFromFunction TestFunc.paraboloidF64) (pure (Stop.maxIterations 3)) n
      (minus 100 1) (plus 100 1) 2 (plus 2 1) (plus 6 1) (plus 2 10) [Hooks.maxVelocityAbs (plus 10 1)]
      (([1, 0, 0, 1, 1, 0, 1, 1], []), Stop.GNC.new 1 Fl.one) with
  | .error _ => none
  | .ok (o, s) =>
    match findMin 9 o ⟨s, []⟩ with
    | .error _ => none
    | .ok ((r, o'), w) => some (r, o'.swarm.iteration, (goalsSince w.trace).length)

example : (demoRun 2).any (fun r => r.1.isSome && r.2.1 == 3 && r.2.2 == 8) = true := by decide +kernel

/-- C75: somebody must be there. Without particles the program returns no point. -/
theorem C75_empty_witness : demoRun 0 = some (none, 3, 0) := by decide +kernel

end Verif.Props.Swarm
