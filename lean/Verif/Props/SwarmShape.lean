import Verif.Proofs.Shape
import Verif.Props.Velocity
import Verif.Props.Hooks
import Verif.Props.Creation
import Verif.Props.SwarmApi
import Verif.Props.SwarmDemo
import Verif.Model.Logging

/-!
# C48: the shape of the swarm, and no panics with the library's components
-/

set_option linter.unusedSectionVars false

namespace Verif.Props.Swarm

open Verif Spec Spec.Swarm PSO

variable {σ α : Type} [FloatT α]

/-- C48: with components that fit `n` particles with `d` dimensions, every history from a fresh optimizer either reaches the
point with a swarm of the right shape or is cut by the bound on the number of turns: nothing panics. -/
theorem C48_no_panic (d n : Nat) (ks : List (Call σ α)) (o : Opt σ α) (w : World σ (List α)) (h0 : Fresh o w)
    (hc : Always (Fits d n) o.comps ks) (pt : Point) :
    (∃ o' w', runTo o ks pt w = .ok (o', w') ∧ Shaped d (countAt n ks pt) o'.swarm) ∨ runTo o ks pt w = .error .fuel :=
  (good_runTo ks hc h0.1 pt w).imp id And.right

/-- C48: the number of particles and the dimensions never change, at every point of every history. -/
theorem C48_shape (d n : Nat) (ks : List (Call σ α)) (o o' : Opt σ α) (w w' : World σ (List α)) (h0 : Fresh o w)
    (hc : Always (Fits d n) o.comps ks) (pt : Point) (hr : runTo o ks pt w = .ok (o', w')) :
    Shaped d (countAt n ks pt) o'.swarm := by
  rcases C48_no_panic d n ks o w h0 hc pt with ⟨o1, w1, h1, hs⟩ | h1
  · rw [hr] at h1; cases h1; exact hs
  · rw [hr] at h1; cases h1

/-- C48: with a stop checker that stops at iteration `m` at the latest, `find_min` returns. -/
theorem C48_returns (d n m : Nat) (o : Opt σ α) (hc : Fits d n o.comps) (hstop : Bounding m o.comps.stop)
    (w : World σ (List α)) (fuel : Nat) (hf : m < fuel) :
    ∃ r o' w', findMin fuel o w = .ok ((r, o'), w') ∧ Shaped d n o'.swarm := by
  rcases total_findMin hc hstop fuel hf w with ⟨⟨r, o'⟩, w', h, hs⟩ | ⟨h, -⟩
  · exact ⟨r, o', w', h, hs.2⟩
  · exact h.elim

/-! ## The library's components -/

section Library

variable {f : Fmt}

/-- The library's initializers of coordinates and velocities, for `n` particles with `d` dimensions. -/
inductive LibInit (R : Rng σ) (d n : Nat) : M σ (List (List (Fl f))) → Prop
  | random (ivs : List (Fl f × Fl f)) : ivs.length = d → FiniteIncreasing ivs → LibInit R d n (Creation.randomInit R ivs n)
  | zero : LibInit R d n (Creation.zeroInit d n)

/-- The library's inertia objects. -/
inductive LibInertia : (Nat → M σ (Fl f)) → Prop
  | const (w : Fl f) : LibInertia (Velocity.constInertia w)
  | linear (wMin wMax : Fl f) (tMax : Nat) : LibInertia (fun i => pure (Velocity.linearInertia wMin wMax tMax i))

/-- The library's velocity calculators, with arbitrary coefficients. -/
inductive LibCalc (R : Rng σ) : (PSO.Swarm (Fl f) → Particle (Fl f) → M σ (List (Fl f))) → Prop
  | classic (phiP phiG : Fl f) : LibCalc R (Velocity.classic R phiP phiG)
  | canonical (c : Velocity.Canonical (Fl f)) : LibCalc R (Velocity.canonical R c)
  | negative (c : Velocity.NegReinf (Fl f)) : LibCalc R (Velocity.negReinf R c)
  | inertia (phiP phiG : Fl f) (get : Nat → M σ (Fl f)) : LibInertia get → LibCalc R (Velocity.inertia R phiP phiG get)

/-- The library's velocity correctors for `d` dimensions. -/
inductive LibPostVel (d : Nat) : (List (Fl f) → M σ (List (Fl f))) → Prop
  | dimensions (vMax : List (Fl f)) : vMax.length = d → LibPostVel d (Hooks.maxVelocityDimensions vMax)
  | abs (vMax : Fl f) : LibPostVel d (Hooks.maxVelocityAbs vMax)

/-- The library's post-move hooks for `d` dimensions. -/
inductive LibPostMove (R : Rng σ) (d : Nat) : (List (Fl f) → M σ (List (Fl f))) → Prop
  | boundary (ivs : List (Fl f × Fl f)) : ivs.length = d → LibPostMove R d (Hooks.moveToBoundary ivs)
  | teleport (ivs : List (Fl f × Fl f)) (p : F32) (t : Hooks.Teleport f) (s s' : σ) : ivs.length = d →
      Hooks.Teleport.new ivs p s = .ok (t, s') → LibPostMove R d (Hooks.teleport R t)

/-- The library's stop checkers. GoalNotChange is here as compiled without overflow checks; with them it can panic when it is
used for a second run (C35). -/
inductive LibStop {T : Type} : (AlgState T → M σ Bool) → Prop
  | maxIterations (n : Nat) : LibStop (Stop.maxIterations n)
  | threshold (t : F64) : LibStop (Stop.threshold t)
  | goalNotChange (L : Lens σ Stop.GNC) : LibStop (fun s => L.zoom (Stop.goalNotChange .release s))
  | any (cs : List (AlgState T → M σ Bool)) : (∀ c ∈ cs, LibStop c) → LibStop (Stop.any cs)
  | all (cs : List (AlgState T → M σ Bool)) : (∀ c ∈ cs, LibStop c) → LibStop (Stop.all cs)

/-- The library's text loggers on a writer that does not fail. -/
inductive LibLogger : Logger σ (List (Fl f)) → Prop
  | silent : LibLogger Logging.silent
  | verbose (write : String → M σ Unit) (showT : Nat → Fl f → String) (showGoal : Nat → F64 → String) (precision : Nat) :
      (∀ x, Works (write x) (fun _ => True)) → LibLogger (Logging.verbose write showT showGoal precision)
  | resultOnly (write : String → M σ Unit) (showT : Nat → Fl f → String) (showGoal : Nat → F64 → String) (precision : Nat) :
      (∀ x, Works (write x) (fun _ => True)) → LibLogger (Logging.resultOnly write showT showGoal precision)

/-- A swarm optimizer put together from the library for `n` particles with `d` dimensions; only the goal is the user's. -/
structure LibComps (R : Rng σ) (d n : Nat) (c : Comps σ (Fl f)) : Prop where
  coordInit : LibInit R d n c.coordInit
  velInit : LibInit R d n c.velInit
  velCalc : LibCalc R c.velCalc
  postVel : ∀ h ∈ c.postVel, LibPostVel d h
  postMove : ∀ h ∈ c.postMove, LibPostMove R d h
  stop : LibStop c.stop
  loggers : ∀ l ∈ c.loggers, LibLogger l
  /-- the user's goal does not panic on points with `d` coordinates -/
  goal : ∀ x, x.length = d → Works (c.goal x) (fun _ => True)

theorem libInit_works {R : Rng σ} (hf : Fmt.Embeds f Fmt.f64) {d n : Nat} {m : M σ (List (List (Fl f)))}
    (h : LibInit R d n m) : Works m (Vectors d n) := by
  intro s
  cases h with
  | random ivs hd hi =>
    obtain ⟨xs, s', h1, hl, hb⟩ := C11_random R hf ivs n hi s
    exact ⟨xs, s', h1, hl, fun x hx => by rw [← hd]; exact (hb x hx).length_eq.symm⟩
  | zero =>
    refine ⟨_, _, C11_zero d n s, by simp, ?_⟩
    intro x hx
    rw [List.eq_of_mem_replicate hx, List.length_replicate]

theorem libCalc_works {R : Rng σ} {d n : Nat} {m : PSO.Swarm (Fl f) → Particle (Fl f) → M σ (List (Fl f))}
    (h : LibCalc R m) (s : PSO.Swarm (Fl f)) (hs : Shaped d n s) (p : Particle (Fl f)) (hp : p ∈ s.particles) :
    Works (m s p) (fun v => v.length = d) := by
  intro u
  have hpd := hs.particles p hp
  have hn : n ≠ 0 := by
    rintro rfl
    have := hs.count
    rw [List.length_eq_zero_iff] at this
    rw [this] at hp; simp at hp
  obtain ⟨b, hb⟩ := Option.ne_none_iff_exists'.1 (hs.hasBest hn)
  obtain ⟨wo, hwo⟩ := Option.ne_none_iff_exists'.1 (hs.hasWorst hn)
  have hbd := hs.best b hb
  have hwd := hs.worst wo hwo
  have e1 : p.velocity.length = p.coordinates.length := by rw [hpd.velocity, hpd.coordinates]
  have e2 : p.bestCoords.length = p.coordinates.length := by rw [hpd.best, hpd.coordinates]
  have e3 : b.coordinates.length = p.coordinates.length := by rw [hbd.coordinates, hpd.coordinates]
  have e4 : p.worstCoords.length = p.coordinates.length := by rw [hpd.worst, hpd.coordinates]
  have e5 : wo.coordinates.length = p.coordinates.length := by rw [hwd.coordinates, hpd.coordinates]
  cases h with
  | classic phiP phiG =>
    obtain ⟨r, u', h⟩ := C45_classic_total R phiP phiG s p b hb e1 e2 e3 u
    obtain ⟨-, -, hl, -⟩ := C45_classic R phiP phiG s p u u' r h
    exact ⟨r, u', h, hl.trans hpd.coordinates⟩
  | canonical c =>
    obtain ⟨r, u', h⟩ := C45_canonical_total R c s p b hb e1 e2 e3 u
    obtain ⟨-, -, hl, -⟩ := C45_canonical R c s p u u' r h
    exact ⟨r, u', h, hl.trans hpd.coordinates⟩
  | negative c =>
    obtain ⟨cb, hcb⟩ := Option.ne_none_iff_exists'.1 (findBest_ne (ps := s.particles) (by rw [hs.count]; exact hn))
    obtain ⟨cw, hcw⟩ := Option.ne_none_iff_exists'.1 (findWorst_ne (ps := s.particles) (by rw [hs.count]; exact hn))
    have hcbd := hs.particles cb (findBest_mem' hcb)
    have hcwd := hs.particles cw (findWorst_mem' hcw)
    obtain ⟨r, u', h⟩ := C45_negative_total R c s p b cb wo cw hb hcb hwo hcw e1 e2 e4 e3
      (by rw [hcbd.coordinates, hpd.coordinates]) e5 (by rw [hcwd.coordinates, hpd.coordinates]) u
    obtain ⟨-, -, -, -, -, -, -, -, hl, -⟩ := C45_negative R c s p u u' r h
    exact ⟨r, u', h, hl.trans hpd.coordinates⟩
  | inertia phiP phiG get hi =>
    have hg : ∃ w u1, get s.iteration u = .ok (w, u1) := by
      cases hi with
      | const w => exact ⟨w, u, rfl⟩
      | linear a b t => exact ⟨_, u, rfl⟩
    obtain ⟨r, u', h⟩ := C45_inertia_total R phiP phiG get s p b hb e1 e2 e3 u hg
    obtain ⟨-, -, -, -, -, hl, -⟩ := C45_inertia R phiP phiG get s p u u' r h
    exact ⟨r, u', h, hl.trans hpd.coordinates⟩

theorem libPostVel_works {d : Nat} {h : List (Fl f) → M σ (List (Fl f))} (hh : LibPostVel d h) (x : List (Fl f))
    (hx : x.length = d) : Works (h x) (fun y => y.length = d) := by
  intro s
  cases hh with
  | dimensions vMax hv =>
    obtain ⟨r, h1, hl, -⟩ := (C43_hook vMax x s).2 (by rw [hx, hv])
    exact ⟨r, s, h1, hl.trans hx⟩
  | abs vMax =>
    obtain ⟨r, h1, hl, -⟩ := C44_total vMax x s
    exact ⟨r, s, h1, hl.trans hx⟩

theorem libPostMove_works {R : Rng σ} {d : Nat} {h : List (Fl f) → M σ (List (Fl f))} (hh : LibPostMove R d h)
    (x : List (Fl f)) (hx : x.length = d) : Works (h x) (fun y => y.length = d) := by
  intro s
  cases hh with
  | boundary ivs hl =>
    refine ⟨_, s, M.bind_eq_ok.2 ⟨(), s, M.assert_eq_ok.2 ⟨by simp [hx, hl], rfl⟩, rfl⟩, ?_⟩
    simp only [List.length_zipWith, hx, hl, Nat.min_self]
  | teleport ivs p t s0 s0' hl ht =>
    obtain ⟨ys, s', h1⟩ := (C42_total R ivs p t s0 s0' ht x s).1 (by rw [hx, hl])
    exact ⟨ys, s', h1, (C42_all_or_nothing R t x ys s s' h1).1.trans hx⟩

theorem libStop_works {T : Type} {c : AlgState T → M σ Bool} (h : LibStop c) (st : AlgState T) :
    Works (c st) (fun _ => True) := by
  induction h with
  | maxIterations n => exact fun s => ⟨_, s, rfl, trivial⟩
  | threshold t => exact fun s => ⟨_, s, rfl, trivial⟩
  | goalNotChange L =>
    intro s
    have : ∃ b t', Stop.goalNotChange .release st (L.get s) = .ok (b, t') := by
      unfold Stop.goalNotChange
      cases st.best with
      | none => exact ⟨_, _, rfl⟩
      | some bg =>
        have hu : ∀ a b, ∃ r, usizeSub .release a b = .ok r := by
          intro a b; unfold usizeSub; split <;> exact ⟨_, rfl⟩
        refine ⟨_, _, M.bind_eq_ok.2 ⟨_, _, rfl, M.bind_eq_ok.2 ⟨_, _, rfl, M.bind_eq_ok.2 ⟨_, _,
          M.ofExcept_eq_ok.2 ⟨(hu _ _).choose_spec, rfl⟩, rfl⟩⟩⟩⟩
    obtain ⟨b, t', hb⟩ := this
    exact ⟨b, L.set t' s, by simp only [Lens.zoom, hb], trivial⟩
  | any cs hl ih =>
    intro s
    induction cs generalizing s with
    | nil => exact ⟨_, s, rfl, trivial⟩
    | cons c cs ihc =>
      obtain ⟨b, s1, h1, -⟩ := ih c (by simp) s
      cases b with
      | true => exact ⟨true, s1, M.bind_eq_ok.2 ⟨true, s1, h1, rfl⟩, trivial⟩
      | false =>
        obtain ⟨b, s2, h2, -⟩ := ihc (fun c hc => hl c (by simp [hc])) (fun c hc => ih c (by simp [hc])) s1
        exact ⟨b, s2, M.bind_eq_ok.2 ⟨false, s1, h1, h2⟩, trivial⟩
  | all cs hl ih =>
    intro s
    induction cs generalizing s with
    | nil => exact ⟨_, s, rfl, trivial⟩
    | cons c cs ihc =>
      obtain ⟨b, s1, h1, -⟩ := ih c (by simp) s
      cases b with
      | false => exact ⟨false, s1, M.bind_eq_ok.2 ⟨false, s1, h1, rfl⟩, trivial⟩
      | true =>
        obtain ⟨b, s2, h2, -⟩ := ihc (fun c hc => hl c (by simp [hc])) (fun c hc => ih c (by simp [hc])) s1
        exact ⟨b, s2, M.bind_eq_ok.2 ⟨true, s1, h1, h2⟩, trivial⟩

theorem libLogger_works {l : Logger σ (List (Fl f))} (h : LibLogger l) (s : AlgState (List (Fl f))) :
    Works (l.start s) (fun _ => True) ∧ Works (l.resume s) (fun _ => True) ∧
    Works (l.nextIteration s) (fun _ => True) ∧ Works (l.finish s) (fun _ => True) := by
  have hp : Works (pure () : M σ Unit) (fun _ => True) := fun s => ⟨(), s, rfl, trivial⟩
  cases h with
  | silent => exact ⟨hp, hp, hp, hp⟩
  | verbose write showT showGoal precision hw =>
    refine ⟨hp, hp, ?_, hp⟩
    simp only [Logging.verbose]
    split
    · exact hp
    · exact hw _
  | resultOnly write showT showGoal precision hw =>
    refine ⟨hp, hp, hp, ?_⟩
    have hb : ∀ {m : M σ Unit} {k : M σ Unit}, Works m (fun _ => True) → Works k (fun _ => True) →
        Works (m >>= fun _ => k) (fun _ => True) := by
      intro m k hm hk s
      obtain ⟨_, s1, h1, -⟩ := hm s
      obtain ⟨_, s2, h2, -⟩ := hk s1
      exact ⟨_, s2, M.bind_eq_ok.2 ⟨_, s1, h1, h2⟩, trivial⟩
    simp only [Logging.resultOnly]
    split
    · exact hb (hw _) (hw _)
    · exact hb (hw _) (hb (hw _) (hw _))

/-- C48: the library's components fit, so `C48_no_panic`, `C48_shape` and `C48_returns` apply to every optimizer put together
from them. -/
theorem C48_library (R : Rng σ) (hf : Fmt.Embeds f Fmt.f64) (d n : Nat) (c : Comps σ (Fl f)) (h : LibComps R d n c) :
    Fits d n c where
  goal := h.goal
  stop := libStop_works h.stop
  coordInit := libInit_works hf h.coordInit
  velInit := libInit_works hf h.velInit
  velCalc := fun s hs p hp => libCalc_works h.velCalc s hs p hp
  postVel := fun k hk x hx => libPostVel_works (h.postVel k hk) x hx
  postMove := fun k hk x hx => libPostMove_works (h.postMove k hk) x hx
  loggers := fun l hl s => libLogger_works (h.loggers l hl) s

/-- C48 for histories of an optimizer put together from the library. -/
theorem C48_library_no_panic (R : Rng σ) (hf : Fmt.Embeds f Fmt.f64) (d n : Nat) (ks : List (Call σ (Fl f)))
    (o : Opt σ (Fl f)) (w : World σ (List (Fl f))) (h0 : Fresh o w) (hc : Always (LibComps R d n) o.comps ks) (pt : Point) :
    (∃ o' w', runTo o ks pt w = .ok (o', w') ∧ Shaped d (countAt n ks pt) o'.swarm) ∨ runTo o ks pt w = .error .fuel := by
  refine C48_no_panic d n ks o w h0 ?_ pt
  have : ∀ (ks : List (Call σ (Fl f))) (c : Comps σ (Fl f)), Always (LibComps R d n) c ks → Always (Fits d n) c ks := by
    intro ks
    induction ks with
    | nil => exact fun c h => C48_library R hf d n c h
    | cons k ks ih => exact fun c h => ⟨C48_library R hf d n c h.1, ih _ h.2⟩
  exact this ks o.comps hc

end Library

/-! A concrete optimizer put together from the library, whose history runs to its end in the kernel (`SwarmDemo.runs_on`). -/

theorem demo_lib : LibComps Rng.script 1 3 SwarmDemo.opt.comps where
  coordInit := .random SwarmDemo.ivs rfl (by
    intro iv hiv
    obtain rfl : iv = (Fl.zero, Fl.ofNat 10) := by simpa [SwarmDemo.ivs] using hiv
    decide +kernel)
  velInit := .zero
  velCalc := .classic _ _
  postVel := by
    intro h hh
    obtain rfl : h = Hooks.maxVelocityDimensions [Fl.ofNat 4] := by simpa [SwarmDemo.opt] using hh
    exact .dimensions _ rfl
  postMove := by
    intro h hh
    obtain rfl : h = Hooks.moveToBoundary SwarmDemo.ivs := by simpa [SwarmDemo.opt] using hh
    exact .boundary _ rfl
  stop := .maxIterations 2
  loggers := by
    intro l hl
    obtain rfl : l = Logging.silent := by simpa [SwarmDemo.opt] using hl
    exact .silent
  goal := fun x _ s => ⟨_, s, rfl, trivial⟩

example : Fits 1 3 SwarmDemo.opt.comps := C48_library Rng.script (Fmt.embeds_refl _) 1 3 _ demo_lib

/-- After the history of `SwarmDemo.runs_on` there are three particles of dimension one. -/
example : ∃ r o' w', findMin 3 SwarmDemo.opt SwarmDemo.world = .ok ((r, o'), w') ∧ Shaped 1 3 o'.swarm :=
  C48_returns 1 3 2 SwarmDemo.opt (C48_library Rng.script (Fmt.embeds_refl _) 1 3 _ demo_lib)
    (by intro st s b s' hle h; obtain ⟨rfl, -⟩ := M.pure_eq_ok.1 h; simpa using hle) SwarmDemo.world 3 (by decide)

end Verif.Props.Swarm
