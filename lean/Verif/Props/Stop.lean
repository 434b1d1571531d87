import Verif.Spec.Stop
import Verif.Proofs.Stop
import Verif.Proofs.Private
import Verif.Props.GeneticApi
import Verif.Props.SwarmApi

/-!
# C33 to C37: stop checkers
-/

namespace Verif.Props

open Verif Spec Stop

variable {σ τ T α : Type}

/-! ## C33 -/

/-- C33: `Threshold(t)` stops iff there is a best solution whose goal value is at most `t`; neither is NaN then. -/
theorem C33_threshold (t : F64) (s : AlgState T) (w : σ) :
    ∃ b, threshold t s w = .ok (b, w) ∧
      (b = true ↔ ∃ x g, s.best = some (x, g) ∧ g.isNan = false ∧ t.isNan = false ∧ g.toInt ≤ t.toInt) := by
  refine ⟨_, rfl, ?_⟩
  obtain ⟨best, it⟩ := s
  cases best with
  | none => simp
  | some a =>
    obtain ⟨x, g⟩ := a
    simp [Fl.le_iff]

/-- C33: a NaN threshold, or a NaN goal value, never stops. -/
theorem C33_nan (t : F64) (s : AlgState T) (w : σ)
    (h : t.isNan = true ∨ ∀ x g, s.best = some (x, g) → g.isNan = true) : threshold t s w = .ok (false, w) := by
  obtain ⟨b, hb, hiff⟩ := C33_threshold t s w
  rw [hb]
  have : b = false := by
    rw [Bool.eq_false_iff]
    intro hbt
    obtain ⟨x, g, hs, hg, ht, -⟩ := hiff.1 hbt
    rcases h with h | h
    · rw [h] at ht; cases ht
    · rw [h x g hs] at hg; cases hg
  rw [this]

/-- C33, whole runs: what a genetic `find_min` with `Threshold(t)` returns is at or below the threshold. -/
theorem C33_genetic (t : F64) (o o' : GA.Opt σ T) (hl : Legal o.comps) (hstop : o.comps.stop = threshold t)
    (w w' : World σ T) (fuel : Nat) (r : Option (Solution T)) (hr : GA.findMin fuel o w = .ok ((r, o'), w')) :
    ∃ x g, r = some (x, g) ∧ g.le t = true := by
  obtain ⟨k, sts, ext, -, -, -, -, hrr, -, -, -, -, -, p0, w1, w2, s', -, -, hend⟩ := GA.findMin_spec hl hr
  rw [hstop] at hend
  have h := (M.pure_eq_ok.1 hend).1
  rw [hrr]
  split at h
  · cases h
  · rename_i x g hb
    exact ⟨x, g, hb, h⟩

/-- C33, whole runs: what a swarm's `find_min` with `Threshold(t)` returns is at or below the threshold. -/
theorem C33_swarm [FloatT α] (t : F64) (o o' : PSO.Opt σ α) (hstop : o.comps.stop = threshold t)
    (w w' : World σ (List α)) (fuel : Nat) (r : Option (Solution (List α)))
    (hr : PSO.findMin fuel o w = .ok ((r, o'), w')) :
    ∃ x g, r = some (x, g) ∧ g.le t = true := by
  obtain ⟨k, sts, ext, p0, wb, -, -, -, -, -, -, hrr, -, -, -, -, -, w1, w2, s', -, hend⟩ := PSO.findMin_spec hr
  rw [hstop] at hend
  have h := (M.pure_eq_ok.1 hend).1
  rw [hrr]
  split at h
  · cases h
  · rename_i x g hb
    exact ⟨x, g, hb, h⟩

/-- The demo swarm with a threshold of 30. -/
def thresholdDemo : PSO.Opt (List Nat) F64 :=
  { SwarmDemo.opt with comps := { SwarmDemo.opt.comps with stop := threshold (Fl.ofNat 30) } }

example : thresholdDemo.comps.stop = threshold (Fl.ofNat 30) ∧
    M.okAnd (PSO.findMin 5 thresholdDemo SwarmDemo.world) (fun r _ => r.1.isSome) = true :=
  ⟨rfl, by decide +kernel⟩

/-- The demo genetic optimizer with a threshold of 30. -/
def thresholdDemoGA : GA.Opt (List Nat) (List F64) :=
  { Demo.opt with comps := { Demo.opt.comps with stop := threshold (Fl.ofNat 30) } }

example : thresholdDemoGA.comps.stop = threshold (Fl.ofNat 30) ∧ Legal thresholdDemoGA.comps ∧
    M.okAnd (GA.findMin 5 thresholdDemoGA Demo.world) (fun r _ => r.1.isSome) = true :=
  ⟨rfl, demo_legal, by decide +kernel⟩

/-! ## C34 -/

/-- C34: consulted in the order of the iterations, a new `GoalNotChange(m, d)` stops exactly when more than `m`
iterations have passed since the goal last differed by more than `d` from its recorded value. -/
theorem C34_answers (p : Profile) (m : Nat) (d : F64) (l : List (AlgState T × Bool)) (t' : GNC)
    (hc : Consulted (goalNotChange p) (GNC.new m d) l t')
    (hi : (l.map (fun a => a.1.iteration)).Pairwise (· ≤ ·)) : Stagnation m d l :=
  stagnation_of_consulted p hc hi

/-- C34: in both build profiles it always gives an answer (no underflow). -/
theorem C34_total (p : Profile) (m : Nat) (d : F64) (ss : List (AlgState T))
    (hi : (ss.map AlgState.iteration).Pairwise (· ≤ ·)) :
    ∃ l t', l.map Prod.fst = ss ∧ Consulted (goalNotChange p) (GNC.new m d) l t' :=
  goalNotChange_total p ss _ hi (fun _ _ => Nat.zero_le _)

/-- C34: it never stops in the first `m` iterations, nor without a best solution. -/
theorem C34_not_early (p : Profile) (m : Nat) (d : F64) (l : List (AlgState T × Bool)) (t' : GNC)
    (hc : Consulted (goalNotChange p) (GNC.new m d) l t')
    (hi : (l.map (fun a => a.1.iteration)).Pairwise (· ≤ ·)) (s : AlgState T) (hs : (s, true) ∈ l) :
    m < s.iteration ∧ s.best.isSome = true := by
  obtain ⟨i, hi', he⟩ := List.getElem_of_mem hs
  have := C34_answers p m d l t' hc hi i s true (by rw [List.getElem?_eq_getElem hi', he])
  have h2 := this.2.1 rfl
  exact ⟨by have := h2.2; omega, h2.1⟩

/-- C34: if `d` is not negative and the goal value is `g` from the state number `j` on, it stops as soon as more than
`m` iterations have passed since then. `g` may be infinite or NaN. -/
theorem C34_constant (p : Profile) (m : Nat) (d : F64) (hd : d.lt Fl.zero = false) (l : List (AlgState T × Bool)) (t' : GNC)
    (hc : Consulted (goalNotChange p) (GNC.new m d) l t')
    (hi : (l.map (fun a => a.1.iteration)).Pairwise (· ≤ ·)) (g : F64) (j : Nat)
    (hg : ∀ a ∈ l.drop j, ∃ x, a.1.best = some (x, g))
    (i : Nat) (hji : j ≤ i) (s0 s : AlgState T) (b0 b : Bool) (h0 : l[j]? = some (s0, b0)) (h : l[i]? = some (s, b))
    (hm : s0.iteration + m < s.iteration) : b = true := by
  have hst := C34_answers p m d l t' hc hi
  have hst0 := hst j s0 b0 h0
  refine (hst i s b h).2.2 ⟨?_, ?_⟩
  · obtain ⟨x, hx⟩ := hg (s, b) (List.mem_drop_iff_getElem.2 (by
      obtain ⟨hil, he⟩ := List.getElem?_eq_some_iff.1 h
      exact ⟨i - j, by omega, by
        rw [← he]; congr 1; omega⟩))
    simp only at hx
    rw [hx]; rfl
  · have hjl : j < l.length := (List.getElem?_eq_some_iff.1 h0).1
    have hsplit : ((l.map Prod.fst).take (i + 1)) =
        (l.map Prod.fst).take j ++ s0 :: ((l.map Prod.fst).drop (j + 1)).take (i - j) := by
      have e1 : (l.map Prod.fst)[j]'(by simpa using hjl) = s0 := by
        rw [List.getElem_map, (List.getElem?_eq_some_iff.1 h0).2]
      have e2 : i + 1 = j + (i - j + 1) := by omega
      rw [e2, List.take_add, List.drop_eq_getElem_cons (by simpa using hjl), e1, List.take_succ_cons]
    have hs0 : ∃ x, s0.best = some (x, g) := hg (s0, b0) (List.mem_drop_iff_getElem.2
      ⟨0, by simpa using hjl, by simpa using (List.getElem?_eq_some_iff.1 h0).2⟩)
    have hrest : ∀ s ∈ ((l.map Prod.fst).drop (j + 1)).take (i - j), ∃ x, s.best = some (x, g) := by
      intro s hs
      have hs := List.mem_of_mem_take hs
      rw [← List.map_drop] at hs
      obtain ⟨a, ha, rfl⟩ := List.mem_map.1 hs
      have : a ∈ l.drop j := by
        rw [← List.drop_drop] at ha
        exact List.mem_of_mem_drop ha
      exact hg a this
    have hrec : recorded d ((l.map Prod.fst).take (i + 1)) = recorded d ((l.map Prod.fst).take (j + 1)) := by
      have e3 : (l.map Prod.fst).take (j + 1) = (l.map Prod.fst).take j ++ [s0] := by
        rw [List.take_add_one, List.getElem?_map, h0]; rfl
      rw [hsplit, e3]
      unfold recorded
      rw [List.foldl_append, List.foldl_append, List.foldl_cons, recorded_const hd _ _ hrest s0 hs0]
      rfl
    rw [hrec]
    have := hst0.1
    omega

/-- C34: for a negative `d` even a constant finite goal never stops it. -/
theorem C34_negative_delta (p : Profile) (m : Nat) (n : Nat) :
    ∃ (d g : F64), g.isFinite = true ∧ d.lt Fl.zero = true ∧
      ∀ l t', Consulted (goalNotChange p) (GNC.new m d) l t' →
        l.map Prod.fst = (List.range n).map (fun i => (⟨some ((), g), i⟩ : AlgState Unit)) → ∀ a ∈ l, a.2 = false := by
  refine ⟨(Fl.one : F64).neg, Fl.zero, Fl.isFinite_zero, by decide +kernel, fun l t' hc hl => ?_⟩
  have hlen : l.length = n := by simpa using congrArg List.length hl
  have hit : l.map (fun a => a.1.iteration) = List.range n := by
    have := congrArg (List.map AlgState.iteration) hl
    simpa [List.map_map, Function.comp_def] using this
  have hst := C34_answers p m _ l t' hc (by rw [hit]; exact List.pairwise_lt_range.imp Nat.le_of_lt)
  intro a ha
  obtain ⟨i, hi, rfl⟩ := List.getElem_of_mem ha
  have hai : l[i].1 = ⟨some ((), Fl.zero), i⟩ := by
    have := congrArg (fun l => l[i]?) hl
    simp only [List.getElem?_map, List.getElem?_eq_getElem hi,
      List.getElem?_range (hlen ▸ hi : i < n)] at this
    simpa using this
  have h := hst i l[i].1 l[i].2 (by rw [List.getElem?_eq_getElem hi])
  rw [Bool.eq_false_iff]
  intro hb
  have h2 := (h.2.1 hb).2
  have e : (l.map Prod.fst).take (i + 1) = (l.map Prod.fst).take i ++ [⟨some ((), Fl.zero), i⟩] := by
    rw [List.take_add_one, List.getElem?_map, List.getElem?_eq_getElem hi]
    simp [hai]
  have hr : ∀ r : F64 × Nat, r.1 = Fl.maxFinite ∨ r.1 = Fl.zero →
      recordStep (Fl.one : F64).neg r (⟨some ((), Fl.zero), i⟩ : AlgState Unit) = (Fl.zero, i) := by
    rintro ⟨r1, r2⟩ (h | h)
    · simp only at h; subst h; simp only [recordStep]
      rw [if_pos (by decide +kernel)]
    · simp only at h; subst h; simp only [recordStep]
      rw [if_pos (by decide +kernel)]
  have hinv : ∀ (ss : List (AlgState Unit)) (r : F64 × Nat), (∀ s ∈ ss, s.best = some ((), Fl.zero)) →
      (r.1 = Fl.maxFinite ∨ r.1 = Fl.zero) →
      (ss.foldl (recordStep (Fl.one : F64).neg) r).1 = Fl.maxFinite ∨
        (ss.foldl (recordStep (Fl.one : F64).neg) r).1 = Fl.zero := by
    intro ss
    induction ss with
    | nil => intro r _ h; exact h
    | cons s ss ih =>
      intro r hs h
      refine ih _ (fun s h => hs s (by simp [h])) ?_
      unfold recordStep
      rw [hs s (by simp)]
      simp only
      split
      · exact .inr rfl
      · exact h
  have hfin : recorded (Fl.one : F64).neg ((l.map Prod.fst).take (i + 1)) = (Fl.zero, i) := by
    rw [e]
    unfold recorded
    rw [List.foldl_append]
    refine hr _ (hinv _ _ ?_ (.inl rfl))
    intro s hs
    have hs := List.mem_of_mem_take hs
    rw [hl] at hs
    obtain ⟨j, -, rfl⟩ := List.mem_map.1 hs
    rfl
  rw [hfin, hai] at h2
  simp only at h2
  omega

theorem checks_states {l : List (AlgState T)} {e : AlgState T} (h : l.getLast? = some e) :
    (l.dropLast.map (fun s => (s, false)) ++ [(e, true)]).map Prod.fst = l := by
  rw [List.map_append, List.map_map]
  have : (Prod.fst ∘ fun s : AlgState T => (s, false)) = id := rfl
  rw [this, List.map_id]
  have hne : l ≠ [] := by rintro rfl; cases h
  rw [List.getLast?_eq_some_getLast hne] at h
  cases h
  exact List.dropLast_append_getLast hne

/-- C34, whole runs: if a `GoalNotChange(m, d)` object of its own is the stop checker of a genetic optimizer, `find_min`
consults it once per generation, at 0, 1, 2, ..., its answers follow the rule, and only the last one is `true`; so at least
`m + 1` generations are done and there is a best solution. -/
theorem C34_genetic (p : Profile) (m : Nat) (d : F64) (L : Lens σ GNC) (o o' : GA.Opt σ T) (hl : Legal o.comps)
    (hp : GA.PrivateStop L (goalNotChange p) o.comps) (w w' : World σ T) (hnew : L.get w.user = GNC.new m d)
    (fuel : Nat) (r : Option (Solution T)) (hr : GA.findMin fuel o w = .ok ((r, o'), w')) :
    (∃ ext, w'.trace = w.trace ++ ext ∧
      (checksOf ext).map (fun a => a.1.iteration) = List.range (o'.pop.iteration + 1) ∧ Stagnation m d (checksOf ext)) ∧
    m < o'.pop.iteration ∧ r.isSome = true := by
  obtain ⟨k, sts, ext, -, ht, -, hit, hrr, -, hsi, -, hch, hlast, -⟩ := GA.findMin_spec hl hr
  obtain ⟨ext', ht', hc⟩ := (hp.winv w.trace (L.get w.user)).findMin fuel w _ w' ⟨[], by simp, .nil⟩ hr
  obtain rfl : ext' = ext := List.append_cancel_left (ht'.symm.trans ht)
  rw [hnew] at hc
  have hst : (checksOf ext').map (fun a => a.1.iteration) = List.range (o'.pop.iteration + 1) := by
    rw [show (fun a : AlgState T × Bool => a.1.iteration) = AlgState.iteration ∘ Prod.fst from rfl, ← List.map_map, hch,
      checks_states hlast, List.map_cons, hsi, hit]
    rw [List.range_eq_range', List.range'_succ]
  have hpw : ((checksOf ext').map (fun a => a.1.iteration)).Pairwise (· ≤ ·) := by
    rw [hst]; exact List.pairwise_lt_range.imp Nat.le_of_lt
  obtain ⟨h1, h2⟩ := C34_not_early p m d _ _ hc hpw o'.pop.state (by rw [hch]; simp)
  exact ⟨⟨ext', ht', hst, C34_answers p m d _ _ hc hpw⟩, h1, by rw [hrr]; exact h2⟩

/-- C34, whole runs of the particle swarm optimizer. -/
theorem C34_swarm [FloatT α] (p : Profile) (m : Nat) (d : F64) (L : Lens σ GNC) (o o' : PSO.Opt σ α)
    (hp : PSO.PrivateStop L (goalNotChange p) o.comps) (w w' : World σ (List α)) (hnew : L.get w.user = GNC.new m d)
    (fuel : Nat) (r : Option (Solution (List α))) (hr : PSO.findMin fuel o w = .ok ((r, o'), w')) :
    (∃ ext, w'.trace = w.trace ++ ext ∧
      (checksOf ext).map (fun a => a.1.iteration) = List.range (o'.swarm.iteration + 1) ∧ Stagnation m d (checksOf ext)) ∧
    m < o'.swarm.iteration ∧ r.isSome = true := by
  obtain ⟨k, sts, ext, p0, wb, -, ht, -, -, hp0, hit, hrr, -, hsi, -, hch, hlast, -⟩ := PSO.findMin_spec hr
  obtain ⟨ext', ht', hc⟩ := (hp.winv w.trace (L.get w.user)).findMin fuel w _ w' ⟨[], by simp, .nil⟩ hr
  obtain rfl : ext' = ext := List.append_cancel_left (ht'.symm.trans ht)
  rw [hnew] at hc
  have hst : (checksOf ext').map (fun a => a.1.iteration) = List.range (o'.swarm.iteration + 1) := by
    rw [show (fun a : AlgState (List α) × Bool => a.1.iteration) = AlgState.iteration ∘ Prod.fst from rfl,
      ← List.map_map, hch, checks_states hlast, List.map_cons, hsi, hit]
    rw [show p0.state.iteration = 0 from hp0, List.range_eq_range', List.range'_succ]
  have hpw : ((checksOf ext').map (fun a => a.1.iteration)).Pairwise (· ≤ ·) := by
    rw [hst]; exact List.pairwise_lt_range.imp Nat.le_of_lt
  obtain ⟨h1, h2⟩ := C34_not_early p m d _ _ hc hpw o'.swarm.state (by rw [hch]; simp)
  exact ⟨⟨ext', ht', hst, C34_answers p m d _ _ hc hpw⟩, h1, by rw [hrr]; exact h2⟩

/-! ### Concrete runs -/

/-- A particle that starts at the next of a list of points and moves down by 3 until it hits 0, whose goal is its
position; with a `GoalNotChange` object. -/
def gncSwarm (p : Profile) : PSO.Opt (List F64 × GNC) F64 :=
  let o := PSO.new (α := F64) (fun x => pure (x.headD Fl.nan)) (fun s => (Lens.snd _ _).zoom (goalNotChange p s))
    (fun w => match w.1 with
      | x :: xs => .ok ([[x]], xs, w.2)
      | [] => .error .user)
    (pure [[Fl.zero]]) (fun _ _ => pure [(Fl.ofNat 3 : F64).neg])
  { o with comps := { o.comps with postMove := [Hooks.moveToBoundary [(Fl.zero, Fl.ofNat 10)]] } }

/-- Starts at 10, then at 0; stagnation for more than 2 iterations, differences up to 1/2. -/
def gncWorld : World (List F64 × GNC) (List F64) :=
  ⟨([Fl.ofNat 10, Fl.zero], GNC.new 2 (Fl.one.div (Fl.ofNat 2))), []⟩

theorem leaves_pure (L : Lens σ τ) (a : T) : Leaves L (pure a : M σ T) := by
  intro s b s' h; rw [(M.pure_eq_ok.1 h).2]

theorem leaves_snd_boundary (ivs : List (F64 × F64)) (x : List F64) :
    Leaves (Lens.snd (List F64) GNC) (Hooks.moveToBoundary ivs x) := by
  intro s b s' h
  unfold Hooks.moveToBoundary at h
  obtain ⟨u, s1, h1, h⟩ := M.bind_eq_ok.1 h
  obtain ⟨-, rfl⟩ := M.assert_eq_ok.1 h1
  rw [(M.pure_eq_ok.1 h).2]

theorem gncSwarm_private (p : Profile) : PSO.PrivateStop (Lens.snd _ _) (goalNotChange p) (gncSwarm p).comps :=
  { stop_eq := rfl
    goal := fun _ => leaves_pure _ _
    loggers := fun l h => by cases h
    operators :=
      { coordInit := by
          intro s a s' h
          simp only [gncSwarm, PSO.new] at h
          split at h
          · cases h; rfl
          · cases h
        velInit := leaves_pure _ _
        velCalc := fun _ _ => leaves_pure _ _
        postVel := fun f h => by cases h
        postMove := fun f h x => by
          rcases List.mem_singleton.1 h with rfl
          exact leaves_snd_boundary _ x } }

/-- The goals are 10, 7, 4, 1, 0, 0, 0, 0: the run ends at iteration 7. -/
theorem gncSwarm_runs : M.okAnd (PSO.findMin 10 (gncSwarm .debug) gncWorld)
    (fun r w => r.2.swarm.iteration == 7 && decide (w.user.2.changeIter = 4)) = true := by decide +kernel

example : PSO.PrivateStop (Lens.snd _ _) (goalNotChange .debug) (gncSwarm .debug).comps ∧
    (Lens.snd _ _).get gncWorld.user = GNC.new 2 (Fl.one.div (Fl.ofNat 2)) ∧
    ∃ r w', PSO.findMin 10 (gncSwarm .debug) gncWorld = .ok (r, w') := by
  obtain ⟨r, w', h, -⟩ := M.okAnd_iff.1 gncSwarm_runs
  exact ⟨gncSwarm_private _, rfl, r, w', h⟩

/-- Two individuals 4 and 2, whose mean is born again and again. -/
def gncGA : GA.Opt GNC (List F64) :=
  GA.new (fun x => pure (x.headD Fl.nan)) (fun s => (Lens.id _).zoom (goalNotChange .debug s))
    (pure [[Fl.ofNat 4], [Fl.ofNat 2]]) (fun _ => pure [[0, 1]]) (fun _ => pure [[Fl.ofNat 3]]) (fun x => pure x) [] []

example : Legal gncGA.comps ∧ GA.PrivateStop (Lens.id _) (goalNotChange .debug) gncGA.comps ∧
    (Lens.id _).get (GNC.new 2 Fl.zero) = GNC.new 2 Fl.zero ∧
    M.okAnd (GA.findMin 10 gncGA ⟨GNC.new 2 Fl.zero, []⟩) (fun r _ => r.2.pop.iteration == 4) = true :=
  ⟨(fun _ h => by cases h),
   { stop_eq := rfl
     goal := fun _ => leaves_pure _ _
     loggers := fun l h => by cases h
     operators := ⟨leaves_pure _ _, fun _ => leaves_pure _ _, fun _ => leaves_pure _ _, fun _ => leaves_pure _ _,
       fun _ h => by (cases h), fun _ h => by (cases h)⟩ }, rfl, by decide +kernel⟩

/-! ## C35 -/

/-- C35, why the property fails: if the goal is not more than `d` away from the recorded value and the iteration number is smaller
than the recorded one, the subtraction underflows: a panic with overflow checks; without, the answer compares `m` with a
number close to 2^64. -/
theorem C35_underflow (t : GNC) (s : AlgState T) (x : T) (g : F64) (hs : s.best = some (x, g))
    (hd : t.delta.lt (g.sub t.oldGoal).abs = false) (hi : s.iteration < t.changeIter) :
    goalNotChange .debug s t = .error .arith ∧
    goalNotChange .release s t = .ok (decide (t.maxIter < s.iteration + 2 ^ 64 - t.changeIter), t) := by
  obtain ⟨best, it⟩ := s
  simp only at hs hi
  subst hs
  have hr : recordStep t.delta (t.oldGoal, t.changeIter) (⟨some (x, g), it⟩ : AlgState T) =
      (t.oldGoal, t.changeIter) := by
    unfold recordStep; simp [hd]
  have hn : ¬ t.changeIter ≤ it := by omega
  constructor
  · simp [goalNotChange_some, hr, usizeSub, hn]
  · simp [goalNotChange_some, hr, usizeSub, hn, usizeSize]

/-- C35: with overflow checks the second `find_min` of this swarm panics, although all of its components work
and the first one returns. -/
theorem C35_not_reusable_debug :
    M.okAnd (PSO.run (gncSwarm .debug) [.findMin 10] gncWorld) (fun _ _ => true) = true ∧
    PSO.run (gncSwarm .debug) [.findMin 10, .findMin 10] gncWorld = .error .arith := by
  refine ⟨by decide +kernel, ?_⟩
  have h : (match PSO.run (gncSwarm .debug) [.findMin 10, .findMin 10] gncWorld with
    | .ok _ => none
    | .error e => some e) = some Err.arith := by decide +kernel
  split at h
  · cases h
  · rename_i e he
    rw [he]
    cases h
    rfl

/-- C35: without overflow checks the second `find_min` stops before its first iteration. -/
theorem C35_not_reusable_release :
    M.okAnd (PSO.run (gncSwarm .release) [.findMin 10] gncWorld) (fun r _ => r.2.swarm.iteration == 7) = true ∧
    M.okAnd (PSO.run (gncSwarm .release) [.findMin 10, .findMin 10] gncWorld)
      (fun r _ => r.2.swarm.iteration == 0) = true := by
  constructor <;> decide +kernel

/-- C35: if the first goal value of the second run differs by more than `d` from the last recorded one (and from
`f64::MAX`), a used object behaves exactly as a new one. For the other goal values see above. -/
theorem C35_reuse (p : Profile) (t : GNC) (s : AlgState T) (x : T) (g : F64) (hs : s.best = some (x, g))
    (hd : t.delta.lt (g.sub t.oldGoal).abs = true) (hmax : t.delta.lt (g.sub Fl.maxFinite).abs = true) :
    goalNotChange p s t = goalNotChange p s (GNC.new t.maxIter t.delta) := by
  obtain ⟨best, it⟩ := s
  simp only at hs
  subst hs
  rw [goalNotChange_some, goalNotChange_some]
  simp only [recordStep, hd, GNC.new, hmax, ↓reduceIte]
  rfl

example : ∃ (t : GNC) (g : F64), t.changeIter = 4 ∧ t.delta.lt (g.sub t.oldGoal).abs = true ∧
    t.delta.lt (g.sub Fl.maxFinite).abs = true :=
  ⟨⟨2, Fl.one, Fl.zero, 4⟩, Fl.ofNat 10, rfl, by decide +kernel, by decide +kernel⟩

/-! ## C36 -/

/-- C36: what `CompositeAny` answers: `true` after consulting the members in order up to the first that answers `true`
and no further; `false` if all were consulted and all answered `false`. -/
theorem C36_any (cs : List (AlgState T → M σ Bool)) (s : AlgState T) (w w' : σ) (b : Bool) :
    any cs s w = .ok (b, w') ↔
      (b = true ∧ ∃ pre c post, cs = pre ++ c :: post ∧
        Ran (pre ++ [c]) s w (List.replicate pre.length false ++ [true]) w') ∨
      (b = false ∧ Ran cs s w (List.replicate cs.length false) w') := by
  induction cs generalizing w with
  | nil =>
    rw [any, M.pure_eq_ok]
    constructor
    · rintro ⟨rfl, rfl⟩; exact .inr ⟨rfl, .nil⟩
    · rintro (⟨-, pre, c, post, h, -⟩ | ⟨rfl, h⟩)
      · cases pre <;> cases h
      · cases h; exact ⟨rfl, rfl⟩
  | cons c cs ih =>
    rw [any, M.bind_eq_ok]
    constructor
    · rintro ⟨a, w1, h1, h⟩
      cases a with
      | true =>
        obtain ⟨rfl, rfl⟩ := M.pure_eq_ok.1 (by simpa using h)
        exact .inl ⟨rfl, [], c, cs, rfl, .cons h1 .nil⟩
      | false =>
        rcases (ih w1).1 (by simpa using h) with ⟨rfl, pre, c', post, rfl, hr⟩ | ⟨rfl, hr⟩
        · exact .inl ⟨rfl, c :: pre, c', post, rfl, .cons h1 hr⟩
        · exact .inr ⟨rfl, .cons h1 hr⟩
    · rintro (⟨rfl, pre, c', post, he, hr⟩ | ⟨rfl, hr⟩)
      · cases pre with
        | nil =>
          cases he
          cases hr with
          | cons h1 h2 => cases h2; exact ⟨true, w', h1, rfl⟩
        | cons c1 pre =>
          cases he
          cases hr with
          | cons h1 h2 => exact ⟨false, _, h1, by simpa using (ih _).2 (.inl ⟨rfl, pre, c', post, rfl, h2⟩)⟩
      · cases hr with
        | cons h1 h2 => exact ⟨false, _, h1, by simpa using (ih _).2 (.inr ⟨rfl, h2⟩)⟩

/-- C36: what `CompositeAll` answers: `false` after consulting the members in order up to the first that answers
`false` and no further; `true` if all were consulted and all answered `true`. -/
theorem C36_all (cs : List (AlgState T → M σ Bool)) (s : AlgState T) (w w' : σ) (b : Bool) :
    all cs s w = .ok (b, w') ↔
      (b = false ∧ ∃ pre c post, cs = pre ++ c :: post ∧
        Ran (pre ++ [c]) s w (List.replicate pre.length true ++ [false]) w') ∨
      (b = true ∧ Ran cs s w (List.replicate cs.length true) w') := by
  induction cs generalizing w with
  | nil =>
    rw [all, M.pure_eq_ok]
    constructor
    · rintro ⟨rfl, rfl⟩; exact .inr ⟨rfl, .nil⟩
    · rintro (⟨-, pre, c, post, h, -⟩ | ⟨rfl, h⟩)
      · cases pre <;> cases h
      · cases h; exact ⟨rfl, rfl⟩
  | cons c cs ih =>
    rw [all, M.bind_eq_ok]
    constructor
    · rintro ⟨a, w1, h1, h⟩
      cases a with
      | false =>
        obtain ⟨rfl, rfl⟩ := M.pure_eq_ok.1 (by simpa using h)
        exact .inl ⟨rfl, [], c, cs, rfl, .cons h1 .nil⟩
      | true =>
        rcases (ih w1).1 (by simpa using h) with ⟨rfl, pre, c', post, rfl, hr⟩ | ⟨rfl, hr⟩
        · exact .inl ⟨rfl, c :: pre, c', post, rfl, .cons h1 hr⟩
        · exact .inr ⟨rfl, .cons h1 hr⟩
    · rintro (⟨rfl, pre, c', post, he, hr⟩ | ⟨rfl, hr⟩)
      · cases pre with
        | nil =>
          cases he
          cases hr with
          | cons h1 h2 => cases h2; exact ⟨false, w', h1, rfl⟩
        | cons c1 pre =>
          cases he
          cases hr with
          | cons h1 h2 => exact ⟨true, _, h1, by simpa using (ih _).2 (.inl ⟨rfl, pre, c', post, rfl, h2⟩)⟩
      · cases hr with
        | cons h1 h2 => exact ⟨true, _, h1, by simpa using (ih _).2 (.inr ⟨rfl, h2⟩)⟩

/-- C36: `CompositeAny` panics iff one of the members does whose predecessors all answered `false`. -/
theorem C36_any_panics (cs : List (AlgState T → M σ Bool)) (s : AlgState T) (w : σ) (e : Err) :
    any cs s w = .error e ↔
      ∃ pre c post w1, cs = pre ++ c :: post ∧ Ran pre s w (List.replicate pre.length false) w1 ∧
        c s w1 = .error e := by
  induction cs generalizing w with
  | nil =>
    constructor
    · intro h; cases h
    · rintro ⟨pre, c, post, w1, h, -⟩; cases pre <;> cases h
  | cons c cs ih =>
    rw [any, M.bind_eq_error]
    constructor
    · rintro (h | ⟨a, w1, h1, h⟩)
      · exact ⟨[], c, cs, w, rfl, .nil, h⟩
      · cases a with
        | true => simp only [↓reduceIte] at h; cases h
        | false =>
          obtain ⟨pre, c', post, w2, rfl, hr, he⟩ := (ih w1).1 (by simpa using h)
          exact ⟨c :: pre, c', post, w2, rfl, .cons h1 hr, he⟩
    · rintro ⟨pre, c', post, w1, he, hr, hf⟩
      cases pre with
      | nil => cases he; cases hr; exact .inl hf
      | cons c1 pre =>
        cases he
        cases hr with
        | cons h1 h2 => exact .inr ⟨false, _, h1, by simpa using (ih _).2 ⟨pre, c', post, w1, rfl, h2, hf⟩⟩

/-- C36: `CompositeAll` panics iff one of the members does whose predecessors all answered `true`. -/
theorem C36_all_panics (cs : List (AlgState T → M σ Bool)) (s : AlgState T) (w : σ) (e : Err) :
    all cs s w = .error e ↔
      ∃ pre c post w1, cs = pre ++ c :: post ∧ Ran pre s w (List.replicate pre.length true) w1 ∧
        c s w1 = .error e := by
  induction cs generalizing w with
  | nil =>
    constructor
    · intro h; cases h
    · rintro ⟨pre, c, post, w1, h, -⟩; cases pre <;> cases h
  | cons c cs ih =>
    rw [all, M.bind_eq_error]
    constructor
    · rintro (h | ⟨a, w1, h1, h⟩)
      · exact ⟨[], c, cs, w, rfl, .nil, h⟩
      · cases a with
        | false => simp at h; cases h
        | true =>
          obtain ⟨pre, c', post, w2, rfl, hr, he⟩ := (ih w1).1 (by simpa using h)
          exact ⟨c :: pre, c', post, w2, rfl, .cons h1 hr, he⟩
    · rintro ⟨pre, c', post, w1, he, hr, hf⟩
      cases pre with
      | nil => cases he; cases hr; exact .inl hf
      | cons c1 pre =>
        cases he
        cases hr with
        | cons h1 h2 => exact .inr ⟨true, _, h1, by simpa using (ih _).2 ⟨pre, c', post, w1, rfl, h2, hf⟩⟩

/-- C36: the constructors panic exactly on an empty list of members. -/
theorem C36_new (cs : List (AlgState T → M σ Bool)) (w : σ) :
    compositeNew cs w = if cs = [] then .error .assert else .ok (cs, w) := by
  cases cs <;> rfl

/-- The second member is stateful; it is consulted by neither composite. -/
example : any [threshold Fl.one, fun _ n => .ok (true, n + 1)] (⟨some ((), Fl.zero), 3⟩ : AlgState Unit) 5 =
      .ok (true, 5) ∧
    all [threshold Fl.zero, fun _ n => .ok (true, n + 1)] (⟨some ((), Fl.one), 3⟩ : AlgState Unit) 5 =
      .ok (false, 5) := by
  constructor
  · have : (Fl.zero : F64).le Fl.one = true := by decide +kernel
    simp [any, threshold, M.bind_run, M.pure_run, this]
  · have : (Fl.one : F64).le Fl.zero = false := by decide +kernel
    simp [all, threshold, M.bind_run, M.pure_run, this]

/-! ## C37 -/

/-- C37: a `CompositeAny` with `MaxIterations(n)` among its members answers `true` from iteration `n` on. -/
theorem C37_bounding (n : Nat) (cs : List (AlgState T → M σ Bool)) (h : maxIterations n ∈ cs) : Bounding n (any cs) := by
  intro s w b w' hle hr
  induction cs generalizing w with
  | nil => cases h
  | cons c cs ih =>
    rw [any, M.bind_eq_ok] at hr
    obtain ⟨a, w1, h1, hr⟩ := hr
    cases a with
    | true => exact ((M.pure_eq_ok.1 (by simpa using hr)).1).symm
    | false =>
      rcases List.mem_cons.1 h with rfl | h
      · exact absurd (maxIterations_bounding n s w false w1 hle h1) (by simp)
      · exact ih h w1 (by simpa using hr)

/-- C37 (genetic): with such a stop checker a `find_min` that returns has done at most `n` generations. The outcome is the
same for every bound larger than `n` on the number of turns of the loop, so the loop of the program ends within `n` turns. -/
theorem C37_genetic (n : Nat) (cs : List (AlgState T → M σ Bool)) (h : maxIterations n ∈ cs) (o : GA.Opt σ T)
    (hstop : o.comps.stop = any cs) (hl : Legal o.comps) (w : World σ T) (fuel : Nat) (hf : n < fuel) :
    GA.findMin fuel o w = GA.findMin (n + 1) o w ∧
    (GA.NoFuel o.comps → GA.findMin fuel o w ≠ .error .fuel) ∧
    (∀ r o' w', GA.findMin fuel o w = .ok ((r, o'), w') → o'.pop.iteration ≤ n) := by
  have hb : Bounding n o.comps.stop := hstop ▸ C37_bounding n cs h
  obtain ⟨h1, h2⟩ := findMin_bounded n o hb hl w fuel hf
  refine ⟨h1, h2, fun r o' w' hr => ?_⟩
  obtain ⟨k, -, -, -, -, -, hit, -, -, -, -, -, -, p0, w1, w2, s', hp0, htu, -⟩ := GA.findMin_spec hl hr
  have := ga_turns_bounded hb hl k _ _ _ _ htu
  omega

/-- C37 (swarm). -/
theorem C37_swarm [FloatT α] (n : Nat) (cs : List (AlgState (List α) → M σ Bool)) (h : maxIterations n ∈ cs)
    (o : PSO.Opt σ α) (hstop : o.comps.stop = any cs) (w : World σ (List α)) (fuel : Nat) (hf : n < fuel) :
    PSO.findMin fuel o w = PSO.findMin (n + 1) o w ∧
    (PSO.NoFuel o.comps → PSO.findMin fuel o w ≠ .error .fuel) ∧
    (∀ r o' w', PSO.findMin fuel o w = .ok ((r, o'), w') → o'.swarm.iteration ≤ n) := by
  have hb : Bounding n o.comps.stop := hstop ▸ C37_bounding n cs h
  refine ⟨PSO.findMin_fuel hb fuel (n + 1) w hf (by omega), fun hc => PSO.findMin_noFuel hb hc fuel w hf,
    fun r o' w' hr => ?_⟩
  obtain ⟨k, -, -, p0, -, -, -, -, -, hp0, hit, -, -, -, -, -, -, w1, w2, s', htu, -⟩ := PSO.findMin_spec hr
  have := PSO.turns_bounded hb k _ _ _ _ htu
  omega

example : maxIterations 2 ∈ [threshold (T := List F64) (σ := List Nat) Fl.zero, maxIterations 2] ∧
    M.okAnd (GA.findMin 3 { Demo.opt with comps := { Demo.opt.comps with
      stop := any [threshold Fl.zero, maxIterations 2] } } Demo.world) (fun r _ => r.2.pop.iteration == 2) = true ∧
    M.okAnd (PSO.findMin 3 { SwarmDemo.opt with comps := { SwarmDemo.opt.comps with
      stop := any [threshold (Fl.zero : F64).neg, maxIterations 2] } } SwarmDemo.world) (fun r _ =>
        decide (r.2.swarm.iteration ≤ 2)) = true :=
  ⟨by simp, by decide +kernel, by decide +kernel⟩

end Verif.Props
