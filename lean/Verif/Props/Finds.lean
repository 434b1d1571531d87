import Verif.Proofs.FindsLib
import Verif.Props.SwarmRun
import Verif.Props.ChanceFloat

/-!
# C104: with RandomTeleport the swarm finds every region that the teleports can reach
-/

namespace Verif.Props.Swarm

open Verif Spec Spec.Swarm PSO Finds

variable {τ : Type} {f : Fmt} {d n m K : Nat} {tp : Hooks.Teleport f} {A : List (Fl f) → Prop} {G : List (Fl f) → F64 → Prop}

/-- `find_min` returns a solution that is not worse than a value of the goal at a point of the region. -/
def Finds (A : List (Fl f) → Prop) (G : List (Fl f) → F64 → Prop) (fuel : Nat) (o : Opt (List Nat × τ) (Fl f)) (u : τ) (draws : List Nat) : Prop :=
  ∃ a o' w', findMin fuel o ⟨(draws, u), []⟩ = .ok ((some a, o'), w') ∧ ∃ x v, A x ∧ G x v ∧ NotWorse a.2 v

/-- C104: a fresh optimizer with RandomTeleport among its post-move hooks, stopped after `last` iterations, returns with a chance of at least
`1 - (1 - c) ^ (n * (last + 1))` a solution that is not worse than a value of the goal in the region, whatever the region, the goal, the
initializers and the velocity calculator are; `c` is the chance that one teleport leads into the region. -/
theorem C104_finds (dr : Draws) (hm : 0 < m) (o : Opt (List Nat × τ) (Fl f)) (h0 : o.swarm = Swarm.empty)
    (hc : Teleporting dr d n m K tp A G o.comps) (last : Nat) (hst : o.comps.stop = Stop.maxIterations last) :
    ∃ enough, ∀ L ≥ enough, ∀ fuel > last, ∀ u,
      1 - (1 - hitShare dr m tp A) ^ (n * (last + 1)) ≤ chance (List.replicate L m) (Finds A G fuel o u) := by
  refine ⟨_, fun L hL fuel hf u => (chance_findMin hm hc hst hf u [] L hL).trans (chance_mono fun t ht => ?_)⟩
  obtain ⟨⟨r, o'⟩, w', h, x, v, hxv, hA, hG⟩ := ht
  have hto : runTo o [.findMin fuel] .done ⟨(t, u), []⟩ = .ok (o', w') := by
    unfold runTo
    refine M.bind_eq_ok.2 ⟨([some r], o'), w', ?_, rfl⟩
    refine M.bind_eq_ok.2 ⟨(some r, o'), w', ?_, rfl⟩
    exact M.bind_eq_ok.2 ⟨(r, o'), w', h, rfl⟩
  obtain ⟨h1, h2, -, -⟩ := C39_state o o' _ w' _ .done ⟨h0, rfl⟩ hto
  obtain ⟨k, sts, ext, p0, wb, -, -, -, -, -, -, hr, -⟩ := PSO.findMin_spec h
  cases hb : o'.swarm.best with
  | none => rw [h1.1 hb] at hxv; simp at hxv
  | some b =>
    refine ⟨(b.coordinates, b.value), o', w', ?_, x, v, hA, hG, (h2 b hb).2 _ hxv⟩
    rw [h, hr]
    unfold PSO.Swarm.state
    rw [hb]
    rfl

/-- `find_min` returns a solution with a finite value of at most `bound`. -/
def FindsBelow (bound : F64) (fuel : Nat) (o : Opt (List Nat × τ) (Fl f)) (u : τ) (draws : List Nat) : Prop :=
  ∃ a o' w', findMin fuel o ⟨(draws, u), []⟩ = .ok ((some a, o'), w') ∧ a.2.isFinite = true ∧ a.2.le bound = true

theorem finds_below {bound : F64} (hb : ∀ x v, A x → G x v → v.isFinite = true ∧ v.le bound = true) {fuel : Nat} {o : Opt (List Nat × τ) (Fl f)} {u : τ}
    {draws : List Nat} (h : Finds A G fuel o u draws) : FindsBelow bound fuel o u draws := by
  obtain ⟨a, o', w', h1, x, v, hA, hG, hn⟩ := h
  obtain ⟨h2, h3⟩ := hb x v hA hG
  rcases hn with ⟨h4, -, h5⟩ | h5
  · exact ⟨a, o', w', h1, h4, Fl.le_trans h5 h3⟩
  · rw [h2] at h5; cases h5

/-- C104: if the values of the goal in the region are finite and at most `bound`, then so is the value found, with the same chance. -/
theorem C104_below (dr : Draws) (hm : 0 < m) (o : Opt (List Nat × τ) (Fl f)) (h0 : o.swarm = Swarm.empty)
    (hc : Teleporting dr d n m K tp A G o.comps) (last : Nat) (hst : o.comps.stop = Stop.maxIterations last) (bound : F64)
    (hb : ∀ x v, A x → G x v → v.isFinite = true ∧ v.le bound = true) :
    ∃ enough, ∀ L ≥ enough, ∀ fuel > last, ∀ u,
      1 - (1 - hitShare dr m tp A) ^ (n * (last + 1)) ≤ chance (List.replicate L m) (FindsBelow bound fuel o u) := by
  obtain ⟨N, h⟩ := C104_finds dr hm o h0 hc last hst
  exact ⟨N, fun L hL fuel hf u => (h L hL fuel hf u).trans (chance_mono fun t ht => finds_below hb ht)⟩

/-- C104: in the long run the region is found almost certainly: if the teleports can lead into the region at all and the swarm is not empty, then
for every `ε` there is a number of iterations from which on the chance is at least `1 - ε`. -/
theorem C104_limit (dr : Draws) (hm : 0 < m) (o : Opt (List Nat × τ) (Fl f)) (h0 : o.swarm = Swarm.empty)
    (hc : Teleporting dr d n m K tp A G o.comps) (hn : n ≠ 0) (hpos : 0 < hitShare dr m tp A) (ε : ℚ) (hε : 0 < ε) :
    ∃ iterations, ∀ last ≥ iterations, ∃ enough, ∀ L ≥ enough, ∀ fuel > last, ∀ u,
      1 - ε ≤ chance (List.replicate L m) (Finds A G fuel { o with comps := { o.comps with stop := Stop.maxIterations last } } u) := by
  obtain ⟨h1, h2⟩ := hitShare_range dr m tp A
  obtain ⟨N, hN⟩ := exists_pow_lt_of_lt_one hε (show 1 - hitShare dr m tp A < 1 by linarith)
  refine ⟨N, fun last hlast => ?_⟩
  obtain ⟨E, hE⟩ := C104_finds dr hm { o with comps := { o.comps with stop := Stop.maxIterations last } } h0
    ⟨hc.goal, hc.coordInit, hc.velInit, hc.velCalc, hc.postVel, hc.postMove, hc.dimension, hc.intervals, hc.loggers⟩ last rfl
  refine ⟨E, fun L hL fuel hf u => le_trans ?_ (hE L hL fuel hf u)⟩
  have : (1 - hitShare dr m tp A) ^ (n * (last + 1)) ≤ (1 - hitShare dr m tp A) ^ N := by
    refine pow_le_pow_of_le_one (by linarith) (by linarith) ?_
    calc N ≤ last := hlast
      _ ≤ 1 * (last + 1) := by omega
      _ ≤ n * (last + 1) := Nat.mul_le_mul_right _ (Nat.pos_of_ne_zero hn)
  linarith

/-- C104: how long it takes. The sum, over all numbers of iterations, of the chances that the swarm has not found the region by then, that is the mean
number of iterations that it needs, is at most `(1 - c) ^ n / (1 - (1 - c) ^ n)`. -/
theorem C104_mean_time (dr : Draws) (hm : 0 < m) (o : Opt (List Nat × τ) (Fl f)) (h0 : o.swarm = Swarm.empty)
    (hc : Teleporting dr d n m K tp A G o.comps) (hn : n ≠ 0) (hpos : 0 < hitShare dr m tp A) (u : τ) (horizon : Nat) :
    ∃ enough, ∀ L ≥ enough, ∑ last ∈ Finset.range horizon,
      (1 - chance (List.replicate L m) (Finds A G (last + 1) { o with comps := { o.comps with stop := Stop.maxIterations last } } u)) ≤
      (1 - hitShare dr m tp A) ^ n / (1 - (1 - hitShare dr m tp A) ^ n) := by
  obtain ⟨h1, h2⟩ := hitShare_range dr m tp A
  have h3 : ∀ last, ∃ enough, ∀ L ≥ enough, ∀ fuel > last, ∀ u, 1 - (1 - hitShare dr m tp A) ^ (n * (last + 1)) ≤
      chance (List.replicate L m) (Finds A G fuel { o with comps := { o.comps with stop := Stop.maxIterations last } } u) := fun last =>
    C104_finds dr hm { o with comps := { o.comps with stop := Stop.maxIterations last } } h0
      ⟨hc.goal, hc.coordInit, hc.velInit, hc.velCalc, hc.postVel, hc.postMove, hc.dimension, hc.intervals, hc.loggers⟩ last rfl
  choose E hE using h3
  generalize hr : (1 - hitShare dr m tp A) ^ n = r at *
  have hr0 : 0 ≤ r := hr ▸ pow_nonneg (by linarith) n
  have hr1 : r < 1 := hr ▸ pow_lt_one₀ (by linarith) (by linarith) hn
  refine ⟨(Finset.range horizon).sup E, fun N hN => ?_⟩
  have h4 : r * ∑ k ∈ Finset.range horizon, r ^ k ≤ r / (1 - r) := by
    rw [le_div_iff₀ (by linarith)]
    have h5 := geom_sum_mul r horizon
    have h6 := mul_nonneg hr0 (pow_nonneg hr0 horizon)
    have h7 : r * (∑ k ∈ Finset.range horizon, r ^ k) * (1 - r) = r * (-((∑ k ∈ Finset.range horizon, r ^ k) * (r - 1))) := by ring
    rw [h7, h5]
    linarith
  refine le_trans (Finset.sum_le_sum (g := fun last => r * r ^ last) fun last hl => ?_) (by rw [← Finset.mul_sum]; exact h4)
  have := hE last N (le_trans (Finset.le_sup (f := E) hl) hN) (last + 1) (by omega) u
  rw [pow_mul, hr] at this
  rw [← pow_succ']
  linarith

/-! ### The library's components -/

/-- A swarm put together from the library, with RandomTeleport; after it only MoveToBoundary hooks for boxes that contain the region `A`. The goal
and the loggers are the user's. -/
structure LibTeleporting (dr : Draws) (d n m K : Nat) (tp : Hooks.Teleport f) (A : List (Fl f) → Prop) (G : List (Fl f) → F64 → Prop)
    (c : Comps (List Nat × τ) (Fl f)) : Prop where
  coordInit : LibInit (dr.beside τ) d n c.coordInit
  velInit : LibInit (dr.beside τ) d n c.velInit
  velCalc : LibCalc (dr.beside τ) c.velCalc
  postVel : ∀ h ∈ c.postVel, LibPostVel d h
  postMove : ∃ before after, c.postMove = before ++ Hooks.teleport (dr.beside τ) tp :: after ∧ (∀ h ∈ before, LibPostMove (dr.beside τ) d h) ∧
    ∀ h ∈ after, ∃ ivs : List (Fl f × Fl f), h = Hooks.moveToBoundary ivs ∧ ivs.length = d ∧
      (∀ iv ∈ ivs, (iv.1.le iv.2 && iv.1.isFinite && iv.2.isFinite) = true) ∧ ∀ x, A x → InBox ivs x
  teleport : ∃ (ivs : List (Fl f × Fl f)) (p : F32), ivs.length = d ∧ Hooks.Teleport.new ivs p () = .ok (tp, ())
  goal : ∀ x, x.length = d → Reads m K (c.goal x) (G x)
  loggers : ∀ l ∈ c.loggers, ∀ s, Reads m K (l.start s) (fun _ => True) ∧ Reads m K (l.resume s) (fun _ => True) ∧
    Reads m K (l.nextIteration s) (fun _ => True) ∧ Reads m K (l.finish s) (fun _ => True)

/-- C104: the library's components draw boundedly many random numbers and do not panic, so the theorems above are about them. -/
theorem C104_library (dr : Draws) (hf : Fmt.Embeds f Fmt.f64) (c : Comps (List Nat × τ) (Fl f)) (h : LibTeleporting dr d n m K tp A G c) :
    Teleporting dr d n m (K + d * n + 6 * d + 1) tp A G c where
  goal x hx := Reads.mono (h.goal x hx) (by omega) fun _ => id
  coordInit := Reads.mono (reads_init dr hf h.coordInit) (by omega) fun _ => id
  velInit := Reads.mono (reads_init dr hf h.velInit) (by omega) fun _ => id
  velCalc s hs p hp := Reads.mono (reads_calc dr h.velCalc s hs p hp) (by omega) fun _ => id
  postVel k hk x hx := Reads.mono (reads_postVel (h.postVel k hk) x hx) (by omega) fun _ => id
  postMove := by
    obtain ⟨before, after, e, h1, h2⟩ := h.postMove
    refine ⟨before, after, e, fun k hk x hx => Reads.mono (reads_postMove dr (h1 k hk) x hx) (by omega) fun _ => id, fun k hk x hx => ?_⟩
    obtain ⟨ivs, rfl, h3, h4, h5⟩ := h2 k hk
    refine Reads.mono (reads_boundary h3 x hx) (by omega) fun y hy => ⟨hy.1, fun hA => ?_⟩
    rw [hy.2, clamp_inBox h4 (h5 x hA)]
    exact hA
  dimension := by
    obtain ⟨ivs, p, h1, h2⟩ := h.teleport
    rw [(teleport_intervals h2).1, h1]
  intervals := by
    obtain ⟨ivs, p, h1, h2⟩ := h.teleport
    exact (teleport_intervals h2).2
  loggers l hl s := by
    obtain ⟨h1, h2, h3, h4⟩ := h.loggers l hl s
    exact ⟨Reads.mono h1 (by omega) fun _ => id, Reads.mono h2 (by omega) fun _ => id, Reads.mono h3 (by omega) fun _ => id,
      Reads.mono h4 (by omega) fun _ => id⟩

/-- C104: the chance to hit a box-like region is the product of the chances of the coordinates. -/
theorem C104_region (dr : Draws) (hm : 0 < m) : ∀ (ivs : List (Fl f × Fl f)) (conds : List (Fl f → Prop)), conds.length = ivs.length →
    regionShare dr m ivs (List.Forall₂ (fun P x => P x) conds) =
      (List.zipWith (fun P iv => share m fun k => P (dr.closedVal iv.1 iv.2 k)) conds ivs).prod
  | [], [], _ => by
    unfold regionShare
    rw [List.length_nil, List.replicate_zero]
    have e : pointOf dr ([] : List (Fl f × Fl f)) [] = [] := rfl
    classical
    rw [chance_eq, cnt_nil, e]
    simp
  | iv :: ivs, P :: conds, h => by
    classical
    rw [List.zipWith_cons_cons, List.prod_cons, ← C104_region dr hm ivs conds (by simpa using h)]
    unfold regionShare share
    rw [← chance_append [m] (List.replicate ivs.length m)]
    refine chance_congr fun t ht => ?_
    rw [List.length_cons, List.replicate_succ] at ht
    cases ht with
    | @cons k _ t _ hk ht =>
      show List.Forall₂ (fun P x => P x) (P :: conds) (dr.closedVal iv.1 iv.2 k :: pointOf dr ivs t) ↔ _
      rw [List.forall₂_cons]
      exact Iff.rfl

/-! ### Concrete runs -/

/-- The interval from 0 to 1 and a probability of 1/2 -/
def demoTeleport : Hooks.Teleport Fmt.f64 := ⟨[(Fl.zero, Fl.one)], Fl.ofRat false 1 2⟩

/-- Three particles on the paraboloid in one dimension, with RandomTeleport and then MoveToBoundary -/
def demoFinds (last : Nat) : Opt (List Nat × Unit) F64 :=
  let R := halves.beside Unit
  let o := PSO.new (fun x => pure (TestFunc.paraboloid x)) (Stop.maxIterations last) (Creation.randomInit R [(Fl.zero, Fl.one)] 3)
    (Creation.zeroInit 1 3) (Velocity.classic R Fl.one Fl.one)
  { o with comps := { o.comps with
      loggers := [Logging.silent]
      postVel := [Hooks.maxVelocityDimensions [Fl.one]]
      postMove := [Hooks.teleport R demoTeleport, Hooks.moveToBoundary [(Fl.zero, Fl.one)]] } }

/-- They meet the conditions, for the region that consists of the point 1/2, where the paraboloid is 1/4. -/
theorem demoFinds_lib (last : Nat) : LibTeleporting halves 1 3 2 0 demoTeleport (List.Forall₂ (fun P x => P x) [fun x => x = Fl.ofRat false 1 2])
    (fun x v => v = TestFunc.paraboloid x) (demoFinds last).comps where
  coordInit := .random [(Fl.zero, Fl.one)] rfl (by
    intro iv hiv
    simp only [List.mem_singleton] at hiv
    subst hiv
    decide +kernel)
  velInit := .zero
  velCalc := .classic _ _
  postVel := by
    intro h hh
    obtain rfl : h = Hooks.maxVelocityDimensions [Fl.one] := by simpa [demoFinds, PSO.new] using hh
    exact .dimensions _ rfl
  postMove := ⟨[], [Hooks.moveToBoundary [(Fl.zero, Fl.one)]], rfl, by simp, by
    intro h hh
    rw [List.mem_singleton] at hh
    refine ⟨_, hh, rfl, by decide +kernel, ?_⟩
    intro x hx
    cases hx with
    | cons h1 h2 =>
      cases h2
      rw [h1]
      exact .cons (by unfold InInterval; decide +kernel) .nil⟩
  teleport := ⟨[(Fl.zero, Fl.one)], Fl.ofRat false 1 2, rfl, by
    have h : (Hooks.Teleport.new [((Fl.zero : F64), Fl.one)] (Fl.ofRat false 1 2) ()).isOk = true := by decide +kernel
    unfold Hooks.Teleport.new at h ⊢
    rfl⟩
  goal x _ := Finds.Reads.pure rfl
  loggers := by
    intro l hl s
    obtain rfl : l = Logging.silent := by simpa [demoFinds, PSO.new] using hl
    exact ⟨Finds.Reads.pure trivial, Finds.Reads.pure trivial, Finds.Reads.pure trivial, Finds.Reads.pure trivial⟩

theorem demoFinds_share : hitShare halves 2 demoTeleport (List.Forall₂ (fun P x => P x) [fun x => x = Fl.ofRat false 1 2]) = 1 / 4 := by
  classical
  unfold hitShare
  rw [C104_region halves (by norm_num) demoTeleport.intervals _ rfl]
  have h1 : ∀ k, (halves.openVal (Fl.zero : F32) Fl.one k).lt demoTeleport.probability = true ↔ k % 2 = 0 := by
    intro k
    rcases Nat.mod_two_eq_zero_or_one k with h | h
    · have : halves.openVal (Fl.zero : F32) Fl.one k = halves.openVal (Fl.zero : F32) Fl.one 0 := by simp [halves, h]
      rw [this, h]
      exact ⟨fun _ => rfl, fun _ => by decide +kernel⟩
    · have : halves.openVal (Fl.zero : F32) Fl.one k = halves.openVal (Fl.zero : F32) Fl.one 1 := by simp [halves, h]
      rw [this, h]
      exact ⟨fun h => absurd h (by decide +kernel), fun h => by omega⟩
  have h2 : ∀ k, halves.closedVal (Fl.zero : F64) Fl.one k = Fl.ofRat false 1 2 ↔ k % 2 = 1 := by
    intro k
    rcases Nat.mod_two_eq_zero_or_one k with h | h
    · have : halves.closedVal (Fl.zero : F64) Fl.one k = halves.closedVal (Fl.zero : F64) Fl.one 0 := by simp [halves, h]
      rw [this, h]
      exact ⟨fun h => absurd h (by decide +kernel), fun h => by omega⟩
    · have : halves.closedVal (Fl.zero : F64) Fl.one k = halves.closedVal (Fl.zero : F64) Fl.one 1 := by simp [halves, h]
      rw [this, h]
      exact ⟨fun _ => rfl, fun _ => by decide +kernel⟩
  have h3 : share 2 (fun k => k % 2 = 0) = 1 / 2 := by
    rw [share_eq]
    rw [show (Finset.range 2).filter (fun k => k % 2 = 0) = {0} by decide]
    norm_num
  have h4 : share 2 (fun k => k % 2 = 1) = 1 / 2 := by
    rw [share_eq]
    rw [show (Finset.range 2).filter (fun k => k % 2 = 1) = {1} by decide]
    norm_num
  simp only [h1]
  simp only [demoTeleport, List.zipWith_cons_cons, List.zipWith_nil_left, List.prod_cons, List.prod_nil, mul_one, h2, h3, h4]
  norm_num

/-- After two iterations a value of at most 1/4 has been found with a chance of at least `1 - (3/4)^9`, more than 92 percent, whatever the
initial swarm and the velocities are; in the long run it is found almost certainly. -/
theorem C104_example :
    (∃ enough, ∀ L ≥ enough, ∀ fuel > 2, 92 / 100 < chance (List.replicate L 2) (FindsBelow (Fl.ofRat false 1 4) fuel (demoFinds 2) ())) ∧
    ∀ ε : ℚ, 0 < ε → ∃ iterations, ∀ last ≥ iterations, ∃ enough, ∀ L ≥ enough, ∀ fuel > last,
      1 - ε ≤ chance (List.replicate L 2) (FindsBelow (Fl.ofRat false 1 4) fuel (demoFinds last) ()) := by
  have hb : ∀ (x : List F64) (v : F64), List.Forall₂ (fun P x => P x) [fun x => x = Fl.ofRat false 1 2] x → v = TestFunc.paraboloid x →
      v.isFinite = true ∧ v.le (Fl.ofRat false 1 4) = true := by
    rintro x v hx rfl
    cases hx with
    | cons h1 h2 =>
      cases h2
      rw [h1]
      decide +kernel
  constructor
  · obtain ⟨E, h⟩ := C104_below halves (by norm_num) (demoFinds 2) rfl (C104_library halves (Fmt.embeds_refl _) _ (demoFinds_lib 2)) 2 rfl (Fl.ofRat false 1 4) hb
    refine ⟨E, fun L hL fuel hf => lt_of_lt_of_le ?_ (h L hL fuel hf ())⟩
    rw [demoFinds_share]
    norm_num
  · intro ε hε
    obtain ⟨I, h⟩ := C104_limit halves (by norm_num) (demoFinds 0) rfl (C104_library halves (Fmt.embeds_refl _) _ (demoFinds_lib 0)) (by norm_num)
      (by rw [demoFinds_share]; norm_num) ε hε
    refine ⟨I, fun last hl => ?_⟩
    obtain ⟨E, h⟩ := h last hl
    exact ⟨E, fun L hL fuel hf => (h L hL fuel hf ()).trans (Finds.chance_mono fun t ht => finds_below hb ht)⟩

/-- The swarm above needs less than one iteration after the initialization on average, namely at most 27/37. -/
example (horizon : Nat) : ∃ enough, ∀ L ≥ enough, ∑ last ∈ Finset.range horizon, (1 - chance (List.replicate L 2)
    (Finds (List.Forall₂ (fun P x => P x) [fun x => x = Fl.ofRat false 1 2]) (fun x v => v = TestFunc.paraboloid x) (last + 1) (demoFinds last) ())) ≤ 27 / 37 := by
  obtain ⟨E, h⟩ := C104_mean_time halves (by norm_num) (demoFinds 0) rfl (C104_library halves (Fmt.embeds_refl _) _ (demoFinds_lib 0)) (by norm_num)
    (by rw [demoFinds_share]; norm_num) () horizon
  refine ⟨E, fun L hL => (h L hL).trans ?_⟩
  rw [demoFinds_share]
  norm_num

end Verif.Props.Swarm
