import Verif.Spec.Settle
import Verif.Proofs.Drift
import Verif.Proofs.Dynamics
import Verif.Proofs.Shape

/-!
# The mean path of a particle
-/

namespace Verif.Spec

open Verif PSO

theorem realMean_append (ns ms : List Nat) (F : List Nat → List Nat → ℝ) :
    realMean (ns ++ ms) (fun t => F (t.take ns.length) (t.drop ns.length)) = realMean ns (fun a => realMean ms (F a)) := by
  induction ns generalizing F with
  | nil => simp only [List.nil_append, List.length_nil, List.take_zero, List.drop_zero, realMean_nil]
  | cons n ns ih =>
    rw [List.cons_append, realMean_cons, realMean_cons]
    congr 1
    refine Finset.sum_congr rfl fun d _ => ?_
    simp only [List.length_cons, List.take_succ_cons, List.drop_succ_cons]
    exact ih (fun a => F (d :: a))

theorem realMean_affine {ns : List Nat} (hp : 0 < ns.prod) (a b : ℝ) (V : List Nat → ℝ) :
    realMean ns (fun t => a * V t + b) = a * realMean ns V + b := by
  have hb := realMean_const hp b
  unfold realMean at *
  rw [List.sum_map_add, add_div, hb, List.sum_map_mul_left, mul_div_assoc]

/-- One move of a point: `v' = w v - phi (x - c)`, `x' = x + v'` -/
noncomputable def turn (w phi c : ℝ) (y : ℝ × ℝ) : ℝ × ℝ := (y.1 + (w * y.2 - phi * (y.1 - c)), w * y.2 - phi * (y.1 - c))

theorem turn_orbit (w phi c : ℝ) (y : ℝ × ℝ) :
    Dynamics.Orbit w phi c (fun t => ((turn w phi c)^[t] y).1) (fun t => ((turn w phi c)^[t] y).2) := by
  constructor <;> intro t <;> simp only [Function.iterate_succ_apply'] <;> rfl

theorem turn_affine (w phi c : ℝ) (t : Nat) : ∃ a b e : ℝ, ∀ x v, ((turn w phi c)^[t] (x, v)).1 = a * x + b * v + e := by
  induction t with
  | zero => exact ⟨1, 0, 0, fun x v => by simp⟩
  | succ t ih =>
    obtain ⟨a, b, e, h⟩ := ih
    refine ⟨a * (1 - phi) - b * phi, a * w + b * w, a * phi * c + b * phi * c + e, fun x v => ?_⟩
    rw [Function.iterate_succ_apply]
    show ((turn w phi c)^[t] (x + (w * v - phi * (x - c)), w * v - phi * (x - c))).1 = _
    rw [h]
    ring

theorem compareFloats_self (x : F64) : compareFloats x x = .eq := by
  unfold compareFloats
  have h : x.lt x = false := by
    by_contra hc
    rw [Bool.not_eq_false] at hc
    exact lt_irrefl _ (Fl.lt_iff.1 hc).2.2
  cases hx : x.isFinite <;> simp [hx, h]

/-- The particle has `d` coordinates, as many components of velocity, the best point `B`, and has seen only the value `c`. -/
structure Plain (d : Nat) (B : List ℝ) (c : F64) (p : Particle ℝ) : Prop where
  coords : p.coordinates.length = d
  vel : p.velocity.length = d
  best : p.bestCoords = B
  bestValue : p.bestValue = c
  worstValue : p.worstValue = c

theorem Plain.move {d : Nat} {B : List ℝ} {c : F64} {p : Particle ℝ} (h : Plain d B c p) {v : List ℝ} (hv : v.length = d) :
    Plain d B c ((p.setVelocity v).moveTo (List.zipWith (· + ·) p.coordinates v) c) ∧
    ((p.setVelocity v).moveTo (List.zipWith (· + ·) p.coordinates v) c).velocity = v ∧
    ((p.setVelocity v).moveTo (List.zipWith (· + ·) p.coordinates v) c).coordinates = List.zipWith (· + ·) p.coordinates v := by
  have e : (p.setVelocity v).moveTo (List.zipWith (· + ·) p.coordinates v) c =
      { p with velocity := v, coordinates := List.zipWith (· + ·) p.coordinates v, value := c } := by
    unfold Particle.moveTo Particle.setVelocity
    simp [h.bestValue, h.worstValue, compareFloats_self]
  rw [e]
  exact ⟨⟨by simp [h.coords, hv], hv, h.best, h.bestValue, h.worstValue⟩, rfl, rfl⟩

theorem getD_zipWith_add {l r : List ℝ} {j : Nat} (h1 : j < l.length) (h2 : j < r.length) :
    (List.zipWith (· + ·) l r).getD j 0 = l.getD j 0 + r.getD j 0 := by
  simp [List.getD_eq_getElem?_getD, List.getElem?_zipWith, h1, h2]

/-- The operation takes just the draws `ns`, whatever they are, and its result is `v draws`. -/
def UsesW {T α : Type} (m : M (World (List Nat) T) α) (ns : List Nat) (v : List Nat → α) : Prop :=
  ∀ ds rest tr, List.Forall₂ (· < ·) ds ns → ∃ tr', m ⟨ds ++ rest, tr⟩ = .ok (v ds, ⟨rest, tr'⟩)

theorem UsesW.bind {T α β : Type} {m : M (World (List Nat) T) α} {ns ms : List Nat} {v : List Nat → α} (h : UsesW m ns v)
    {k : α → M (World (List Nat) T) β} {u : List Nat → List Nat → β} (hk : ∀ ds, UsesW (k (v ds)) ms (u ds)) :
    UsesW (m >>= k) (ns ++ ms) (fun t => u (t.take ns.length) (t.drop ns.length)) := by
  intro ds rest tr hd
  obtain ⟨h1, h2⟩ := forall₂_split hd
  obtain ⟨tr1, e1⟩ := h _ (ds.drop ns.length ++ rest) tr h1
  rw [← List.append_assoc, List.take_append_drop] at e1
  obtain ⟨tr2, e2⟩ := hk (ds.take ns.length) _ rest tr1 h2
  exact ⟨tr2, M.bind_eq_ok.2 ⟨_, _, e1, e2⟩⟩

theorem UsesW.pure {T α : Type} (a : α) : UsesW (pure a : M (World (List Nat) T) α) [] (fun _ => a) := by
  intro ds rest tr hd
  cases hd
  exact ⟨tr, rfl⟩

theorem UsesW.lift {T α : Type} {m : M (List Nat) α} {ns : List Nat} {v : List Nat → α} (h : Uses m ns v) :
    UsesW (World.lift m : M (World (List Nat) T) α) ns v := by
  intro ds rest tr hd
  exact ⟨tr, World.lift_eq_ok.2 ⟨h ds rest hd, rfl⟩⟩

/-- An operation that takes no draws first -/
theorem UsesW.after {T α β : Type} {m : M (World (List Nat) T) α} {a : α} (h : UsesW m [] (fun _ => a))
    {k : α → M (World (List Nat) T) β} {ns : List Nat} {v : List Nat → β} (hk : UsesW (k a) ns v) : UsesW (m >>= k) ns v := by
  have := h.bind (k := k) (u := fun _ => v) (fun _ => hk)
  exact this

/-- An operation that takes no draws afterwards -/
theorem UsesW.then {T α β : Type} {m : M (World (List Nat) T) α} {ns : List Nat} {v : List Nat → α} (h : UsesW m ns v)
    {k : α → M (World (List Nat) T) β} {f : α → β} (hk : ∀ a, UsesW (k a) [] (fun _ => f a)) : UsesW (m >>= k) ns (fun t => f (v t)) := by
  intro ds rest tr hd
  obtain ⟨tr1, e1⟩ := h ds rest tr hd
  obtain ⟨tr2, e2⟩ := hk (v ds) [] rest tr1 .nil
  exact ⟨tr2, M.bind_eq_ok.2 ⟨_, _, e1, e2⟩⟩

theorem UsesW.emit {T : Type} (e : Ev T) : UsesW (World.emit e : M (World (List Nat) T) Unit) [] (fun _ => ()) := by
  intro ds rest tr hd
  cases hd
  exact ⟨_, rfl⟩

/-! ### The swarm -/

/-- All particles are plain with the best points `B 0, B 1, …`, the best particle of the swarm is `g`, the value is `c` everywhere. -/
structure Level (N d : Nat) (B : Nat → List ℝ) (c : F64) (g : Particle ℝ) (it : Nat) (s : Swarm ℝ) : Prop where
  size : s.particles.length = N
  plain : ∀ k p, s.particles[k]? = some p → Plain d (B k) c p ∧ p.value = c
  best : s.best = some g
  bestValue : g.value = c
  worst : ∃ h, s.worst = some h ∧ h.value = c
  iteration : s.iteration = it

/-- Coordinate `j` of particle `k` -/
noncomputable def posOf (s : Swarm ℝ) (k j : Nat) : ℝ := ((s.particles[k]?).map fun p => p.coordinates.getD j 0).getD 0
/-- Component `j` of the velocity of particle `k` -/
noncomputable def velOf (s : Swarm ℝ) (k j : Nat) : ℝ := ((s.particles[k]?).map fun p => p.velocity.getD j 0).getD 0

/-- On average the calculator turns the velocity as a pull to the point `tgt`. -/
def Pulls (vc : Swarm ℝ → Particle ℝ → M (List Nat) (List ℝ)) (ns : List Nat) (N d : Nat) (B : Nat → List ℝ) (c : F64) (g : Particle ℝ)
    (w phi : ℝ) (tgt : Nat → Nat → ℝ) : Prop :=
  ∀ s k p, k < N → s.best = some g → Plain d (B k) c p → ∃ V, Uses (vc s p) ns V ∧ (∀ t, (V t).length = d) ∧
    ∀ j < d, realMean ns (fun t => (V t).getD j 0) = w * p.velocity.getD j 0 - phi * (p.coordinates.getD j 0 - tgt k j)

section

variable {vc : Swarm ℝ → Particle ℝ → M (List Nat) (List ℝ)} {ns : List Nat} {N d : Nat} {B : Nat → List ℝ} {c : F64} {g : Particle ℝ}
  {w phi : ℝ} {tgt : Nat → Nat → ℝ} {cs : Comps (List Nat) ℝ}

theorem move_mean (hf : cs.goal = fun _ => pure c) (h1 : cs.postVel = []) (h2 : cs.postMove = []) (hp : Pulls cs.velCalc ns N d B c g w phi tgt)
    {it : Nat} {s : Swarm ℝ} (hs : Level N d B c g it s) {i : Nat} (hi : i < N) :
    ∃ (V : List Nat → List ℝ) (U : List Nat → Swarm ℝ), UsesW (moveParticle cs s i) ns U ∧ (∀ t, Level N d B c g it (U t)) ∧
      (∀ j < d, realMean ns (fun t => (V t).getD j 0) = w * velOf s i j - phi * (posOf s i j - tgt i j)) ∧
      (∀ t j, j < d → velOf (U t) i j = (V t).getD j 0 ∧ posOf (U t) i j = posOf s i j + (V t).getD j 0) ∧
      ∀ t k j, k ≠ i → velOf (U t) k j = velOf s k j ∧ posOf (U t) k j = posOf s k j := by
  obtain ⟨p, hpi⟩ : ∃ p, s.particles[i]? = some p := ⟨_, List.getElem?_eq_getElem (by rw [hs.size]; exact hi)⟩
  obtain ⟨hpl, hval⟩ := hs.plain i p hpi
  obtain ⟨V, hV, hl, hm⟩ := hp s i p hi hs.best hpl
  have hi' : i < s.particles.length := by rw [hs.size]; exact hi
  refine ⟨V, fun t => { s with particles := s.particles.set i ((p.setVelocity (V t)).moveTo (List.zipWith (· + ·) p.coordinates (V t)) c) },
    ?_, ?_, ?_, ?_, ?_⟩
  · unfold moveParticle
    refine UsesW.after (a := p) ?_ ?_
    · intro ds rest tr hd
      cases hd
      exact ⟨tr, M.index_eq_ok.2 ⟨hpi, rfl⟩⟩
    refine (UsesW.lift hV).then (f := fun v => { s with particles := s.particles.set i ((p.setVelocity v).moveTo (List.zipWith (· + ·) p.coordinates v) c) }) ?_
    intro v
    rw [h1, h2, hf]
    refine UsesW.after (UsesW.lift (Uses.pure v)) ?_
    refine UsesW.after (UsesW.emit _) ?_
    refine UsesW.after (UsesW.lift (Uses.pure _)) ?_
    refine UsesW.after (UsesW.emit _) ?_
    refine UsesW.after (UsesW.lift (Uses.pure c)) ?_
    refine UsesW.after (UsesW.emit _) ?_
    exact UsesW.pure _
  · intro t
    refine ⟨by simp [hs.size], ?_, hs.best, hs.bestValue, hs.worst, hs.iteration⟩
    intro k q hq
    simp only [List.getElem?_set] at hq
    split at hq
    · rename_i hk
      subst hk
      simp only [Option.some.injEq] at hq
      subst hq
      refine ⟨(hpl.move (hl t)).1, ?_⟩
      unfold Particle.moveTo Particle.setVelocity
      simp [hpl.bestValue, hpl.worstValue, compareFloats_self]
    · exact hs.plain k q hq
  · intro j hj
    rw [hm j hj]
    simp [velOf, posOf, hpi]
  · intro t j hj
    have := (hpl.move (hl t)).2
    simp only [velOf, posOf, List.getElem?_set_self hi', hpi, Option.map_some, Option.getD_some, this.1, this.2]
    exact ⟨trivial, getD_zipWith_add (by rw [hpl.coords]; exact hj) (by rw [hl]; exact hj)⟩
  · intro t k j hk
    simp only [velOf, posOf, List.getElem?_set_ne (Ne.symm hk)]
    exact ⟨trivial, trivial⟩

theorem moves_mean (hq : 0 < ns.prod) (hf : cs.goal = fun _ => pure c) (h1 : cs.postVel = []) (h2 : cs.postMove = [])
    (hp : Pulls cs.velCalc ns N d B c g w phi tgt) (it : Nat) : ∀ (l : List Nat), l.Nodup → (∀ i ∈ l, i < N) → ∀ s, Level N d B c g it s →
    ∃ U, UsesW (M.foldL (moveParticle cs) s l) (List.replicate l.length ns).flatten U ∧ (∀ t, Level N d B c g it (U t)) ∧
      0 < (List.replicate l.length ns).flatten.prod ∧
      ∀ k j, j < d → ∀ a b e : ℝ, realMean (List.replicate l.length ns).flatten (fun t => a * posOf (U t) k j + b * velOf (U t) k j + e) =
        if k ∈ l then a * (turn w phi (tgt k j) (posOf s k j, velOf s k j)).1 + b * (turn w phi (tgt k j) (posOf s k j, velOf s k j)).2 + e
        else a * posOf s k j + b * velOf s k j + e := by
  intro l
  induction l with
  | nil =>
    intro _ _ s hs
    refine ⟨fun _ => s, UsesW.pure s, fun _ => hs, by simp, ?_⟩
    intro k j _ a b e
    rw [List.length_nil, List.replicate_zero, List.flatten_nil, realMean_nil, if_neg (by simp)]
  | cons i l ih =>
    intro hnd hlt s hs
    obtain ⟨hil, hnd⟩ := List.nodup_cons.1 hnd
    obtain ⟨V, U1, hU1, hL1, hm, hown, hother⟩ := move_mean hf h1 h2 hp hs (hlt i (by simp))
    choose U hU hL hpos hmean using fun t => ih hnd (fun i hi => hlt i (by simp [hi])) (U1 t) (hL1 t)
    rw [List.length_cons, List.replicate_succ, List.flatten_cons]
    refine ⟨fun t => U (t.take ns.length) (t.drop ns.length), hU1.bind (k := fun b => M.foldL (moveParticle cs) b l) hU, fun t => hL _ _, ?_, ?_⟩
    · rw [List.prod_append]
      exact Nat.mul_pos hq (hpos [])
    · intro k j hj a b e
      rw [realMean_append ns _ (fun x y => a * posOf (U x y) k j + b * velOf (U x y) k j + e)]
      by_cases hk : k = i
      · subst hk
        rw [if_pos (by simp)]
        rw [realMean_congr (W := fun t => (a + b) * (V t).getD j 0 + (a * posOf s k j + e)) (fun t _ => by
          rw [hmean t k j hj, if_neg hil, (hown t j hj).1, (hown t j hj).2]; ring), realMean_affine hq, hm j hj]
        simp only [turn]
        ring
      · have hc : ∀ P : Prop, (k ∈ i :: l) ↔ (k ∈ l) := fun _ => by simp [hk]
        rw [realMean_congr (W := fun _ => if k ∈ l then _ else _) (fun t _ => by
          rw [hmean t k j hj, (hother t k j hk).1, (hother t k j hk).2]), realMean_const hq]
        simp only [hc True]

theorem Level.update {it : Nat} {s : Swarm ℝ} (hs : Level N d B c g it s) :
    Level N d B c g (it + 1) s.updateBest.updateWorst.nextIteration ∧
      s.updateBest.updateWorst.nextIteration.particles = s.particles := by
  have e1 : s.updateBest = s := by
    unfold Swarm.updateBest
    split
    · rfl
    · rename_i nb hnb
      obtain ⟨k, hk⟩ := List.mem_iff_getElem?.1 (findBest_mem' hnb)
      rw [hs.best]
      simp [(hs.plain k nb hk).2, hs.bestValue, compareFloats_self]
  have e2 : s.updateWorst = s := by
    unfold Swarm.updateWorst
    split
    · rfl
    · rename_i nb hnb
      obtain ⟨k, hk⟩ := List.mem_iff_getElem?.1 (findWorst_mem' hnb)
      obtain ⟨h, hh, hv⟩ := hs.worst
      rw [hh]
      simp [(hs.plain k nb hk).2, hv, compareFloats_self]
  rw [e1, e2]
  exact ⟨⟨hs.size, hs.plain, hs.best, hs.bestValue, hs.worst, congrArg (· + 1) hs.iteration⟩, rfl⟩

theorem step_mean (hq : 0 < ns.prod) (hf : cs.goal = fun _ => pure c) (h1 : cs.postVel = []) (h2 : cs.postMove = []) (h3 : cs.loggers = [])
    (hp : Pulls cs.velCalc ns N d B c g w phi tgt) {it : Nat} {s : Swarm ℝ} (hs : Level N d B c g it s) :
    ∃ U, UsesW (step cs s) (List.replicate N ns).flatten U ∧ (∀ t, Level N d B c g (it + 1) (U t)) ∧ 0 < (List.replicate N ns).flatten.prod ∧
      ∀ k j, k < N → j < d → ∀ a b e : ℝ, realMean (List.replicate N ns).flatten (fun t => a * posOf (U t) k j + b * velOf (U t) k j + e) =
        a * (turn w phi (tgt k j) (posOf s k j, velOf s k j)).1 + b * (turn w phi (tgt k j) (posOf s k j, velOf s k j)).2 + e := by
  obtain ⟨U, hU, hL, hpos, hm⟩ := moves_mean hq hf h1 h2 hp it (List.range s.particles.length) List.nodup_range
    (fun i hi => by rw [← hs.size]; exact List.mem_range.1 hi) s hs
  rw [List.length_range] at hU hpos hm
  have hU' := hU.then (k := fun s => do
    let s := s.updateBest.updateWorst.nextIteration
    World.emit (.generation (agents s) s.state.best (s.worst.map Particle.sol) s.iteration)
    callLoggers .next s.state 0 cs.loggers
    pure s) (f := fun s => s.updateBest.updateWorst.nextIteration) (fun a => by
      rw [h3]
      refine UsesW.after (UsesW.emit _) ?_
      refine UsesW.after (UsesW.pure ()) ?_
      exact UsesW.pure _)
  rw [hs.size] at hU' hpos hm
  refine ⟨fun t => (U t).updateBest.updateWorst.nextIteration, by unfold step; rw [hs.size]; exact hU', fun t => (hL t).update.1, hpos, ?_⟩
  intro k j hk hj a b e
  have := hm k j hj a b e
  rw [if_pos (List.mem_range.2 hk)] at this
  refine Eq.trans (realMean_congr fun t _ => ?_) this
  simp only [posOf, velOf, (hL t).update.2]

theorem loop_mean (hq : 0 < ns.prod) (hf : cs.goal = fun _ => pure c) (h1 : cs.postVel = []) (h2 : cs.postMove = []) (h3 : cs.loggers = [])
    {T : Nat} (h4 : cs.stop = Stop.maxIterations T) (hp : Pulls cs.velCalc ns N d B c g w phi tgt) : ∀ r fuel it, it + r = T → r < fuel →
    ∀ s, Level N d B c g it s →
    ∃ U, UsesW (loop cs fuel s) (List.replicate r (List.replicate N ns).flatten).flatten U ∧ (∀ t, Level N d B c g T (U t)) ∧
      ∀ k j, k < N → j < d → realMean (List.replicate r (List.replicate N ns).flatten).flatten (fun t => posOf (U t) k j) =
        ((turn w phi (tgt k j))^[r] (posOf s k j, velOf s k j)).1 := by
  intro r
  induction r with
  | zero =>
    intro fuel it hT hfu s hs
    obtain _ | fuel := fuel
    · omega
    obtain rfl : it = T := by omega
    refine ⟨fun _ => s, ?_, fun _ => hs, ?_⟩
    · unfold loop
      rw [h4]
      refine UsesW.after (a := true) (UsesW.lift ?_) ?_
      · have : (Stop.maxIterations it s.state : M (List Nat) Bool) = pure true := by
          unfold Stop.maxIterations
          have : s.state.iteration = it := hs.iteration
          rw [this]
          simp
        rw [this]
        exact Uses.pure _
      refine UsesW.after (UsesW.emit _) ?_
      exact UsesW.pure s
    · intro k j _ _
      rw [List.replicate_zero, List.flatten_nil, realMean_nil]
      rfl
  | succ r ih =>
    intro fuel it hT hfu s hs
    obtain _ | fuel := fuel
    · omega
    obtain ⟨U1, hU1, hL1, hpos, hm1⟩ := step_mean hq hf h1 h2 h3 hp hs
    choose U hU hL hm using fun t => ih fuel (it + 1) (by omega) (by omega) (U1 t) (hL1 t)
    rw [List.replicate_succ, List.flatten_cons]
    refine ⟨fun t => U (t.take (List.replicate N ns).flatten.length) (t.drop (List.replicate N ns).flatten.length), ?_, fun t => hL _ _, ?_⟩
    · unfold loop
      rw [h4]
      refine UsesW.after (a := false) (UsesW.lift ?_) ?_
      · have : (Stop.maxIterations T s.state : M (List Nat) Bool) = pure false := by
          unfold Stop.maxIterations
          have : s.state.iteration = it := hs.iteration
          rw [this, decide_eq_false (by omega)]
        rw [this]
        exact Uses.pure _
      refine UsesW.after (UsesW.emit _) ?_
      exact hU1.bind (k := fun s => loop cs fuel s) hU
    · intro k j hk hj
      rw [realMean_append _ _ (fun x y => posOf (U x y) k j)]
      obtain ⟨a, b, e, hab⟩ := turn_affine w phi (tgt k j) r
      rw [realMean_congr (W := fun t => a * posOf (U1 t) k j + b * velOf (U1 t) k j + e) (fun t _ => by rw [hm t k j hk hj, hab]),
        hm1 k j hk hj, Function.iterate_succ_apply]
      exact (hab _ _).symm

end

theorem UsesW.mapL {T ι β : Type} {f : ι → M (World (List Nat) T) β} {h : ι → β} (hf : ∀ a, UsesW (f a) [] (fun _ => h a)) :
    ∀ l : List ι, UsesW (M.mapL f l) [] (fun _ => l.map h) := by
  intro l
  induction l with
  | nil => exact UsesW.pure _
  | cons a l ih =>
    rw [M.mapL]
    refine UsesW.after (hf a) ?_
    refine UsesW.after ih ?_
    exact UsesW.pure _

theorem getD_below {ι : Type} {l : List ι} {k : Nat} {x : ι} (h : k < l.length) : l.getD k x = l[k] := by
  rw [List.getD_eq_getElem?_getD, List.getElem?_eq_getElem h]
  rfl

theorem minLoop_level {c : F64} : ∀ (ps : List (Particle ℝ)) (x : Particle ℝ), x.value = c → (∀ p ∈ ps, p.value = c) → minLoop x ps = x := by
  intro ps
  induction ps with
  | nil => intro x _ _; rfl
  | cons y ys ih =>
    intro x hx hy
    rw [minLoop, hx, hy y (by simp), compareFloats_self]
    exact ih x hx (fun p hp => hy p (by simp [hp]))

/-- The particle that starts at point `k` -/
noncomputable def starter (c : F64) (points velocities : List (List ℝ)) (k : Nat) : Particle ℝ :=
  Particle.new (points.getD k []) (velocities.getD k []) c

theorem renew_level {c : F64} {points velocities : List (List ℝ)} {d : Nat} (hs : Start d points velocities)
    {vc : Swarm ℝ → Particle ℝ → M (List Nat) (List ℝ)} {T : Nat} :
    ∃ s, UsesW (renewSwarm (flatSwarm c points velocities vc T).comps (flatSwarm c points velocities vc T).swarm) [] (fun _ => s) ∧
      Level points.length d (fun k => points.getD k []) c (starter c points velocities 0) 0 s ∧
      ∀ k, k < points.length → s.particles[k]? = some (starter c points velocities k) := by
  obtain ⟨ps, hps⟩ : ∃ ps, ps = (points.zip velocities).map (fun cs => Particle.new cs.1 cs.2 c) := ⟨_, rfl⟩
  have hlen : ps.length = points.length := by rw [hps]; simp [hs.both]
  have hget : ∀ k, k < points.length → ps[k]? = some (starter c points velocities k) := by
    intro k hk
    have hk' : k < velocities.length := by rw [hs.both]; exact hk
    rw [hps]
    simp [starter, List.getD_eq_getElem?_getD, hk, hk']
  have hval : ∀ k p, ps[k]? = some p → Plain d (points.getD k []) c p ∧ p.value = c := by
    intro k p hp
    have hk : k < points.length := by
      rw [← hlen]
      exact (List.getElem?_eq_some_iff.1 hp).1
    have hk' : k < velocities.length := by rw [hs.both]; exact hk
    rw [hget k hk] at hp
    simp only [Option.some.injEq] at hp
    subst hp
    have e1 : points.getD k [] ∈ points := by
      rw [getD_below hk]; exact List.getElem_mem _
    have e2 : velocities.getD k [] ∈ velocities := by
      rw [getD_below hk']; exact List.getElem_mem _
    exact ⟨⟨hs.point _ e1, hs.velocity _ e2, rfl, rfl, rfl⟩, rfl⟩
  have hmem : ∀ p ∈ ps, p.value = c := by
    intro p hp
    obtain ⟨k, hk⟩ := List.mem_iff_getElem?.1 hp
    exact (hval k p hk).2
  refine ⟨⟨ps, findBest ps, findWorst ps, 0⟩, ?_, ?_, hget⟩
  · unfold renewSwarm
    refine UsesW.after (UsesW.lift (Uses.pure points)) ?_
    refine UsesW.after (UsesW.emit _) ?_
    refine UsesW.after (UsesW.lift (Uses.pure velocities)) ?_
    refine UsesW.after (a := ()) ?_ ?_
    · rw [hs.both, beq_self_eq_true]
      exact UsesW.pure ()
    refine UsesW.after (a := points) ?_ ?_
    · have := UsesW.mapL (f := fun raw => (do
        let x ← World.lift (hooks (flatSwarm c points velocities vc T).comps.postMove raw)
        World.emit (.moved raw x)
        pure x : M (World (List Nat) (List ℝ)) (List ℝ))) (h := fun x => x) (fun raw =>
          UsesW.after (UsesW.lift (Uses.pure raw)) (UsesW.after (UsesW.emit _) (UsesW.pure _))) points
      rw [List.map_id'] at this
      exact this
    refine UsesW.after (UsesW.mapL (h := fun cs : List ℝ × List ℝ => Particle.new cs.1 cs.2 c) (fun cs =>
      UsesW.after (UsesW.lift (Uses.pure c)) (UsesW.after (a := ()) (UsesW.emit _) (UsesW.pure (Particle.new cs.1 cs.2 c)))) _) ?_
    rw [← hps]
    exact UsesW.pure _
  · refine ⟨hlen, hval, ?_, rfl, ?_, rfl⟩
    · have h0 := hget 0 (List.length_pos_iff.2 hs.some)
      cases ps with
      | nil => simp at h0
      | cons p ps =>
        simp only [List.getElem?_cons_zero, Option.some.injEq] at h0
        show findBest (p :: ps) = _
        rw [findBest, minLoop_level ps p (hmem p (by simp)) (fun q hq => hmem q (by simp [hq])), h0]
    · cases ps with
      | nil => simp at hlen; exact absurd (List.length_eq_zero_iff.1 hlen.symm) hs.some
      | cons p ps => exact ⟨_, rfl, hmem _ (findWorst_mem' rfl)⟩

/-- The mean path of a swarm over flat ground -/
theorem find_mean {vc : Swarm ℝ → Particle ℝ → M (List Nat) (List ℝ)} {m k d : Nat} (hm : 0 < m) {c : F64}
    {points velocities : List (List ℝ)} (hs : Start d points velocities) {w phi : ℝ} {tgt : Nat → Nat → ℝ}
    (hp : Pulls vc (List.replicate k m) points.length d (fun k => points.getD k []) c (starter c points velocities 0) w phi tgt) :
    MeanPath m (points.length * k) d c points velocities vc
      (fun t n j => ((turn w phi (tgt n j))^[t] (entry points n j, entry velocities n j)).1) := by
  intro T fuel n hT hn
  have hq : 0 < (List.replicate k m).prod := by rw [List.prod_replicate]; exact Nat.pow_pos hm
  obtain ⟨s, h1, hL, hget⟩ := renew_level (c := c) (vc := vc) (T := T) hs
  obtain ⟨U, hU, hUL, hUm⟩ := loop_mean (cs := (flatSwarm c points velocities vc T).comps) hq rfl rfl rfl rfl (T := T) rfl hp T fuel 0
    (by omega) hT s hL
  rw [List.flatten_replicate_replicate, List.flatten_replicate_replicate] at hU hUm
  have hfin : UsesW (findMin fuel (flatSwarm c points velocities vc T)) (List.replicate (T * (points.length * k)) m)
      (fun t => ((U t).best.map Particle.sol, ⟨(flatSwarm c points velocities vc T).comps, U t⟩)) := by
    unfold findMin
    refine UsesW.after h1 ?_
    refine UsesW.after (UsesW.pure ()) ?_
    unfold nextIterations
    refine UsesW.after (UsesW.pure ()) ?_
    refine hU.then (f := fun s => (s.best.map Particle.sol, (⟨(flatSwarm c points velocities vc T).comps, s⟩ : Opt (List Nat) ℝ))) ?_
    intro a
    refine UsesW.after (UsesW.pure ()) ?_
    obtain ⟨ps, b, wst, it⟩ := a
    cases b <;> exact UsesW.pure _
  refine ⟨fun t => ((U t).particles.getD n (starter c points velocities 0)).coordinates, ?_, ?_⟩
  · intro draws hd
    obtain ⟨tr, e⟩ := hfin draws [] [] (mem_tapes.1 hd)
    rw [List.append_nil] at e
    have hlt : n < (U draws).particles.length := by rw [(hUL draws).size]; exact hn
    have e2 := List.getElem?_eq_getElem hlt
    refine ⟨_, _, _, _, e, rfl, e2, by dsimp only; rw [getD_below hlt], ?_⟩
    dsimp only
    rw [getD_below hlt, ((hUL draws).plain n _ e2).1.coords]
    simp
  · intro j x hx
    rw [List.getElem?_map, Option.map_eq_some_iff] at hx
    obtain ⟨i, hi, rfl⟩ := hx
    obtain ⟨hj, rfl⟩ := List.getElem?_eq_some_iff.1 hi
    rw [List.length_range] at hj
    simp only [List.getElem_range]
    have := hUm n j hn hj
    have e1 : posOf s n j = entry points n j ∧ velOf s n j = entry velocities n j := by
      simp only [posOf, velOf, hget n hn, Option.map_some, Option.getD_some]
      exact ⟨rfl, rfl⟩
    rw [e1.1, e1.2] at this
    rw [← this]
    refine realMean_congr fun t _ => ?_
    have hlt : n < (U t).particles.length := by rw [(hUL t).size]; exact hn
    simp only [posOf, getD_below hlt, List.getElem?_eq_getElem hlt, Option.map_some, Option.getD_some]

end Verif.Spec
