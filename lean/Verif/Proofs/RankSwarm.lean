import Verif.Proofs.RankLib

/-!
# Swarms with corresponding points, velocities and values do the same
-/

namespace Verif.RankPSO

open Verif Rank Spec.Rank
open Verif.PSO (Particle compareFloats hooks)

variable {σ α β : Type} {H K : List α → List β → Prop} {Q : F64 → F64 → Prop}

theorem compareFloats_eq (hQ : SameOrder Q) {v v' u u' : F64} (h1 : Q v v') (h2 : Q u u') :
    compareFloats v' u' = compareFloats v u := by
  unfold compareFloats
  rw [hQ.finite _ _ h1, hQ.finite _ _ h2, hQ.lt _ _ _ _ h1 h2, hQ.lt _ _ _ _ h2 h1]

theorem minLoop (hQ : SameOrder Q) {ps : List (Particle α)} {ps' : List (Particle β)} (h : List.Forall₂ (Part H K Q) ps ps') :
    ∀ {p p'}, Part H K Q p p' → Part H K Q (PSO.minLoop p ps) (PSO.minLoop p' ps') := by
  induction h with
  | nil => intro p p' h; exact h
  | cons h1 _ ih =>
    intro p p' h
    unfold PSO.minLoop
    rw [compareFloats_eq hQ h.value h1.value]
    split
    · exact ih h1
    · exact ih h

theorem maxLoop (hQ : SameOrder Q) {ps : List (Particle α)} {ps' : List (Particle β)} (h : List.Forall₂ (Part H K Q) ps ps') :
    ∀ {p p'}, Part H K Q p p' → Part H K Q (PSO.maxLoop p ps) (PSO.maxLoop p' ps') := by
  induction h with
  | nil => intro p p' h; exact h
  | cons h1 _ ih =>
    intro p p' h
    unfold PSO.maxLoop
    rw [compareFloats_eq hQ h.value h1.value]
    split
    · exact ih h
    · exact ih h1

theorem findBest (hQ : SameOrder Q) {ps : List (Particle α)} {ps' : List (Particle β)} (h : List.Forall₂ (Part H K Q) ps ps') :
    Option.Rel (Part H K Q) (PSO.findBest ps) (PSO.findBest ps') := by
  cases h with
  | nil => exact .none
  | cons h1 h2 => exact .some (minLoop hQ h2 h1)

theorem findWorst (hQ : SameOrder Q) {ps : List (Particle α)} {ps' : List (Particle β)} (h : List.Forall₂ (Part H K Q) ps ps') :
    Option.Rel (Part H K Q) (PSO.findWorst ps) (PSO.findWorst ps') := by
  cases h with
  | nil => exact .none
  | cons h1 h2 => exact .some (maxLoop hQ h2 h1)

theorem moveTo (hQ : SameOrder Q) {p : Particle α} {p' : Particle β} (h : Part H K Q p p') {x : List α} {x' : List β} (hx : H x x')
    {v v' : F64} (hv : Q v v') : Part H K Q (p.moveTo x v) (p'.moveTo x' v') := by
  unfold Particle.moveTo
  simp only [compareFloats_eq hQ hv h.bestValue]
  split
  · simp only [compareFloats_eq hQ hv h.worstValue]
    split
    · exact ⟨hx, h.velocity, hv, hx, hv, hx, hv⟩
    · exact ⟨hx, h.velocity, hv, hx, hv, h.worstCoords, h.worstValue⟩
  · simp only [compareFloats_eq hQ hv h.worstValue]
    split
    · exact ⟨hx, h.velocity, hv, h.bestCoords, h.bestValue, hx, hv⟩
    · exact ⟨hx, h.velocity, hv, h.bestCoords, h.bestValue, h.worstCoords, h.worstValue⟩

theorem updateBest (hQ : SameOrder Q) {s : PSO.Swarm α} {s' : PSO.Swarm β} (h : Swarms H K Q s s') : Swarms H K Q s.updateBest s'.updateBest := by
  obtain ⟨ps, b, w, n⟩ := s
  obtain ⟨ps', b', w', n'⟩ := s'
  obtain ⟨h1, h2, h3, h4⟩ := h
  have hf := findBest hQ h1
  unfold PSO.Swarm.updateBest
  dsimp only at hf h2 ⊢
  generalize PSO.findBest ps = x at hf
  generalize PSO.findBest ps' = x' at hf
  cases hf with
  | none => exact ⟨h1, h2, h3, h4⟩
  | some hx =>
    cases h2 with
    | none => exact ⟨h1, .some hx, h3, h4⟩
    | some hb =>
      simp only [compareFloats_eq hQ hx.value hb.value]
      split
      · exact ⟨h1, .some hx, h3, h4⟩
      · exact ⟨h1, .some hb, h3, h4⟩

theorem updateWorst (hQ : SameOrder Q) {s : PSO.Swarm α} {s' : PSO.Swarm β} (h : Swarms H K Q s s') : Swarms H K Q s.updateWorst s'.updateWorst := by
  obtain ⟨ps, b, w, n⟩ := s
  obtain ⟨ps', b', w', n'⟩ := s'
  obtain ⟨h1, h2, h3, h4⟩ := h
  have hf := findWorst hQ h1
  unfold PSO.Swarm.updateWorst
  dsimp only at hf h3 ⊢
  generalize PSO.findWorst ps = x at hf
  generalize PSO.findWorst ps' = x' at hf
  cases hf with
  | none => exact ⟨h1, h2, h3, h4⟩
  | some hx =>
    cases h3 with
    | none => exact ⟨h1, h2, .some hx, h4⟩
    | some hb =>
      simp only [compareFloats_eq hQ hx.value hb.value]
      split
      · exact ⟨h1, h2, .some hx, h4⟩
      · exact ⟨h1, h2, .some hb, h4⟩

theorem sol {p : Particle α} {p' : Particle β} (h : Part H K Q p p') : Sol H Q p.sol p'.sol := ⟨h.coordinates, h.value⟩

theorem state {s : PSO.Swarm α} {s' : PSO.Swarm β} (h : Swarms H K Q s s') : State H Q s.state s'.state :=
  ⟨rel_map (fun _ _ h => sol h) h.best, h.iteration⟩

theorem agents {s : PSO.Swarm α} {s' : PSO.Swarm β} (h : Swarms H K Q s s') : List.Forall₂ (Sol H Q) (PSO.agents s) (PSO.agents s') :=
  forall₂_map (fun _ _ h => sol h) h.particles

section

variable {c : PSO.Comps σ α} {c' : PSO.Comps σ β}

theorem zip {xs : List (List α)} {xs' : List (List β)} (h : List.Forall₂ H xs xs') :
    ∀ {vs : List (List α)} {vs' : List (List β)}, List.Forall₂ K vs vs' →
      List.Forall₂ (fun a b => H a.1 b.1 ∧ K a.2 b.2) (xs.zip vs) (xs'.zip vs') := by
  induction h with
  | nil => intro vs vs' _; exact .nil
  | cons h1 _ ih =>
    intro vs vs' hv
    cases hv with
    | nil => exact .nil
    | cons h2 h3 => exact .cons ⟨h1, h2⟩ (ih h3)

theorem renewSwarm (hQ : SameOrder Q) (hc : Spec.Rank.Swarm H K Q c c') (s : PSO.Swarm α) (s' : PSO.Swarm β) :
    Alike (WorldsV H Q K) (Swarms H K Q) (PSO.renewSwarm c s) (PSO.renewSwarm c' s') := by
  refine bind (lift hc.coordInit) fun xs xs' hx => bind (emit (.created hx)) fun _ _ _ => bind (lift hc.velInit) fun vs vs' hv => ?_
  rw [hx.length_eq, hv.length_eq]
  refine bind (assert _) fun _ _ _ => bind (Q := List.Forall₂ H) (mapL ?_ hx) fun ys ys' hy => ?_
  · intro raw raw' hr
    exact bind (lift (hc.postMove raw raw' hr)) fun _ _ h => bind (emit (.moved hr h)) fun _ _ _ => pure h
  · refine bind (Q := List.Forall₂ (Part H K Q)) (mapL ?_ (zip hy hv)) fun ps ps' hp => pure ?_
    · intro cs cs' h
      exact bind (lift (hc.goal _ _ h.1)) fun v v' hv => bind (emit (.goal h.1 hv)) fun _ _ _ =>
        pure ⟨h.1, h.2, hv, h.1, hv, h.1, hv⟩
    · exact ⟨hp, findBest hQ hp, findWorst hQ hp, rfl⟩

theorem moveParticle [FloatT α] [FloatT β] (hM : Moves H K) (hQ : SameOrder Q) (hc : Spec.Rank.Swarm H K Q c c') {s : PSO.Swarm α}
    {s' : PSO.Swarm β} (hs : Swarms H K Q s s') (n : Nat) :
    Alike (WorldsV H Q K) (Swarms H K Q) (PSO.moveParticle c s n) (PSO.moveParticle c' s' n) := by
  refine bind (index hs.particles n) fun p p' hp => bind (lift (hc.velCalc _ _ _ _ hs hp)) fun raw raw' hr =>
    bind (lift (hc.postVel _ _ hr)) fun v v' hv => bind (emit (.velocity hr hv)) fun _ _ _ => ?_
  have hy : H (List.zipWith FloatT.add (p.setVelocity v).coordinates (p.setVelocity v).velocity)
      (List.zipWith FloatT.add (p'.setVelocity v').coordinates (p'.setVelocity v').velocity) := hM _ _ _ _ hp.coordinates hv
  refine bind (lift (hc.postMove _ _ hy)) fun x x' hx => bind (emit (.moved hy hx)) fun _ _ _ => bind (lift (hc.goal _ _ hx)) fun y y' hy =>
    bind (emit (.goal hx hy)) fun _ _ _ => pure ⟨?_, hs.best, hs.worst, hs.iteration⟩
  exact forall₂_set hs.particles n (moveTo hQ (p := p.setVelocity v) (p' := p'.setVelocity v')
      ⟨hp.coordinates, hv, hp.value, hp.bestCoords, hp.bestValue, hp.worstCoords, hp.worstValue⟩ hx hy)

theorem step [FloatT α] [FloatT β] (hM : Moves H K) (hQ : SameOrder Q) (hc : Spec.Rank.Swarm H K Q c c') {s : PSO.Swarm α} {s' : PSO.Swarm β} (hs : Swarms H K Q s s') :
    Alike (WorldsV H Q K) (Swarms H K Q) (PSO.step c s) (PSO.step c' s') := by
  unfold PSO.step
  rw [hs.particles.length_eq]
  refine bind (Q := Swarms H K Q) (foldL (Q := Eq) (Q' := Swarms H K Q) ?_ (forall₂_eq _) hs) fun t t' ht => ?_
  · rintro s s' n _ hs rfl
    exact moveParticle hM hQ hc hs n
  · have h2 := updateWorst hQ (updateBest hQ ht)
    have h3 : Swarms H K Q t.updateBest.updateWorst.nextIteration t'.updateBest.updateWorst.nextIteration :=
      ⟨h2.particles, h2.best, h2.worst, congrArg (· + 1) h2.iteration⟩
    refine bind (Q := fun _ _ => True) ?_ fun _ _ _ => bind (Rank.callLoggers .next (state h3) hc.loggers 0) fun _ _ _ => pure h3
    rw [← h3.iteration]
    exact emit (.generation _ (agents h3) (state h3).1 (rel_map (fun _ _ h => sol h) h3.worst))

theorem loop [FloatT α] [FloatT β] (hM : Moves H K) (hQ : SameOrder Q) (hc : Spec.Rank.Swarm H K Q c c') : ∀ (fuel : Nat) {s : PSO.Swarm α} {s' : PSO.Swarm β}, Swarms H K Q s s' →
    Alike (WorldsV H Q K) (Swarms H K Q) (PSO.loop c fuel s) (PSO.loop c' fuel s') := by
  intro fuel
  induction fuel with
  | zero => intro s s' _; exact fail _
  | succ n ih =>
    intro s s' hs
    refine bind (Q := Eq) (lift_eq (hc.stop _ _ (state hs))) ?_
    rintro b _ rfl
    refine bind (emit (.check b (state hs))) fun _ _ _ => ?_
    cases b
    · exact bind (step hM hQ hc hs) fun _ _ h => ih h
    · exact pure hs

end

/-- A result and the optimizer afterwards -/
def After (H K : List α → List β → Prop) (Q : F64 → F64 → Prop) (r : Option (Solution (List α)) × PSO.Opt σ α)
    (r' : Option (Solution (List β)) × PSO.Opt σ β) : Prop :=
  Option.Rel (Sol H Q) r.1 r'.1 ∧ SwarmOpt H K Q r.2 r'.2

theorem nextIterations [FloatT α] [FloatT β] (hM : Moves H K) (hQ : SameOrder Q) (fuel : Nat) {o : PSO.Opt σ α} {o' : PSO.Opt σ β} (ho : SwarmOpt H K Q o o') :
    Alike (WorldsV H Q K) (After H K Q) (PSO.nextIterations fuel o) (PSO.nextIterations fuel o') := by
  refine bind (Rank.callLoggers .resume (state ho.2) ho.1.loggers 0) fun _ _ _ => bind (loop hM hQ ho.1 fuel ho.2) fun s s' hs =>
    bind (Rank.callLoggers .finish (state hs) ho.1.loggers 0) fun _ _ _ => pure ⟨?_, ho.1, hs⟩
  have := hs.best
  show Option.Rel (Sol H Q) (match s.best with
    | none => none
    | some p => some (p.coordinates, p.value)) (match s'.best with
    | none => none
    | some p => some (p.coordinates, p.value))
  generalize s.best = b at this
  generalize s'.best = b' at this
  cases this with
  | none => exact .none
  | some h => exact .some (sol h)

theorem findMin [FloatT α] [FloatT β] (hM : Moves H K) (hQ : SameOrder Q) (fuel : Nat) {o : PSO.Opt σ α} {o' : PSO.Opt σ β} (ho : SwarmOpt H K Q o o') :
    Alike (WorldsV H Q K) (After H K Q) (PSO.findMin fuel o) (PSO.findMin fuel o') :=
  bind (renewSwarm hQ ho.1 _ _) fun _ _ hs => bind (Rank.callLoggers .start (state hs) ho.1.loggers 0) fun _ _ _ =>
    nextIterations hM hQ fuel ⟨ho.1, hs⟩

theorem call [FloatT α] [FloatT β] (hM : Moves H K) (hQ : SameOrder Q) {o : PSO.Opt σ α} {o' : PSO.Opt σ β} (ho : SwarmOpt H K Q o o') {k : PSO.Call σ α} {k' : PSO.Call σ β}
    (hk : SwarmCall H K Q k k') :
    Alike (WorldsV H Q K) (fun r r' => Returned H Q r.1 r'.1 ∧ SwarmOpt H K Q r.2 r'.2) (PSO.call o k) (PSO.call o' k') := by
  have hc := ho.1
  cases hk with
  | findMin fuel => exact bind (findMin hM hQ fuel ho) fun _ _ h => pure ⟨.some h.1, h.2⟩
  | nextIterations fuel => exact bind (nextIterations hM hQ fuel ho) fun _ _ h => pure ⟨.some h.1, h.2⟩
  | setStopChecker h => exact pure ⟨.none, ⟨hc.1, h, hc.3, hc.4, hc.5, hc.6, hc.7, hc.8⟩, ho.2⟩
  | setLoggers h => exact pure ⟨.none, ⟨hc.1, hc.2, hc.3, hc.4, hc.5, hc.6, hc.7, h⟩, ho.2⟩
  | setPostMoves h => exact pure ⟨.none, ⟨hc.1, hc.2, hc.3, hc.4, hc.5, hc.6, h, hc.8⟩, ho.2⟩
  | setPostVelocityCalc h => exact pure ⟨.none, ⟨hc.1, hc.2, hc.3, hc.4, hc.5, h, hc.7, hc.8⟩, ho.2⟩

theorem run [FloatT α] [FloatT β] (hM : Moves H K) (hQ : SameOrder Q) {ks : List (PSO.Call σ α)} {ks' : List (PSO.Call σ β)} (hk : List.Forall₂ (SwarmCall H K Q) ks ks') :
    ∀ {o : PSO.Opt σ α} {o' : PSO.Opt σ β}, SwarmOpt H K Q o o' →
    Alike (WorldsV H Q K) (fun r r' => List.Forall₂ (Returned H Q) r.1 r'.1 ∧ SwarmOpt H K Q r.2 r'.2) (PSO.run o ks) (PSO.run o' ks') := by
  induction hk with
  | nil => intro o o' ho; exact pure ⟨.nil, ho⟩
  | cons h _ ih =>
    intro o o' ho
    exact bind (call hM hQ ho h) fun _ _ h1 => bind (ih h1.2) fun _ _ h2 => pure ⟨.cons h1.1 h2.1, h2.2⟩

/-! ## Velocity calculators with equal points -/

section

theorem moves_eq [FloatT α] : Moves (α := α) Eq Eq := by rintro _ _ _ _ rfl rfl; rfl

theorem hooks_eq (fs : List (List α → M σ (List α))) : Hooks Eq fs fs := by rintro x _ rfl; exact Rank.refl _

theorem of_eq {m m' : M σ α} (h : m = m') : Alike Eq Eq m m' := h ▸ Rank.refl m

/-- The calculators look up particles and use their coordinates only. -/
theorem unwrap_then {β : Type} {a b : Option (Particle α)} (h : Option.Rel (Part Eq Eq Q) a b) {f g : Particle α → M σ β}
    (hf : ∀ p p', Part Eq Eq Q p p' → f p = g p') : (M.unwrap a >>= f) = (M.unwrap b >>= g) := by
  cases h with
  | none => rfl
  | some h => exact hf _ _ h

variable [FloatT α]

theorem classic (R : Rng σ) (phiP phiG : α) : Calcs Eq Eq Q (Velocity.classic R phiP phiG) (Velocity.classic R phiP phiG) := by
  intro s s' p p' hs hp
  refine of_eq (unwrap_then hs.best fun g g' hg => ?_)
  rw [hp.coordinates, hp.velocity, hp.bestCoords, hg.coordinates]

theorem canonical (R : Rng σ) (c : Velocity.Canonical α) : Calcs Eq Eq Q (Velocity.canonical R c) (Velocity.canonical R c) := by
  intro s s' p p' hs hp
  refine of_eq (unwrap_then hs.best fun g g' hg => ?_)
  rw [hp.coordinates, hp.velocity, hp.bestCoords, hg.coordinates]

theorem inertia (R : Rng σ) (phiP phiG : α) (w : Nat → M σ α) :
    Calcs Eq Eq Q (Velocity.inertia R phiP phiG w) (Velocity.inertia R phiP phiG w) := by
  intro s s' p p' hs hp
  refine of_eq (unwrap_then hs.best fun g g' hg => ?_)
  rw [hp.coordinates, hp.velocity, hp.bestCoords, hg.coordinates, hs.iteration]

theorem negReinf (hQ : SameOrder Q) (R : Rng σ) (c : Velocity.NegReinf α) :
    Calcs Eq Eq Q (Velocity.negReinf R c) (Velocity.negReinf R c) := by
  intro s s' p p' hs hp
  refine of_eq (unwrap_then hs.best fun bg bg' h1 => unwrap_then (findBest hQ hs.particles) fun bc bc' h2 =>
    unwrap_then hs.worst fun wg wg' h3 => unwrap_then (findWorst hQ hs.particles) fun wc wc' h4 => ?_)
  rw [hp.coordinates, hp.velocity, hp.bestCoords, hp.worstCoords, h1.coordinates, h2.coordinates, h3.coordinates, h4.coordinates]

end

end Verif.RankPSO
