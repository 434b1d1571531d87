import Verif.Spec.Shape
import Verif.Proofs.SwarmTurns
import Verif.Proofs.SwarmFuel

/-!
# Runs of fitting components neither panic nor change the shape of the swarm
-/

set_option linter.unusedSectionVars false

namespace Verif.PSO

open Verif Spec Spec.Swarm

variable {σ α β γ : Type} {d n : Nat} {F : Prop}

/-- `m` returns a result in `Q` or (only if `F`) runs out of the bound on the number of turns; it does not panic. -/
def Good {ω : Type} (F : Prop) (m : M ω β) (w : ω) (Q : β → Prop) : Prop :=
  (∃ b w', m w = .ok (b, w') ∧ Q b) ∨ (F ∧ m w = .error .fuel)

theorem Good.bind {ω : Type} {m : M ω β} {f : β → M ω γ} {w : ω} {P : β → Prop} {Q : γ → Prop} (h : Good F m w P)
    (hf : ∀ b w', P b → Good F (f b) w' Q) : Good F (m >>= f) w Q := by
  rcases h with ⟨b, w', h1, hp⟩ | ⟨hF, h⟩
  · rcases hf b w' hp with ⟨c, w'', h2, hq⟩ | ⟨hF, h2⟩
    · exact .inl ⟨c, w'', M.bind_eq_ok.2 ⟨b, w', h1, h2⟩, hq⟩
    · exact .inr ⟨hF, M.bind_eq_error.2 (.inr ⟨b, w', h1, h2⟩)⟩
  · exact .inr ⟨hF, M.bind_eq_error.2 (.inl h)⟩

theorem Good.ran {ω : Type} {m : M ω β} {w : ω} {P : β → Prop} (h : Good F m w P) :
    Good F m w (fun b => P b ∧ ∃ w', m w = .ok (b, w')) := by
  rcases h with ⟨b, w', h1, hp⟩ | h
  · exact .inl ⟨b, w', h1, hp, w', h1⟩
  · exact .inr h

theorem Good.pure {ω : Type} {b : β} {w : ω} {Q : β → Prop} (h : Q b) : Good F (pure b : M ω β) w Q := .inl ⟨b, w, rfl, h⟩

theorem Good.mono {ω : Type} {m : M ω β} {w : ω} {P Q : β → Prop} (h : Good F m w P) (hpq : ∀ b, P b → Q b) : Good F m w Q := by
  rcases h with ⟨b, w', h1, hp⟩ | h
  · exact .inl ⟨b, w', h1, hpq b hp⟩
  · exact .inr h

theorem Good.lift {T : Type} {m : M σ β} {w : World σ T} {Q : β → Prop} (h : Works m Q) :
    Good F (World.lift m : M (World σ T) β) w Q := by
  obtain ⟨b, s', h1, hq⟩ := h w.user
  exact .inl ⟨b, ⟨s', w.trace⟩, World.lift_eq_ok.2 ⟨h1, rfl⟩, hq⟩

theorem Good.emit {T : Type} {e : Ev T} {w : World σ T} : Good F (World.emit e) w (fun _ => True) :=
  .inl ⟨(), _, rfl, trivial⟩

theorem Works.good {m : M σ β} {Q : β → Prop} (h : Works m Q) (s : σ) : Good F m s Q := by
  obtain ⟨b, s', h1, hq⟩ := h s
  exact .inl ⟨b, s', h1, hq⟩

theorem Good.mapL {ω : Type} {f : β → M ω γ} {P : β → Prop} {Q : γ → Prop} :
    ∀ (xs : List β) (w : ω), (∀ x ∈ xs, P x) → (∀ x w, P x → Good F (f x) w Q) →
      Good F (M.mapL f xs) w (fun ys => ys.length = xs.length ∧ ∀ y ∈ ys, Q y)
  | [], _, _, _ => .inl ⟨[], _, rfl, rfl, by simp⟩
  | x :: xs, w, hx, hf => by
    refine Good.bind (hf x w (hx x (by simp))) fun y w' hy => ?_
    refine Good.bind (Good.mapL xs w' (fun x h => hx x (by simp [h])) hf) fun ys w'' hys => ?_
    refine Good.pure ⟨by simp [hys.1], ?_⟩
    intro z hz
    rcases List.mem_cons.1 hz with rfl | hz
    · exact hy
    · exact hys.2 z hz

theorem Good.foldL {ω : Type} {f : γ → β → M ω γ} {P : γ → Prop} :
    ∀ (xs : List β) (c : γ) (w : ω), P c → (∀ c x w, x ∈ xs → P c → Good F (f c x) w P) → Good F (M.foldL f c xs) w P
  | [], _, _, h, _ => Good.pure h
  | x :: xs, c, w, h, hf => by
    refine Good.bind (hf c x w (by simp) h) fun c' w' hc' => ?_
    exact Good.foldL xs c' w' hc' (fun c x w hx hc => hf c x w (by simp [hx]) hc)

theorem works_hooks {hs : List (List α → M σ (List α))}
    (h : ∀ k ∈ hs, ∀ x, x.length = d → Works (k x) (fun y => y.length = d)) (x : List α) (hx : x.length = d) :
    Works (hooks hs x) (fun y => y.length = d) := by
  intro s
  induction hs generalizing x s with
  | nil => exact ⟨x, s, rfl, hx⟩
  | cons k hs ih =>
    obtain ⟨y, s1, h1, hy⟩ := h k (by simp) x hx s
    obtain ⟨z, s2, h2, hz⟩ := ih (fun k hk => h k (by simp [hk])) y hy s1
    exact ⟨z, s2, M.foldL_cons_ok.2 ⟨y, s1, h1, h2⟩, hz⟩

theorem good_loggers {T : Type} {k : LogKind} {s : AlgState T} {ls : List (Logger σ T)} {i : Nat} {w : World σ T}
    (h : ∀ l ∈ ls, ∀ s, Works (l.start s) (fun _ => True) ∧ Works (l.resume s) (fun _ => True) ∧
      Works (l.nextIteration s) (fun _ => True) ∧ Works (l.finish s) (fun _ => True)) :
    Good F (callLoggers k s i ls) w (fun _ => True) := by
  induction ls generalizing i w with
  | nil => exact Good.pure trivial
  | cons l ls ih =>
    obtain ⟨h1, h2, h3, h4⟩ := h l (by simp) s
    refine Good.bind (P := fun _ => True) (Good.lift ?_) fun _ w1 _ => ?_
    · cases k
      · exact h1
      · exact h2
      · exact h3
      · exact h4
    · exact Good.bind Good.emit fun _ w2 _ => ih (fun l hl => h l (by simp [hl]))

theorem minLoop_mem : ∀ (x : Particle α) (ys : List (Particle α)), minLoop x ys ∈ x :: ys
  | x, [] => by simp [minLoop]
  | x, y :: ys => by
    unfold minLoop
    split
    · exact List.mem_cons_of_mem _ (minLoop_mem y ys)
    · have := minLoop_mem x ys
      rcases List.mem_cons.1 this with h | h
      · rw [h]; simp
      · exact List.mem_cons_of_mem _ (List.mem_cons_of_mem _ h)

theorem maxLoop_mem : ∀ (x : Particle α) (ys : List (Particle α)), maxLoop x ys ∈ x :: ys
  | x, [] => by simp [maxLoop]
  | x, y :: ys => by
    unfold maxLoop
    split
    · have := maxLoop_mem x ys
      rcases List.mem_cons.1 this with h | h
      · rw [h]; simp
      · exact List.mem_cons_of_mem _ (List.mem_cons_of_mem _ h)
    · exact List.mem_cons_of_mem _ (maxLoop_mem y ys)

theorem findBest_mem' {ps : List (Particle α)} {b : Particle α} (h : findBest ps = some b) : b ∈ ps := by
  cases ps with
  | nil => simp [findBest] at h
  | cons p ps => simp only [findBest, Option.some.injEq] at h; rw [← h]; exact minLoop_mem p ps

theorem findWorst_mem' {ps : List (Particle α)} {b : Particle α} (h : findWorst ps = some b) : b ∈ ps := by
  cases ps with
  | nil => simp [findWorst] at h
  | cons p ps => simp only [findWorst, Option.some.injEq] at h; rw [← h]; exact maxLoop_mem p ps

theorem findBest_ne {ps : List (Particle α)} (h : ps.length ≠ 0) : findBest ps ≠ none := by
  cases ps <;> simp_all [findBest]

theorem findWorst_ne {ps : List (Particle α)} (h : ps.length ≠ 0) : findWorst ps ≠ none := by
  cases ps <;> simp_all [findWorst]

theorem shaped_empty : Shaped d 0 (Swarm.empty : Swarm α) :=
  ⟨rfl, by simp [Swarm.empty], by simp, by simp [Swarm.empty], by simp, by simp [Swarm.empty]⟩

theorem good_renew {c : Comps σ α} (hc : Fits d n c) (s : Swarm α) (w : World σ (List α)) :
    Good F (renewSwarm c s) w (Shaped d n) := by
  refine Good.bind (Good.lift hc.coordInit) fun xs w1 hxs => ?_
  refine Good.bind Good.emit fun _ w2 _ => ?_
  refine Good.bind (Good.lift hc.velInit) fun vs w3 hvs => ?_
  refine Good.bind (P := fun _ => True) (.inl ⟨(), w3, M.assert_eq_ok.2 ⟨by simp [hxs.1, hvs.1], rfl⟩, trivial⟩) fun _ w4 _ => ?_
  refine Good.bind (Good.mapL (P := fun x => x.length = d) (Q := fun x => x.length = d) xs w4 hxs.2
    (fun x w hx => Good.bind (Good.lift (works_hooks hc.postMove x hx)) fun y w' hy =>
      Good.bind Good.emit fun _ w'' _ => Good.pure hy)) fun ys w5 hys => ?_
  refine Good.bind (Good.mapL (P := fun (cs : List α × List α) => cs.1.length = d ∧ cs.2.length = d) (Q := OfDim d)
    (ys.zip vs) w5 (fun x hx => ⟨hys.2 _ (List.of_mem_zip hx).1, hvs.2 _ (List.of_mem_zip hx).2⟩)
    (fun x w hx => Good.bind (Good.lift (hc.goal x.1 hx.1)) fun v w' _ =>
      Good.bind Good.emit fun _ w'' _ => Good.pure ⟨hx.1, hx.2, hx.1, hx.1⟩)) fun ps w6 hps => ?_
  have hlen : ps.length = n := by
    rw [hps.1, List.length_zip, hys.1, hxs.1, hvs.1, Nat.min_self]
  exact Good.pure ⟨hlen, hps.2, fun h => findBest_ne (by show ps.length ≠ 0; omega), fun b hb => hps.2 b (findBest_mem' hb),
    fun h => findWorst_ne (by show ps.length ≠ 0; omega), fun b hb => hps.2 b (findWorst_mem' hb)⟩

theorem ofDim_moveTo {p : Particle α} {v x : List α} {value : F64} (h : OfDim d p) (hv : v.length = d)
    (hx : x.length = d) : OfDim d ((p.setVelocity v).moveTo x value) := by
  unfold Particle.moveTo Particle.setVelocity
  dsimp only
  split_ifs <;> exact ⟨by first | exact hx, by first | exact hv, by first | exact hx | exact h.best,
    by first | exact hx | exact h.worst⟩

variable [FloatT α]

theorem good_move {c : Comps σ α} (hc : Fits d n c) (s : Swarm α) (k : Nat) (hk : k < n) (hs : Shaped d n s)
    (w : World σ (List α)) : Good F (moveParticle c s k) w (Shaped d n) := by
  have hk' : k < s.particles.length := by rw [hs.count]; exact hk
  refine Good.bind (P := fun p => p ∈ s.particles)
    (.inl ⟨s.particles[k], w, M.index_eq_ok.2 ⟨List.getElem?_eq_getElem hk', rfl⟩, List.getElem_mem _⟩) fun p w1 hp => ?_
  have hd := hs.particles p hp
  refine Good.bind (Good.lift (hc.velCalc s hs p hp)) fun raw w2 hraw => ?_
  refine Good.bind (Good.lift (works_hooks hc.postVel raw hraw)) fun v w3 hv => ?_
  refine Good.bind Good.emit fun _ w4 _ => ?_
  have hz : (List.zipWith FloatT.add p.coordinates v).length = d := by
    rw [List.length_zipWith, hd.coordinates, hv, Nat.min_self]
  refine Good.bind (Good.lift (works_hooks hc.postMove _ hz)) fun x w5 hx => ?_
  refine Good.bind Good.emit fun _ w6 _ => ?_
  refine Good.bind (Good.lift (hc.goal x hx)) fun value w7 _ => ?_
  refine Good.bind Good.emit fun _ w8 _ => ?_
  refine Good.pure ⟨by simp [hs.count], ?_, hs.hasBest, hs.best, hs.hasWorst, hs.worst⟩
  intro q hq
  rcases List.mem_or_eq_of_mem_set hq with hq | rfl
  · exact hs.particles q hq
  · exact ofDim_moveTo hd hv hx

theorem shaped_updateBest {s : Swarm α} (hs : Shaped d n s) : Shaped d n s.updateBest := by
  have hsome : ∀ nb, findBest s.particles = some nb → Shaped d n { s with best := some nb } := fun nb hnb =>
    ⟨hs.count, hs.particles, by simp, fun b hb => by
      simp only [Option.some.injEq] at hb; rw [← hb]; exact hs.particles _ (findBest_mem' hnb), hs.hasWorst, hs.worst⟩
  unfold Swarm.updateBest
  split
  · exact hs
  · next nb hnb =>
    split
    · exact hsome nb hnb
    · split
      · exact hsome nb hnb
      · exact hs

theorem shaped_updateWorst {s : Swarm α} (hs : Shaped d n s) : Shaped d n s.updateWorst := by
  have hsome : ∀ nb, findWorst s.particles = some nb → Shaped d n { s with worst := some nb } := fun nb hnb =>
    ⟨hs.count, hs.particles, hs.hasBest, hs.best, by simp, fun b hb => by
      simp only [Option.some.injEq] at hb; rw [← hb]; exact hs.particles _ (findWorst_mem' hnb)⟩
  unfold Swarm.updateWorst
  split
  · exact hs
  · next nb hnb =>
    split
    · exact hsome nb hnb
    · split
      · exact hsome nb hnb
      · exact hs

/-- A swarm with the right number of particles or none yet. -/
theorem good_step {c : Comps σ α} (hc : Fits d n c) {k : Nat} (hk : k = n ∨ k = 0) (s : Swarm α) (hs : Shaped d k s)
    (w : World σ (List α)) : Good F (step c s) w (Shaped d k) := by
  refine Good.bind (P := Shaped d k) (Good.foldL _ s w hs ?_) fun s1 w1 hs1 => ?_
  · intro s x w hx hs'
    rw [List.mem_range] at hx
    rcases hk with rfl | rfl
    · exact good_move hc s x (by rw [← hs.count]; exact hx) hs' w
    · rw [hs.count] at hx; omega
  · refine Good.bind Good.emit fun _ w2 _ => ?_
    refine Good.bind (good_loggers hc.loggers) fun _ w3 _ => ?_
    have := shaped_updateWorst (shaped_updateBest hs1)
    exact Good.pure ⟨this.count, this.particles, this.hasBest, this.best, this.hasWorst, this.worst⟩

theorem good_loop {c : Comps σ α} (hc : Fits d n c) {k : Nat} (hk : k = n ∨ k = 0) :
    ∀ (fuel : Nat) (s : Swarm α), Shaped d k s → ∀ (w : World σ (List α)), Good True (loop c fuel s) w (Shaped d k)
  | 0, _, _, _ => .inr ⟨trivial, rfl⟩
  | fuel + 1, s, hs, w => by
    refine Good.bind (Good.lift (hc.stop _)) fun b w1 _ => ?_
    refine Good.bind Good.emit fun _ w2 _ => ?_
    cases b with
    | true => exact Good.pure hs
    | false => exact Good.bind (good_step hc hk s hs w2) fun s1 w3 hs1 => good_loop hc hk fuel s1 hs1 w3

theorem good_turns {c : Comps σ α} (hc : Fits d n c) {k : Nat} (hk : k = n ∨ k = 0) :
    ∀ (m : Nat) (s : Swarm α), Shaped d k s → ∀ (w : World σ (List α)), Good True (turns c m s) w (Shaped d k)
  | 0, _, hs, _ => Good.pure hs
  | m + 1, s, hs, w => by
    refine Good.bind (Good.lift (hc.stop _)) fun b w1 _ => ?_
    refine Good.bind Good.emit fun _ w2 _ => ?_
    cases b with
    | true => exact .inr ⟨trivial, rfl⟩
    | false => exact Good.bind (good_step hc hk s hs w2) fun s1 w3 hs1 => good_turns hc hk m s1 hs1 w3

theorem good_nextIterations {o : Opt σ α} (hc : Fits d n o.comps) {k : Nat} (hk : k = n ∨ k = 0) (hs : Shaped d k o.swarm)
    (fuel : Nat) (w : World σ (List α)) :
    Good True (nextIterations fuel o) w (fun r => r.2.comps = o.comps ∧ Shaped d k r.2.swarm) := by
  refine Good.bind (good_loggers hc.loggers) fun _ w1 _ => ?_
  refine Good.bind (good_loop hc hk fuel _ hs w1) fun s w2 hs => ?_
  refine Good.bind (good_loggers hc.loggers) fun _ w3 _ => ?_
  exact Good.pure ⟨rfl, hs⟩

theorem good_findMin {o : Opt σ α} (hc : Fits d n o.comps) (fuel : Nat) (w : World σ (List α)) :
    Good True (findMin fuel o) w (fun r => r.2.comps = o.comps ∧ Shaped d n r.2.swarm) := by
  refine Good.bind (good_renew hc _ w) fun s w1 hs => ?_
  refine Good.bind (good_loggers hc.loggers) fun _ w2 _ => ?_
  exact good_nextIterations (o := { o with swarm := s }) hc (.inl rfl) hs fuel w2

theorem good_run : ∀ (ks : List (Call σ α)) {o : Opt σ α} (_ : Always (Fits d n) o.comps ks) {k : Nat} (_ : k = n ∨ k = 0)
    (_ : Shaped d k o.swarm) (w : World σ (List α)),
    Good True (run o ks) w (fun r => Fits d n r.2.comps ∧ (countAfter n k ks = n ∨ countAfter n k ks = 0) ∧
      Shaped d (countAfter n k ks) r.2.swarm)
  | [], _, hc, _, hk, hs, _ => Good.pure ⟨hc, hk, hs⟩
  | k :: ks, o, hc, m, hk, hs, w => by
    obtain ⟨hc1, hc2⟩ := hc
    cases k with
    | findMin fuel =>
      refine Good.bind (P := fun r => r.2.comps = o.comps ∧ Shaped d n r.2.swarm)
        (Good.bind (good_findMin hc1 fuel w) fun r w1 h => Good.pure h) fun r w1 h => ?_
      obtain ⟨r, o1⟩ := r
      have hco : o1.comps = o.comps := h.1
      refine Good.bind (good_run ks (o := o1) (by rw [hco]; exact hc2) (.inl rfl) h.2 w1) fun r w2 h2 => ?_
      exact Good.pure h2
    | nextIterations fuel =>
      refine Good.bind (P := fun r => r.2.comps = o.comps ∧ Shaped d m r.2.swarm)
        (Good.bind (good_nextIterations hc1 hk hs fuel w) fun r w1 h => Good.pure h) fun r w1 h => ?_
      obtain ⟨r, o1⟩ := r
      have hco : o1.comps = o.comps := h.1
      refine Good.bind (good_run ks (o := o1) (by rw [hco]; exact hc2) hk h.2 w1) fun r w2 h2 => ?_
      exact Good.pure h2
    | setStopChecker f =>
      refine Good.bind (P := fun r => r = (none, { o with comps := { o.comps with stop := f } })) (Good.pure rfl) fun r w1 h => ?_
      subst h
      refine Good.bind (good_run ks (o := { o with comps := { o.comps with stop := f } }) hc2 hk hs w1) fun r w2 h2 => ?_
      exact Good.pure h2
    | setLoggers f =>
      refine Good.bind (P := fun r => r = (none, { o with comps := { o.comps with loggers := f } })) (Good.pure rfl) fun r w1 h => ?_
      subst h
      refine Good.bind (good_run ks (o := { o with comps := { o.comps with loggers := f } }) hc2 hk hs w1) fun r w2 h2 => ?_
      exact Good.pure h2
    | setPostMoves f =>
      refine Good.bind (P := fun r => r = (none, { o with comps := { o.comps with postMove := f } })) (Good.pure rfl) fun r w1 h => ?_
      subst h
      refine Good.bind (good_run ks (o := { o with comps := { o.comps with postMove := f } }) hc2 hk hs w1) fun r w2 h2 => ?_
      exact Good.pure h2
    | setPostVelocityCalc f =>
      refine Good.bind (P := fun r => r = (none, { o with comps := { o.comps with postVel := f } })) (Good.pure rfl) fun r w1 h => ?_
      subst h
      refine Good.bind (good_run ks (o := { o with comps := { o.comps with postVel := f } }) hc2 hk hs w1) fun r w2 h2 => ?_
      exact Good.pure h2

theorem good_runTo (ks : List (Call σ α)) {o : Opt σ α} (hc : Always (Fits d n) o.comps ks)
    (h0 : o.swarm = Swarm.empty) (pt : Point) (w : World σ (List α)) :
    Good True (runTo o ks pt) w (fun o' => Shaped d (countAt n ks pt) o'.swarm) := by
  refine Good.bind (good_run ks hc (k := 0) (.inr rfl) (by rw [h0]; exact shaped_empty) w) fun r w1 h => ?_
  obtain ⟨rs, o1⟩ := r
  obtain ⟨hc1, hk, hs⟩ := h
  cases pt with
  | done => exact Good.pure hs
  | inFindMin m =>
    refine Good.bind (P := fun (o2 : Opt σ α) => o2.comps = o1.comps ∧ Shaped d n o2.swarm) ?_ fun o2 w2 h2 => ?_
    · refine Good.bind (good_renew hc1 _ w1) fun s w1 hs => ?_
      refine Good.bind (good_loggers hc1.loggers) fun _ w2 _ => ?_
      refine Good.bind (good_loggers hc1.loggers) fun _ w2 _ => ?_
      exact Good.pure ⟨rfl, hs⟩
    · refine Good.bind (good_turns (c := o2.comps) (by rw [h2.1]; exact hc1) (.inl rfl) m _ h2.2 w2) fun s w3 hs => ?_
      exact Good.pure hs
  | inNextIterations m =>
    refine Good.bind (good_loggers hc1.loggers) fun _ w2 _ => ?_
    refine Good.bind (good_turns hc1 hk m _ hs w2) fun s w3 hs => ?_
    exact Good.pure hs

theorem total_loop {c : Comps σ α} (hc : Fits d n c) {k m : Nat} (hk : k = n ∨ k = 0) (hb : Bounding m c.stop) :
    ∀ (fuel : Nat) (s : Swarm α), Shaped d k s → m < s.iteration + fuel → 0 < fuel → ∀ (w : World σ (List α)),
      Good False (loop c fuel s) w (Shaped d k)
  | 0, _, _, _, h, _ => by omega
  | fuel + 1, s, hs, hf, _, w => by
    refine Good.bind (Good.lift (Q := fun b => m ≤ s.iteration → b = true) ?_) fun b w1 hbt => ?_
    · intro u
      obtain ⟨b, u', h1, -⟩ := hc.stop s.state u
      exact ⟨b, u', h1, fun hle => hb s.state u b u' hle h1⟩
    refine Good.bind Good.emit fun _ w2 _ => ?_
    cases b with
    | true => exact Good.pure hs
    | false =>
      have hlt : ¬ m ≤ s.iteration := fun hle => by simpa using hbt hle
      refine Good.bind (good_step hc hk s hs w2).ran fun s1 w3 hs1 => ?_
      obtain ⟨hs1, w', hrun⟩ := hs1
      have hi := step_iteration hrun
      exact total_loop hc hk hb fuel s1 hs1 (by omega) (by omega) w3

theorem total_nextIterations {o : Opt σ α} (hc : Fits d n o.comps) {m : Nat} (hb : Bounding m o.comps.stop)
    (hs : Shaped d n o.swarm) (fuel : Nat) (hf : m < o.swarm.iteration + fuel) (hf0 : 0 < fuel) (w : World σ (List α)) :
    Good False (nextIterations fuel o) w (fun r => r.2.comps = o.comps ∧ Shaped d n r.2.swarm) := by
  refine Good.bind (good_loggers hc.loggers) fun _ w1 _ => ?_
  refine Good.bind (total_loop hc (.inl rfl) hb fuel _ hs hf hf0 w1) fun s w2 hs => ?_
  refine Good.bind (good_loggers hc.loggers) fun _ w3 _ => ?_
  exact Good.pure ⟨rfl, hs⟩

theorem total_findMin {o : Opt σ α} (hc : Fits d n o.comps) {m : Nat} (hb : Bounding m o.comps.stop) (fuel : Nat)
    (hf : m < fuel) (w : World σ (List α)) :
    Good False (findMin fuel o) w (fun r => r.2.comps = o.comps ∧ Shaped d n r.2.swarm) := by
  refine Good.bind (good_renew hc _ w) fun s w1 hs => ?_
  refine Good.bind (good_loggers hc.loggers) fun _ w2 _ => ?_
  refine Good.bind (good_loggers hc.loggers) fun _ w1 _ => ?_
  refine Good.bind (total_loop (c := o.comps) hc (.inl rfl) hb fuel s hs (by omega) (by omega) w1) fun s w2 hs => ?_
  refine Good.bind (good_loggers hc.loggers) fun _ w3 _ => ?_
  exact Good.pure ⟨rfl, hs⟩

end Verif.PSO
