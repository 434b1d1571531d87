import Verif.Proofs.Finds
import Verif.Props.SwarmShape
import Verif.Props.SwarmBox

/-!
# The library's components read a bounded number of draws
-/

namespace Verif.Finds

open Verif Spec Spec.Swarm PSO Props.Swarm

variable {τ β γ : Type} {m : Nat} {f : Fmt}

theorem Reads.index {xs : List β} {i : Nat} (h : i < xs.length) : Reads m 0 (M.index xs i : M (List Nat × τ) β) (fun _ => True) :=
  fun u => .done xs[i] u (fun _ => M.index_eq_ok.2 ⟨List.getElem?_eq_getElem h, rfl⟩) trivial

theorem Reads.mapL {K : Nat} {g : β → M (List Nat × τ) γ} {Q : γ → Prop} : ∀ xs : List β, (∀ x ∈ xs, Reads m K (g x) Q) →
    Reads m (K * xs.length) (M.mapL g xs) (fun ys => ys.length = xs.length ∧ ∀ y ∈ ys, Q y)
  | [], _ => Reads.pure ⟨rfl, by simp⟩
  | x :: xs, h => by
    rw [List.length_cons, Nat.mul_succ, Nat.add_comm]
    refine Reads.bind (h x (by simp)) fun y hy => ?_
    rw [show K * xs.length = K * xs.length + 0 by rfl]
    refine Reads.bind (Reads.mapL xs fun x hx => h x (by simp [hx])) fun ys hys => ?_
    refine Reads.pure ⟨by simp [hys.1], ?_⟩
    intro z hz
    rcases List.mem_cons.1 hz with rfl | hz
    · exact hy
    · exact hys.2 z hz

theorem Reads.replicate {K : Nat} {g : M (List Nat × τ) γ} {Q : γ → Prop} (h : Reads m K g Q) : ∀ n : Nat,
    Reads m (K * n) (M.replicate n g) (fun ys => ys.length = n ∧ ∀ y ∈ ys, Q y)
  | 0 => Reads.pure ⟨rfl, by simp⟩
  | n + 1 => by
    rw [Nat.mul_succ, Nat.add_comm]
    refine Reads.bind h fun y hy => ?_
    rw [show K * n = K * n + 0 by rfl]
    refine Reads.bind (Reads.replicate h n) fun ys hys => ?_
    refine Reads.pure ⟨by simp [hys.1], ?_⟩
    intro z hz
    rcases List.mem_cons.1 hz with rfl | hz
    · exact hy
    · exact hys.2 z hz

theorem Reads.uniformFlIncl (dr : Draws) {g : Fmt} {lo hi : Fl g} (h : (lo.le hi && lo.isFinite && hi.isFinite) = true) :
    Reads m 1 ((dr.beside τ).uniformFlIncl lo hi) (fun _ => True) := by
  intro u
  refine .draw fun k _ => .done (dr.closedVal lo hi k) u (fun t => ?_) trivial
  unfold Rng.uniformFlIncl
  rw [if_pos h, M.ofState_eq_ok]
  rfl

theorem Reads.uniformFl (dr : Draws) {g : Fmt} {lo hi : Fl g} (h : (lo.lt hi && lo.isFinite && hi.isFinite) = true) :
    Reads m 1 ((dr.beside τ).uniformFl lo hi) (fun _ => True) := by
  intro u
  refine .draw fun k _ => .done (dr.openVal lo hi k) u (fun t => ?_) trivial
  unfold Rng.uniformFl
  rw [if_pos h, M.ofState_eq_ok]
  rfl

theorem Reads.draw01 (dr : Draws) {g : Fmt} (h : ((Fl.zero : Fl g).le Fl.one && (Fl.zero : Fl g).isFinite && (Fl.one : Fl g).isFinite) = true) :
    Reads m 1 (Velocity.draw01 (dr.beside τ) g : M (List Nat × τ) (Fl f)) (fun _ => True) := by
  rw [show (1 : Nat) = 1 + 0 by rfl]
  exact Reads.bind (Reads.uniformFlIncl dr h) fun _ _ => Reads.pure trivial

theorem reads_init (dr : Draws) (hf : Fmt.Embeds f Fmt.f64) {d n : Nat} {a : M (List Nat × τ) (List (List (Fl f)))}
    (h : LibInit (dr.beside τ) d n a) : Reads m (d * n) a (Vectors d n) := by
  cases h with
  | random ivs hd hi =>
    refine Reads.replicate (Q := fun x : List (Fl f) => x.length = d) ?_ n
    have e : (Creation.createVec (dr.beside τ) ivs : M (List Nat × τ) _) = M.mapL (Creation.drawGene (dr.beside τ)) ivs := by
      funext s
      unfold Creation.createVec
      have : (ivs.all fun iv => iv.1.lt iv.2) = true := List.all_eq_true.2 fun iv hiv => (hi iv hiv).2.2
      rw [this]
      rfl
    rw [e]
    have := Reads.mapL (m := m) (K := 1) (g := Creation.drawGene (dr.beside τ)) (Q := fun _ => True) ivs fun iv hiv => ?_
    · rw [hd, Nat.one_mul] at this
      exact Reads.mono this le_rfl fun ys hys => hys.1
    · obtain ⟨h1, h2, h3⟩ := hi iv hiv
      rw [show (1 : Nat) = 1 + 0 by rfl]
      refine Reads.bind (Reads.uniformFlIncl dr ?_) fun _ _ => Reads.pure trivial
      rw [Fl.cast_le hf h1 h2 (Fl.le_of_lt h3), (Fl.cast_exact hf h1).1, (Fl.cast_exact hf h2).1]
      rfl
  | zero => exact Reads.replicate (Q := fun x : List (Fl f) => x.length = d) (Reads.pure (by simp)) n

theorem reads_calc (dr : Draws) {d n : Nat} {a : PSO.Swarm (Fl f) → Particle (Fl f) → M (List Nat × τ) (List (Fl f))}
    (h : LibCalc (dr.beside τ) a) (s : PSO.Swarm (Fl f)) (hs : Shaped d n s) (p : Particle (Fl f)) (hp : p ∈ s.particles) :
    Reads m (6 * d) (a s p) (fun v => v.length = d) := by
  have hpd := hs.particles p hp
  have hn : n ≠ 0 := by
    rintro rfl
    have := hs.count
    rw [List.length_eq_zero_iff] at this
    rw [this] at hp; simp at hp
  obtain ⟨b, hb⟩ := Option.ne_none_iff_exists'.1 (hs.hasBest hn)
  obtain ⟨wo, hwo⟩ := Option.ne_none_iff_exists'.1 (hs.hasWorst hn)
  have hbd := hs.best b hb
  have hwd := hs.worst wo hwo
  have two : ∀ (e : Fl f → Fl f → Fl f → Fl f → Fl f → Fl f → Fl f), Reads m (6 * d) (M.mapL (fun i => (do
      let rP : Fl f ← Velocity.draw01 (dr.beside τ) Fmt.f32
      let rG : Fl f ← Velocity.draw01 (dr.beside τ) Fmt.f32
      let v ← M.index p.velocity i
      let pb ← M.index p.bestCoords i
      let x ← M.index p.coordinates i
      let gb ← M.index b.coordinates i
      pure (e rP rG v pb x gb) : M (List Nat × τ) (Fl f))) (List.range p.coordinates.length)) (fun v => v.length = d) := by
    intro e
    have := Reads.mapL (m := m) (τ := τ) (K := 6) (Q := fun _ => True) (g := fun i => (do
      let rP : Fl f ← Velocity.draw01 (dr.beside τ) Fmt.f32
      let rG : Fl f ← Velocity.draw01 (dr.beside τ) Fmt.f32
      let v ← M.index p.velocity i
      let pb ← M.index p.bestCoords i
      let x ← M.index p.coordinates i
      let gb ← M.index b.coordinates i
      pure (e rP rG v pb x gb) : M (List Nat × τ) (Fl f))) (List.range p.coordinates.length) fun i hi => ?_
    · rw [List.length_range, hpd.coordinates] at this
      refine Reads.mono ?_ le_rfl (P := fun ys => ys.length = d ∧ ∀ y ∈ ys, True) fun ys hys => hys.1
      rw [hpd.coordinates]
      exact this
    · rw [List.mem_range, hpd.coordinates] at hi
      refine Reads.mono (K := 1 + (1 + (0 + (0 + (0 + (0 + 0)))))) ?_ (by norm_num) fun _ => id
      refine Reads.bind (Reads.draw01 dr (by decide +kernel)) fun _ _ => ?_
      refine Reads.bind (Reads.draw01 dr (by decide +kernel)) fun _ _ => ?_
      refine Reads.bind (Reads.index (by rw [hpd.velocity]; exact hi)) fun _ _ => ?_
      refine Reads.bind (Reads.index (by rw [hpd.best]; exact hi)) fun _ _ => ?_
      refine Reads.bind (Reads.index (by rw [hpd.coordinates]; exact hi)) fun _ _ => ?_
      refine Reads.bind (Reads.index (by rw [hbd.coordinates]; exact hi)) fun _ _ => ?_
      exact Reads.pure trivial
  cases h with
  | classic phiP phiG =>
    unfold Velocity.classic
    rw [hb]
    exact two fun rP rG v pb x gb => FloatT.add (FloatT.add v (Velocity.pull phiP rP pb x)) (Velocity.pull phiG rG gb x)
  | canonical c =>
    unfold Velocity.canonical
    rw [hb]
    exact two fun rP rG v pb x gb => FloatT.mul c.xi (FloatT.add (FloatT.add v (Velocity.pull c.phiP rP pb x)) (Velocity.pull c.phiG rG gb x))
  | negative c =>
    obtain ⟨cb, hcb⟩ := Option.ne_none_iff_exists'.1 (findBest_ne (ps := s.particles) (by rw [hs.count]; exact hn))
    obtain ⟨cw, hcw⟩ := Option.ne_none_iff_exists'.1 (findWorst_ne (ps := s.particles) (by rw [hs.count]; exact hn))
    have hcbd := hs.particles cb (findBest_mem' hcb)
    have hcwd := hs.particles cw (findWorst_mem' hcw)
    unfold Velocity.negReinf
    rw [hb, hwo, show s.currentBest = some cb from hcb, show s.currentWorst = some cw from hcw]
    have key : ∀ i, i < d → Reads m 6 (do
      let rBestGlobal : Fl f ← Velocity.draw01 (dr.beside τ) Fmt.f64
      let rBestCurrent : Fl f ← Velocity.draw01 (dr.beside τ) Fmt.f64
      let rBestPersonal : Fl f ← Velocity.draw01 (dr.beside τ) Fmt.f64
      let rWorstGlobal : Fl f ← Velocity.draw01 (dr.beside τ) Fmt.f64
      let rWorstCurrent : Fl f ← Velocity.draw01 (dr.beside τ) Fmt.f64
      let rWorstPersonal : Fl f ← Velocity.draw01 (dr.beside τ) Fmt.f64
      let bp ← M.index p.bestCoords i
      let x ← M.index p.coordinates i
      let bcx ← M.index cb.coordinates i
      let bgx ← M.index b.coordinates i
      let wp ← M.index p.worstCoords i
      let wcx ← M.index cw.coordinates i
      let wgx ← M.index wo.coordinates i
      let v ← M.index p.velocity i
      pure (FloatT.mul c.xi
        (FloatT.sub (FloatT.sub (FloatT.sub
          (FloatT.add (FloatT.add (FloatT.add v (Velocity.pull c.phiBestPersonal rBestPersonal bp x))
            (Velocity.pull c.phiBestCurrent rBestCurrent bcx x)) (Velocity.pull c.phiBestGlobal rBestGlobal bgx x))
          (Velocity.pull c.phiWorstPersonal rWorstPersonal wp x))
          (Velocity.pull c.phiWorstCurrent rWorstCurrent wcx x))
          (Velocity.pull c.phiWorstGlobal rWorstGlobal wgx x))) : M (List Nat × τ) (Fl f)) (fun _ => True) := by
      intro i hi
      refine Reads.mono (K := 1 + (1 + (1 + (1 + (1 + (1 + (0 + (0 + (0 + (0 + (0 + (0 + (0 + (0 + 0)))))))))))))) ?_ (by norm_num) fun _ => id
      refine Reads.bind (Reads.draw01 dr (by decide +kernel)) fun _ _ => ?_
      refine Reads.bind (Reads.draw01 dr (by decide +kernel)) fun _ _ => ?_
      refine Reads.bind (Reads.draw01 dr (by decide +kernel)) fun _ _ => ?_
      refine Reads.bind (Reads.draw01 dr (by decide +kernel)) fun _ _ => ?_
      refine Reads.bind (Reads.draw01 dr (by decide +kernel)) fun _ _ => ?_
      refine Reads.bind (Reads.draw01 dr (by decide +kernel)) fun _ _ => ?_
      refine Reads.bind (Reads.index (by rw [hpd.best]; exact hi)) fun _ _ => ?_
      refine Reads.bind (Reads.index (by rw [hpd.coordinates]; exact hi)) fun _ _ => ?_
      refine Reads.bind (Reads.index (by rw [hcbd.coordinates]; exact hi)) fun _ _ => ?_
      refine Reads.bind (Reads.index (by rw [hbd.coordinates]; exact hi)) fun _ _ => ?_
      refine Reads.bind (Reads.index (by rw [hpd.worst]; exact hi)) fun _ _ => ?_
      refine Reads.bind (Reads.index (by rw [hcwd.coordinates]; exact hi)) fun _ _ => ?_
      refine Reads.bind (Reads.index (by rw [hwd.coordinates]; exact hi)) fun _ _ => ?_
      refine Reads.bind (Reads.index (by rw [hpd.velocity]; exact hi)) fun _ _ => ?_
      exact Reads.pure trivial
    have := Reads.mapL (List.range p.coordinates.length) fun i hi => key i (by rw [List.mem_range, hpd.coordinates] at hi; exact hi)
    rw [List.length_range, hpd.coordinates] at this
    rw [hpd.coordinates]
    exact Reads.mono this le_rfl fun ys hys => hys.1
  | inertia phiP phiG get hi =>
    unfold Velocity.inertia
    rw [hb]
    cases hi with
    | const w => exact two fun rP rG v pb x gb => FloatT.add (FloatT.add (FloatT.mul w v) (Velocity.pull phiP rP pb x)) (Velocity.pull phiG rG gb x)
    | linear wa wb t =>
      exact two fun rP rG v pb x gb => FloatT.add (FloatT.add (FloatT.mul (Velocity.linearInertia wa wb t s.iteration) v)
        (Velocity.pull phiP rP pb x)) (Velocity.pull phiG rG gb x)

theorem reads_postVel {d : Nat} {h : List (Fl f) → M (List Nat × τ) (List (Fl f))} (hh : LibPostVel d h) (x : List (Fl f))
    (hx : x.length = d) : Reads m 0 (h x) (fun y => y.length = d) := by
  cases hh with
  | dimensions vMax hv =>
    intro u
    refine .done (List.zipWith Hooks.limitDim x vMax) u (fun t => ?_) (show _ = d by rw [List.length_zipWith, hx, hv, Nat.min_self])
    exact M.bind_eq_ok.2 ⟨(), _, M.assert_eq_ok.2 ⟨by simp [hx, hv], rfl⟩, rfl⟩
  | abs vMax =>
    unfold Hooks.maxVelocityAbs
    dsimp only
    split
    · exact Reads.pure (by simp [hx])
    · exact Reads.pure hx

theorem reads_boundary {d : Nat} {ivs : List (Fl f × Fl f)} (hl : ivs.length = d) (x : List (Fl f)) (hx : x.length = d) :
    Reads m 0 (Hooks.moveToBoundary ivs x : M (List Nat × τ) _) (fun y => y.length = d ∧ y = List.zipWith Hooks.clampCoord ivs x) := by
  intro u
  refine .done (List.zipWith Hooks.clampCoord ivs x) u (fun t => ?_) ⟨by rw [List.length_zipWith, hx, hl, Nat.min_self], rfl⟩
  exact M.bind_eq_ok.2 ⟨(), _, M.assert_eq_ok.2 ⟨by simp [hx, hl], rfl⟩, rfl⟩

theorem teleport_intervals {ivs : List (Fl f × Fl f)} {p : F32} {t : Hooks.Teleport f} {σ : Type} {s s' : σ}
    (h : Hooks.Teleport.new ivs p s = .ok (t, s')) :
    t.intervals = ivs ∧ ∀ iv ∈ t.intervals, (iv.1.le iv.2 && iv.1.isFinite && iv.2.isFinite) = true := by
  unfold Hooks.Teleport.new at h
  obtain ⟨-, s1, h1, h⟩ := M.bind_eq_ok.1 h
  obtain ⟨-, s2, h2, h⟩ := M.bind_eq_ok.1 h
  split at h
  · next hall =>
    obtain ⟨rfl, rfl⟩ := M.pure_eq_ok.1 h
    exact ⟨rfl, fun iv hiv => List.all_eq_true.1 hall iv hiv⟩
  · cases h

theorem reads_postMove (dr : Draws) {d : Nat} {h : List (Fl f) → M (List Nat × τ) (List (Fl f))} (hh : LibPostMove (dr.beside τ) d h)
    (x : List (Fl f)) (hx : x.length = d) : Reads m (1 + d) (h x) (fun y => y.length = d) := by
  cases hh with
  | boundary ivs hl => exact Reads.mono (reads_boundary hl x hx) (by omega) fun _ h => h.1
  | teleport ivs p t s0 s0' hl ht =>
    obtain ⟨rfl, hiv⟩ := teleport_intervals ht
    unfold Hooks.teleport
    refine Reads.mono (K := 0 + (1 + 1 * t.intervals.length)) ?_ (by omega) fun _ => id
    refine Reads.bind (P := fun _ => True) (fun u => .done () u (fun _ => M.assert_eq_ok.2 ⟨by simp [hx, hl], rfl⟩) trivial) fun _ _ => ?_
    refine Reads.bind (Reads.uniformFl dr (by decide +kernel)) fun r _ => ?_
    split
    · exact Reads.mono (Reads.mapL (Q := fun _ => True) t.intervals fun iv h => Reads.uniformFlIncl dr (hiv iv h)) le_rfl fun ys hys => hys.1.trans hl
    · exact Reads.pure hx

theorem clamp_inBox {ivs : List (Fl f × Fl f)} (hivs : ∀ iv ∈ ivs, (iv.1.le iv.2 && iv.1.isFinite && iv.2.isFinite) = true) {x : List (Fl f)}
    (h : InBox ivs x) : List.zipWith Hooks.clampCoord ivs x = x := by
  unfold InBox at h
  induction h with
  | nil => rfl
  | @cons iv y ivs ys h1 _ ih =>
    have := hivs iv (by simp)
    simp only [Bool.and_eq_true] at this
    rw [List.zipWith_cons_cons, ih fun iv h => hivs iv (by simp [h])]
    rw [(C41_coordinate iv.1 iv.2 y this.1.2 this.2 this.1.1).1 h1]

end Verif.Finds
