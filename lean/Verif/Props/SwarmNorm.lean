import Verif.Props.SwarmSpeed
import Verif.Props.HooksNorm
import Verif.Props.StatGoal
import Verif.Props.TestFunc

/-!
# C86: MaxVelocityAbs limits the speed and the way of the particles throughout a run
-/

set_option linter.unusedSectionVars false

namespace Verif.Fmt

variable (f : Fmt)

/-- Rounding to nearest: no representable magnitude is closer to a natural number of units. -/
theorem rnd_nearest_nat {n : Nat} {r : Int} (hr : f.rnd (n : ℝ) = r) (hi : r < f.mag f.infIdx) (j : Nat) :
    (r - n).natAbs ≤ ((f.mag j : Int) - n).natAbs := by
  have h1 : f.ridx (n : ℝ) = f.roundIdx (2 * n) false := by
    unfold ridx
    have : (2 : ℝ) * n = ((2 * n : ℕ) : ℝ) := by push_cast; ring
    rw [this, Nat.floor_natCast]
    simp
  rw [f.rnd_of_nonneg (by positivity), h1, roundIdx_eq] at hr
  have h2 : min (f.roundRaw (2 * n) false) f.infIdx = f.roundRaw (2 * n) false := by
    rcases Nat.le_total (f.roundRaw (2 * n) false) f.infIdx with h | h
    · exact Nat.min_eq_left h
    · rw [Nat.min_eq_right h] at hr
      omega
  rw [h2] at hr
  have := (f.roundRaw_nearest (2 * n) false j).1
  rw [← hr]
  omega

end Verif.Fmt

namespace Verif.Fl

open Spec

variable {f : Fmt}

theorem rnd_nearest {x r : Fl f} {q : Int} (hr : f.rnd (q : ℝ) = r.toInt) (h : r.isFinite = true) :
    (r.toInt - q).natAbs ≤ (x.toInt - q).natAbs := by
  have hf := isFinite_iff_toInt.1 h
  have hx := natAbs_toInt x
  rcases Int.le_total 0 q with hq | hq
  · obtain ⟨n, rfl⟩ := Int.eq_ofNat_of_zero_le hq
    have h1 := fun j => f.rnd_nearest_nat (n := n) (r := r.toInt) (by exact_mod_cast hr) (by omega) j
    have h2 := h1 x.idx
    have h3 := h1 0
    rw [f.mag_zero] at h3
    omega
  · obtain ⟨n, hn⟩ := Int.eq_ofNat_of_zero_le (Int.neg_nonneg_of_nonpos hq)
    have hr' : f.rnd (n : ℝ) = -r.toInt := by
      have : ((n : ℕ) : ℝ) = -(q : ℝ) := by
        have : ((n : Int) : ℝ) = ((-q : Int) : ℝ) := by rw [hn]
        push_cast at this; exact this
      rw [this, f.rnd_neg, hr]
    have h1 := fun j => f.rnd_nearest_nat (n := n) (r := -r.toInt) hr' (by omega) j
    have h2 := h1 x.idx
    have h3 := h1 0
    rw [f.mag_zero] at h3
    omega

/-- Adding `c` to `x` moves `x` by at most twice the size of `c`. -/
theorem add_moves {x c : Fl f} (h : (x.add c).isFinite = true) : |value (x.add c) - value x| ≤ 2 * |value c| := by
  obtain ⟨hx, hc⟩ := finite_of_add h
  have hr := (add_rounds hx hc).2
  have hn := rnd_nearest (x := x) (r := x.add c) (q := x.toInt + c.toInt) (by rw [hr]; push_cast; rfl) h
  have h1 : ((x.add c).toInt - x.toInt).natAbs ≤ 2 * c.toInt.natAbs := by omega
  have h2 : |((x.add c).toInt : ℝ) - x.toInt| ≤ 2 * |(c.toInt : ℝ)| := by
    have : ((((x.add c).toInt - x.toInt).natAbs : ℤ) : ℝ) ≤ ((2 * c.toInt.natAbs : ℤ) : ℝ) := by exact_mod_cast h1
    rw [Int.natCast_natAbs, Int.natCast_natAbs] at this
    push_cast at this
    exact this
  unfold value
  rw [← sub_div, abs_div, abs_div, abs_of_pos (D_posR (f := f)), ← mul_div_assoc]
  exact div_le_div_of_nonneg_right h2 (D_posR (f := f)).le

end Verif.Fl

namespace Verif.Props.Swarm

open Verif Spec Spec.Swarm PSO

variable {σ : Type} {f : Fmt}

/-- The limit `m` on the length of a vector with `n` components, with the allowance for rounding. -/
noncomputable def speedLimit (m : Fl f) (n : Nat) : ℝ := value m * (1 + 4 * (n + 2) * roundoff f)

/-- The vector contains a NaN, or it is finite and its true length is at most the limit. -/
def Slow (m : Fl f) (v : List (Fl f)) : Prop :=
  (∃ x ∈ v, x.isNan = true) ∨ (∀ x ∈ v, x.isFinite = true) ∧ length₂ (v.map value) ≤ speedLimit m v.length

/-- The limit is a non-negative number whose square does not underflow. -/
structure GoodLimit (m : Fl f) : Prop where
  nonneg : Fl.zero.le m = true
  finite : m.isFinite = true
  normal : minNormal f ≤ value m ^ 2

/-- `n` is small compared to the reciprocal of the unit roundoff; for `f64` ten to the fourteenth is. -/
def Few (f : Fmt) (n : Nat) : Prop := (n + 10) * roundoff f ≤ 1 / 10

/-- MaxVelocityAbs is the last velocity corrector; nothing else is assumed of the components. -/
def AbsLast (m : Fl f) (c : Comps σ (Fl f)) : Prop := ∃ pre, c.postVel = pre ++ [Hooks.maxVelocityAbs m]

/-- The distance between two points. -/
noncomputable def distance (x y : List (Fl f)) : ℝ := length₂ (List.zipWith (fun a b => value b - value a) x y)

theorem speedLimit_nonneg {m : Fl f} (h : GoodLimit m) (n : Nat) : 0 ≤ speedLimit m n := by
  have hm0 : 0 ≤ m.toInt := by have := Fl.le_iff.1 h.nonneg; simpa using this.2.2
  have := value_nonneg.2 hm0
  have := Fl.roundoff_pos (f := f)
  unfold speedLimit
  positivity

theorem sumSq_pos : ∀ {v : List (Fl f)} {a : Fl f}, a.isNan = false → a.sgn = false → (∀ x ∈ v, x.isNan = false) →
    (sumSq a v).isNan = false ∧ (sumSq a v).sgn = false := by
  intro v
  induction v with
  | nil => intro a h1 h2 _; exact ⟨h1, h2⟩
  | cons y v ih =>
    intro a h1 h2 h3
    have hy := Fl.isNan_mul_self (h3 y List.mem_cons_self)
    have hp := Fl.pos_sq y
    have hs : (y.mul y).sgn = false := by
      rcases hp with hp | hp
      · rw [hy] at hp; cases hp
      · exact hp
    obtain ⟨e1, e2⟩ := Fl.isNan_add_pos h1 hy h2 hs
    exact ih e1 e2 fun x hx => h3 x (List.mem_cons_of_mem _ hx)

/-- The computed length of a vector without NaN is not NaN. -/
theorem velocityAbs_number {v : List (Fl f)} (h : ∀ x ∈ v, x.isNan = false) : (Hooks.velocityAbs v).isNan = false := by
  rw [velocityAbs_fl]
  obtain ⟨h1, h2⟩ := sumSq_pos (v := v) (a := Fl.zero) Fl.isNan_zero (Fl.sgn_mk' _ (Nat.two_pow_pos _)) h
  exact (Fl.Pos.sqrt (.inr h2)).2 h1

theorem slow_of_hook {m : Fl f} (hm : GoodLimit m) {v r : List (Fl f)} {s s' : σ}
    (h : Hooks.maxVelocityAbs m v s = .ok (r, s')) (hf : Few f r.length) : Slow m r := by
  obtain ⟨r', e1, e0, e2, e3⟩ := C44_total m v s
  rw [h] at e1; cases e1
  by_cases hn : ∃ x ∈ r, x.isNan = true
  · exact .inl hn
  refine .inr ?_
  have hn' : ∀ x ∈ r, x.isNan = false := by
    intro x hx
    cases e : x.isNan with
    | false => rfl
    | true => exact absurd ⟨x, hx, e⟩ hn
  cases hfin : (Hooks.velocityAbs v).isFinite with
  | true =>
    have hl := C44_speed m v r s _ h hm.nonneg hm.finite hm.normal hfin (by rw [← e0]; exact hf)
    rw [← e0] at hl
    refine ⟨?_, hl⟩
    cases hlt : m.lt (Hooks.velocityAbs v) with
    | true => exact (C44_direction m v r s _ h hm.nonneg hm.normal hlt hfin (by rw [← e0]; exact hf)).1
    | false =>
      rw [e2 hlt]
      exact (sumSq_finite (Fl.finite_of_sqrt hfin)).2
  | false =>
    cases hi : (Hooks.velocityAbs v).isInf with
    | true =>
      have hz := C44_overflow m v r s _ h hi hm.finite
      have hz' : ∀ x ∈ r, x.isZero = true := fun x hx => (hz x hx).resolve_left (by rw [hn' x hx]; simp)
      have hv : ∀ x ∈ r, value x = 0 := by
        intro x hx
        unfold value
        rw [Fl.toInt_eq_zero.2 (Fl.isZero_iff.1 (hz' x hx))]
        simp
      refine ⟨fun x hx => ?_, ?_⟩
      · rw [Fl.isFinite_iff, Fl.isZero_iff.1 (hz' x hx)]
        exact f.infIdx_pos
      · have : r.map value = r.map fun _ => (0 : ℝ) := List.map_congr_left hv
        rw [this]
        refine le_trans (length₂_const 0 le_rfl r) ?_
        rw [mul_zero]
        exact speedLimit_nonneg hm _
    | false =>
      exfalso
      have hnan : (Hooks.velocityAbs v).isNan = true := by
        rcases Fl.isFinite_false_cases hfin with e | e
        · exact e
        · rw [hi] at e; cases e
      have hlt : m.lt (Hooks.velocityAbs v) = false := by
        cases e : m.lt (Hooks.velocityAbs v) with
        | false => rfl
        | true => have := (Fl.lt_iff.1 e).2.1; rw [hnan] at this; cases this
      have := e2 hlt
      subst this
      rw [velocityAbs_number hn'] at hnan
      cases hnan

theorem abs_into {m : Fl f} (hm : GoodLimit m) (c : Comps σ (Fl f)) (h : AbsLast m c) :
    VelInto (fun v => Few f v.length → Slow m v) c := by
  obtain ⟨pre, hp⟩ := h
  intro x y hxy hf
  rw [hp] at hxy
  obtain ⟨z, -, hz⟩ := hooked_append hxy
  cases hz with
  | cons hk hn =>
    cases hn
    obtain ⟨s, s', hk⟩ := hk
    exact slow_of_hook hm hk hf

/-- C86: no particle is ever moved with a velocity longer than the limit, up to rounding, at any point of any history. The
calculator, the other correctors and the initial velocities are arbitrary. -/
theorem C86_used (m : Fl f) (hm : GoodLimit m) (o o' : Opt σ (Fl f)) (w w' : World σ (List (Fl f))) (ks : List (Call σ (Fl f)))
    (pt : Point) (h0 : Fresh o w) (hc : Always (AbsLast m) o.comps ks) (hr : runTo o ks pt w = .ok (o', w')) :
    ∀ raw v, .velocity raw v ∈ w'.trace → Few f v.length → Slow m v := by
  have h2 := ((inv_speed _).runTo (always_imp (abs_into hm) hc) hr (by rw [h0.2]; simp)).1
  exact fun raw v hv => h2 _ hv

/-- C86: after each turn of the loop the velocities of all particles are within the limit. -/
theorem C86_velocities (m : Fl f) (hm : GoodLimit m) (o o1 : Opt σ (Fl f)) (w w1 w2 : World σ (List (Fl f)))
    (ks : List (Call σ (Fl f))) (pt : Point) (s' : PSO.Swarm (Fl f)) (h0 : Fresh o w)
    (hc : Always (AbsLast m) o.comps ks) (hr : runTo o ks pt w = .ok (o1, w1))
    (hs : step o1.comps o1.swarm w1 = .ok (s', w2)) : ∀ p ∈ s'.particles, Few f p.velocity.length → Slow m p.velocity := by
  intro p' hp'
  have h := C69_each o o1 w w1 w2 ks pt s' h0 hr hs
  obtain ⟨n, hn, rfl⟩ := List.getElem_of_mem hp'
  obtain ⟨s1, evs, -, -, -, ⟨m⟩⟩ := (List.forall₂_iff_get.1 h).2 n (by rw [h.length_eq]; exact hn) hn
  exact abs_into hm o1.comps (always_runTo hc hr) _ _ m.corrected

/-! ## The way of a particle -/

theorem distance_self (x : List (Fl f)) : distance x x = 0 := by
  unfold distance
  have : List.zipWith (fun a b : Fl f => value b - value a) x x = x.map fun _ => (0 : ℝ) := by
    induction x with
    | nil => rfl
    | cons a x ih => simp only [List.zipWith_cons_cons, List.map_cons, ih, sub_self]
  rw [this]
  refine le_antisymm ?_ (length₂_nonneg _)
  have := length₂_const 0 le_rfl x
  simpa using this

theorem distance_triangle {x y z : List (Fl f)} (h1 : x.length = y.length) (h2 : y.length = z.length) :
    distance x z ≤ distance x y + distance y z := by
  have key : ∀ {x y z : List (Fl f)}, x.length = y.length → y.length = z.length →
      ∃ t : List (Fl f × Fl f × Fl f), List.zipWith (fun a b : Fl f => value b - value a) x y = t.map (fun p => value p.2.1 - value p.1) ∧
        List.zipWith (fun a b : Fl f => value b - value a) y z = t.map (fun p => value p.2.2 - value p.2.1) ∧
        List.zipWith (fun a b : Fl f => value b - value a) x z = t.map (fun p => (value p.2.1 - value p.1) + (value p.2.2 - value p.2.1)) := by
    intro x
    induction x with
    | nil => intro y z h1 h2; cases y with
      | nil => cases z with
        | nil => exact ⟨[], rfl, rfl, rfl⟩
        | cons _ _ => cases h2
      | cons _ _ => cases h1
    | cons a x ih => intro y z h1 h2; cases y with
      | nil => cases h1
      | cons b y => cases z with
        | nil => cases h2
        | cons c z =>
          obtain ⟨t, e1, e2, e3⟩ := ih (Nat.succ.inj h1) (Nat.succ.inj h2)
          refine ⟨(a, b, c) :: t, ?_, ?_, ?_⟩
          · simp only [List.zipWith_cons_cons, List.map_cons, e1]
          · simp only [List.zipWith_cons_cons, List.map_cons, e2]
          · simp only [List.zipWith_cons_cons, List.map_cons, e3]
            congr 1; ring
  obtain ⟨t, e1, e2, e3⟩ := key h1 h2
  unfold distance
  rw [e1, e2, e3]
  exact length₂_add _ _ _

/-- Adding a velocity moves a point by at most twice the length of the velocity. -/
theorem distance_add {x v : List (Fl f)} (hl : x.length = v.length) (h : ∀ y ∈ List.zipWith Fl.add x v, y.isFinite = true) :
    distance x (List.zipWith Fl.add x v) ≤ 2 * length₂ (v.map value) ∧
    distance x (List.zipWith Fl.add x v) ≤ length₂ (v.map value) + roundoff f * (length₂ (x.map value) + length₂ (v.map value)) := by
  have key : ∀ {x v : List (Fl f)}, x.length = v.length → (∀ y ∈ List.zipWith Fl.add x v, y.isFinite = true) →
      ∃ t : List (Fl f × Fl f), x = t.map Prod.fst ∧ v = t.map Prod.snd ∧ (∀ p ∈ t, (p.1.add p.2).isFinite = true) ∧
        List.zipWith (fun a b : Fl f => value b - value a) x (List.zipWith Fl.add x v) = t.map (fun p => value (p.1.add p.2) - value p.1) := by
    intro x
    induction x with
    | nil => intro v h _; cases v with
      | nil => exact ⟨[], rfl, rfl, by simp, rfl⟩
      | cons _ _ => cases h
    | cons a x ih => intro v h hf; cases v with
      | nil => cases h
      | cons b v =>
        rw [List.zipWith_cons_cons] at hf
        obtain ⟨t, e1, e2, e3, e4⟩ := ih (Nat.succ.inj h) fun y hy => hf y (List.mem_cons_of_mem _ hy)
        refine ⟨(a, b) :: t, by rw [List.map_cons, ← e1], by rw [List.map_cons, ← e2], ?_, ?_⟩
        · intro p hp
          rcases List.mem_cons.1 hp with rfl | hp
          · exact hf _ List.mem_cons_self
          · exact e3 p hp
        · simp only [List.zipWith_cons_cons, List.map_cons, e4]
  obtain ⟨t, e1, e2, e3, e4⟩ := key hl h
  unfold distance
  rw [e4, e1, e2, List.map_map, List.map_map]
  constructor
  · refine le_trans (length₂_mono (h := fun p : Fl f × Fl f => 2 * |value p.2|) fun p hp => Fl.add_moves (e3 p hp)) ?_
    rw [length₂_smul 2 (by norm_num) (fun p : Fl f × Fl f => |value p.2|)]
    refine mul_le_mul_of_nonneg_left (le_of_eq ?_) (by norm_num)
    unfold length₂
    simp only [List.map_map]
    congr 2
    apply List.map_congr_left
    intro p _
    simp [sq_abs]
  · have hu := Fl.roundoff_pos (f := f)
    have g1 : t.map (fun p => value (p.1.add p.2) - value p.1) =
        t.map (fun p => value p.2 + (value (p.1.add p.2) - (value p.1 + value p.2))) := by
      apply List.map_congr_left; intro p _; ring
    rw [g1]
    refine le_trans (length₂_add _ _ _) ?_
    have g2 : length₂ (t.map fun p => value (p.1.add p.2) - (value p.1 + value p.2)) ≤
        length₂ (t.map fun p => roundoff f * |value p.1 + value p.2|) := by
      refine length₂_mono fun p hp => ?_
      rw [mul_comm]
      exact Fl.add_err (e3 p hp)
    rw [length₂_smul _ hu.le (fun p : Fl f × Fl f => |value p.1 + value p.2|)] at g2
    have g3 : length₂ (t.map fun p : Fl f × Fl f => |value p.1 + value p.2|) = length₂ (t.map fun p => value p.1 + value p.2) := by
      unfold length₂
      simp only [List.map_map]
      congr 2
      apply List.map_congr_left
      intro p _
      simp [sq_abs]
    rw [g3] at g2
    have g4 := length₂_add (fun p : Fl f × Fl f => value p.1) (fun p => value p.2) t
    have g5 := mul_le_mul_of_nonneg_left g4 hu.le
    exact add_le_add le_rfl (le_trans g2 g5)

section Any

variable {α : Type} [FloatT α]

theorem moves_other {c : Comps σ α} {ns : List Nat} {s s' : PSO.Swarm α} {evs : List (Ev (List α))} (h : Moves c ns s evs s') :
    ∀ n, n ∉ ns → s'.particles[n]? = s.particles[n]? := by
  induction h with
  | nil => simp
  | cons _ _ _ ih =>
    intro n hn
    rw [List.mem_cons, not_or] at hn
    rw [ih n hn.2, List.getElem?_set_ne (Ne.symm hn.1)]

/-- The velocity of every particle that was moved is in the trace. -/
theorem moves_recorded {c : Comps σ α} {ns : List Nat} {s s' : PSO.Swarm α} {evs : List (Ev (List α))} (h : Moves c ns s evs s') :
    ns.Nodup → ∀ n ∈ ns, ∀ p', s'.particles[n]? = some p' → ∃ raw, .velocity raw p'.velocity ∈ evs := by
  induction h with
  | nil => simp
  | @cons n ns s p evs p1 evs' s' hp hm hrest ih =>
    intro hd k hk p' hp'
    rw [List.nodup_cons] at hd
    rcases List.mem_cons.1 hk with rfl | hk
    · have e := moves_other hrest k hd.1
      rw [hp'] at e
      have hlt : k < s.particles.length := (List.getElem?_eq_some_iff.1 hp).1
      rw [List.getElem?_set_self hlt] at e
      cases e
      obtain ⟨m⟩ := hm
      exact ⟨m.raw, List.mem_append_left _ (Eq.mpr (congrArg (Ev.velocity m.raw p1.velocity ∈ ·) m.events_ok) List.mem_cons_self)⟩
    · obtain ⟨raw, hr⟩ := ih hd.2 k hk p' hp'
      exact ⟨raw, List.mem_append_right _ hr⟩

/-- The trace only grows. -/
theorem inv_grows (tr0 : List (Ev (List α))) : Inv (σ := σ) (α := α) (fun _ => True) (fun _ tr => ∀ e ∈ tr0, e ∈ tr) where
  log := fun p tr i k h e he => List.mem_append_left _ (h e he)
  check := fun p tr b h e he => List.mem_append_left _ (h e he)
  begin := by
    rintro c p p' w w' hc h hr e he
    obtain ⟨raws, xs, vs, ps, -, -, -, hxs, hps, -, ht⟩ := begin_ok hr
    rw [ht]
    exact List.mem_append_left _ (h e he)
  core := by
    rintro c p p' w w' hc h hr e he
    obtain ⟨evs, s1, hmv, -, ht⟩ := core_ok hr
    rw [ht]
    exact List.mem_append_left _ (h e he)

theorem step_recorded {c : Comps σ α} {s s' : PSO.Swarm α} {w w' : World σ (List α)} (h : step c s w = .ok (s', w')) :
    ∀ p' ∈ s'.particles, ∃ raw, .velocity raw p'.velocity ∈ w'.trace := by
  obtain ⟨w1, h1, h2⟩ := step_ok.1 h
  obtain ⟨evs, s1, hmv, e, ht⟩ := core_ok h1
  have e2 : s'.particles = s1.particles := by
    rw [e]; exact (updateWorst_particles _).trans (updateBest_particles _)
  intro p' hp'
  rw [e2] at hp'
  obtain ⟨n, hn⟩ := List.getElem?_of_mem hp'
  have hl : n < s.particles.length := by
    rw [hmv.all.2.length_eq]
    exact (List.getElem?_eq_some_iff.1 hn).1
  obtain ⟨raw, hr⟩ := moves_recorded hmv List.nodup_range n (List.mem_range.2 hl) p' hn
  refine ⟨raw, ?_⟩
  have := (inv_grows (σ := σ) (α := α) w1.trace).callLoggers (p := s') h2 (fun e he => he)
  apply this
  rw [ht]
  exact List.mem_append_right _ (List.mem_append_left _ hr)

end Any

/-- One move with a corrected velocity, without post-move hooks. -/
theorem move_distance {m : Fl f} (hm : GoodLimit m) {c : Comps σ (Fl f)} (hc : AbsLast m c) (hp : c.postMove = []) {s1 : PSO.Swarm (Fl f)}
    {p p' : Particle (Fl f)} {evs : List (Ev (List (Fl f)))} (mv : Move c s1 p evs p') {n : Nat} (hn : Few f n)
    (hx : p.coordinates.length = n) (hv : p'.velocity.length = n) :
    p'.coordinates.length = n ∧ ((∀ y ∈ p'.coordinates, y.isFinite = true) →
      (∀ y ∈ p.coordinates, y.isFinite = true) ∧ distance p.coordinates p'.coordinates ≤ 2 * speedLimit m n ∧
      distance p.coordinates p'.coordinates ≤ speedLimit m n + roundoff f * (length₂ (p.coordinates.map value) + speedLimit m n)) := by
  have hs : Slow m p'.velocity := abs_into hm c hc _ _ mv.corrected (by rw [hv]; exact hn)
  have hmo := mv.moved
  rw [hp] at hmo
  generalize hz : List.zipWith FloatT.add p.coordinates p'.velocity = z at hmo
  have hmo : z = p'.coordinates := by cases hmo; rfl
  rw [← hmo, ← hz]
  have hl : p.coordinates.length = p'.velocity.length := by omega
  refine ⟨by rw [List.length_zipWith]; omega, fun hfin => ?_⟩
  have hboth : ∀ (i : Nat) (h1 : i < p.coordinates.length) (h2 : i < p'.velocity.length),
      p.coordinates[i].isFinite = true ∧ p'.velocity[i].isFinite = true := by
    intro i h1 h2
    have hi : i < (List.zipWith Fl.add p.coordinates p'.velocity).length := by rw [List.length_zipWith]; omega
    have := hfin _ (List.getElem_mem hi)
    rw [List.getElem_zipWith] at this
    exact Fl.finite_of_add this
  obtain ⟨d1, d2⟩ := distance_add hl hfin
  have hlen : length₂ (p'.velocity.map value) ≤ speedLimit m n := by
    rcases hs with ⟨x, hx, hnan⟩ | ⟨-, hs⟩
    · obtain ⟨i, hi, rfl⟩ := List.getElem_of_mem hx
      rw [Fl.isNan_of_isFinite (hboth i (by omega) hi).2] at hnan
      cases hnan
    · rw [hv] at hs; exact hs
  have hu := Fl.roundoff_pos (f := f)
  refine ⟨?_, le_trans d1 (by linarith), le_trans d2 ?_⟩
  · intro y hy
    obtain ⟨i, hi, rfl⟩ := List.getElem_of_mem hy
    exact (hboth i hi (by omega)).1
  · have := mul_le_mul_of_nonneg_left (add_le_add (le_refl (length₂ (p.coordinates.map value))) hlen) hu.le
    linarith

/-- C86: so a turn without post-move hooks that leaves a particle at finite coordinates has moved it by at most twice the limit,
and by at most the limit plus the rounding error of the addition. `n` is the dimension. -/
theorem C86_distance (m : Fl f) (hm : GoodLimit m) (n : Nat) (hn : Few f n) (o o1 : Opt σ (Fl f)) (w w1 w2 : World σ (List (Fl f)))
    (ks : List (Call σ (Fl f))) (pt : Point) (s' : PSO.Swarm (Fl f)) (h0 : Fresh o w)
    (hc : Always (AbsLast m) o.comps ks) (hr : runTo o ks pt w = .ok (o1, w1)) (hp : o1.comps.postMove = [])
    (hs : step o1.comps o1.swarm w1 = .ok (s', w2)) :
    List.Forall₂ (fun (p p' : Particle (Fl f)) => p.coordinates.length = n → p'.velocity.length = n →
        (∀ y ∈ p'.coordinates, y.isFinite = true) →
        distance p.coordinates p'.coordinates ≤ 2 * speedLimit m n ∧
        distance p.coordinates p'.coordinates ≤ speedLimit m n + roundoff f * (length₂ (p.coordinates.map value) + speedLimit m n))
      o1.swarm.particles s'.particles := by
  refine (C69_each o o1 w w1 w2 ks pt s' h0 hr hs).imp ?_
  rintro p p' ⟨s1, evs, -, -, -, ⟨mv⟩⟩ hx hv hfin
  exact ((move_distance hm (always_runTo hc hr) hp mv hn hx hv).2 hfin).2

theorem turns_distance {m : Fl f} (hm : GoodLimit m) {n : Nat} (hn : Few f n) {c : Comps σ (Fl f)} (hc : AbsLast m c)
    (hp : c.postMove = []) : ∀ {k : Nat} {s s' : PSO.Swarm (Fl f)} {w w' : World σ (List (Fl f))},
    turns c k s w = .ok (s', w') → (∀ raw v, .velocity raw v ∈ w'.trace → v.length = n) →
    List.Forall₂ (fun p p' => p.coordinates.length = n → p'.coordinates.length = n ∧ ((∀ y ∈ p'.coordinates, y.isFinite = true) →
      (∀ y ∈ p.coordinates, y.isFinite = true) ∧ distance p.coordinates p'.coordinates ≤ k * (2 * speedLimit m n)))
      s.particles s'.particles := by
  intro k
  induction k with
  | zero =>
    intro s s' w w' hr _
    obtain ⟨rfl, rfl⟩ := M.pure_eq_ok.1 hr
    refine List.forall₂_same.2 fun p _ hx => ⟨hx, fun hf => ⟨hf, ?_⟩⟩
    rw [distance_self]
    simp
  | succ k ih =>
    intro s s' w w' hr hd
    obtain ⟨u, -, s1, w1, h1, h2⟩ := turns_succ_ok.1 hr
    have hgrow := (inv_grows (σ := σ) (α := Fl f) w1.trace).turns (c := c) trivial h2 (fun e he => he)
    have hrest := ih h2 hd
    obtain ⟨w2, g1, g2⟩ := step_ok.1 h1
    obtain ⟨evs, s2, hmv, e, -⟩ := core_ok g1
    have e2 : s1.particles = s2.particles := by
      rw [e]; exact (updateWorst_particles _).trans (updateBest_particles _)
    have hfirst := hmv.all.2
    rw [← e2] at hfirst
    have hrec := step_recorded h1
    refine List.forall₂_iff_get.2 ⟨hfirst.length_eq.trans hrest.length_eq, fun i hi1 hi2 => ?_⟩
    have hi3 : i < s1.particles.length := by rw [← hfirst.length_eq]; exact hi1
    obtain ⟨t, evs1, -, -, -, -, -, ⟨mv⟩⟩ := (List.forall₂_iff_get.1 hfirst).2 i hi1 hi3
    have hb := (List.forall₂_iff_get.1 hrest).2 i hi3 hi2
    simp only [List.get_eq_getElem] at mv hb ⊢
    intro hx
    have hv : (s1.particles[i]).velocity.length = n := by
      obtain ⟨raw, hr⟩ := hrec _ (List.getElem_mem hi3)
      exact hd raw _ (hgrow _ hr)
    obtain ⟨a1, a2⟩ := move_distance hm hc hp mv hn hx hv
    obtain ⟨b1, b2⟩ := hb a1
    refine ⟨b1, fun hfin => ?_⟩
    obtain ⟨b3, b4⟩ := b2 hfin
    obtain ⟨a3, a4, -⟩ := a2 b3
    refine ⟨a3, le_trans (distance_triangle (hx.trans a1.symm) (a1.trans b1.symm)) ?_⟩
    push_cast
    linarith

/-- C86: in `k` turns of the loop without post-move hooks a particle that ends at finite coordinates goes no farther than `k` times
twice the limit. `n` is the dimension of the velocities used so far. -/
theorem C86_reach (m : Fl f) (hm : GoodLimit m) (n : Nat) (hn : Few f n) (o o1 : Opt σ (Fl f)) (w w1 w2 : World σ (List (Fl f)))
    (ks : List (Call σ (Fl f))) (pt : Point) (k : Nat) (s' : PSO.Swarm (Fl f)) (_h0 : Fresh o w)
    (hc : Always (AbsLast m) o.comps ks) (hr : runTo o ks pt w = .ok (o1, w1)) (hp : o1.comps.postMove = [])
    (hs : turns o1.comps k o1.swarm w1 = .ok (s', w2)) (hd : ∀ raw v, .velocity raw v ∈ w2.trace → v.length = n) :
    List.Forall₂ (fun (p p' : Particle (Fl f)) => p.coordinates.length = n → (∀ y ∈ p'.coordinates, y.isFinite = true) →
        distance p.coordinates p'.coordinates ≤ k * (2 * speedLimit m n))
      o1.swarm.particles s'.particles :=
  (turns_distance hm hn (always_runTo hc hr) hp hs hd).imp fun _ _ h hx hfin => ((h hx).2 hfin).2

/-! ## Instances -/

/-- The demo optimizer with MaxVelocityAbs instead, and without post-move hooks. -/
def slow : PSO.Opt (List Nat) F64 :=
  { SwarmDemo.opt with comps := { SwarmDemo.opt.comps with postVel := [Hooks.maxVelocityAbs Fl.one], postMove := [] } }

/-- The limit 1 is good in `f64`, and one component is few. -/
theorem slow_limit : GoodLimit (Fl.one : F64) ∧ Few .f64 1 := by
  refine ⟨⟨by decide +kernel, by decide +kernel, ?_⟩, ?_⟩
  · have h1 : value (Fl.one : F64) = 1 := by
      unfold value
      rw [Fl.toInt_one]
      exact div_self (ne_of_gt (by exact_mod_cast Fmt.f64.D_pos))
    rw [h1, one_pow]
    unfold minNormal
    rw [div_le_one Fl.D_posR]
    have : 2 ^ Fmt.f64.mw ≤ Fmt.f64.D := Nat.pow_le_pow_right (by norm_num) (by decide)
    exact_mod_cast this
  · unfold Few roundoff
    norm_num [Fmt.f64]

/-- Its history meets the hypotheses: a velocity was shortened to 1, and two more turns are possible after the head of the loop;
all velocities used have one component and the coordinates stay finite. -/
example : Always (AbsLast (Fl.one : F64)) slow.comps SwarmDemo.calls ∧ Fresh slow SwarmDemo.world ∧ slow.comps.postMove = [] ∧
    M.okAnd ((do
      let o1 ← runTo slow [] (.inFindMin 0)
      let s' ← turns o1.comps 2 o1.swarm
      pure (o1, s') : M _ _) SwarmDemo.world) (fun r w =>
        (w.trace.all fun e => match e with | .velocity _ v => v.length == 1 | _ => true) &&
        (w.trace.any fun e => match e with | .velocity _ v => v == [Fl.one.neg] | _ => false) &&
        r.1.swarm.particles.length == 3 && r.2.particles.all fun p => p.coordinates.all Fl.isFinite && p.coordinates.length == 1) = true :=
  ⟨⟨⟨[], rfl⟩, ⟨[], rfl⟩, ⟨[], rfl⟩, [], rfl⟩, ⟨rfl, rfl⟩, rfl, by decide +kernel⟩

/-- C86: the initial velocities are not corrected: before the first turn a particle can have a velocity beyond the limit. -/
theorem C86_initial_witness : AbsLast Fl.one { fast.comps with postVel := [Hooks.maxVelocityAbs Fl.one] } ∧
    ∃ o' w', runTo { fast with comps := { fast.comps with postVel := [Hooks.maxVelocityAbs Fl.one] } } [] (.inFindMin 0)
      SwarmDemo.world = .ok (o', w') ∧ ∃ p ∈ o'.swarm.particles, ¬ Slow Fl.one p.velocity := by
  refine ⟨⟨[], rfl⟩, ?_⟩
  have : M.okAnd (runTo { fast with comps := { fast.comps with postVel := [Hooks.maxVelocityAbs Fl.one] } } [] (.inFindMin 0)
      SwarmDemo.world) (fun o' _ => (o'.swarm.particles.map Particle.velocity).contains [Fl.ofNat 100]) = true := by decide +kernel
  obtain ⟨o', w', h, hp⟩ := M.okAnd_iff.1 this
  refine ⟨o', w', h, ?_⟩
  rw [List.contains_iff_mem, List.mem_map] at hp
  obtain ⟨p, hp, hv⟩ := hp
  refine ⟨p, hp, ?_⟩
  rw [hv]
  rintro (⟨x, hx, hn⟩ | ⟨-, hl⟩)
  · rw [List.mem_singleton] at hx
    subst hx
    exact absurd hn (by decide +kernel)
  · have h1 : value (Fl.one : F64) = 1 := by
      unfold value
      rw [Fl.toInt_one]
      exact div_self (ne_of_gt (by exact_mod_cast Fmt.f64.D_pos))
    have h2 : value (Fl.ofNat 100 : F64) = 100 := by
      have : (Fl.ofNat 100 : F64).toInt = 100 * Fmt.f64.D := by decide +kernel
      unfold value
      rw [this]
      push_cast
      exact mul_div_cancel_right₀ _ (ne_of_gt Fl.D_posR)
    have h3 : roundoff .f64 ≤ 1 / 100 := by unfold roundoff; norm_num [Fmt.f64]
    have h4 := le_length₂ (g := value) (v := [(Fl.ofNat 100 : F64)]) (x := Fl.ofNat 100) List.mem_cons_self
    rw [h2] at h4
    have h5 := le_trans h4 hl
    unfold speedLimit at h5
    rw [h1] at h5
    norm_num at h5
    linarith

end Verif.Props.Swarm
