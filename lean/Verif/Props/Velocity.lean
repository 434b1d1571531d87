import Verif.Model.Velocity
import Verif.Spec.Velocity
import Verif.IEEE.Algebra
import Verif.Props.HooksSpeed

/-!
# C45: the velocity calculators
-/

set_option linter.unusedSectionVars false

namespace Verif.Props

open Verif Spec PSO Velocity

variable {σ α : Type} [FloatT α]

theorem Drawn.append {R : Rng σ} {g : Fmt} {s s1 s2 : σ} {us vs : List (Fl g)} (h1 : Drawn R s us s1)
    (h2 : Drawn R s1 vs s2) : Drawn R s (us ++ vs) s2 := by
  induction h1 with
  | nil => exact h2
  | cons h _ ih => exact .cons h (ih h2)

/-- The draws are numbers from 0 to 1. -/
theorem drawn_range {R : Rng σ} {g : Fmt} {s s' : σ} {us : List (Fl g)} (h : Drawn R s us s') :
    ∀ u ∈ us, Fl.zero.le u = true ∧ u.le Fl.one = true := by
  induction h with
  | nil => simp
  | @cons s u s1 us s' h _ ih =>
    intro x hx
    rcases List.mem_cons.1 hx with rfl | hx
    · have h01 : (Fl.zero : Fl g).le Fl.one = true := by
        rw [Fl.le_iff]
        exact ⟨Fl.isNan_zero, Fl.isNan_one, by simp⟩
      have := R.flIncl_range (Fl.zero : Fl g) Fl.one s h01 Fl.isFinite_zero Fl.isFinite_one
      rw [h] at this
      exact this
    · exact ih x hx

theorem draw01_ok {R : Rng σ} {g : Fmt} {r : α} {s s' : σ} (h : draw01 R g s = .ok (r, s')) :
    ∃ u, r = FloatT.ofFl u ∧ R.flIncl (Fl.zero : Fl g) Fl.one s = (u, s') := by
  unfold draw01 at h
  obtain ⟨u, s1, h1, h⟩ := M.bind_eq_ok.1 h
  obtain ⟨rfl, rfl⟩ := M.pure_eq_ok.1 h
  unfold Rng.uniformFlIncl at h1
  split at h1
  · exact ⟨u, rfl, M.ofState_eq_ok.1 h1⟩
  · simp [M.fail] at h1

theorem draw01_tot (R : Rng σ) (g : Fmt) (s : σ) : ∃ (r : α) (s' : σ), draw01 R g s = .ok (r, s') := by
  have h01 : (Fl.zero : Fl g).le Fl.one = true := by
    rw [Fl.le_iff]
    exact ⟨Fl.isNan_zero, Fl.isNan_one, by simp⟩
  obtain ⟨u, s', h, -⟩ := R.uniformFlIncl_tot h01 Fl.isFinite_zero Fl.isFinite_one s
  exact ⟨FloatT.ofFl u, s', M.bind_eq_ok.2 ⟨u, s', h, rfl⟩⟩

theorem mapL_draws {β : Type} {R : Rng σ} {g : Fmt} {body : Nat → M σ β} {k : Nat}
    {Q : Nat → List (Fl g) → β → Prop}
    (hb : ∀ i s b s', body i s = .ok (b, s') → ∃ us, Drawn R s us s' ∧ us.length = k ∧ Q i us b) :
    ∀ (is : List Nat) (bs : List β) (s s' : σ), M.mapL body is s = .ok (bs, s') →
      ∃ us, Drawn R s us s' ∧ us.length = k * is.length ∧ bs.length = is.length ∧
        ∀ j (h1 : j < is.length) (h2 : j < bs.length), Q is[j] ((us.drop (k * j)).take k) bs[j] := by
  intro is
  induction is with
  | nil =>
    intro bs s s' h
    obtain ⟨rfl, rfl⟩ := M.mapL_nil_ok.1 h
    exact ⟨[], .nil, by simp, rfl, by simp⟩
  | cons i is ih =>
    intro bs s s' h
    obtain ⟨b, bs', s1, h1, h2, rfl⟩ := M.mapL_cons_ok.1 h
    obtain ⟨us, hd, hl, hq⟩ := hb i s b s1 h1
    obtain ⟨us', hd', hl', hlb, hq'⟩ := ih bs' s1 s' h2
    refine ⟨us ++ us', Drawn.append hd hd', by simp [hl, hl']; ring, by simp [hlb], ?_⟩
    intro j hj1 hj2
    cases j with
    | zero =>
      simp only [Nat.mul_zero, List.drop_zero, List.getElem_cons_zero]
      rw [List.take_append_of_le_length (by omega), ← hl, List.take_length]
      exact hq
    | succ j =>
      simp only [List.getElem_cons_succ]
      have e : (us ++ us').drop (k * (j + 1)) = us'.drop (k * j) := by
        rw [List.drop_append, List.drop_eq_nil_of_le (by rw [hl]; nlinarith), List.nil_append]
        congr 1; rw [hl, Nat.mul_add]; omega
      rw [e]
      exact hq' j (by simpa using hj1) (by simpa using hj2)

/-- The random factor number `n`, converted to the number type. -/
def factor {g : Fmt} (us : List (Fl g)) (n : Nat) : Option α := us[n]?.map FloatT.ofFl

theorem factor_window {g : Fmt} {us : List (Fl g)} {k j n : Nat} {r : α} (hn : n < k)
    (h : factor ((us.drop (k * j)).take k) n = some r) : factor us (k * j + n) = some r := by
  unfold factor at *
  rw [List.getElem?_take_of_lt hn, List.getElem?_drop] at h
  exact h

/-- The part the three two-term calculators share. -/
def body2 (R : Rng σ) (p g : Particle α) (form : α → α → α → α → α → α → α) (i : Nat) : M σ α := do
  let rP : α ← draw01 R Fmt.f32
  let rG : α ← draw01 R Fmt.f32
  let v ← M.index p.velocity i
  let b ← M.index p.bestCoords i
  let x ← M.index p.coordinates i
  let gb ← M.index g.coordinates i
  pure (form rP rG v b gb x)

theorem body2_ok {R : Rng σ} {p g : Particle α} {form : α → α → α → α → α → α → α} {i : Nat} {s s' : σ} {r : α}
    (h : body2 R p g form i s = .ok (r, s')) : ∃ us : List F32, Drawn R s us s' ∧ us.length = 2 ∧
      ∃ rP rG v b gb x, factor us 0 = some rP ∧ factor us 1 = some rG ∧ p.velocity[i]? = some v ∧
        p.bestCoords[i]? = some b ∧ g.coordinates[i]? = some gb ∧ p.coordinates[i]? = some x ∧
        r = form rP rG v b gb x := by
  unfold body2 at h
  obtain ⟨rP, s1, h1, h⟩ := M.bind_eq_ok.1 h
  obtain ⟨rG, s2, h2, h⟩ := M.bind_eq_ok.1 h
  obtain ⟨v, s3, h3, h⟩ := M.bind_eq_ok.1 h
  obtain ⟨b, s4, h4, h⟩ := M.bind_eq_ok.1 h
  obtain ⟨x, s5, h5, h⟩ := M.bind_eq_ok.1 h
  obtain ⟨gb, s6, h6, h⟩ := M.bind_eq_ok.1 h
  obtain ⟨rfl, rfl⟩ := M.pure_eq_ok.1 h
  obtain ⟨k3, rfl⟩ := M.index_eq_ok.1 h3
  obtain ⟨k4, rfl⟩ := M.index_eq_ok.1 h4
  obtain ⟨k5, rfl⟩ := M.index_eq_ok.1 h5
  obtain ⟨k6, rfl⟩ := M.index_eq_ok.1 h6
  obtain ⟨u1, rfl, d1⟩ := draw01_ok h1
  obtain ⟨u2, rfl, d2⟩ := draw01_ok h2
  exact ⟨[u1, u2], .cons d1 (.cons d2 .nil), rfl, _, _, v, b, gb, x, rfl, rfl, k3, k4, k6, k5, rfl⟩

/-- What the two-term calculators do: one component for each coordinate, each from two fresh draws and the formula. -/
def TwoTerm (R : Rng σ) (form : α → α → α → α → α → α → α) (p g : Particle α) (s : σ) (r : List α) (s' : σ) : Prop :=
  r.length = p.coordinates.length ∧ ∃ us : List F32, Drawn R s us s' ∧ us.length = 2 * p.coordinates.length ∧
    ∀ i (h : i < r.length), ∃ rP rG v b gb x, factor us (2 * i) = some rP ∧ factor us (2 * i + 1) = some rG ∧
      p.velocity[i]? = some v ∧ p.bestCoords[i]? = some b ∧ g.coordinates[i]? = some gb ∧ p.coordinates[i]? = some x ∧
      r[i] = form rP rG v b gb x

theorem twoTerm_ok {R : Rng σ} {form : α → α → α → α → α → α → α} {p g : Particle α} {s s' : σ} {r : List α}
    (h : M.mapL (body2 R p g form) (List.range p.coordinates.length) s = .ok (r, s')) : TwoTerm R form p g s r s' := by
  obtain ⟨us, hd, hl, hlb, hq⟩ := mapL_draws (body := body2 R p g form) (fun i s b s' h => body2_ok h) _ _ _ _ h
  rw [List.length_range] at hl hlb
  refine ⟨hlb, us, hd, hl, ?_⟩
  intro i hi
  obtain ⟨rP, rG, v, b, gb, x, f1, f2, e1, e2, e3, e4, e5⟩ := hq i (by rw [List.length_range]; omega) hi
  rw [List.getElem_range] at e1 e2 e3 e4
  exact ⟨rP, rG, v, b, gb, x, factor_window (by omega) f1, factor_window (by omega) f2, e1, e2, e3, e4, e5⟩

/-- C45, ClassicVelocityCalculator. -/
theorem C45_classic (R : Rng σ) (phiP phiG : α) (sw : PSO.Swarm α) (p : Particle α) (s s' : σ) (r : List α)
    (h : classic R phiP phiG sw p s = .ok (r, s')) :
    ∃ g, sw.best = some g ∧ TwoTerm R (classicFormula phiP phiG) p g s r s' := by
  unfold classic at h
  obtain ⟨g, s1, h1, h⟩ := M.bind_eq_ok.1 h
  obtain ⟨hg, rfl⟩ := M.unwrap_eq_ok.1 h1
  exact ⟨g, hg, twoTerm_ok h⟩

/-- C45, CanonicalVelocityCalculator. -/
theorem C45_canonical (R : Rng σ) (c : Canonical α) (sw : PSO.Swarm α) (p : Particle α) (s s' : σ) (r : List α)
    (h : canonical R c sw p s = .ok (r, s')) :
    ∃ g, sw.best = some g ∧ TwoTerm R (canonicalFormula c.xi c.phiP c.phiG) p g s r s' := by
  unfold canonical at h
  obtain ⟨g, s1, h1, h⟩ := M.bind_eq_ok.1 h
  obtain ⟨hg, rfl⟩ := M.unwrap_eq_ok.1 h1
  exact ⟨g, hg, twoTerm_ok h⟩

/-- C45, InertiaVelocityCalculator: the weight is asked for once, with the number of the iteration, before the draws. -/
theorem C45_inertia (R : Rng σ) (phiP phiG : α) (get : Nat → M σ α) (sw : PSO.Swarm α) (p : Particle α) (s s' : σ)
    (r : List α) (h : inertia R phiP phiG get sw p s = .ok (r, s')) :
    ∃ g w s1, sw.best = some g ∧ get sw.iteration s = .ok (w, s1) ∧
      TwoTerm R (inertiaFormula w phiP phiG) p g s1 r s' := by
  unfold inertia at h
  obtain ⟨g, s1, h1, h⟩ := M.bind_eq_ok.1 h
  obtain ⟨hg, rfl⟩ := M.unwrap_eq_ok.1 h1
  obtain ⟨w, s2, h2, h⟩ := M.bind_eq_ok.1 h
  exact ⟨g, w, s2, hg, h2, twoTerm_ok h⟩

/-- C45, NegativeReinforcement: six fresh draws for each component; the best and worst of the swarm as it is now come from the
particles. -/
theorem C45_negative (R : Rng σ) (c : NegReinf α) (sw : PSO.Swarm α) (p : Particle α) (s s' : σ) (r : List α)
    (h : negReinf R c sw p s = .ok (r, s')) :
    ∃ bg bc wg wc, sw.best = some bg ∧ findBest sw.particles = some bc ∧ sw.worst = some wg ∧
      findWorst sw.particles = some wc ∧ r.length = p.coordinates.length ∧
      ∃ us : List F64, Drawn R s us s' ∧ us.length = 6 * p.coordinates.length ∧
      ∀ i (h : i < r.length), ∃ rbG rbC rbP rwG rwC rwP v pb cb gb pw cw gw x,
        factor us (6 * i) = some rbG ∧ factor us (6 * i + 1) = some rbC ∧ factor us (6 * i + 2) = some rbP ∧
        factor us (6 * i + 3) = some rwG ∧ factor us (6 * i + 4) = some rwC ∧ factor us (6 * i + 5) = some rwP ∧
        p.velocity[i]? = some v ∧ p.bestCoords[i]? = some pb ∧ bc.coordinates[i]? = some cb ∧
        bg.coordinates[i]? = some gb ∧ p.worstCoords[i]? = some pw ∧ wc.coordinates[i]? = some cw ∧
        wg.coordinates[i]? = some gw ∧ p.coordinates[i]? = some x ∧
        r[i] = negativeFormula c.xi c.phiBestPersonal c.phiBestCurrent c.phiBestGlobal c.phiWorstPersonal
          c.phiWorstCurrent c.phiWorstGlobal rbP rbC rbG rwP rwC rwG v pb cb gb pw cw gw x := by
  unfold negReinf at h
  obtain ⟨bg, s1, h1, h⟩ := M.bind_eq_ok.1 h
  obtain ⟨hbg, rfl⟩ := M.unwrap_eq_ok.1 h1
  obtain ⟨bc, s1, h1, h⟩ := M.bind_eq_ok.1 h
  obtain ⟨hbc, rfl⟩ := M.unwrap_eq_ok.1 h1
  obtain ⟨wg, s1, h1, h⟩ := M.bind_eq_ok.1 h
  obtain ⟨hwg, rfl⟩ := M.unwrap_eq_ok.1 h1
  obtain ⟨wc, s1, h1, h⟩ := M.bind_eq_ok.1 h
  obtain ⟨hwc, rfl⟩ := M.unwrap_eq_ok.1 h1
  refine ⟨bg, bc, wg, wc, hbg, hbc, hwg, hwc, ?_⟩
  obtain ⟨us, hd, hl, hlb, hq⟩ := mapL_draws (R := R) (g := Fmt.f64) (k := 6)
    (Q := fun i us r => ∃ rbG rbC rbP rwG rwC rwP v pb cb gb pw cw gw x,
        factor us 0 = some rbG ∧ factor us 1 = some rbC ∧ factor us 2 = some rbP ∧
        factor us 3 = some rwG ∧ factor us 4 = some rwC ∧ factor us 5 = some rwP ∧
        p.velocity[i]? = some v ∧ p.bestCoords[i]? = some pb ∧ bc.coordinates[i]? = some cb ∧
        bg.coordinates[i]? = some gb ∧ p.worstCoords[i]? = some pw ∧ wc.coordinates[i]? = some cw ∧
        wg.coordinates[i]? = some gw ∧ p.coordinates[i]? = some x ∧
        r = negativeFormula c.xi c.phiBestPersonal c.phiBestCurrent c.phiBestGlobal c.phiWorstPersonal
          c.phiWorstCurrent c.phiWorstGlobal rbP rbC rbG rwP rwC rwG v pb cb gb pw cw gw x)
    (fun i s b s' h => by
      obtain ⟨r1, t1, d1, h⟩ := M.bind_eq_ok.1 h
      obtain ⟨r2, t2, d2, h⟩ := M.bind_eq_ok.1 h
      obtain ⟨r3, t3, d3, h⟩ := M.bind_eq_ok.1 h
      obtain ⟨r4, t4, d4, h⟩ := M.bind_eq_ok.1 h
      obtain ⟨r5, t5, d5, h⟩ := M.bind_eq_ok.1 h
      obtain ⟨r6, t6, d6, h⟩ := M.bind_eq_ok.1 h
      obtain ⟨bp, t7, h7, h⟩ := M.bind_eq_ok.1 h
      obtain ⟨x, t8, h8, h⟩ := M.bind_eq_ok.1 h
      obtain ⟨bcx, t9, h9, h⟩ := M.bind_eq_ok.1 h
      obtain ⟨bgx, t10, h10, h⟩ := M.bind_eq_ok.1 h
      obtain ⟨wp, t11, h11, h⟩ := M.bind_eq_ok.1 h
      obtain ⟨wcx, t12, h12, h⟩ := M.bind_eq_ok.1 h
      obtain ⟨wgx, t13, h13, h⟩ := M.bind_eq_ok.1 h
      obtain ⟨v, t14, h14, h⟩ := M.bind_eq_ok.1 h
      obtain ⟨rfl, rfl⟩ := M.pure_eq_ok.1 h
      obtain ⟨k7, rfl⟩ := M.index_eq_ok.1 h7
      obtain ⟨k8, rfl⟩ := M.index_eq_ok.1 h8
      obtain ⟨k9, rfl⟩ := M.index_eq_ok.1 h9
      obtain ⟨k10, rfl⟩ := M.index_eq_ok.1 h10
      obtain ⟨k11, rfl⟩ := M.index_eq_ok.1 h11
      obtain ⟨k12, rfl⟩ := M.index_eq_ok.1 h12
      obtain ⟨k13, rfl⟩ := M.index_eq_ok.1 h13
      obtain ⟨k14, rfl⟩ := M.index_eq_ok.1 h14
      obtain ⟨u1, rfl, e1⟩ := draw01_ok d1
      obtain ⟨u2, rfl, e2⟩ := draw01_ok d2
      obtain ⟨u3, rfl, e3⟩ := draw01_ok d3
      obtain ⟨u4, rfl, e4⟩ := draw01_ok d4
      obtain ⟨u5, rfl, e5⟩ := draw01_ok d5
      obtain ⟨u6, rfl, e6⟩ := draw01_ok d6
      exact ⟨[u1, u2, u3, u4, u5, u6], .cons e1 (.cons e2 (.cons e3 (.cons e4 (.cons e5 (.cons e6 .nil))))), rfl,
        _, _, _, _, _, _, v, bp, bcx, bgx, wp, wcx, wgx, x, rfl, rfl, rfl, rfl, rfl, rfl, k14, k7, k9, k10, k11, k12,
        k13, k8, rfl⟩) _ _ _ _ h
  rw [List.length_range] at hl hlb
  refine ⟨hlb, us, hd, hl, ?_⟩
  intro i hi
  obtain ⟨r1, r2, r3, r4, r5, r6, v, pb, cb, gb, pw, cw, gw, x, f1, f2, f3, f4, f5, f6, e1, e2, e3, e4, e5, e6, e7, e8, e9⟩ :=
    hq i (by rw [List.length_range]; omega) hi
  rw [List.getElem_range] at e1 e2 e3 e4 e5 e6 e7 e8
  exact ⟨r1, r2, r3, r4, r5, r6, v, pb, cb, gb, pw, cw, gw, x, factor_window (n := 0) (by omega) f1,
    factor_window (by omega) f2, factor_window (by omega) f3, factor_window (by omega) f4,
    factor_window (by omega) f5, factor_window (by omega) f6, e1, e2, e3, e4, e5, e6, e7, e8, e9⟩

/-- C45: the random factors are numbers from 0 to 1, also after conversion to the number type. -/
theorem C45_factors (R : Rng σ) {g f : Fmt} (s s' : σ) (us : List (Fl g)) (h : Drawn R s us s') (n : Nat) (r : Fl f)
    (hr : factor us n = some r) : Fl.zero.le r = true ∧ r.le Fl.one = true := by
  unfold factor at hr
  obtain ⟨u, hu, rfl⟩ := Option.map_eq_some_iff.1 hr
  obtain ⟨h1, h2⟩ := drawn_range h u (List.mem_of_getElem? hu)
  have hf := Fl.isFinite_of_between Fl.isFinite_zero Fl.isFinite_one h1 h2
  have hc := Fl.cast_rounds (g := f) hf
  have hD : (0 : ℝ) < g.D := by exact_mod_cast g.D_pos
  have a1 := (Fl.le_iff.1 h1).2.2
  have a2 := (Fl.le_iff.1 h2).2.2
  rw [Fl.toInt_zero] at a1
  rw [Fl.toInt_one] at a2
  have b1 : (0 : ℝ) ≤ u.toInt := by exact_mod_cast a1
  have b2 : (u.toInt : ℝ) ≤ g.D := by exact_mod_cast a2
  refine ⟨hc.ge Fl.isNan_zero ?_, hc.le Fl.isNan_one ?_⟩
  · simp; positivity
  · rw [Fl.toInt_one, div_le_iff₀ hD]
    push_cast
    rw [mul_comm]
    exact mul_le_mul_of_nonneg_left b2 (by positivity)

/-- C45, the same in exact arithmetic. -/
theorem C45_factors_exact (R : Rng σ) {g : Fmt} (s s' : σ) (us : List (Fl g)) (h : Drawn R s us s') (n : Nat) (r : ℝ)
    (hr : factor us n = some r) : 0 ≤ r ∧ r ≤ 1 := by
  unfold factor at hr
  obtain ⟨u, hu, rfl⟩ := Option.map_eq_some_iff.1 hr
  obtain ⟨h1, h2⟩ := drawn_range h u (List.mem_of_getElem? hu)
  have hD : (0 : ℝ) < g.D := by exact_mod_cast g.D_pos
  have a1 := (Fl.le_iff.1 h1).2.2
  have a2 := (Fl.le_iff.1 h2).2.2
  rw [Fl.toInt_zero] at a1
  rw [Fl.toInt_one] at a2
  have b1 : (0 : ℝ) ≤ u.toInt := by exact_mod_cast a1
  have b2 : (u.toInt : ℝ) ≤ g.D := by exact_mod_cast a2
  exact ⟨div_nonneg b1 hD.le, (div_le_one hD).2 b2⟩

/-! ### ConstInertia(1) -/

theorem inertia_one_fl {f : Fmt} (phiP phiG rP rG v p g x : Fl f) :
    inertiaFormula Fl.one phiP phiG rP rG v p g x = classicFormula phiP phiG rP rG v p g x := by
  unfold inertiaFormula classicFormula
  simp only [FloatT.mul, FloatT.add]
  cases hv : v.isNan with
  | false => rw [Fl.one_mul' v hv]
  | true =>
    rw [Fl.isNan_mul_right _ _ hv, Fl.isNan_add_left _ _ hv, Fl.isNan_add_left _ _ Fl.isNan_nan]

theorem inertia_eq_classic (R : Rng σ) (phiP phiG one : α)
    (h : ∀ rP rG v p g x, inertiaFormula one phiP phiG rP rG v p g x = classicFormula phiP phiG rP rG v p g x)
    (sw : PSO.Swarm α) (p : Particle α) (s : σ) :
    inertia R phiP phiG (constInertia one) sw p s = classic R phiP phiG sw p s := by
  unfold inertia classic
  rw [M.bind_run, M.bind_run]
  cases hg : M.unwrap sw.best s with
  | error e => rfl
  | ok gs =>
    obtain ⟨g, s1⟩ := gs
    show M.mapL (body2 R p g (inertiaFormula one phiP phiG)) _ s1 = M.mapL (body2 R p g (classicFormula phiP phiG)) _ s1
    have : inertiaFormula one phiP phiG = classicFormula phiP phiG := by
      funext rP rG v p g x; exact h rP rG v p g x
    rw [this]

/-- C45: with ConstInertia(1) the inertia calculator does exactly what the classic one does, for floats (bit by bit, NaN and
infinities included) and in exact arithmetic. -/
theorem C45_inertia_one {f : Fmt} (R : Rng σ) (phiP phiG : Fl f) (sw : PSO.Swarm (Fl f)) (p : Particle (Fl f)) (s : σ) :
    inertia R phiP phiG (constInertia Fl.one) sw p s = classic R phiP phiG sw p s :=
  inertia_eq_classic R phiP phiG Fl.one (inertia_one_fl phiP phiG) sw p s

/-- C45: in exact arithmetic, too, inertia 1 gives the classic formula. -/
theorem C45_inertia_one_exact (R : Rng σ) (phiP phiG : ℝ) (sw : PSO.Swarm ℝ) (p : Particle ℝ) (s : σ) :
    inertia R phiP phiG (constInertia 1) sw p s = classic R phiP phiG sw p s :=
  inertia_eq_classic R phiP phiG 1 (by
    intro rP rG v p g x; unfold inertiaFormula classicFormula; simp only [FloatT.mul, FloatT.add, one_mul]) sw p s

/-! ### A particle on its personal and the global best -/

theorem sub_self_zero {f : Fmt} {x : Fl f} (hx : x.isFinite = true) :
    (x.sub x).isFinite = true ∧ (x.sub x).toInt = 0 := by
  have := Fl.sub_rounds hx hx
  rw [sub_self] at this
  have h2 : (x.sub x).toInt = 0 := by rw [this.2, f.rnd_zero]
  refine ⟨?_, h2⟩
  rw [Fl.isFinite_iff_toInt, h2]
  exact f.mag_pos.2 f.infIdx_pos

theorem pull_zero {f : Fmt} {phi r x : Fl f} (hp : phi.isFinite = true) (h0 : Fl.zero.le r = true)
    (h1 : r.le Fl.one = true) (hx : x.isFinite = true) :
    ((phi.mul r).mul (x.sub x)).isFinite = true ∧ ((phi.mul r).mul (x.sub x)).toInt = 0 := by
  have hr := Fl.isFinite_of_between Fl.isFinite_zero Fl.isFinite_one h0 h1
  have hD : (0 : ℝ) < f.D := by exact_mod_cast f.D_pos
  have a1 := (Fl.le_iff.1 h0).2.2
  have a2 := (Fl.le_iff.1 h1).2.2
  rw [Fl.toInt_zero] at a1
  rw [Fl.toInt_one] at a2
  have b1 : (0 : ℝ) ≤ r.toInt := by exact_mod_cast a1
  have b2 : (r.toInt : ℝ) ≤ f.D := by exact_mod_cast a2
  have hm := Fl.mul_rounds hp hr
  have hmf : (phi.mul r).isFinite = true := by
    rw [Fl.isFinite_iff_toInt, hm.2]
    have h2 : (f.rnd |(phi.toInt : ℝ) * r.toInt / f.D| : ℝ) ≤ |(phi.toInt : ℝ)| := by
      rw [← abs_le_of_rnd (Fl.isNan_of_isFinite hp)]
      have : |(phi.toInt : ℝ) * r.toInt / f.D| ≤ |(phi.toInt : ℝ)| := by
        rw [abs_div, abs_mul, abs_of_nonneg b1, abs_of_pos hD, div_le_iff₀ hD]
        exact mul_le_mul_of_nonneg_left b2 (abs_nonneg _)
      exact_mod_cast f.rnd_mono this
    rw [← f.rnd_abs] at h2
    have h3 : |f.rnd ((phi.toInt : ℝ) * r.toInt / f.D)| ≤ |phi.toInt| := by exact_mod_cast h2
    have h4 := Fl.isFinite_iff_toInt.1 hp
    rw [Int.abs_eq_natAbs, Int.abs_eq_natAbs] at h3
    omega
  obtain ⟨c1, c2⟩ := sub_self_zero hx
  have hm2 := Fl.mul_rounds hmf c1
  rw [c2] at hm2
  simp only [Int.cast_zero, mul_zero, zero_div] at hm2
  have e : ((phi.mul r).mul (x.sub x)).toInt = 0 := by rw [hm2.2, f.rnd_zero]
  refine ⟨?_, e⟩
  rw [Fl.isFinite_iff_toInt, e]
  exact f.mag_pos.2 f.infIdx_pos

theorem add_zero_value {f : Fmt} {v z : Fl f} (hv : v.isNan = false) (hz : z.isFinite = true) (h0 : z.toInt = 0) :
    (v.add z).isNan = false ∧ (v.add z).toInt = v.toInt := by
  cases hi : v.isInf with
  | true =>
    have : v.add z = v := by
      unfold Fl.add
      simp [hv, hi, Fl.isNan_of_isFinite hz, Fl.isInf_of_isFinite hz]
    rw [this]; exact ⟨hv, rfl⟩
  | false =>
    have := Fl.add_rounds (Fl.finite_of_not hv hi) hz
    rw [h0] at this
    simp only [Int.cast_zero, add_zero] at this
    exact ⟨this.1, by rw [this.2, Fl.rnd_toInt hv]⟩

theorem rest_component {f : Fmt} {R : Rng σ} {phiP phiG : Fl f} (hP : phiP.isFinite = true) (hG : phiG.isFinite = true)
    {s s' : σ} {us : List F32} (hd : Drawn R s us s') {m n : Nat} {rP rG v x : Fl f} (f1 : factor us m = some rP)
    (f2 : factor us n = some rG) (hxf : x.isFinite = true) (hvn : v.isNan = false) :
    (classicFormula phiP phiG rP rG v x x x).feq v = true := by
  obtain ⟨p1, p2⟩ := C45_factors R s s' us hd _ _ f1
  obtain ⟨q1, q2⟩ := C45_factors R s s' us hd _ _ f2
  obtain ⟨a1, a2⟩ := pull_zero hP p1 p2 hxf
  obtain ⟨b1, b2⟩ := pull_zero hG q1 q2 hxf
  obtain ⟨c1, c2⟩ := add_zero_value hvn a1 a2
  obtain ⟨d1, d2⟩ := add_zero_value c1 b1 b2
  rw [Fl.feq_iff]
  exact ⟨d1, hvn, by rw [← c2, ← d2]; rfl⟩

/-- C45: a particle at its personal best, which is also the global best, keeps its velocity (as `==` sees it: only `-0.0` may
become `0.0`), whatever the draws, for finite coefficients and coordinates. -/
theorem C45_at_rest {f : Fmt} (R : Rng σ) (phiP phiG : Fl f) (hP : phiP.isFinite = true) (hG : phiG.isFinite = true)
    (sw : PSO.Swarm (Fl f)) (p g : Particle (Fl f)) (hg : sw.best = some g) (hb : p.bestCoords = p.coordinates)
    (hgb : g.coordinates = p.coordinates) (hx : ∀ x ∈ p.coordinates, x.isFinite = true)
    (hv : ∀ v ∈ p.velocity, v.isNan = false) (s s' : σ) (r : List (Fl f))
    (h : classic R phiP phiG sw p s = .ok (r, s')) :
    r.length = p.coordinates.length ∧
      ∀ i (h : i < r.length), ∃ v, p.velocity[i]? = some v ∧ (r[i]).feq v = true := by
  obtain ⟨g', hg', hlen, us, hd, hl, hall⟩ := C45_classic R phiP phiG sw p s s' r h
  rw [hg] at hg'; cases hg'
  refine ⟨hlen, ?_⟩
  intro i hi
  obtain ⟨rP, rG, v, b, gb, x, f1, f2, e1, e2, e3, e4, e5⟩ := hall i hi
  refine ⟨v, e1, ?_⟩
  rw [hb, e4] at e2; cases e2
  rw [hgb, e4] at e3; cases e3
  rw [e5]
  exact rest_component hP hG hd f1 f2 (hx _ (List.mem_of_getElem? e4)) (hv v (List.mem_of_getElem? e1))

/-- C45: the canonical calculator multiplies the velocity of such a particle by xi. -/
theorem C45_at_rest_canonical {f : Fmt} (R : Rng σ) (c : Canonical (Fl f)) (hP : c.phiP.isFinite = true)
    (hG : c.phiG.isFinite = true) (sw : PSO.Swarm (Fl f)) (p g : Particle (Fl f)) (hg : sw.best = some g)
    (hb : p.bestCoords = p.coordinates) (hgb : g.coordinates = p.coordinates)
    (hx : ∀ x ∈ p.coordinates, x.isFinite = true) (hv : ∀ v ∈ p.velocity, v.isNan = false) (s s' : σ) (r : List (Fl f))
    (h : canonical R c sw p s = .ok (r, s')) :
    r.length = p.coordinates.length ∧
      ∀ i (h : i < r.length), ∃ v w, p.velocity[i]? = some v ∧ w.feq v = true ∧ r[i] = c.xi.mul w := by
  obtain ⟨g', hg', hlen, us, hd, hl, hall⟩ := C45_canonical R c sw p s s' r h
  rw [hg] at hg'; cases hg'
  refine ⟨hlen, ?_⟩
  intro i hi
  obtain ⟨rP, rG, v, b, gb, x, f1, f2, e1, e2, e3, e4, e5⟩ := hall i hi
  rw [hb, e4] at e2; cases e2
  rw [hgb, e4] at e3; cases e3
  exact ⟨v, _, e1, rest_component hP hG hd f1 f2 (hx _ (List.mem_of_getElem? e4)) (hv v (List.mem_of_getElem? e1)), e5⟩

/-! ### When they work -/

theorem mapL_total {β γ : Type} {f : γ → M σ β} (as : List γ) (s : σ) (h : ∀ a ∈ as, ∀ s, ∃ b s', f a s = .ok (b, s')) :
    ∃ bs s', M.mapL f as s = .ok (bs, s') := by
  obtain ⟨bs, s', h, -⟩ := M.mapL_tot (R := fun _ _ => True) as s (fun a ha s => by
    obtain ⟨b, s', h⟩ := h a ha s; exact ⟨b, s', h, trivial⟩)
  exact ⟨bs, s', h⟩

theorem twoTerm_total (R : Rng σ) (form : α → α → α → α → α → α → α) (p g : Particle α)
    (h1 : p.velocity.length = p.coordinates.length) (h2 : p.bestCoords.length = p.coordinates.length)
    (h3 : g.coordinates.length = p.coordinates.length) (s : σ) :
    ∃ r s', M.mapL (body2 R p g form) (List.range p.coordinates.length) s = .ok (r, s') := by
  obtain ⟨r, s', h, -⟩ := M.mapL_tot (f := body2 R p g form) (R := fun _ _ => True)
    (List.range p.coordinates.length) s (by
      intro i hi s
      have hi' := List.mem_range.1 hi
      obtain ⟨rP, s1, d1⟩ := draw01_tot (α := α) R Fmt.f32 s
      obtain ⟨rG, s2, d2⟩ := draw01_tot (α := α) R Fmt.f32 s1
      exact ⟨_, s2, M.bind_eq_ok.2 ⟨rP, s1, d1, M.bind_eq_ok.2 ⟨rG, s2, d2,
        M.bind_eq_ok.2 ⟨_, s2, M.index_eq_ok.2 ⟨List.getElem?_eq_getElem (by omega), rfl⟩,
        M.bind_eq_ok.2 ⟨_, s2, M.index_eq_ok.2 ⟨List.getElem?_eq_getElem (by omega), rfl⟩,
        M.bind_eq_ok.2 ⟨_, s2, M.index_eq_ok.2 ⟨List.getElem?_eq_getElem (by omega), rfl⟩,
        M.bind_eq_ok.2 ⟨_, s2, M.index_eq_ok.2 ⟨List.getElem?_eq_getElem (by omega), rfl⟩, rfl⟩⟩⟩⟩⟩⟩, trivial⟩)
  exact ⟨r, s', h⟩

/-- C45: ClassicVelocityCalculator does not panic when the swarm has a best particle and the vectors have one length. -/
theorem C45_classic_total (R : Rng σ) (phiP phiG : α) (sw : PSO.Swarm α) (p g : Particle α) (hg : sw.best = some g)
    (h1 : p.velocity.length = p.coordinates.length) (h2 : p.bestCoords.length = p.coordinates.length)
    (h3 : g.coordinates.length = p.coordinates.length) (s : σ) : ∃ r s', classic R phiP phiG sw p s = .ok (r, s') := by
  obtain ⟨r, s', h⟩ := twoTerm_total R (classicFormula phiP phiG) p g h1 h2 h3 s
  exact ⟨r, s', M.bind_eq_ok.2 ⟨g, s, M.unwrap_eq_ok.2 ⟨hg, rfl⟩, h⟩⟩

/-- C45, the same for CanonicalVelocityCalculator. -/
theorem C45_canonical_total (R : Rng σ) (c : Canonical α) (sw : PSO.Swarm α) (p g : Particle α) (hg : sw.best = some g)
    (h1 : p.velocity.length = p.coordinates.length) (h2 : p.bestCoords.length = p.coordinates.length)
    (h3 : g.coordinates.length = p.coordinates.length) (s : σ) : ∃ r s', canonical R c sw p s = .ok (r, s') := by
  obtain ⟨r, s', h⟩ := twoTerm_total R (canonicalFormula c.xi c.phiP c.phiG) p g h1 h2 h3 s
  exact ⟨r, s', M.bind_eq_ok.2 ⟨g, s, M.unwrap_eq_ok.2 ⟨hg, rfl⟩, h⟩⟩

/-- C45, the same for InertiaVelocityCalculator, if asking for the weight does not panic. -/
theorem C45_inertia_total (R : Rng σ) (phiP phiG : α) (get : Nat → M σ α) (sw : PSO.Swarm α) (p g : Particle α)
    (hg : sw.best = some g) (h1 : p.velocity.length = p.coordinates.length)
    (h2 : p.bestCoords.length = p.coordinates.length) (h3 : g.coordinates.length = p.coordinates.length) (s : σ)
    (hw : ∃ w s1, get sw.iteration s = .ok (w, s1)) : ∃ r s', inertia R phiP phiG get sw p s = .ok (r, s') := by
  obtain ⟨w, s1, hw⟩ := hw
  obtain ⟨r, s', h⟩ := twoTerm_total R (inertiaFormula w phiP phiG) p g h1 h2 h3 s1
  exact ⟨r, s', M.bind_eq_ok.2 ⟨g, s, M.unwrap_eq_ok.2 ⟨hg, rfl⟩, M.bind_eq_ok.2 ⟨w, s1, hw, h⟩⟩⟩

/-- C45, the same for NegativeReinforcement. -/
theorem C45_negative_total (R : Rng σ) (c : NegReinf α) (sw : PSO.Swarm α) (p bg bc wg wc : Particle α)
    (hbg : sw.best = some bg) (hbc : findBest sw.particles = some bc) (hwg : sw.worst = some wg)
    (hwc : findWorst sw.particles = some wc)
    (h1 : p.velocity.length = p.coordinates.length) (h2 : p.bestCoords.length = p.coordinates.length)
    (h2' : p.worstCoords.length = p.coordinates.length)
    (h3 : bg.coordinates.length = p.coordinates.length) (h4 : bc.coordinates.length = p.coordinates.length)
    (h5 : wg.coordinates.length = p.coordinates.length) (h6 : wc.coordinates.length = p.coordinates.length) (s : σ) :
    ∃ r s', negReinf R c sw p s = .ok (r, s') := by
  suffices h : ∃ r s', _ by
    obtain ⟨r, s', h⟩ := h
    exact ⟨r, s', M.bind_eq_ok.2 ⟨bg, s, M.unwrap_eq_ok.2 ⟨hbg, rfl⟩, M.bind_eq_ok.2 ⟨bc, s, M.unwrap_eq_ok.2 ⟨hbc, rfl⟩,
      M.bind_eq_ok.2 ⟨wg, s, M.unwrap_eq_ok.2 ⟨hwg, rfl⟩, M.bind_eq_ok.2 ⟨wc, s, M.unwrap_eq_ok.2 ⟨hwc, rfl⟩, h⟩⟩⟩⟩⟩
  refine mapL_total _ s ?_
  · intro i hi s
    have hi' := List.mem_range.1 hi
    obtain ⟨r1, s1, d1⟩ := draw01_tot (α := α) R Fmt.f64 s
    obtain ⟨r2, s2, d2⟩ := draw01_tot (α := α) R Fmt.f64 s1
    obtain ⟨r3, s3, d3⟩ := draw01_tot (α := α) R Fmt.f64 s2
    obtain ⟨r4, s4, d4⟩ := draw01_tot (α := α) R Fmt.f64 s3
    obtain ⟨r5, s5, d5⟩ := draw01_tot (α := α) R Fmt.f64 s4
    obtain ⟨r6, s6, d6⟩ := draw01_tot (α := α) R Fmt.f64 s5
    exact ⟨_, s6, M.bind_eq_ok.2 ⟨r1, s1, d1, M.bind_eq_ok.2 ⟨r2, s2, d2, M.bind_eq_ok.2 ⟨r3, s3, d3,
      M.bind_eq_ok.2 ⟨r4, s4, d4, M.bind_eq_ok.2 ⟨r5, s5, d5, M.bind_eq_ok.2 ⟨r6, s6, d6,
      M.bind_eq_ok.2 ⟨_, s6, M.index_eq_ok.2 ⟨List.getElem?_eq_getElem (by omega), rfl⟩,
      M.bind_eq_ok.2 ⟨_, s6, M.index_eq_ok.2 ⟨List.getElem?_eq_getElem (by omega), rfl⟩,
      M.bind_eq_ok.2 ⟨_, s6, M.index_eq_ok.2 ⟨List.getElem?_eq_getElem (by omega), rfl⟩,
      M.bind_eq_ok.2 ⟨_, s6, M.index_eq_ok.2 ⟨List.getElem?_eq_getElem (by omega), rfl⟩,
      M.bind_eq_ok.2 ⟨_, s6, M.index_eq_ok.2 ⟨List.getElem?_eq_getElem (by omega), rfl⟩,
      M.bind_eq_ok.2 ⟨_, s6, M.index_eq_ok.2 ⟨List.getElem?_eq_getElem (by omega), rfl⟩,
      M.bind_eq_ok.2 ⟨_, s6, M.index_eq_ok.2 ⟨List.getElem?_eq_getElem (by omega), rfl⟩,
      M.bind_eq_ok.2 ⟨_, s6, M.index_eq_ok.2 ⟨List.getElem?_eq_getElem (by omega), rfl⟩, rfl⟩⟩⟩⟩⟩⟩⟩⟩⟩⟩⟩⟩⟩⟩⟩

/-- A concrete step of the classic calculator on a concrete swarm: v = 1, x = 2, personal best 5, global best 10,
first factor 1, second factor 0, coefficients 2 and 3: 1 + 2*1*3 + 3*0*8 = 7. -/
example : M.okAnd (classic Rng.script (Fl.ofNat 2 : F64) (Fl.ofNat 3)
    ⟨[], some ⟨[Fl.ofNat 10], [], Fl.zero, [], Fl.zero, [], Fl.zero⟩, none, 0⟩
    ⟨[Fl.ofNat 2], [Fl.ofNat 1], Fl.zero, [Fl.ofNat 5], Fl.zero, [], Fl.zero⟩ [1, 0]) (fun r _ =>
      r == [Fl.ofNat 7]) = true := by decide +kernel

end Verif.Props
