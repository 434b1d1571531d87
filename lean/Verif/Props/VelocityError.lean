import Verif.Props.Inertia
import Verif.Proofs.Approx

/-!
# C101: velocities, inertia weight and constriction factor are computed accurately

`roundoff f` is 2^-24 for `f32` and 2^-53 for `f64`, `tiny f` half of the smallest positive number (`Spec/Error.lean`); `value` is the real
number a float stands for.
-/

namespace Verif.Props

open Verif Spec PSO Velocity Fl

variable {σ : Type} {f : Fmt}

/-! ### The formulas -/

theorem pull_approx {phi r b x : Fl f} (h : (pull phi r b x).isFinite = true) :
    Approx 3 (tiny f * (|value b - value x| + 1)) |value phi * value r * (value b - value x)| (value phi * value r * (value b - value x))
      (pull phi r b x) := by
  change ((phi.mul r).mul (b.sub x)).isFinite = true at h
  change Approx _ _ _ _ ((phi.mul r).mul (b.sub x))
  obtain ⟨h1, h2⟩ := finite_of_mul h
  obtain ⟨h3, h4⟩ := finite_of_sub h2
  have a := (Approx.of_fl phi).mul (Approx.of_fl r) h1
  have := (a.mul (Approx.sub_fl b x h2 h3 h4) h)
  rw [abs_mul, abs_mul]
  exact this.weaken (by linarith) le_rfl

/-- The exact value of the formula of the classic calculator, and what it adds up. -/
noncomputable def exactClassic (phiP phiG rP rG v p g x : Fl f) : ℝ :=
  value v + value phiP * value rP * (value p - value x) + value phiG * value rG * (value g - value x)

noncomputable def sizeClassic (phiP phiG rP rG v p g x : Fl f) : ℝ :=
  |value v| + |value phiP * value rP * (value p - value x)| + |value phiG * value rG * (value g - value x)|

theorem two_pulls {phiP phiG rP rG v p g x : Fl f} {k : Nat} {t m q : ℝ} (hv : Approx k t m q v) (hk : k ≤ 3)
    (h : ((v.add (pull phiP rP p x)).add (pull phiG rG g x)).isFinite = true) :
    Approx 5 (t + tiny f * (|value p - value x| + |value g - value x| + 2))
      (m + |value phiP * value rP * (value p - value x)| + |value phiG * value rG * (value g - value x)|)
      (q + value phiP * value rP * (value p - value x) + value phiG * value rG * (value g - value x))
      ((v.add (pull phiP rP p x)).add (pull phiG rG g x)) := by
  obtain ⟨h1, h2⟩ := finite_of_add h
  obtain ⟨h3, h4⟩ := finite_of_add h1
  exact (((hv.mono hk).add (pull_approx h4) h1).add ((pull_approx h2).mono (by omega)) h).weaken (by linarith) le_rfl

theorem classic_err {phiP phiG rP rG v p g x : Fl f} (h : (classicFormula phiP phiG rP rG v p g x).isFinite = true) :
    |value (classicFormula phiP phiG rP rG v p g x) - exactClassic phiP phiG rP rG v p g x| ≤
      ((1 + roundoff f) ^ 5 - 1) * sizeClassic phiP phiG rP rG v p g x +
        (1 + roundoff f) ^ 5 * (tiny f * (|value p - value x| + |value g - value x| + 2)) := by
  have := (two_pulls (Approx.of_fl v) (by omega) h).err
  rw [zero_add] at this
  exact this

theorem canonical_err {xi phiP phiG rP rG v p g x : Fl f} (h : (canonicalFormula xi phiP phiG rP rG v p g x).isFinite = true) :
    |value (canonicalFormula xi phiP phiG rP rG v p g x) - value xi * exactClassic phiP phiG rP rG v p g x| ≤
      ((1 + roundoff f) ^ 6 - 1) * (|value xi| * sizeClassic phiP phiG rP rG v p g x) +
        (1 + roundoff f) ^ 6 * (tiny f * (|value xi| * (|value p - value x| + |value g - value x| + 2) + 1)) := by
  change (xi.mul ((v.add (pull phiP rP p x)).add (pull phiG rG g x))).isFinite = true at h
  have h1 := two_pulls (Approx.of_fl v) (by omega) (finite_of_mul h).2
  rw [zero_add] at h1
  rw [Fl.mul_comm'] at h
  have := (h1.mul (Approx.of_fl xi) h).err
  rw [Fl.mul_comm'] at this
  refine le_trans (le_of_eq ?_) (this.trans (le_of_eq ?_))
  · rw [mul_comm (value xi)]; rfl
  · unfold sizeClassic; ring

theorem inertia_err {w phiP phiG rP rG v p g x : Fl f} (h : (inertiaFormula w phiP phiG rP rG v p g x).isFinite = true) :
    |value (inertiaFormula w phiP phiG rP rG v p g x) -
        (value w * value v + value phiP * value rP * (value p - value x) + value phiG * value rG * (value g - value x))| ≤
      ((1 + roundoff f) ^ 5 - 1) *
          (|value w * value v| + |value phiP * value rP * (value p - value x)| + |value phiG * value rG * (value g - value x)|) +
        (1 + roundoff f) ^ 5 * (tiny f * (|value p - value x| + |value g - value x| + 3)) := by
  change (((w.mul v).add (pull phiP rP p x)).add (pull phiG rG g x)).isFinite = true at h
  have hm := (Approx.of_fl w).mul (Approx.of_fl v) (finite_of_add (finite_of_add h).1).1
  have := (two_pulls hm (by omega) h).err
  refine this.trans (le_of_eq ?_)
  rw [abs_mul (value w)]
  ring

/-- The exact value of the formula of NegativeReinforcement, and what it adds up. -/
noncomputable def exactNegative (phiBP phiBC phiBG phiWP phiWC phiWG rbP rbC rbG rwP rwC rwG v pb cb gb pw cw gw x : Fl f) : ℝ :=
  value v + value phiBP * value rbP * (value pb - value x) + value phiBC * value rbC * (value cb - value x) +
    value phiBG * value rbG * (value gb - value x) - value phiWP * value rwP * (value pw - value x) -
    value phiWC * value rwC * (value cw - value x) - value phiWG * value rwG * (value gw - value x)

noncomputable def sizeNegative (phiBP phiBC phiBG phiWP phiWC phiWG rbP rbC rbG rwP rwC rwG v pb cb gb pw cw gw x : Fl f) : ℝ :=
  |value v| + |value phiBP * value rbP * (value pb - value x)| + |value phiBC * value rbC * (value cb - value x)| +
    |value phiBG * value rbG * (value gb - value x)| + |value phiWP * value rwP * (value pw - value x)| +
    |value phiWC * value rwC * (value cw - value x)| + |value phiWG * value rwG * (value gw - value x)|

noncomputable def reachNegative (pb cb gb pw cw gw x : Fl f) : ℝ :=
  |value pb - value x| + |value cb - value x| + |value gb - value x| + |value pw - value x| + |value cw - value x| + |value gw - value x| + 6

theorem negative_err {xi phiBP phiBC phiBG phiWP phiWC phiWG rbP rbC rbG rwP rwC rwG v pb cb gb pw cw gw x : Fl f}
    (h : (negativeFormula xi phiBP phiBC phiBG phiWP phiWC phiWG rbP rbC rbG rwP rwC rwG v pb cb gb pw cw gw x).isFinite = true) :
    |value (negativeFormula xi phiBP phiBC phiBG phiWP phiWC phiWG rbP rbC rbG rwP rwC rwG v pb cb gb pw cw gw x) -
        value xi * exactNegative phiBP phiBC phiBG phiWP phiWC phiWG rbP rbC rbG rwP rwC rwG v pb cb gb pw cw gw x| ≤
      ((1 + roundoff f) ^ 10 - 1) *
          (|value xi| * sizeNegative phiBP phiBC phiBG phiWP phiWC phiWG rbP rbC rbG rwP rwC rwG v pb cb gb pw cw gw x) +
        (1 + roundoff f) ^ 10 * (tiny f * (|value xi| * reachNegative pb cb gb pw cw gw x + 1)) := by
  change (xi.mul ((((((v.add (pull phiBP rbP pb x)).add (pull phiBC rbC cb x)).add (pull phiBG rbG gb x)).sub (pull phiWP rwP pw x)).sub
    (pull phiWC rwC cw x)).sub (pull phiWG rwG gw x))).isFinite = true at h
  have h6 := (finite_of_mul h).2
  obtain ⟨h5, p6⟩ := finite_of_sub h6
  obtain ⟨h4, p5⟩ := finite_of_sub h5
  obtain ⟨h3, p4⟩ := finite_of_sub h4
  obtain ⟨h2, p3⟩ := finite_of_add h3
  obtain ⟨h1, p2⟩ := finite_of_add h2
  obtain ⟨-, p1⟩ := finite_of_add h1
  have a1 := ((Approx.of_fl v).mono (Nat.zero_le 3)).add (pull_approx p1) h1
  have a2 := a1.add ((pull_approx p2).mono (by omega)) h2
  have a3 := a2.add ((pull_approx p3).mono (by omega)) h3
  have a4 := a3.sub ((pull_approx p4).mono (by omega)) h4 h3 p4
  have a5 := a4.sub ((pull_approx p5).mono (by omega)) h5 h4 p5
  have a6 := a5.sub ((pull_approx p6).mono (by omega)) h6 h5 p6
  rw [Fl.mul_comm'] at h
  have := (a6.mul (Approx.of_fl xi) h).err
  rw [Fl.mul_comm'] at this
  refine le_trans (le_of_eq ?_) (this.trans (le_of_eq ?_))
  · rw [mul_comm (value xi)]; rfl
  · unfold sizeNegative reachNegative; ring

/-! ### The calculators -/

/-- Every component that is finite has at most the given error; it is computed from the velocity, the personal best, the best of the swarm and
the coordinate with this number and from two fresh random factors. -/
def TwoTermNear (R : Rng σ) (exact err : Fl f → Fl f → Fl f → Fl f → Fl f → Fl f → ℝ) (p g : Particle (Fl f)) (s : σ) (r : List (Fl f))
    (s' : σ) : Prop :=
  r.length = p.coordinates.length ∧ ∃ us : List F32, Drawn R s us s' ∧ us.length = 2 * p.coordinates.length ∧
    ∀ i (h : i < r.length), ∃ rP rG v b gb x, factor us (2 * i) = some rP ∧ factor us (2 * i + 1) = some rG ∧
      p.velocity[i]? = some v ∧ p.bestCoords[i]? = some b ∧ g.coordinates[i]? = some gb ∧ p.coordinates[i]? = some x ∧
      (r[i].isFinite = true → |value r[i] - exact rP rG v b gb x| ≤ err rP rG v b gb x)

theorem TwoTerm.near {R : Rng σ} {form : Fl f → Fl f → Fl f → Fl f → Fl f → Fl f → Fl f}
    {exact err : Fl f → Fl f → Fl f → Fl f → Fl f → Fl f → ℝ} {p g : Particle (Fl f)} {s s' : σ} {r : List (Fl f)}
    (hf : ∀ rP rG v b gb x, (form rP rG v b gb x).isFinite = true →
      |value (form rP rG v b gb x) - exact rP rG v b gb x| ≤ err rP rG v b gb x) (h : TwoTerm R form p g s r s') :
    TwoTermNear R exact err p g s r s' := by
  obtain ⟨h1, us, h2, h3, h4⟩ := h
  refine ⟨h1, us, h2, h3, fun i hi => ?_⟩
  obtain ⟨rP, rG, v, b, gb, x, e1, e2, e3, e4, e5, e6, e7⟩ := h4 i hi
  refine ⟨rP, rG, v, b, gb, x, e1, e2, e3, e4, e5, e6, fun hfin => ?_⟩
  rw [e7] at hfin ⊢
  exact hf _ _ _ _ _ _ hfin

/-- C101, ClassicVelocityCalculator: 5 roundings. -/
theorem C101_classic (R : Rng σ) (phiP phiG : Fl f) (sw : PSO.Swarm (Fl f)) (p : Particle (Fl f)) (s s' : σ) (r : List (Fl f))
    (h : classic R phiP phiG sw p s = .ok (r, s')) :
    ∃ g, sw.best = some g ∧ TwoTermNear R (exactClassic phiP phiG)
      (fun rP rG v b gb x => ((1 + roundoff f) ^ 5 - 1) * sizeClassic phiP phiG rP rG v b gb x +
        (1 + roundoff f) ^ 5 * (tiny f * (|value b - value x| + |value gb - value x| + 2))) p g s r s' := by
  obtain ⟨g, h1, h2⟩ := C45_classic R phiP phiG sw p s s' r h
  exact ⟨g, h1, h2.near fun _ _ _ _ _ _ h => classic_err h⟩

/-- C101, CanonicalVelocityCalculator: 6 roundings. -/
theorem C101_canonical (R : Rng σ) (c : Canonical (Fl f)) (sw : PSO.Swarm (Fl f)) (p : Particle (Fl f)) (s s' : σ) (r : List (Fl f))
    (h : canonical R c sw p s = .ok (r, s')) :
    ∃ g, sw.best = some g ∧ TwoTermNear R (fun rP rG v b gb x => value c.xi * exactClassic c.phiP c.phiG rP rG v b gb x)
      (fun rP rG v b gb x => ((1 + roundoff f) ^ 6 - 1) * (|value c.xi| * sizeClassic c.phiP c.phiG rP rG v b gb x) +
        (1 + roundoff f) ^ 6 * (tiny f * (|value c.xi| * (|value b - value x| + |value gb - value x| + 2) + 1))) p g s r s' := by
  obtain ⟨g, h1, h2⟩ := C45_canonical R c sw p s s' r h
  exact ⟨g, h1, h2.near fun _ _ _ _ _ _ h => canonical_err h⟩

/-- C101, InertiaVelocityCalculator: 5 roundings, with the weight it got. -/
theorem C101_inertia (R : Rng σ) (phiP phiG : Fl f) (get : Nat → M σ (Fl f)) (sw : PSO.Swarm (Fl f)) (p : Particle (Fl f)) (s s' : σ)
    (r : List (Fl f)) (h : inertia R phiP phiG get sw p s = .ok (r, s')) :
    ∃ g w s1, sw.best = some g ∧ get sw.iteration s = .ok (w, s1) ∧
      TwoTermNear R (fun rP rG v b gb x => value w * value v + value phiP * value rP * (value b - value x) +
          value phiG * value rG * (value gb - value x))
        (fun rP rG v b gb x => ((1 + roundoff f) ^ 5 - 1) * (|value w * value v| + |value phiP * value rP * (value b - value x)| +
            |value phiG * value rG * (value gb - value x)|) +
          (1 + roundoff f) ^ 5 * (tiny f * (|value b - value x| + |value gb - value x| + 3))) p g s1 r s' := by
  obtain ⟨g, w, s1, h1, h2, h3⟩ := C45_inertia R phiP phiG get sw p s s' r h
  exact ⟨g, w, s1, h1, h2, h3.near fun _ _ _ _ _ _ h => inertia_err h⟩

/-- C101, NegativeReinforcement: 10 roundings. -/
theorem C101_negative (R : Rng σ) (c : NegReinf (Fl f)) (sw : PSO.Swarm (Fl f)) (p : Particle (Fl f)) (s s' : σ) (r : List (Fl f))
    (h : negReinf R c sw p s = .ok (r, s')) :
    ∃ bg bc wg wc, sw.best = some bg ∧ findBest sw.particles = some bc ∧ sw.worst = some wg ∧
      findWorst sw.particles = some wc ∧ r.length = p.coordinates.length ∧
      ∃ us : List F64, Drawn R s us s' ∧ us.length = 6 * p.coordinates.length ∧
      ∀ i (h : i < r.length), ∃ rbG rbC rbP rwG rwC rwP v pb cb gb pw cw gw x,
        factor us (6 * i) = some rbG ∧ factor us (6 * i + 1) = some rbC ∧ factor us (6 * i + 2) = some rbP ∧
        factor us (6 * i + 3) = some rwG ∧ factor us (6 * i + 4) = some rwC ∧ factor us (6 * i + 5) = some rwP ∧
        p.velocity[i]? = some v ∧ p.bestCoords[i]? = some pb ∧ bc.coordinates[i]? = some cb ∧
        bg.coordinates[i]? = some gb ∧ p.worstCoords[i]? = some pw ∧ wc.coordinates[i]? = some cw ∧
        wg.coordinates[i]? = some gw ∧ p.coordinates[i]? = some x ∧
        (r[i].isFinite = true →
          |value r[i] - value c.xi * exactNegative c.phiBestPersonal c.phiBestCurrent c.phiBestGlobal c.phiWorstPersonal
            c.phiWorstCurrent c.phiWorstGlobal rbP rbC rbG rwP rwC rwG v pb cb gb pw cw gw x| ≤
          ((1 + roundoff f) ^ 10 - 1) * (|value c.xi| * sizeNegative c.phiBestPersonal c.phiBestCurrent c.phiBestGlobal c.phiWorstPersonal
            c.phiWorstCurrent c.phiWorstGlobal rbP rbC rbG rwP rwC rwG v pb cb gb pw cw gw x) +
          (1 + roundoff f) ^ 10 * (tiny f * (|value c.xi| * reachNegative pb cb gb pw cw gw x + 1))) := by
  obtain ⟨bg, bc, wg, wc, h1, h2, h3, h4, h5, us, h6, h7, h8⟩ := C45_negative R c sw p s s' r h
  refine ⟨bg, bc, wg, wc, h1, h2, h3, h4, h5, us, h6, h7, fun i hi => ?_⟩
  obtain ⟨rbG, rbC, rbP, rwG, rwC, rwP, v, pb, cb, gb, pw, cw, gw, x, f1, f2, f3, f4, f5, f6, e1, e2, e3, e4, e5, e6, e7, e8, e9⟩ := h8 i hi
  refine ⟨rbG, rbC, rbP, rwG, rwC, rwP, v, pb, cb, gb, pw, cw, gw, x, f1, f2, f3, f4, f5, f6, e1, e2, e3, e4, e5, e6, e7, e8, fun hfin => ?_⟩
  rw [e9] at hfin ⊢
  exact negative_err hfin

/-! ### The inertia weight -/

theorem value_ofNat {n : Nat} (h1 : n ≤ 2 ^ (f.mw + 1)) (h2 : n < 2 ^ (f.bias + 1)) : value (Fl.ofNat n : Fl f) = n := by
  have hD := D_posR (f := f)
  unfold value
  rw [(ofNat_exact h1 h2).1]
  push_cast
  field_simp

/-- C101, LinearInertia, for iteration numbers that the number type has exactly (up to 2^24 for `f32`, 2^53 for `f64`): 4 roundings. -/
theorem C101_linear_inertia (wMin wMax : Fl f) (tMax i : Nat) (ht : 0 < tMax) (ht1 : tMax ≤ 2 ^ (f.mw + 1)) (ht2 : tMax < 2 ^ (f.bias + 1))
    (hi1 : i ≤ 2 ^ (f.mw + 1)) (hi2 : i < 2 ^ (f.bias + 1)) (h : (linearInertia wMin wMax tMax i).isFinite = true) :
    |value (linearInertia wMin wMax tMax i) - (value wMax - (value wMax - value wMin) * i / tMax)| ≤
      ((1 + roundoff f) ^ 4 - 1) * (|value wMax| + |value wMax - value wMin| * i / tMax) + (1 + roundoff f) ^ 4 * (2 * tiny f) := by
  change (wMax.sub (((wMax.sub wMin).mul (Fl.ofNat i)).div (Fl.ofNat tMax))).isFinite = true at h
  change |value (wMax.sub (((wMax.sub wMin).mul (Fl.ofNat i)).div (Fl.ofNat tMax))) - _| ≤ _
  have et : value (Fl.ofNat tMax : Fl f) = tMax := value_ofNat ht1 ht2
  have ei : value (Fl.ofNat i : Fl f) = i := value_ofNat hi1 hi2
  have ft := (ofNat_exact (f := f) ht1 ht2).2
  generalize (Fl.ofNat tMax : Fl f) = T at *
  generalize (Fl.ofNat i : Fl f) = I at *
  have htR : (1 : ℝ) ≤ tMax := by exact_mod_cast ht
  have hT : 0 < value T := by rw [et]; linarith
  have hT0 : T.toInt ≠ 0 := by rintro e; unfold value at hT; rw [e] at hT; simp at hT
  obtain ⟨hw, hq⟩ := finite_of_sub h
  have hm := finite_of_div_left hq ft hT0
  obtain ⟨hd, hI⟩ := finite_of_mul hm
  obtain ⟨-, hmin⟩ := finite_of_sub hd
  have a := (Approx.sub_fl wMax wMin hd hw hmin).mul (Approx.of_fl I) hm
  have b := a.div_fl hq hm ft hT
  have c := (((Approx.of_fl wMax).mono (Nat.zero_le 3)).sub b h hw hq).err
  rw [ei, et, abs_of_nonneg (show (0 : ℝ) ≤ i from Nat.cast_nonneg i)] at c
  have hy := (tiny_pos (f := f)).le
  have hdiv : tiny f / tMax ≤ tiny f := div_le_self hy htR
  have hp := one_le_pow_roundoff (f := f) (3 + 1)
  refine c.trans ?_
  have : (1 + roundoff f) ^ (3 + 1) * (0 + ((0 * (i : ℝ) + tiny f) / tMax + tiny f)) ≤ (1 + roundoff f) ^ (3 + 1) * (2 * tiny f) := by
    refine mul_le_mul_of_nonneg_left ?_ (by linarith)
    rw [zero_mul, zero_add, zero_add]; linarith
  linarith

/-- C101: so the weight falls below `wMin` up to `tMax` by rounding errors only. -/
theorem C101_linear_inertia_lower (wMin wMax : Fl f) (hle : value wMin ≤ value wMax) (tMax i : Nat) (ht : 0 < tMax)
    (ht1 : tMax ≤ 2 ^ (f.mw + 1)) (ht2 : tMax < 2 ^ (f.bias + 1)) (hi : i ≤ tMax) (h : (linearInertia wMin wMax tMax i).isFinite = true) :
    value wMin - (((1 + roundoff f) ^ 4 - 1) * (|value wMax| + (value wMax - value wMin)) + (1 + roundoff f) ^ 4 * (2 * tiny f)) ≤
      value (linearInertia wMin wMax tMax i) := by
  have e := C101_linear_inertia wMin wMax tMax i ht ht1 ht2 (hi.trans ht1) (hi.trans_lt ht2) h
  have htR : (0 : ℝ) < tMax := by exact_mod_cast ht
  have hiR : (i : ℝ) / tMax ≤ 1 := (div_le_one htR).2 (by exact_mod_cast hi)
  have hd : 0 ≤ value wMax - value wMin := by linarith
  rw [abs_of_nonneg hd, mul_div_assoc] at e
  have h1 : (value wMax - value wMin) * (i / tMax) ≤ value wMax - value wMin := mul_le_of_le_one_right hd hiR
  have h2 := one_le_pow_roundoff (f := f) 4
  have h3 : ((1 + roundoff f) ^ 4 - 1) * (|value wMax| + (value wMax - value wMin) * (i / tMax)) ≤
      ((1 + roundoff f) ^ 4 - 1) * (|value wMax| + (value wMax - value wMin)) := mul_le_mul_of_nonneg_left (by linarith) (by linarith)
  have := (abs_le.1 e).1
  linarith

/-! ### The constriction factor -/

theorem two_mul_exact {two alpha : Fl f} (t1 : two.isFinite = true) (t2 : two.toInt = (2 : ℕ) * f.D) (h0 : Fl.zero.lt alpha = true)
    (h1 : alpha.lt Fl.one = true) : (two.mul alpha).isFinite = true ∧ (two.mul alpha).toInt = 2 * alpha.toInt := by
  obtain ⟨-, han, ha0⟩ := Fl.lt_iff.1 h0
  obtain ⟨-, -, ha1⟩ := Fl.lt_iff.1 h1
  rw [Fl.toInt_zero] at ha0
  rw [Fl.toInt_one] at ha1
  have hD := D_posR (f := f)
  have haf : alpha.isFinite = true := Fl.isFinite_of_between Fl.isFinite_zero Fl.isFinite_one (Fl.le_of_lt h0) (Fl.le_of_lt h1)
  have hm := Fl.mul_rounds t1 haf
  have hmq : (two.toInt : ℝ) * alpha.toInt / f.D = 2 * alpha.toInt := by
    rw [t2]; push_cast; field_simp
  rw [hmq] at hm
  have haR0 : (0 : ℝ) < alpha.toInt := by exact_mod_cast ha0
  have haR1 : (alpha.toInt : ℝ) < f.D := by exact_mod_cast ha1
  have hmlt : f.rnd (2 * (alpha.toInt : ℝ)) ≤ 2 * f.D := by
    have := f.rnd_mono (p := 2 * (alpha.toInt : ℝ)) (q := (two.toInt : ℝ)) (by rw [t2]; push_cast; linarith)
    rw [Fl.rnd_toInt (Fl.isNan_of_isFinite t1), t2] at this
    exact this
  have hmnn : 0 ≤ f.rnd (2 * (alpha.toInt : ℝ)) := f.rnd_nonneg (by linarith)
  have htwo : two.toInt.natAbs < f.mag f.infIdx := Fl.isFinite_iff_toInt.1 t1
  rw [t2] at htwo
  have hmfin : (f.rnd (2 * (alpha.toInt : ℝ))).natAbs < f.mag f.infIdx := by
    have : ((2 : ℕ) * f.D : ℤ).natAbs = 2 * f.D := by omega
    omega
  refine ⟨by rw [Fl.isFinite_iff_toInt, hm.2]; exact hmfin, ?_⟩
  rw [hm.2]
  exact _root_.le_antisymm (f.rnd_le_two_mul han hmfin _root_.le_rfl) (f.two_mul_le_rnd han hmfin _root_.le_rfl)

/-- The real inequality behind the next theorem: `S` is the computed sum, `d` the computed denominator, `z` the computed quotient. -/
theorem constriction_real {A P S d z u t : ℝ} (hu : 0 ≤ u) (hu' : u ≤ 1 / 16) (ht : 0 ≤ t) (hA : 0 < A) (hP : 4 < P)
    (hS : |S - P| ≤ |P| * u) (hd : |d - (S - 2)| ≤ |S - 2| * u) (hz : |z - A / d| ≤ t ∨ |z - A / d| ≤ |A / d| * u) :
    |z - A / (P - 2)| ≤ 6 * u * (A / (P - 2)) + t := by
  set y := P - 2 with hy
  have hy2 : 2 < y := by linarith
  rw [abs_of_pos (by linarith : (0 : ℝ) < P)] at hS
  have hSy : |S - 2 - y| ≤ 2 * u * y := by
    rw [hy, show S - 2 - (P - 2) = S - P by ring]
    nlinarith
  have hS2 : |S - 2| ≤ y + 2 * u * y := by
    have : |S - 2| ≤ |S - 2 - y| + |y| := by simpa using abs_add_le (S - 2 - y) y
    rw [abs_of_pos (by linarith : (0 : ℝ) < y)] at this
    linarith
  have hdy : |d - y| ≤ 25 / 8 * u * y := by
    have h1 : |d - y| ≤ |d - (S - 2)| + |S - 2 - y| := by simpa using abs_add_le (d - (S - 2)) (S - 2 - y)
    have h2 : |S - 2| * u ≤ (y + 2 * u * y) * u := mul_le_mul_of_nonneg_right hS2 hu
    have h3 : u * u * y ≤ 1 / 16 * u * y := by
      have : u * u ≤ 1 / 16 * u := mul_le_mul_of_nonneg_right hu' hu
      exact mul_le_mul_of_nonneg_right this (by linarith)
    nlinarith
  have hdl : 103 / 128 * y ≤ d := by
    have := (abs_le.1 hdy).1
    have : u * y ≤ 1 / 16 * y := mul_le_mul_of_nonneg_right hu' (by linarith)
    linarith
  have hd0 : 0 < d := by linarith
  have hxi : 0 < A / y := by positivity
  have hq : |A / d - A / y| ≤ 4 * u * (A / y) := by
    have e : A / d - A / y = A / y * ((y - d) / d) := by field_simp
    rw [e, abs_mul, abs_of_pos hxi, abs_div, abs_of_pos hd0, mul_comm (4 * u)]
    refine mul_le_mul_of_nonneg_left ?_ hxi.le
    rw [div_le_iff₀ hd0, abs_sub_comm]
    refine hdy.trans ?_
    have : u * (103 / 128 * y) ≤ u * d := mul_le_mul_of_nonneg_left hdl hu
    nlinarith [mul_nonneg hu (by linarith : (0 : ℝ) ≤ y)]
  have h1 : |z - A / y| ≤ |z - A / d| + |A / d - A / y| := by simpa using abs_add_le (z - A / d) (A / d - A / y)
  rcases hz with hz | hz
  · have : 0 ≤ u * (A / y) := by positivity
    linarith
  · have h2 : |A / d| ≤ 2 * (A / y) := by
      have : |A / d| ≤ |A / d - A / y| + |A / y| := by simpa using abs_add_le (A / d - A / y) (A / y)
      rw [abs_of_pos hxi] at this
      have : u * (A / y) ≤ 1 / 16 * (A / y) := mul_le_mul_of_nonneg_right hu' hxi.le
      linarith
    have h3 : |A / d| * u ≤ 2 * (A / y) * u := mul_le_mul_of_nonneg_right h2 hu
    linarith

/-- C101, the constriction factor of CanonicalVelocityCalculator: if the sum of the coefficients does not overflow it is
2 alpha / (phi_p + phi_g - 2) up to 6 roundoffs, in every format with at least 4 bits of precision. -/
theorem C101_constriction (hf : 2 ≤ f.bias) (hm : 3 ≤ f.mw) (phiP phiG alpha : Fl f) (hfin : (phiP.add phiG).isFinite = true) (s s' : σ)
    (c : Canonical (Fl f)) (h : Canonical.new phiP phiG alpha s = .ok (c, s')) :
    4 < value phiP + value phiG ∧
    |value c.xi - 2 * value alpha / (value phiP + value phiG - 2)| ≤
      6 * roundoff f * (2 * value alpha / (value phiP + value phiG - 2)) + tiny f := by
  have hle := C47_factor hf phiP phiG alpha s s' c h
  unfold Canonical.new at h
  obtain ⟨_, s1, h1, h⟩ := M.bind_eq_ok.1 h
  obtain ⟨_, s2, h2, h⟩ := M.bind_eq_ok.1 h
  obtain ⟨_, s3, h3, h⟩ := M.bind_eq_ok.1 h
  obtain ⟨rfl, -⟩ := M.pure_eq_ok.1 h
  have h1 : (FloatT.lit 4 1 : Fl f).lt (phiP.add phiG) = true := (M.assert_eq_ok.1 h1).1
  have h2 : (Fl.zero : Fl f).lt alpha = true := (M.assert_eq_ok.1 h2).1
  have h3 : alpha.lt (Fl.one : Fl f) = true := (M.assert_eq_ok.1 h3).1
  obtain ⟨l1, l2⟩ := lit_exact hf (n := 4) (by omega)
  obtain ⟨t1, t2⟩ := lit_exact hf (n := 2) (by omega)
  have hD := D_posR (f := f)
  obtain ⟨-, han, ha0⟩ := Fl.lt_iff.1 h2
  rw [Fl.toInt_zero] at ha0
  dsimp only at hle ⊢
  generalize (FloatT.lit 2 1 : Fl f) = two at *
  generalize (FloatT.lit 4 1 : Fl f) = four at *
  obtain ⟨m1, m2⟩ := two_mul_exact t1 t2 h2 h3
  have hle' : Fl.zero.le ((two.mul alpha).div ((phiG.add phiP).sub two)) = true ∧
    ((two.mul alpha).div ((phiG.add phiP).sub two)).lt Fl.one = true := ⟨hle.1, hle.2.2⟩
  show _ ∧ |value ((two.mul alpha).div ((phiG.add phiP).sub two)) - _| ≤ _
  rw [Fl.add_comm' phiG phiP] at hle' ⊢
  clear hle
  obtain ⟨fP, fG⟩ := finite_of_add hfin
  have hadd := add_err hfin
  have hr := add_rounds fP fG
  have hP : 4 < value phiP + value phiG := by
    by_contra hc
    have hc : value phiP + value phiG ≤ 4 := not_lt.1 hc
    unfold value at hc
    rw [← add_div, div_le_iff₀ hD] at hc
    have := hr.le (z := four) (Fl.isNan_of_isFinite l1) (by rw [l2]; push_cast; linarith)
    have h4 := (Fl.le_iff.1 this).2.2
    have h5 := (Fl.lt_iff.1 h1).2.2
    omega
  refine ⟨hP, ?_⟩
  generalize phiP.add phiG = phi at *
  obtain ⟨-, hpn, hp4⟩ := Fl.lt_iff.1 h1
  rw [l2] at hp4
  have hpR : ((4 : ℕ) * f.D : ℝ) < phi.toInt := by exact_mod_cast hp4
  push_cast at hpR
  have hs := Fl.sub_rounds hfin t1
  have hsf : (phi.sub two).isFinite = true := by
    refine Fl.isFinite_of_between t1 hfin (hs.ge (Fl.isNan_of_isFinite t1) ?_) (hs.le hpn ?_)
    · rw [t2]; push_cast; linarith
    · rw [t2]; push_cast; linarith
  have hsub := sub_err hsf hfin t1
  have v2 : value two = 2 := by unfold value; rw [t2]; push_cast; field_simp
  have va : value (two.mul alpha) = 2 * value alpha := by unfold value; rw [m2]; push_cast; ring
  have a0 : 0 < value alpha := by
    unfold value
    have : (0 : ℝ) < alpha.toInt := by exact_mod_cast ha0
    positivity
  have hge := hs.ge (Fl.isNan_of_isFinite t1) (z := two) (by rw [t2]; push_cast; linarith)
  have hne : (phi.sub two).toInt ≠ 0 := by
    have h4 := (Fl.le_iff.1 hge).2.2
    rw [t2] at h4
    have := f.D_pos
    omega
  have hqf : ((two.mul alpha).div (phi.sub two)).isFinite = true :=
    Fl.isFinite_of_between Fl.isFinite_zero Fl.isFinite_one hle'.1 (Fl.le_of_lt hle'.2)
  have hdiv := div_err hqf m1 hsf hne
  rw [va] at hdiv
  rw [v2] at hsub
  have hu : roundoff f ≤ 1 / 16 := by
    unfold roundoff
    have h : (2 : ℝ) ^ 4 ≤ 2 ^ (f.mw + 1) := pow_le_pow_right₀ (by norm_num) (by omega)
    rw [div_le_div_iff₀ (by positivity) (by norm_num)]
    linarith
  exact constriction_real (roundoff_pos (f := f)).le hu (tiny_pos (f := f)).le (by linarith) hP hadd hsub hdiv

/-- C101, a relative error only would be too much to ask: with the smallest positive number as coefficient, a factor 1/2 and a distance of
2^1000 the formula gives 0 instead of 2^-75, since the product of the first two underflows. -/
theorem C101_underflow_witness :
    classicFormula (Fl.mk' false 1 : F64) Fl.zero (Fl.ofRat false 1 2) Fl.zero Fl.zero (Fl.ofNat (2 ^ 1000)) Fl.zero Fl.zero = Fl.zero ∧
    (Fl.mk' false 1 : F64).toInt = 1 ∧ 2 * (Fl.ofRat false 1 2 : F64).toInt = Fmt.f64.D ∧
    (Fl.ofNat (2 ^ 1000) : F64).toInt = 2 ^ 1000 * Fmt.f64.D := by decide +kernel

/-- The step of the example for C45 has finite components. -/
example : M.okAnd (classic Rng.script (Fl.ofNat 2 : F64) (Fl.ofNat 3)
    ⟨[], some ⟨[Fl.ofNat 10], [], Fl.zero, [], Fl.zero, [], Fl.zero⟩, none, 0⟩
    ⟨[Fl.ofNat 2], [Fl.ofNat 1], Fl.zero, [Fl.ofNat 5], Fl.zero, [], Fl.zero⟩ [1, 0]) (fun r _ =>
      r.all Fl.isFinite && r.length == 1) = true := by decide +kernel

/-- The weights 0.4 and 0.9 at iteration 999 of 1000. -/
example : (linearInertia (Fl.ofRat false 4 10 : F64) (Fl.ofRat false 9 10) 1000 999).isFinite = true ∧ 1000 ≤ 2 ^ (Fmt.f64.mw + 1) ∧
    1000 < 2 ^ (Fmt.f64.bias + 1) := by decide +kernel

/-- The coefficients of the examples, 3.2, 3.2 and 0.9. -/
example : M.okAnd (Canonical.new (Fl.ofRat false 32 10 : F64) (Fl.ofRat false 32 10) (Fl.ofRat false 9 10) ())
    (fun c _ => c.xi.isFinite) = true ∧ ((Fl.ofRat false 32 10 : F64).add (Fl.ofRat false 32 10)).isFinite = true ∧
    2 ≤ Fmt.f64.bias ∧ 3 ≤ Fmt.f64.mw ∧ 2 ≤ Fmt.f32.bias ∧ 3 ≤ Fmt.f32.mw := by decide +kernel

end Verif.Props
