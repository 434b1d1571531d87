import Mathlib.Analysis.SpecificLimits.Basic
import Mathlib.Analysis.Real.Sqrt
import Mathlib.Topology.Algebra.InfiniteSum.Real
import Mathlib.Tactic.Linarith
import Mathlib.Tactic.LinearCombination
import Mathlib.Tactic.Positivity
import Mathlib.Tactic.Ring

/-!
# The linear recurrence behind a particle: `v' = w v - phi (x - c)`, `x' = x + v'`
-/

namespace Verif.Dynamics

open Filter Topology

/-- A particle with the inertia `w` pulled to `c` with the strength `phi`. -/
structure Orbit (w phi c : ℝ) (x v : ℕ → ℝ) : Prop where
  vel : ∀ t, v (t + 1) = w * v t - phi * (x t - c)
  pos : ∀ t, x (t + 1) = x t + v (t + 1)

variable {w phi c : ℝ} {x v : ℕ → ℝ}

theorem Orbit.two (h : Orbit w phi c x v) (t : ℕ) :
    x (t + 2) - c = (1 + w - phi) * (x (t + 1) - c) - w * (x t - c) := by
  have h1 := h.pos (t + 1)
  have h2 := h.vel (t + 1)
  have h3 := h.pos t
  rw [show t + 2 = t + 1 + 1 from rfl, h1, h2]
  linear_combination (-w) * h3

/-- Damped: the particle settles on `c`. -/
theorem Orbit.settles (h : Orbit w phi c x v) (hw0 : 0 ≤ w) (hw1 : w < 1) (h0 : 0 < phi) (h1 : phi < 2 * (1 + w)) :
    Tendsto x atTop (𝓝 c) ∧ Tendsto v atTop (𝓝 0) := by
  obtain ⟨a, ha⟩ : ∃ a, a = 1 + w - phi := ⟨_, rfl⟩
  have ha2 : a ^ 2 < (1 + w) ^ 2 := by
    rw [sq_lt_sq, abs_of_pos (show 0 < 1 + w by linarith), abs_lt]
    constructor <;> linarith
  obtain ⟨y, hy⟩ : ∃ y : ℕ → ℝ, ∀ t, y t = x t - c := ⟨_, fun _ => rfl⟩
  have hrec : ∀ t, y (t + 2) = a * y (t + 1) - w * y t := by
    intro t; rw [hy, hy, hy, ha]; exact h.two t
  obtain ⟨d, hd⟩ : ∃ d, d = ((1 + w) - a ^ 2 * (1 - w) - (1 + w) * w ^ 2) / 2 := ⟨_, rfl⟩
  have hdpos : 0 < d := by
    have : (1 - w) * (a ^ 2) < (1 - w) * (1 + w) ^ 2 := mul_lt_mul_of_pos_left ha2 (by linarith)
    rw [hd]; nlinarith
  obtain ⟨γ, hγ⟩ : ∃ γ, γ = (1 + w) * w ^ 2 + d := ⟨_, rfl⟩
  have hV : ∀ p q : ℝ, 0 ≤ (1 + w) * p ^ 2 - 2 * a * w * p * q + γ * q ^ 2 := by
    intro p q
    have e : (1 + w) * ((1 + w) * p ^ 2 - 2 * a * w * p * q + γ * q ^ 2) =
        ((1 + w) * p - a * w * q) ^ 2 + ((1 + w) ^ 2 - a ^ 2) * w ^ 2 * q ^ 2 + (1 + w) * d * q ^ 2 := by
      rw [hγ]; ring
    have hp : 0 ≤ (1 + w) * ((1 + w) * p ^ 2 - 2 * a * w * p * q + γ * q ^ 2) := by
      rw [e]
      have := sub_pos.2 ha2
      have h1w : 0 ≤ 1 + w := by linarith
      positivity
    exact nonneg_of_mul_nonneg_right hp (by linarith)
  obtain ⟨V, hVd⟩ : ∃ V : ℕ → ℝ, ∀ t, V t = (1 + w) * y (t + 1) ^ 2 - 2 * a * w * y (t + 1) * y t + γ * y t ^ 2 :=
    ⟨_, fun _ => rfl⟩
  have hdec : ∀ t, V (t + 1) = V t - d * (y (t + 1) ^ 2 + y t ^ 2) := by
    intro t
    rw [hVd, hVd, hrec t]
    have e1 : (1 + w) - a ^ 2 * (1 - w) - γ = d := by rw [hγ, hd]; ring
    have e2 : γ - (1 + w) * w ^ 2 = d := by rw [hγ]; ring
    linear_combination (-(y (t + 1) ^ 2)) * e1 - (y t ^ 2) * e2
  have hsum : ∀ n, ∑ t ∈ Finset.range n, d * y t ^ 2 ≤ V 0 - V n := by
    intro n
    induction n with
    | zero => simp
    | succ n ih =>
      rw [Finset.sum_range_succ, hdec n]
      nlinarith [mul_nonneg hdpos.le (sq_nonneg (y (n + 1)))]
  have hs : Summable (fun t => d * y t ^ 2) := by
    refine summable_of_sum_range_le (c := V 0) (fun t => by positivity) (fun n => ?_)
    have := hsum n
    have hn : 0 ≤ V n := by rw [hVd]; exact hV _ _
    linarith
  have hy0 : Tendsto y atTop (𝓝 0) := by
    have h1 := hs.tendsto_atTop_zero
    have h2 : Tendsto (fun t => y t ^ 2) atTop (𝓝 0) := by
      have := h1.const_mul d⁻¹
      simp only [mul_zero] at this
      refine this.congr (fun t => ?_)
      field_simp
    have h3 := h2.sqrt
    simp only [Real.sqrt_sq_eq_abs, Real.sqrt_zero] at h3
    exact (tendsto_zero_iff_abs_tendsto_zero _).2 h3
  have hx : Tendsto x atTop (𝓝 c) := by
    have := hy0.add_const c
    rw [zero_add] at this
    exact this.congr (fun t => by rw [hy]; ring)
  refine ⟨hx, ?_⟩
  rw [← tendsto_add_atTop_iff_nat 1]
  have h1 := (tendsto_add_atTop_iff_nat 1).2 hx
  have := h1.sub hx
  rw [sub_self] at this
  exact this.congr (fun t => by rw [h.pos t]; ring)

/-- Undamped: the particle circles, neither settling nor escaping. -/
theorem Orbit.circles (h : Orbit 1 phi c x v) (h0 : 0 < phi) (h1 : phi < 4) :
    (∃ B, ∀ t, |x t - c| ≤ B) ∧ ((∃ L, Tendsto x atTop (𝓝 L)) → x 0 = c ∧ v 0 = 0) := by
  obtain ⟨y, hy⟩ : ∃ y : ℕ → ℝ, ∀ t, y t = x t - c := ⟨_, fun _ => rfl⟩
  have hrec : ∀ t, y (t + 2) = (2 - phi) * y (t + 1) - y t := by
    intro t; rw [hy, hy, hy, h.two t]; ring
  obtain ⟨V, hVd⟩ : ∃ V : ℕ → ℝ, ∀ t, V t = y (t + 1) ^ 2 - (2 - phi) * y (t + 1) * y t + y t ^ 2 := ⟨_, fun _ => rfl⟩
  have hcons : ∀ t, V t = V 0 := by
    intro t
    induction t with
    | zero => rfl
    | succ t ih => rw [← ih, hVd, hVd, hrec t]; ring
  have hk : 0 < phi * (4 - phi) := mul_pos h0 (by linarith)
  have hlow : ∀ t, phi * (4 - phi) * y t ^ 2 ≤ 4 * V 0 := by
    intro t
    rw [← hcons t, hVd]
    nlinarith [sq_nonneg (2 * y (t + 1) - (2 - phi) * y t)]
  have hlow' : ∀ t, phi * (4 - phi) * y (t + 1) ^ 2 ≤ 4 * V 0 := fun t => hlow (t + 1)
  refine ⟨⟨Real.sqrt (4 * V 0 / (phi * (4 - phi))), fun t => ?_⟩, ?_⟩
  · rw [← hy]
    apply Real.abs_le_sqrt
    rw [le_div_iff₀ hk, mul_comm]
    exact hlow t
  · rintro ⟨L, hL⟩
    have e1 := (tendsto_add_atTop_iff_nat 1).2 hL
    have e2 := (tendsto_add_atTop_iff_nat 2).2 hL
    -- the limit is the target
    have hl : L - c = (2 - phi) * (L - c) - (L - c) := by
      have a1 : Tendsto (fun t => x (t + 2) - c) atTop (𝓝 (L - c)) := e2.sub_const c
      have a2 : Tendsto (fun t => (2 - phi) * (x (t + 1) - c) - (x t - c)) atTop (𝓝 ((2 - phi) * (L - c) - (L - c))) :=
        ((e1.sub_const c).const_mul _).sub (hL.sub_const c)
      refine tendsto_nhds_unique a1 (a2.congr (fun t => ?_))
      have := hrec t
      rw [hy, hy, hy] at this
      exact this.symm
    have hLc : L - c = 0 := by
      have : phi * (L - c) = 0 := by linear_combination hl
      exact (mul_eq_zero.1 this).resolve_left h0.ne'
    have y0 : Tendsto y atTop (𝓝 0) := by
      rw [← hLc]; exact (hL.sub_const c).congr (fun t => (hy t).symm)
    have y1 := (tendsto_add_atTop_iff_nat 1).2 y0
    have hV0 : V 0 = 0 := by
      have a : Tendsto V atTop (𝓝 (0 ^ 2 - (2 - phi) * 0 * 0 + 0 ^ 2)) := by
        refine (((y1.pow 2).sub ((y1.const_mul (2 - phi)).mul y0)).add (y0.pow 2)).congr (fun t => ?_)
        rw [hVd]
      have b : Tendsto V atTop (𝓝 (V 0)) := tendsto_const_nhds.congr (fun t => (hcons t).symm)
      have := tendsto_nhds_unique a b
      rw [← this]; ring
    have z : ∀ t, y t = 0 := by
      intro t
      have := hlow t
      rw [hV0, mul_zero] at this
      have h2 : y t ^ 2 ≤ 0 := by
        by_contra hc
        push Not at hc
        exact absurd (mul_pos hk hc) (by linarith)
      exact pow_eq_zero_iff (two_ne_zero) |>.1 (le_antisymm h2 (sq_nonneg _))
    have x0 : x 0 = c := by have := z 0; rw [hy] at this; linarith
    have x1 : x 1 = c := by have := z 1; rw [hy] at this; linarith
    refine ⟨x0, ?_⟩
    have p0 := h.pos 0
    have q0 := h.vel 0
    simp only [Nat.zero_add] at p0 q0
    rw [x0, x1] at p0
    rw [x0] at q0
    linarith

/-- Pulled too hard: a particle that starts at rest away from `c` overshoots further each time. -/
theorem Orbit.escapes (h : Orbit w phi c x v) (hw0 : 0 ≤ w) (h1 : 2 * (1 + w) < phi) (hv : v 0 = 0) (t : ℕ) :
    (phi - 1 - 2 * w) ^ t * |x 0 - c| ≤ |x t - c| := by
  obtain ⟨y, hy⟩ : ∃ y : ℕ → ℝ, ∀ t, y t = x t - c := ⟨_, fun _ => rfl⟩
  have hrec : ∀ t, y (t + 2) = (1 + w - phi) * y (t + 1) - w * y t := by
    intro t; rw [hy, hy, hy]; exact h.two t
  have hy1 : y 1 = (1 - phi) * y 0 := by
    have p0 := h.pos 0
    have q0 := h.vel 0
    simp only [Nat.zero_add] at p0 q0
    rw [hv] at q0
    rw [hy, hy, p0, q0]; ring
  have hr : 1 < phi - 1 - 2 * w := by linarith
  have key : ∀ t, (phi - 1 - 2 * w) * |y t| ≤ |y (t + 1)| := by
    intro t
    induction t with
    | zero =>
      rw [Nat.zero_add, hy1, abs_mul, abs_of_neg (show 1 - phi < 0 by linarith)]
      exact mul_le_mul_of_nonneg_right (by linarith) (abs_nonneg _)
    | succ t ih =>
      rw [show t + 1 + 1 = t + 2 from rfl, hrec t]
      have h2 : |y t| ≤ |y (t + 1)| := by nlinarith [abs_nonneg (y t)]
      have h3 : |(1 + w - phi) * y (t + 1)| - |w * y t| ≤ |(1 + w - phi) * y (t + 1) - w * y t| :=
        abs_sub_abs_le_abs_sub _ _
      rw [abs_mul, abs_mul, abs_of_neg (show 1 + w - phi < 0 by linarith), abs_of_nonneg hw0] at h3
      nlinarith [mul_le_mul_of_nonneg_left h2 hw0]
  rw [← hy, ← hy]
  induction t with
  | zero => simp
  | succ t ih =>
    rw [pow_succ]
    calc (phi - 1 - 2 * w) ^ t * (phi - 1 - 2 * w) * |y 0| = (phi - 1 - 2 * w) * ((phi - 1 - 2 * w) ^ t * |y 0|) := by ring
      _ ≤ (phi - 1 - 2 * w) * |y t| := mul_le_mul_of_nonneg_left ih (by linarith)
      _ ≤ |y (t + 1)| := key t

end Verif.Dynamics
