import Verif.Spec.Average
import Verif.Proofs.Estimate

/-!
# The results of a program as a sequence of independent runs
-/

namespace Verif.Estimate

open Verif Spec Stats Workers Finds

variable {τ T A : Type} {m : Nat}

theorem meanOver_nil (V : List Nat → ℚ) : meanOver [] V = V [] := by
  simp [meanOver, tapes]

theorem sum_flatMap {α : Type} (f : α → List (List Nat)) (V : List Nat → ℚ) : ∀ l : List α,
    ((l.flatMap f).map V).sum = (l.map fun x => ((f x).map V).sum).sum := by
  intro l
  induction l with
  | nil => rfl
  | cons x l ih => rw [List.flatMap_cons, List.map_append, List.sum_append, ih, List.map_cons, List.sum_cons]

theorem meanOver_eq (V : List Nat → ℚ) : ∀ N, meanOver (List.replicate N m) V = mean m N V := by
  intro N
  induction N generalizing V with
  | zero => exact meanOver_nil V
  | succ N ih =>
    simp only [mean, ← ih]
    unfold meanOver
    rw [List.replicate_succ, tapes, sum_flatMap, List.length_flatMap, ← Finset.sum_div, div_div]
    congr 1
    · rw [Finset.sum_range, ← List.sum_ofFn]
      congr 1
      rw [List.ofFn_eq_map]
      simp [List.map_map, Function.comp_def, ← List.map_coe_finRange_eq_range]
    · simp [List.sum_replicate, mul_comm]

/-! ### A sequence of independent results -/

/-- What a run adds to the data: its solutions, for example, or its numbers of calls -/
abbrev Part (T A : Type) := Data T → List A

/-- The solutions -/
abbrev solutions (T : Type) : Part T (Solution T) := fun d => d.1.results.filterMap id

/-- A run adds one. -/
def One (out : Part T A) (d : Data T) : Prop := ∃ a, out d = [a]

theorem one_of_single {d : Data T} (h : Single d) : One (solutions T) d := by
  obtain ⟨a, h⟩ := h
  exact ⟨a, by rw [solutions, h]; rfl⟩

/-- `g` at what a run adds -/
def first (out : Part T A) (g : A → ℚ) (d : Data T) : ℚ := match out d with
  | [a] => g a
  | _ => 0

theorem first_eq {out : Part T A} {g : A → ℚ} {d : Data T} {a : A} (h : out d = [a]) : first out g d = g a := by
  unfold first
  rw [h]

/-- The mean value of `g` at what a run adds -/
def runMean (out : Part T A) (m N : Nat) (a : M (List Nat × τ) (Data T)) (u : τ) (g : A → ℚ) : ℚ :=
  mean m N (fun t => pay (fun d _ => first out g d) (a (t, u)))

/-- The mean value of `H` at what `n` independent runs add -/
def seqMean (E : (A → ℚ) → ℚ) : Nat → (List (A) → ℚ) → ℚ
  | 0, H => H []
  | n + 1, H => E (fun a => seqMean E n (fun l => H (a :: l)))

theorem seqMean_congr (E : (A → ℚ) → ℚ) : ∀ n {H H' : List (A) → ℚ}, (∀ l, l.length = n → H l = H' l) →
    seqMean E n H = seqMean E n H' := by
  intro n
  induction n with
  | zero => intro H H' h; exact h [] rfl
  | succ n ih =>
    intro H H' h
    simp only [seqMean]
    congr 1
    funext a
    exact ih fun l hl => h _ (by simp [hl])

theorem seqMean_add (E : (A → ℚ) → ℚ) (b : Nat) : ∀ a (H : List (A) → ℚ),
    seqMean E (a + b) H = seqMean E a (fun l => seqMean E b (fun l' => H (l ++ l'))) := by
  intro a
  induction a with
  | zero => intro H; rw [Nat.zero_add]; rfl
  | succ a ih => intro H; rw [Nat.add_right_comm]; simp only [seqMean, ih, List.cons_append]

/-- What `n` consecutive runs add -/
def outs (out : Part T A) (a : M (List Nat × τ) (Data T)) : Nat → List Nat × τ → List (A)
  | 0, _ => []
  | n + 1, s => match a s with
    | .ok (d, s') => out d ++ outs out a n s'
    | .error _ => []

section

variable {a : M (List Nat × τ) (Data T)} {out : Part T A} {K : Nat} {E : (A → ℚ) → ℚ}

theorem runMean_linear (N : Nat) (u : τ) (x y : ℚ) (g h : A → ℚ) :
    runMean out m N a u (fun b => x * g b + y * h b) = x * runMean out m N a u g + y * runMean out m N a u h := by
  unfold runMean
  rw [← mean_linear]
  congr 1
  funext t
  rcases a (t, u) with e | ⟨d, s⟩
  · simp [pay]
  · simp only [pay, first]
    split <;> simp

theorem runMean_const (hm : 0 < m) (hE : ∀ u, Ends m (fun d _ => One out d) K (fun t => a (t, u))) {N : Nat} (hN : K ≤ N) (u : τ) (x : ℚ) :
    runMean out m N a u (fun _ => x) = x := by
  unfold runMean
  refine Eq.trans (mean_congr (G := fun _ => x) ?_) (mean_constant hm x N)
  intro t ht hl
  obtain ⟨d, s, h1, ⟨b, h2⟩, -⟩ := ends_returns (hE u) t hl (by omega)
  simp only [h1, pay, first_eq h2]

theorem outs_mean (hm : 0 < m) (hE : ∀ u, Ends m (fun d _ => One out d) K (fun t => a (t, u)))
    (hp : ∀ u g, runMean out m K a u g = E g) :
    ∀ n N u (H : List (A) → ℚ), n * K ≤ N → mean m N (fun t => H (outs out a n (t, u))) = seqMean E n H := by
  intro n
  induction n with
  | zero => intro N u H _; exact mean_constant hm (H []) N
  | succ n ih =>
    intro N u H hN
    rw [Nat.succ_mul] at hN
    have h1 : mean m N (fun t => H (outs out a (n + 1) (t, u))) =
        mean m N (fun t => pay (fun d s => H (out d ++ outs out a n s)) (a (t, u))) := by
      refine mean_congr fun t ht hl => ?_
      obtain ⟨d, s, h1, -⟩ := ends_returns (hE u) t hl (by omega)
      simp only [outs, h1, pay]
    rw [h1, mean_then hm (hE u) (K' := n * K) (G := fun d s => H (out d ++ outs out a n s))
      (g := fun d => seqMean E n (fun l => H (out d ++ l))) (fun d u' _ N' hN' => ih N' u' (fun l => H (out d ++ l)) hN') N (by omega)]
    rw [mean_longer hm (hE u) _ N K (by omega) (Nat.le_refl K), seqMean, ← hp u]
    refine mean_congr fun t ht hl => ?_
    obtain ⟨d, s, h1, ⟨b, h2⟩, -⟩ := ends_returns (hE u) t hl (by omega)
    simp only [h1, pay, first_eq h2, h2]
    rfl

theorem threads_outs (hm : 0 < m) (hE : ∀ u, Ends m (fun d _ => One out d) K (fun t => a (t, u)))
    (hp : ∀ u g, runMean out m K a u g = E g) (R N : Nat) (hN : R * K ≤ N) :
    ∀ cpu (u : Nat → τ) (H : List (A) → ℚ),
      mean m (cpu * N) (fun t => H ((List.range cpu).flatMap fun i => outs out a R (pieces N u t i))) = seqMean E (cpu * R) H := by
  intro cpu
  induction cpu with
  | zero => intro u H; rw [Nat.zero_mul, Nat.zero_mul]; rfl
  | succ cpu ih =>
    intro u H
    rw [Nat.succ_mul, Nat.add_comm (cpu * N), mean_append, Nat.succ_mul, Nat.add_comm (cpu * R), seqMean_add]
    rw [← outs_mean hm hE hp R N (u 0) _ hN]
    refine mean_congr fun x hx _ => ?_
    rw [← ih (fun i => u (i + 1))]
    refine mean_congr fun y _ _ => ?_
    rw [List.range_succ_eq_map, List.flatMap_cons, List.flatMap_map, pieces_zero N u x y hx]
    simp only [Nat.succ_eq_add_one, pieces_succ N u x y hx]

end

/-! ### Moments -/

section

variable {E : (A → ℚ) → ℚ}

/-- The mean value of a polynomial in the sum and the sum of squares, for `v` with the mean value zero -/
theorem seqMean_moments (hl : ∀ x y g h, E (fun b => x * g b + y * h b) = x * E g + y * E h) (hc : ∀ x, E (fun _ => x) = x)
    (v : A → ℚ) (s : ℚ) (h0 : E v = 0) (hs : E (fun b => v b ^ 2) = s) :
    ∀ n x y z w, seqMean E n (fun l => x + y * (l.map v).sum + z * (l.map v).sum ^ 2 + w * (l.map fun b => v b ^ 2).sum) =
      x + (z + w) * (n * s) := by
  intro n
  induction n with
  | zero => intro x y z w; simp [seqMean]
  | succ n ih =>
    intro x y z w
    rw [seqMean]
    have h1 : (fun b => seqMean E n (fun l => x + y * ((b :: l).map v).sum + z * ((b :: l).map v).sum ^ 2 +
        w * ((b :: l).map fun b => v b ^ 2).sum)) =
        fun b => 1 * (x + (z + w) * (n * s)) + 1 * (y * v b + (z + w) * v b ^ 2) := by
      funext b
      rw [← show (x + y * v b + (z + w) * v b ^ 2) + (z + w) * (n * s) =
        1 * (x + (z + w) * (n * s)) + 1 * (y * v b + (z + w) * v b ^ 2) by ring]
      rw [← ih (x + y * v b + (z + w) * v b ^ 2) (y + 2 * z * v b) z w]
      refine seqMean_congr E n fun l _ => ?_
      simp only [List.map_cons, List.sum_cons]
      ring
    rw [h1, hl 1 1 (fun _ => x + (z + w) * (n * s)) (fun b => y * v b + (z + w) * v b ^ 2), hc, hl y (z + w) v (fun b => v b ^ 2), h0, hs]
    push_cast
    ring

theorem centered (hl : ∀ x y g h, E (fun b => x * g b + y * h b) = x * E g + y * E h) (hc : ∀ x, E (fun _ => x) = x)
    {v : A → ℚ} {μ : ℚ} (hμ : μ = E v) : E (fun b => v b - μ) = 0 := by
  have := hl 1 (-μ) v (fun _ => 1)
  rw [hc, ← hμ] at this
  simpa [sub_eq_add_neg] using this

theorem sum_shift (v : A → ℚ) (μ : ℚ) : ∀ l : List (A), (l.map fun b => v b - μ).sum = (l.map v).sum - l.length * μ := by
  intro l
  induction l with
  | nil => simp
  | cons b l ih => simp only [List.map_cons, List.sum_cons, ih, List.length_cons]; push_cast; ring

theorem sum_squares (v : A → ℚ) (c : ℚ) : ∀ l : List (A),
    (l.map fun b => (v b - c) ^ 2).sum = (l.map fun b => v b ^ 2).sum - 2 * c * (l.map v).sum + l.length * c ^ 2 := by
  intro l
  induction l with
  | nil => simp
  | cons b l ih => simp only [List.map_cons, List.sum_cons, ih, List.length_cons]; push_cast; ring

theorem average_shift (v : A → ℚ) (μ : ℚ) (l : List (A)) (hl : l.length ≠ 0) :
    exactAverage (l.map v) = μ + (l.map fun b => v b - μ).sum / l.length := by
  have : (l.length : ℚ) ≠ 0 := by exact_mod_cast hl
  rw [sum_shift, exactAverage, List.length_map]
  field_simp
  ring

theorem variance_shift (v : A → ℚ) (μ : ℚ) (l : List (A)) (hl : l.length ≠ 0) :
    exactVariance (l.map v) =
      ((l.map fun b => (v b - μ) ^ 2).sum - (l.map fun b => v b - μ).sum ^ 2 / l.length) / (l.length - 1) := by
  have : (l.length : ℚ) ≠ 0 := by exact_mod_cast hl
  unfold exactVariance
  rw [List.length_map, List.map_map]
  congr 1
  show (l.map fun b => (v b - exactAverage (l.map v)) ^ 2).sum = _
  rw [sum_squares, sum_squares, sum_shift, exactAverage, List.length_map]
  field_simp
  ring

/-- The mean value of the average -/
theorem seqMean_average (hl : ∀ x y g h, E (fun b => x * g b + y * h b) = x * E g + y * E h) (hc : ∀ x, E (fun _ => x) = x)
    {v : A → ℚ} {μ : ℚ} (hμ : μ = E v) {n : Nat} (hn : n ≠ 0) : seqMean E n (fun l => exactAverage (l.map v)) = μ := by
  have e0 := centered hl hc hμ
  have h8 := seqMean_moments hl hc (fun b => v b - μ) _ e0 rfl n μ (1 / n) 0 0
  refine Eq.trans ?_ (h8.trans (by ring))
  refine seqMean_congr E _ fun l hl => ?_
  rw [average_shift v μ l (by omega), hl]
  ring

/-- The mean value of the square of its error -/
theorem seqMean_error (hl : ∀ x y g h, E (fun b => x * g b + y * h b) = x * E g + y * E h) (hc : ∀ x, E (fun _ => x) = x)
    {v : A → ℚ} {μ s : ℚ} (hμ : μ = E v) (hs : s = E (fun b => (v b - μ) ^ 2)) {n : Nat} (hn : n ≠ 0) :
    seqMean E n (fun l => (exactAverage (l.map v) - μ) ^ 2) = s / n := by
  have e0 := centered hl hc hμ
  have hn' : (n : ℚ) ≠ 0 := by exact_mod_cast hn
  have h8 := seqMean_moments hl hc (fun b => v b - μ) s e0 hs.symm n 0 0 ((1 / n) ^ 2) 0
  have e1 : 0 + ((1 / (n : ℚ)) ^ 2 + 0) * (n * s) = s / n := by
    field_simp
    ring
  refine Eq.trans ?_ (h8.trans e1)
  refine seqMean_congr E _ fun l hl => ?_
  rw [average_shift v μ l (by omega), hl]
  ring

/-- The mean value of the sample variance -/
theorem seqMean_variance (hl : ∀ x y g h, E (fun b => x * g b + y * h b) = x * E g + y * E h) (hc : ∀ x, E (fun _ => x) = x)
    {v : A → ℚ} {μ s : ℚ} (hμ : μ = E v) (hs : s = E (fun b => (v b - μ) ^ 2)) {n : Nat} (hn : 2 ≤ n) :
    seqMean E n (fun l => exactVariance (l.map v)) = s := by
  have e0 := centered hl hc hμ
  have hn' : (n : ℚ) ≠ 0 := by exact_mod_cast (show n ≠ 0 by omega)
  have hn1 : (n : ℚ) - 1 ≠ 0 := by
    have : (2 : ℚ) ≤ n := by exact_mod_cast hn
    linarith
  have h8 := seqMean_moments hl hc (fun b => v b - μ) s e0 hs.symm n 0 0 (-(1 / (n * (n - 1)))) (1 / (n - 1))
  have e1 : 0 + (-(1 / ((n : ℚ) * (n - 1))) + 1 / (n - 1)) * (n * s) = s := by
    field_simp
    ring
  refine Eq.trans ?_ (h8.trans e1)
  refine seqMean_congr E _ fun l hl => ?_
  rw [variance_shift v μ l (by omega), hl]
  field_simp
  ring

/-- Chebyshev's inequality -/
theorem chance_far {n N : Nat} {S : List Nat → List A} (hS : ∀ H : List A → ℚ, mean m N (fun t => H (S t)) = seqMean E n H)
    (hl : ∀ x y g h, E (fun b => x * g b + y * h b) = x * E g + y * E h) (hc : ∀ x, E (fun _ => x) = x)
    {v : A → ℚ} {μ s δ : ℚ} (hμ : μ = E v) (hs : s = E (fun b => (v b - μ) ^ 2)) (hn : n ≠ 0) (hδ : 0 < δ)
    {P : List Nat → Prop} (hP : ∀ t, P t → δ ≤ |exactAverage ((S t).map v) - μ|) :
    chance (List.replicate N m) P ≤ s / (n * δ ^ 2) := by
  classical
  have h3 : mean m N (fun t => (δ ^ 2)⁻¹ * (exactAverage ((S t).map v) - μ) ^ 2 + 0 * 0) = (δ ^ 2)⁻¹ * (s / n) :=
    (mean_linear (m := m) (δ ^ 2)⁻¹ 0 (fun t => (exactAverage ((S t).map v) - μ) ^ 2) (fun _ => 0) N).trans (by
      rw [zero_mul, add_zero, hS (fun l => (exactAverage (l.map v) - μ) ^ 2), seqMean_error hl hc hμ hs hn])
  rw [chance_mean, ← div_div, div_eq_inv_mul _ (δ ^ 2), ← h3]
  refine mean_le fun t => ?_
  split
  · rename_i hex
    have h9 : δ ^ 2 ≤ (exactAverage ((S t).map v) - μ) ^ 2 := by
      rw [← sq_abs (exactAverage ((S t).map v) - μ)]
      exact pow_le_pow_left₀ hδ.le (hP t hex) 2
    rw [zero_mul, add_zero, inv_mul_eq_div, le_div_iff₀ (by positivity), one_mul]
    exact h9
  · positivity

end

/-! ### Sequences with a condition on each run -/

section

variable {E : (A → ℚ) → ℚ}

theorem seqMean_scale (hl : ∀ x y g h, E (fun b => x * g b + y * h b) = x * E g + y * E h) (x : ℚ) :
    ∀ n (H : List A → ℚ), seqMean E n (fun l => x * H l) = x * seqMean E n H := by
  intro n
  induction n with
  | zero => intro H; rfl
  | succ n ih =>
    intro H
    simp only [seqMean, ih]
    have := hl x 0 (fun b => seqMean E n fun l => H (b :: l)) (fun _ => 0)
    simpa using this

theorem seqMean_prod (hl : ∀ x y g h, E (fun b => x * g b + y * h b) = x * E g + y * E h) (r : A → ℚ) :
    ∀ n, seqMean E n (fun l => (l.map r).prod) = E r ^ n := by
  intro n
  induction n with
  | zero => simp [seqMean]
  | succ n ih =>
    simp only [seqMean, List.map_cons, List.prod_cons, seqMean_scale hl, ih]
    have := hl (E r ^ n) 0 r (fun _ => 0)
    simp only [mul_zero, zero_mul, add_zero] at this
    rw [pow_succ, ← this]
    congr 1
    funext b
    ring

/-- The mean value of the runs that meet the condition `r` -/
def given (E : (A → ℚ) → ℚ) (r : A → ℚ) (g : A → ℚ) : ℚ := E (fun a => r a * g a) / E r

theorem given_linear (hl : ∀ x y g h, E (fun b => x * g b + y * h b) = x * E g + y * E h) (r : A → ℚ) (x y : ℚ) (g h : A → ℚ) :
    given E r (fun b => x * g b + y * h b) = x * given E r g + y * given E r h := by
  unfold given
  have := hl x y (fun a => r a * g a) (fun a => r a * h a)
  rw [show (fun a => r a * (x * g a + y * h a)) = fun a => x * (r a * g a) + y * (r a * h a) by funext a; ring, this]
  ring

theorem given_const (hl : ∀ x y g h, E (fun b => x * g b + y * h b) = x * E g + y * E h) {r : A → ℚ} (h0 : E r ≠ 0) (x : ℚ) :
    given E r (fun _ => x) = x := by
  unfold given
  have := hl x 0 r (fun _ => 0)
  simp only [mul_zero, zero_mul, add_zero] at this
  rw [show (fun a => r a * x) = fun a => x * r a by funext a; ring, this, mul_div_assoc, div_self h0, mul_one]

/-- Independent runs that all meet the condition -/
theorem seqMean_given (hl : ∀ x y g h, E (fun b => x * g b + y * h b) = x * E g + y * E h) {r : A → ℚ} (h0 : E r ≠ 0) :
    ∀ n (H : List A → ℚ), seqMean E n (fun l => (l.map r).prod * H l) = E r ^ n * seqMean (given E r) n H := by
  intro n
  induction n with
  | zero => intro H; simp [seqMean]
  | succ n ih =>
    intro H
    have h1 : ∀ a, seqMean E n (fun l => ((a :: l).map r).prod * H (a :: l)) = E r ^ n * (r a * seqMean (given E r) n (fun l => H (a :: l))) := by
      intro a
      rw [← seqMean_scale (given_linear hl r), ← ih]
      congr 1
      funext l
      rw [List.map_cons, List.prod_cons]
      ring
    simp only [seqMean, h1]
    have := hl (E r ^ n) 0 (fun a => r a * seqMean (given E r) n (fun l => H (a :: l))) (fun _ => 0)
    simp only [mul_zero, zero_mul, add_zero] at this
    rw [this, given, pow_succ]
    field_simp

end

/-! ### The program -/

section

variable {job : Nat → M (List Nat × τ) (Data T)} {F K : Nat} {out : Part T A}

/-- What a program has in the end is what the runs have added. -/
def Additive (out : Part T A) : Prop := ∀ ds d, Merged ds d → out d = ds.flatMap out

theorem additive_solutions : Additive (solutions T) := by
  intro ds d h
  show d.1.results.filterMap id = _
  rw [h.results, List.filterMap_flatMap]

theorem consecutive_outs (hs : ∀ f d s, job f s ≠ .error .fuel → job (f + d) s = job f s) (hok : ∀ s, ∃ r, job F s = .ok r)
    {P : Program (List Nat × τ) T} (hP : P.job = job) : ∀ (ds : List (Data T)) s s', Consecutive P s ds s' →
      ds.flatMap out = outs out (job F) ds.length s := by
  intro ds
  induction ds with
  | nil => intro s s' _; rfl
  | cons d ds ih =>
    intro s s'' h
    obtain ⟨s', ⟨f, h1⟩, h2⟩ := consecutive_cons h d ds rfl
    obtain ⟨r, hr⟩ := hok s
    rw [hP] at h1
    have := same_run hs hr (f := f) (by rw [h1]; intro he; cases he)
    rw [h1] at this
    cases this
    rw [List.flatMap_cons, ih s' s'' h2, List.length_cons, outs, hr]

theorem finishes_outs (hadd : Additive out) (hs : ∀ f d s, job f s ≠ .error .fuel → job (f + d) s = job f s) (hok : ∀ s, ∃ r, job F s = .ok r)
    {P : Program (List Nat × τ) T} (hP : P.job = job) {acc : Data T} (h : Finishes P acc) :
    (out acc).Perm ((List.range P.cpu).flatMap fun i => outs out (job F) P.runCount (P.seed i)) := by
  obtain ⟨n, y, h1, h2⟩ := h
  obtain ⟨order, hperm, ds, hds, hm⟩ := Props.Workers.C76_merged P n y h1 acc h2
  rw [hadd _ _ hm, List.flatMap_assoc]
  have h3 : order.flatMap (fun i => (ds i).flatMap out) = order.flatMap (fun i => outs out (job F) P.runCount (P.seed i)) := by
    refine List.flatMap_congr fun i hi => ?_
    obtain ⟨h4, s', h5⟩ := hds i hi
    rw [consecutive_outs hs hok hP (ds i) _ s' h5, h4]
  rw [h3]
  exact hperm.flatMap_right _

theorem outs_length (hok : ∀ s, ∃ d s', job F s = .ok (d, s') ∧ One out d) : ∀ n s, (outs out (job F) n s).length = n := by
  intro n
  induction n with
  | zero => intro s; rfl
  | succ n ih =>
    intro s
    obtain ⟨d, s', h1, a, h2⟩ := hok s
    rw [outs, h1]
    simp [h2, ih]

theorem perm_average {l l' : List ℚ} (h : l.Perm l') : exactAverage l = exactAverage l' := by
  unfold exactAverage
  rw [h.sum_eq, h.length_eq]

theorem perm_variance {l l' : List ℚ} (h : l.Perm l') : exactVariance l = exactVariance l' := by
  unfold exactVariance
  rw [perm_average h, (h.map _).sum_eq, h.length_eq]

theorem finishes_all (hadd : Additive out) {Q : A → Prop} (hj : ∀ f s d s', job f s = .ok (d, s') → ∀ a ∈ out d, Q a)
    {P : Program (List Nat × τ) T} (hP : P.job = job) {acc : Data T} (h : Finishes P acc) : ∀ a ∈ out acc, Q a := by
  obtain ⟨n, y, h1, h2⟩ := h
  obtain ⟨order, -, ds, hds, hm⟩ := Props.Workers.C76_merged P n y h1 acc h2
  intro a ha
  rw [hadd _ _ hm] at ha
  obtain ⟨d, hd, had⟩ := List.mem_flatMap.1 ha
  obtain ⟨i, hi, hdi⟩ := List.mem_flatMap.1 hd
  obtain ⟨-, s', hc⟩ := hds i hi
  have key : ∀ (l : List (Data T)) s s', Consecutive P s l s' → ∀ d ∈ l, ∀ a ∈ out d, Q a := by
    intro l s s' hl
    induction hl with
    | nil => intro d hd; cases hd
    | snoc h1 h2 ih =>
      intro d hd
      rcases List.mem_append.1 hd with hd | hd
      · exact ih d hd
      · obtain rfl := List.mem_singleton.1 hd
        obtain ⟨f, hf⟩ := h2
        rw [hP] at hf
        exact hj _ _ _ _ hf
  exact key _ _ _ hc d hdi a had

/-- A single run -/
theorem runMean_iff {N : Nat} (hs : ∀ f d s, job f s ≠ .error .fuel → job (f + d) s = job f s)
    (hE : ∀ u, Ends m (fun d _ => One out d) K (fun t => job F (t, u))) (hN : K ≤ N) (u : τ) (v : A → ℚ) (μ : ℚ) :
    HasMean (List.replicate N m) (fun t x => ∃ f d s' a, job f (t, u) = .ok (d, s') ∧ out d = [a] ∧ v a = x) μ ↔ μ = runMean out m N (job F) u v := by
  have key : ∀ t : List Nat, t ∈ tapes (List.replicate N m) → ∀ x, (∃ f d s' a, job f (t, u) = .ok (d, s') ∧ out d = [a] ∧ v a = x) ↔
      x = pay (fun d _ => first out v d) (job F (t, u)) := by
    intro t ht x
    have h0 := mem_tapes.1 ht
    have hl : t.length = N := by rw [h0.length_eq, List.length_replicate]
    have hlt : ∀ k ∈ t, k < m := by
      intro k hk
      obtain ⟨i, hi, rfl⟩ := List.getElem_of_mem hk
      have := h0.get (i := i) hi (by rw [← h0.length_eq]; exact hi)
      simpa using this
    obtain ⟨d, s, h1, ⟨a, ha⟩, -⟩ := ends_returns (hE u) t hlt (by omega)
    rw [h1, pay, first_eq ha]
    constructor
    · rintro ⟨f, d', s', b, h3, h4, h5⟩
      have := same_run hs h1 (f := f) (by rw [h3]; intro he; cases he)
      rw [h3] at this
      cases this
      rw [ha] at h4
      cases h4
      exact h5.symm
    · exact fun h => ⟨F, d, s, a, h1, ha, h.symm⟩
  constructor
  · rintro ⟨V, h1, rfl⟩
    rw [runMean, ← meanOver_eq]
    unfold meanOver
    congr 2
    refine List.map_congr_left fun t ht => ?_
    exact (key t ht _).1 ((h1 t ht _).2 rfl)
  · rintro rfl
    exact ⟨_, key, (meanOver_eq _ N).symm⟩

/-- The runs of a program are independent of each other. -/
theorem sampled_part (hm : 0 < m) (hs : ∀ f d s, job f s ≠ .error .fuel → job (f + d) s = job f s) (hfresh : ∀ f t u u', job f (t, u) = job f (t, u'))
    (hok : ∀ s, ∃ d s', job F s = .ok (d, s') ∧ One out d) (hE : ∀ u, Ends m (fun d _ => One out d) K (fun t => job F (t, u)))
    (hadd : Additive out) {cpu runs N : Nat} (hN : runs * K ≤ N) (hK : K ≤ N) (u : Nat → τ) :
    ∃ (E : (A → ℚ) → ℚ) (S : List Nat → List A),
      E = runMean out m N (job F) (u 0) ∧
      (∀ x y g h, E (fun b => x * g b + y * h b) = x * E g + y * E h) ∧ (∀ x, E (fun _ => x) = x) ∧
      (∀ t acc, Finishes ⟨cpu, runs, job, pieces N u t⟩ acc → (out acc).Perm (S t)) ∧
      (∀ t, (S t).length = cpu * runs) ∧ (∀ t, ∃ acc, Finishes ⟨cpu, runs, job, pieces N u t⟩ acc) ∧
      ∀ H : List A → ℚ, mean m (cpu * N) (fun t => H (S t)) = seqMean E (cpu * runs) H := by
  have hok' : ∀ s, ∃ r, job F s = .ok r := fun s => by
    obtain ⟨d, s', h, -⟩ := hok s
    exact ⟨_, h⟩
  refine ⟨runMean out m N (job F) (u 0), fun t => (List.range cpu).flatMap fun i => outs out (job F) runs (pieces N u t i),
    rfl, runMean_linear N (u 0), runMean_const hm hE hK (u 0),
    fun t acc hf => finishes_outs hadd hs hok' (P := ⟨cpu, runs, job, pieces N u t⟩) rfl hf, fun t => ?_,
    fun t => finishes hs hok' (P := ⟨cpu, runs, job, pieces N u t⟩) rfl, ?_⟩
  · simp [List.length_flatMap, outs_length hok]
  · refine threads_outs hm hE (fun v g => ?_) runs N hN cpu u
    unfold runMean
    rw [mean_longer hm (hE v) _ K N (Nat.le_refl K) hK]
    simp only [hfresh F _ v (u 0)]

theorem programMean_part {cpu runs N : Nat} {u : Nat → τ} {S : List Nat → List A}
    (hS : ∀ t acc, Finishes ⟨cpu, runs, job, pieces N u t⟩ acc → (out acc).Perm (S t))
    (hf : ∀ t, ∃ acc, Finishes ⟨cpu, runs, job, pieces N u t⟩ acc) {H : Data T → ℚ} {G : List A → ℚ}
    (hG : ∀ d l, (out d).Perm l → H d = G l) {μ : ℚ} (hμ : mean m (cpu * N) (fun t => G (S t)) = μ) :
    HasMean (List.replicate (cpu * N) m) (fun t x => (∃ acc, Finishes ⟨cpu, runs, job, pieces N u t⟩ acc) ∧
      ∀ acc, Finishes ⟨cpu, runs, job, pieces N u t⟩ acc → H acc = x) μ := by
  refine ⟨fun t => G (S t), fun t _ x => ⟨fun ⟨⟨acc, h1⟩, h2⟩ => ?_, ?_⟩, ?_⟩
  · rw [← h2 acc h1]
    exact hG _ _ (hS t acc h1)
  · rintro rfl
    exact ⟨hf t, fun acc h1 => hG _ _ (hS t acc h1)⟩
  · rw [meanOver_eq, hμ]

theorem ends_weaken {I I' : Data T → τ → Prop} (hI : ∀ d u, I d u → I' d u) {c : List Nat → Except Err (Data T × (List Nat × τ))}
    (h : Ends m I K c) : Ends m I' K c := by
  induction h with
  | done b u h h1 => exact .done b u h (hI _ _ h1)
  | draw h ih => exact .draw ih

theorem ends_part {I : Data T → τ → Prop} {I' : Data T → Prop} {c : List Nat → Except Err (Data T × (List Nat × τ))}
    (h : Ends m I K c) : (∀ t d s, c t = .ok (d, s) → I' d) → Ends m (fun d _ => I' d) K c := by
  induction h with
  | done b u h h1 => exact fun h2 => .done b u h (h2 [] b ([], u) (h []))
  | draw h ih => exact fun h2 => .draw fun k hk => ih k hk fun t d s he => h2 (k :: t) d s he

theorem runMean_solutions (hs : ∀ f d s, job f s ≠ .error .fuel → job (f + d) s = job f s)
    (hok : ∀ s, ∃ d s' a, job F s = .ok (d, s') ∧ d.1.results = [some a])
    (hE : ∀ u, Ends m (fun d _ => Single d) K (fun t => job F (t, u))) {N : Nat} (hN : K ≤ N) (u : τ) (v : Solution T → ℚ) (μ : ℚ) :
    RunMean m N job u v μ ↔ μ = runMean (solutions T) m N (job F) u v := by
  rw [← runMean_iff hs (fun u => ends_weaken (fun _ _ => one_of_single) (hE u)) hN u v μ]
  unfold RunMean Succeeds
  have : ∀ t x, (∃ f d s' a, job f (t, u) = .ok (d, s') ∧ d.1.results = [some a] ∧ v a = x) ↔
      ∃ f d s' a, job f (t, u) = .ok (d, s') ∧ solutions T d = [a] ∧ v a = x := by
    intro t x
    constructor
    · rintro ⟨f, d, s', a, h1, h2, h3⟩
      exact ⟨f, d, s', a, h1, by rw [solutions, h2]; rfl, h3⟩
    · rintro ⟨f, d, s', a, h1, h2, h3⟩
      obtain ⟨d', s'', b, h4, h5⟩ := hok (t, u)
      have := same_run hs h4 (f := f) (by rw [h1]; intro he; cases he)
      rw [h1] at this
      cases this
      rw [solutions, h5] at h2
      cases h2
      exact ⟨f, d, s', a, h1, h5, h3⟩
  simp only [this]

/-- The runs of a program are independent of each other: their solutions. -/
theorem sampled (hm : 0 < m) (h : Trial m K job) {cpu runs N : Nat} (hN : runs * K ≤ N) (hK : K ≤ N) (u : Nat → τ) :
    ∃ (E : (Solution T → ℚ) → ℚ) (S : List Nat → List (Solution T)),
      (∀ v μ, RunMean m N job (u 0) v μ ↔ μ = E v) ∧
      (∀ x y g h, E (fun b => x * g b + y * h b) = x * E g + y * E h) ∧ (∀ x, E (fun _ => x) = x) ∧
      (∀ t acc, Finishes ⟨cpu, runs, job, pieces N u t⟩ acc → (acc.1.results.filterMap id).Perm (S t)) ∧
      (∀ t, (S t).length = cpu * runs) ∧ (∀ t, ∃ acc, Finishes ⟨cpu, runs, job, pieces N u t⟩ acc) ∧
      ∀ H : List (Solution T) → ℚ, mean m (cpu * N) (fun t => H (S t)) = seqMean E (cpu * runs) H := by
  obtain ⟨F, hok, hE⟩ := h.runs
  obtain ⟨E, S, h1, h2⟩ := sampled_part (out := solutions T) hm h.steady h.fresh (F := F) (fun s => by
    obtain ⟨d, s', a, h3, h4⟩ := hok s
    exact ⟨d, s', h3, one_of_single ⟨a, h4⟩⟩) (fun u => ends_weaken (fun _ _ => one_of_single) (hE u)) additive_solutions (cpu := cpu) hN hK u
  exact ⟨E, S, fun v μ => by rw [h1]; exact runMean_solutions h.steady hok hE hK (u 0) v μ, h2⟩

end

end Verif.Estimate
