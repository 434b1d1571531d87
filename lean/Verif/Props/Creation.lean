import Verif.IEEE.Cast
import Verif.Model.Creation
import Verif.Spec.Intervals

/-!
# C10, C11: random initial points
-/

namespace Verif.Props

open Verif Spec Creation

variable {σ : Type} {f : Fmt}

/-! ## C10 -/

/-- C10: the constructor succeeds exactly on a positive size and a non-empty list of increasing
intervals, and otherwise panics. -/
theorem C10_constructor (size : Nat) (ivs : List (Fl f × Fl f)) (s : σ) :
    ((0 < size ∧ ivs ≠ [] ∧ ∀ iv ∈ ivs, iv.1.lt iv.2 = true) →
        RandomCreator.new size ivs s = .ok (⟨size, ivs⟩, s)) ∧
    (¬ (0 < size ∧ ivs ≠ [] ∧ ∀ iv ∈ ivs, iv.1.lt iv.2 = true) →
        RandomCreator.new size ivs s = .error .assert) := by
  constructor
  · rintro ⟨h1, h2, h3⟩
    unfold RandomCreator.new
    refine M.bind_eq_ok.2 ⟨(), s, M.assert_eq_ok.2 ⟨by simpa using h1, rfl⟩, ?_⟩
    refine M.bind_eq_ok.2 ⟨(), s, M.assert_eq_ok.2 ⟨by simpa using h2, rfl⟩, ?_⟩
    refine M.bind_eq_ok.2 ⟨(), s, M.assert_eq_ok.2 ⟨by simpa [List.all_eq_true] using h3, rfl⟩, rfl⟩
  · intro h
    unfold RandomCreator.new
    by_cases h1 : 0 < size
    · by_cases h2 : ivs = []
      · rw [M.bind_eq_error]; right
        refine ⟨(), s, M.assert_eq_ok.2 ⟨by simpa using h1, rfl⟩, ?_⟩
        rw [M.bind_eq_error]; left
        simp [M.assert, h2, M.fail]
      · have h3 : ¬ ∀ iv ∈ ivs, iv.1.lt iv.2 = true := fun h3 => h ⟨h1, h2, h3⟩
        rw [M.bind_eq_error]; right
        refine ⟨(), s, M.assert_eq_ok.2 ⟨by simpa using h1, rfl⟩, ?_⟩
        rw [M.bind_eq_error]; right
        refine ⟨(), s, M.assert_eq_ok.2 ⟨by simpa using h2, rfl⟩, ?_⟩
        rw [M.bind_eq_error]; left
        have : (ivs.all fun iv => iv.1.lt iv.2) = false := by
          rw [← Bool.not_eq_true, List.all_eq_true]; exact h3
        simp only [M.assert, this]; rfl
    · rw [M.bind_eq_error]; left
      simp [M.assert, h1, M.fail]

theorem drawGene_tot (R : Rng σ) (hf : Fmt.Embeds f Fmt.f64) (iv : Fl f × Fl f)
    (h : iv.1.isFinite = true ∧ iv.2.isFinite = true ∧ iv.1.lt iv.2 = true) (s : σ) :
    M.Tot (drawGene R iv) s (fun x _ => InInterval iv x) := by
  obtain ⟨h1, h2, h3⟩ := h
  obtain ⟨x, s', hx, l1, l2⟩ := R.uniformFlIncl_tot
    (Fl.cast_le hf h1 h2 (Fl.le_of_lt h3)) (Fl.cast_exact hf h1).1 (Fl.cast_exact hf h2).1 s
  obtain ⟨b1, b2⟩ := Fl.cast_between hf h1 h2 l1 l2
  exact ⟨x.cast, s', M.bind_eq_ok.2 ⟨x, s', hx, rfl⟩,
    Fl.isFinite_of_between h1 h2 b1 b2, b1, b2⟩

theorem mapL_drawGene_tot (R : Rng σ) (hf : Fmt.Embeds f Fmt.f64) (ivs : List (Fl f × Fl f))
    (h : FiniteIncreasing ivs) (s : σ) :
    M.Tot (M.mapL (drawGene R) ivs) s (fun xs _ => InBox ivs xs) := by
  induction ivs generalizing s with
  | nil => exact ⟨[], s, rfl, .nil⟩
  | cons iv ivs ih =>
    obtain ⟨x, s1, hx, hi⟩ := drawGene_tot R hf iv (h iv (by simp)) s
    obtain ⟨xs, s2, hxs, his⟩ := ih (fun iv hiv => h iv (by simp [hiv])) s1
    exact ⟨x :: xs, s2, M.mapL_cons_ok.2 ⟨x, xs, s1, hx, hxs, rfl⟩, .cons hi his⟩

/-- C10: on finite increasing intervals `create` returns, for every random source, exactly
`population_size` chromosomes with one gene per interval, each inside its interval; `f` is any
format that embeds in `f64` (`f32`, `f64`). -/
theorem C10_create (R : Rng σ) (hf : Fmt.Embeds f Fmt.f64) (size : Nat) (ivs : List (Fl f × Fl f))
    (h : FiniteIncreasing ivs) (s : σ) :
    ∃ xs s', RandomCreator.create R ⟨size, ivs⟩ s = .ok (xs, s') ∧
      xs.length = size ∧ ∀ x ∈ xs, InBox ivs x := by
  unfold RandomCreator.create
  dsimp only
  induction size generalizing s with
  | zero => exact ⟨[], s, rfl, rfl, by simp⟩
  | succ n ih =>
    obtain ⟨x, s1, hx, hi⟩ := mapL_drawGene_tot R hf ivs h s
    obtain ⟨xs, s2, hxs, hl, his⟩ := ih s1
    refine ⟨x :: xs, s2, M.replicate_succ_ok.2 ⟨x, xs, s1, hx, hxs, rfl⟩, by simp [hl], ?_⟩
    intro y hy
    rcases List.mem_cons.1 hy with rfl | hy
    · exact hi
    · exact his y hy

theorem mapL_drawGene_infinite (R : Rng σ) (ivs : List (Fl f × Fl f))
    (h : ∃ iv ∈ ivs, iv.1.isFinite = false ∨ iv.2.isFinite = false) (s : σ) (xs : List (Fl f)) (s' : σ) :
    M.mapL (drawGene R) ivs s ≠ .ok (xs, s') := by
    intro hr
    have := M.mapL_forall₂ (R := fun (iv : Fl f × Fl f) _ => iv.1.isFinite = true ∧ iv.2.isFinite = true)
      (fun iv _ s x s' hd => by
        obtain ⟨y, s1, hy, -⟩ := M.bind_eq_ok.1 hd
        obtain ⟨-, -, g1, g2⟩ := R.uniformFlIncl_ok hy
        constructor
        · by_contra hc
          rw [Bool.not_eq_true] at hc
          rw [Fl.isFinite_cast_inf hc] at g1; simp at g1
        · by_contra hc
          rw [Bool.not_eq_true] at hc
          rw [Fl.isFinite_cast_inf hc] at g2; simp at g2) hr
    obtain ⟨iv, hiv, hbad⟩ := h
    have hall : ∀ iv ∈ ivs, iv.1.isFinite = true ∧ iv.2.isFinite = true := by
      clear hbad hiv hr
      induction this with
      | nil => simp
      | cons h1 _ ih => intro iv hiv; rcases List.mem_cons.1 hiv with rfl | hiv
                        · exact h1
                        · exact ih iv hiv
    have := hall iv hiv
    rcases hbad with hb | hb
    · rw [hb] at this; simp at this
    · rw [hb] at this; simp at this

/-- C10: an infinite end passes the constructor, but then `create` panics. -/
theorem C10_infinite (R : Rng σ) (size : Nat) (hs : 0 < size) (ivs : List (Fl f × Fl f))
    (h : ∃ iv ∈ ivs, iv.1.isFinite = false ∨ iv.2.isFinite = false) (s : σ) :
    ∃ e, RandomCreator.create R ⟨size, ivs⟩ s = .error e := by
  unfold RandomCreator.create
  cases hr : M.replicate size (M.mapL (drawGene R) ivs) s with
  | error e => exact ⟨e, rfl⟩
  | ok r =>
    obtain ⟨xs, s'⟩ := r
    obtain ⟨n, rfl⟩ : ∃ n, size = n + 1 := ⟨size - 1, by omega⟩
    obtain ⟨a, as, s1, h1, -⟩ := M.replicate_succ_ok.1 hr
    exact absurd h1 (mapL_drawGene_infinite R ivs h _ _ _)

theorem embeds_both : Fmt.Embeds Fmt.f32 Fmt.f64 ∧ Fmt.Embeds Fmt.f64 Fmt.f64 :=
  ⟨Fmt.embeds_f32, Fmt.embeds_refl _⟩

example : FiniteIncreasing [((Fl.zero : F32), Fl.one), (Fl.ofInt (-3), Fl.ofNat 5)] := by
  intro iv hiv
  simp only [List.mem_cons, List.not_mem_nil, or_false] at hiv
  rcases hiv with rfl | rfl <;> decide +kernel

example : M.okAnd (RandomCreator.create Rng.script
    ⟨2, [((Fl.zero : F32), Fl.one), (Fl.ofInt (-3), Fl.ofNat 5)]⟩ [0, 1, 1, 0])
    (fun xs _ => xs == [[Fl.zero, Fl.ofNat 5], [Fl.one, Fl.ofInt (-3)]]) = true := by decide +kernel

/-! ## C11 -/

theorem createVec_tot (R : Rng σ) (hf : Fmt.Embeds f Fmt.f64) (ivs : List (Fl f × Fl f))
    (h : FiniteIncreasing ivs) (s : σ) :
    M.Tot (createVec R ivs) s (fun xs _ => InBox ivs xs) := by
  obtain ⟨x, s1, hx, hi⟩ := mapL_drawGene_tot R hf ivs h s
  refine ⟨x, s1, M.bind_eq_ok.2 ⟨(), s, M.assert_eq_ok.2 ⟨?_, rfl⟩, hx⟩, hi⟩
  rw [List.all_eq_true]
  exact fun iv hiv => (h iv hiv).2.2

/-- C11: the random initializers return `particles_count` vectors inside the box. -/
theorem C11_random (R : Rng σ) (hf : Fmt.Embeds f Fmt.f64) (ivs : List (Fl f × Fl f)) (count : Nat)
    (h : FiniteIncreasing ivs) (s : σ) :
    ∃ xs s', randomInit R ivs count s = .ok (xs, s') ∧ xs.length = count ∧
      ∀ x ∈ xs, InBox ivs x := by
  unfold randomInit
  induction count generalizing s with
  | zero => exact ⟨[], s, rfl, rfl, by simp⟩
  | succ n ih =>
    obtain ⟨x, s1, hx, hi⟩ := createVec_tot R hf ivs h s
    obtain ⟨xs, s2, hxs, hl, his⟩ := ih s1
    refine ⟨x :: xs, s2, M.replicate_succ_ok.2 ⟨x, xs, s1, hx, hxs, rfl⟩, by simp [hl], ?_⟩
    intro y hy
    rcases List.mem_cons.1 hy with rfl | hy
    · exact hi
    · exact his y hy

/-- C11: they panic if an interval is not increasing and a particle is requested … -/
theorem C11_random_bad (R : Rng σ) (ivs : List (Fl f × Fl f)) (count : Nat) (hc : 0 < count)
    (h : ∃ iv ∈ ivs, iv.1.lt iv.2 = false) (s : σ) :
    randomInit R ivs count s = .error .assert := by
  obtain ⟨n, rfl⟩ : ∃ n, count = n + 1 := ⟨count - 1, by omega⟩
  unfold randomInit
  rw [M.replicate, M.bind_eq_error]; left
  unfold createVec
  rw [M.bind_eq_error]; left
  have : (ivs.all fun iv => iv.1.lt iv.2) = false := by
    rw [← Bool.not_eq_true, List.all_eq_true]
    obtain ⟨iv, hiv, hb⟩ := h
    intro hall
    have := hall iv hiv
    rw [hb] at this; simp at this
  simp only [M.assert, this]; rfl

/-- … or if an end is infinite or NaN … -/
theorem C11_infinite (R : Rng σ) (count : Nat) (hc : 0 < count) (ivs : List (Fl f × Fl f))
    (h : ∃ iv ∈ ivs, iv.1.isFinite = false ∨ iv.2.isFinite = false) (s : σ) :
    ∃ e, randomInit R ivs count s = .error e := by
  unfold randomInit
  cases hr : M.replicate count (createVec R ivs) s with
  | error e => exact ⟨e, rfl⟩
  | ok r =>
    obtain ⟨xs, s'⟩ := r
    obtain ⟨n, rfl⟩ : ∃ n, count = n + 1 := ⟨count - 1, by omega⟩
    obtain ⟨a, as, s1, h1, -⟩ := M.replicate_succ_ok.1 hr
    obtain ⟨_, s2, -, h1⟩ := M.bind_eq_ok.1 h1
    exact absurd h1 (mapL_drawGene_infinite R ivs h _ _ _)

/-- … and otherwise not: with no particles nothing is checked. -/
theorem C11_random_none (R : Rng σ) (ivs : List (Fl f × Fl f)) (s : σ) :
    randomInit R ivs 0 s = .ok ([], s) := rfl

/-- C11: zero velocities. -/
theorem C11_zero (dimension count : Nat) (s : σ) :
    zeroInit (α := Fl f) dimension count s =
      .ok (List.replicate count (List.replicate dimension Fl.zero), s) := by
  unfold zeroInit
  induction count with
  | zero => rfl
  | succ n ih => rw [M.replicate, M.bind_run]; simp only [M.pure_run, M.bind_run, ih]; rfl

example : M.okAnd (randomInit Rng.script [((Fl.zero : F64), Fl.one)] 3 [0, 1, 0])
    (fun xs _ => xs == [[Fl.zero], [Fl.one], [Fl.zero]]) = true := by decide +kernel

end Verif.Props
