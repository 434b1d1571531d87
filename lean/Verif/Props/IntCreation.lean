import Verif.Props.IntMean
import Verif.IEEE.Cast

/-!
# C80: random integer genes
-/

namespace Verif.Props

open Verif Spec IntGenes

variable {σ : Type}

theorem toF64_exact {n : Int} (h : n.natAbs ≤ 2 ^ 53) : (toF64 n).toInt = n * Fmt.f64.D ∧ (toF64 n).isFinite = true := by
  have hr := Fl.ofInt_rounds (f := Fmt.f64) n
  have hlt : n.natAbs * Fmt.f64.D < Fmt.f64.mag Fmt.f64.infIdx := by
    rw [Fmt.f64.mag_inf_eq]
    refine Nat.mul_lt_mul_of_pos_right (lt_of_le_of_lt h ?_) Fmt.f64.D_pos
    decide +kernel
  have he : Fmt.f64.rnd ((n : ℝ) * Fmt.f64.D) = n * Fmt.f64.D := by
    have h1 := Fmt.f64.rnd_short (v := n.natAbs) (e := Fmt.f64.bias + Fmt.f64.mw - 1) h (Nat.le_of_lt hlt)
    have hD : Fmt.f64.D = 2 ^ (Fmt.f64.bias + Fmt.f64.mw - 1) := rfl
    rw [← hD] at h1
    have hn := Int.natAbs_eq n
    generalize n.natAbs = m at h1 hn
    rcases hn with rfl | rfl
    · push_cast at h1 ⊢; exact h1
    · push_cast at h1 ⊢
      rw [neg_mul, Fmt.rnd_neg, h1, neg_mul]
  have ht : (toF64 n).toInt = n * Fmt.f64.D := by unfold toF64; rw [hr.2, he]
  refine ⟨ht, ?_⟩
  rw [Fl.isFinite_iff_toInt, ht, Int.natAbs_mul, Int.natAbs_natCast]
  exact hlt

/-- The intervals of a creator of integer genes: increasing, in the range of the type, and not beyond `2 ^ 53`. -/
def IntIntervals (T : IntTy) (ivs : List (Int × Int)) : Prop :=
  ∀ iv ∈ ivs, T.min ≤ iv.1 ∧ iv.1 < iv.2 ∧ iv.2 ≤ T.max ∧ iv.1.natAbs ≤ 2 ^ 53 ∧ iv.2.natAbs ≤ 2 ^ 53

theorem truncate_between {x : F64} {lo hi : Int} (h1 : lo * Fmt.f64.D ≤ x.toInt) (h2 : x.toInt ≤ hi * Fmt.f64.D) :
    lo ≤ truncate x ∧ truncate x ≤ hi := by
  have hD : (0 : Int) < Fmt.f64.D := by exact_mod_cast Fmt.f64.D_pos
  exact tdiv_between hD (by rw [mul_comm]; exact h1) (by rw [mul_comm]; exact h2)

theorem drawInt_tot (T : IntTy) (R : Rng σ) (iv : Int × Int)
    (h : T.min ≤ iv.1 ∧ iv.1 < iv.2 ∧ iv.2 ≤ T.max ∧ iv.1.natAbs ≤ 2 ^ 53 ∧ iv.2.natAbs ≤ 2 ^ 53) (s : σ) :
    M.Tot (drawGene T R iv) s (fun x _ => iv.1 ≤ x ∧ x ≤ iv.2) := by
  obtain ⟨h1, h2, h3, h4, h5⟩ := h
  obtain ⟨e1, f1⟩ := toF64_exact h4
  obtain ⟨e2, f2⟩ := toF64_exact h5
  have hD : (0 : Int) < Fmt.f64.D := by exact_mod_cast Fmt.f64.D_pos
  have hle : (toF64 iv.1).le (toF64 iv.2) = true := by
    rw [Fl.le_iff]
    refine ⟨Fl.isNan_of_isFinite f1, Fl.isNan_of_isFinite f2, ?_⟩
    rw [e1, e2]
    exact mul_le_mul_of_nonneg_right h2.le hD.le
  obtain ⟨x, s', hx, l1, l2⟩ := R.uniformFlIncl_tot hle f1 f2 s
  have g1 := (Fl.le_iff.1 l1).2.2
  have g2 := (Fl.le_iff.1 l2).2.2
  rw [e1] at g1
  rw [e2] at g2
  have hb := truncate_between g1 g2
  refine ⟨truncate x, s', M.bind_eq_ok.2 ⟨x, s', hx, M.unwrap_eq_ok.2 ⟨?_, rfl⟩⟩, hb⟩
  unfold IntTy.fromF64
  rw [if_pos ⟨Fl.isFinite_of_between f1 f2 l1 l2, by omega, by omega⟩]

theorem mapL_drawInt_tot (T : IntTy) (R : Rng σ) (ivs : List (Int × Int)) (h : IntIntervals T ivs) (s : σ) :
    M.Tot (M.mapL (drawGene T R) ivs) s (fun xs _ => IntBox ivs xs) := by
  induction ivs generalizing s with
  | nil => exact ⟨[], s, rfl, .nil⟩
  | cons iv ivs ih =>
    obtain ⟨x, s1, hx, hi⟩ := drawInt_tot T R iv (h iv (by simp)) s
    obtain ⟨xs, s2, hxs, his⟩ := ih (fun iv hiv => h iv (by simp [hiv])) s1
    exact ⟨x :: xs, s2, M.mapL_cons_ok.2 ⟨x, xs, s1, hx, hxs, rfl⟩, .cons hi his⟩

/-- C80: the constructor succeeds exactly on a positive size and a non-empty list of increasing intervals. -/
theorem C80_constructor (size : Nat) (ivs : List (Int × Int)) (s : σ) :
    ((0 < size ∧ ivs ≠ [] ∧ ∀ iv ∈ ivs, iv.1 < iv.2) → RandomCreator.new size ivs s = .ok (⟨size, ivs⟩, s)) ∧
    (¬ (0 < size ∧ ivs ≠ [] ∧ ∀ iv ∈ ivs, iv.1 < iv.2) → RandomCreator.new size ivs s = .error .assert) := by
  unfold RandomCreator.new
  constructor
  · rintro ⟨h1, h2, h3⟩
    refine M.bind_eq_ok.2 ⟨(), s, M.assert_eq_ok.2 ⟨by simpa using h1, rfl⟩, ?_⟩
    refine M.bind_eq_ok.2 ⟨(), s, M.assert_eq_ok.2 ⟨by simpa using h2, rfl⟩, ?_⟩
    refine M.bind_eq_ok.2 ⟨(), s, M.assert_eq_ok.2 ⟨by simpa [List.all_eq_true] using h3, rfl⟩, rfl⟩
  · intro h
    by_cases h1 : 0 < size
    · rw [M.bind_eq_error]; right
      refine ⟨(), s, M.assert_eq_ok.2 ⟨by simpa using h1, rfl⟩, ?_⟩
      by_cases h2 : ivs = []
      · rw [M.bind_eq_error]; left
        simp [M.assert, h2, M.fail]
      · have h3 : ¬ ∀ iv ∈ ivs, iv.1 < iv.2 := fun h3 => h ⟨h1, h2, h3⟩
        rw [M.bind_eq_error]; right
        refine ⟨(), s, M.assert_eq_ok.2 ⟨by simpa using h2, rfl⟩, ?_⟩
        rw [M.bind_eq_error]; left
        have : (ivs.all fun iv => decide (iv.1 < iv.2)) = false := by
          rw [← Bool.not_eq_true, List.all_eq_true]; simpa using h3
        simp only [M.assert, this]; rfl
    · rw [M.bind_eq_error]; left
      simp [M.assert, h1, M.fail]

/-- C80: on increasing intervals of values of the type not beyond `2 ^ 53`, `create` returns, for every random source, exactly
`population_size` chromosomes with one gene per interval, each inside its interval. -/
theorem C80_create (T : IntTy) (R : Rng σ) (size : Nat) (ivs : List (Int × Int)) (h : IntIntervals T ivs) (s : σ) :
    ∃ xs s', RandomCreator.create T R ⟨size, ivs⟩ s = .ok (xs, s') ∧ xs.length = size ∧ ∀ x ∈ xs, IntBox ivs x := by
  unfold RandomCreator.create
  dsimp only
  induction size generalizing s with
  | zero => exact ⟨[], s, rfl, rfl, by simp⟩
  | succ n ih =>
    obtain ⟨x, s1, hx, hi⟩ := mapL_drawInt_tot T R ivs h s
    obtain ⟨xs, s2, hxs, hl, his⟩ := ih s1
    refine ⟨x :: xs, s2, M.replicate_succ_ok.2 ⟨x, xs, s1, hx, hxs, rfl⟩, by simp [hl], ?_⟩
    intro y hy
    rcases List.mem_cons.1 hy with rfl | hy
    · exact hi
    · exact his y hy

/-- C80: `RandomVectorCreator::create_vec` alike. -/
theorem C80_create_vec (T : IntTy) (R : Rng σ) (ivs : List (Int × Int)) (h : IntIntervals T ivs) (s : σ) :
    ∃ x s', createVec T R ivs s = .ok (x, s') ∧ IntBox ivs x := by
  obtain ⟨x, s1, hx, hi⟩ := mapL_drawInt_tot T R ivs h s
  refine ⟨x, s1, M.bind_eq_ok.2 ⟨(), s, M.assert_eq_ok.2 ⟨?_, rfl⟩, hx⟩, hi⟩
  rw [List.all_eq_true]
  intro iv hiv
  simpa using (h iv hiv).2.1

/-- C80: the initializers of the swarm return, without panic, as many vectors as asked for, each in the intervals. -/
theorem C80_swarm_initializers (T : IntTy) (R : Rng σ) (count : Nat) (ivs : List (Int × Int)) (h : IntIntervals T ivs) (s : σ) :
    ∃ xs s', randomInit T R ivs count s = .ok (xs, s') ∧ xs.length = count ∧ ∀ x ∈ xs, IntBox ivs x := by
  unfold randomInit
  induction count generalizing s with
  | zero => exact ⟨[], s, rfl, rfl, by simp⟩
  | succ n ih =>
    obtain ⟨x, s1, hx, hi⟩ := C80_create_vec T R ivs h s
    obtain ⟨xs, s2, hxs, hl, his⟩ := ih s1
    refine ⟨x :: xs, s2, M.replicate_succ_ok.2 ⟨x, xs, s1, hx, hxs, rfl⟩, by simp [hl], ?_⟩
    intro y hy
    rcases List.mem_cons.1 hy with rfl | hy
    · exact hi
    · exact his y hy

/-- C80: an interval that does not increase is a panic of the initializers, unless there are no particles. -/
theorem C80_swarm_initializers_panic (T : IntTy) (R : Rng σ) (count : Nat) (ivs : List (Int × Int))
    (h : ¬ ∀ iv ∈ ivs, iv.1 < iv.2) (s : σ) :
    randomInit T R ivs count s = if count = 0 then .ok ([], s) else .error .assert := by
  unfold randomInit
  cases count with
  | zero => rfl
  | succ n =>
    have hc : createVec T R ivs s = .error .assert := by
      have : ivs.all (fun iv => decide (iv.1 < iv.2)) = false := by
        rw [Bool.eq_false_iff]
        intro hc
        exact h (by simpa [List.all_eq_true] using hc)
      unfold createVec
      rw [this]
      rfl
    rw [if_neg (by omega)]
    show (createVec T R ivs s >>= fun _ => _) = _
    rw [hc]
    rfl

/-- C80: the zero velocities are `count` vectors of `dimension` zeros. -/
theorem C80_zero_velocity (dimension count : Nat) (s : σ) :
    ∃ xs, zeroInit dimension count s = .ok (xs, s) ∧ xs.length = count ∧ ∀ x ∈ xs, x.length = dimension ∧ ∀ v ∈ x, v = 0 := by
  unfold zeroInit
  induction count with
  | zero => exact ⟨[], rfl, rfl, by simp⟩
  | succ n ih =>
    obtain ⟨xs, hxs, hl, h0⟩ := ih
    refine ⟨List.replicate dimension 0 :: xs, M.replicate_succ_ok.2 ⟨_, xs, s, rfl, hxs, rfl⟩, by simp [hl], ?_⟩
    intro y hy
    rcases List.mem_cons.1 hy with rfl | hy
    · exact ⟨by simp, fun v hv => (List.mem_replicate.1 hv).2⟩
    · exact h0 y hy

/-- C80: for the types with at most 53 bits all intervals of values of the type are good. -/
theorem C80_narrow_types (T : IntTy) (hw : T.width ≤ 53) (ivs : List (Int × Int))
    (h : ∀ iv ∈ ivs, InRange T iv.1 ∧ InRange T iv.2 ∧ iv.1 < iv.2) : IntIntervals T ivs := by
  intro iv hiv
  obtain ⟨⟨a1, a2⟩, ⟨b1, b2⟩, hlt⟩ := h iv hiv
  have h1 : (2 : Int) ^ T.width ≤ 2 ^ 53 := pow_le_pow_right₀ (by norm_num) hw
  have h2 : (2 : Int) ^ (T.width - 1) ≤ 2 ^ 53 := pow_le_pow_right₀ (by norm_num) (by omega)
  have key : ∀ x, T.min ≤ x → x ≤ T.max → x.natAbs ≤ 2 ^ 53 := by
    intro x x1 x2
    unfold IntTy.min at x1
    unfold IntTy.max at x2
    split at x1
    · next hs => rw [if_pos hs] at x2; omega
    · next hs => rw [if_neg hs] at x2; omega
  exact ⟨a1, hlt, b2, key _ a1 a2, key _ b1 b2⟩

/-- C80: with larger bounds a gene that is created lies between the bounds as `f64` has them. -/
theorem C80_large (T : IntTy) (R : Rng σ) (iv : Int × Int) (s s' : σ) (x : Int) (h : drawGene T R iv s = .ok (x, s')) :
    InRange T x ∧ truncate (toF64 iv.1) ≤ x ∧ x ≤ truncate (toF64 iv.2) := by
  obtain ⟨y, s1, hy, h⟩ := M.bind_eq_ok.1 h
  obtain ⟨l1, l2, -, -⟩ := R.uniformFlIncl_ok hy
  have := (M.unwrap_eq_ok.1 h).1
  unfold IntTy.fromF64 at this
  split at this
  · next hc =>
    cases this
    have hD : (0 : Int) < Fmt.f64.D := by exact_mod_cast Fmt.f64.D_pos
    exact ⟨hc.2, Int.tdiv_le_tdiv hD (Fl.le_iff.1 l1).2.2, Int.tdiv_le_tdiv hD (Fl.le_iff.1 l2).2.2⟩
  · cases this

/-- C80: so it may lie outside its interval: `2 ^ 53 + 4` for the interval `[0, 2 ^ 53 + 3]`. -/
theorem C80_outside_witness : M.okAnd (drawGene i64 Rng.script (0, 2 ^ 53 + 3) [1]) (fun x _ => x == 2 ^ 53 + 4) = true := by
  decide +kernel

/-- C80: and with `i64::MAX` as the upper bound the creator may panic, because `f64` has `2 ^ 63` for it. -/
theorem C80_panic_witness : (match RandomCreator.create i64 Rng.script ⟨1, [(0, i64.max)]⟩ [1] with
    | .error e => e == Err.unwrap | .ok _ => false) = true := by decide +kernel

example : IntIntervals i32 [(-10, 10), (0, i32.max)] :=
  C80_narrow_types _ (by decide) _ (by
    simp only [List.mem_cons, List.not_mem_nil, or_false, forall_eq_or_imp, forall_eq]; unfold InRange; decide)

example : M.okAnd (RandomCreator.create i32 Rng.script ⟨2, [(-10, 10), (0, i32.max)]⟩ [1, 0, 0, 1])
    (fun xs _ => xs == [[10, 0], [-10, 2147483647]]) = true := by decide +kernel

example : M.okAnd (randomInit i32 Rng.script [(-10, 10), (0, i32.max)] 2 [1, 0, 0, 1])
    (fun xs _ => xs == [[10, 0], [-10, 2147483647]]) = true := by decide +kernel

end Verif.Props
