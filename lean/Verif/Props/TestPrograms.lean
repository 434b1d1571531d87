import Verif.Spec.TestPrograms
import Verif.Props.StatGenetic
import Verif.Props.StatSwarm
import Verif.Props.Checked
import Verif.Props.TestFuncError

/-!
# C85: the integration tests
-/

namespace Verif.Props

open Verif Spec Examples Fl Stats TestPrograms
open _root_.Verif.Spec.Swarm (Works)
open _root_.Verif.Props.Swarm (LibStop LibLogger statStops statStops_gnc statStops_lib)

variable {σ : Type}

/-! ## The runs -/

theorem threeStops_ok (L : Lens σ Stop.GNC) (p : Profile) (t : F64) (m : Nat) (d : F64) (n : Nat) (s : σ) :
    StatPrograms.threeStops L p t m d n s = .ok (statStops L t n p, L.set (Stop.GNC.new m d) s) :=
  M.bind_eq_ok.2 ⟨(), _, rfl, anyOf_ok (by simp) _⟩

theorem statStops_first (L : Lens σ Stop.GNC) (t : F64) {n : Nat} (hn : 0 < n) (p : Profile) :
    ¬ Returned (statStops L t n p ⟨none, 0⟩ : M σ Bool) true := by
  rintro ⟨s, s', h⟩
  have : (statStops L t n p ⟨none, 0⟩ : M σ Bool) s = .ok (decide (n ≤ 0), L.set (L.get s) s) := by
    show (if decide (n ≤ 0) = true then pure true else pure false : M σ Bool) (L.set (L.get s) s) = _
    cases decide (n ≤ 0) <;> rfl
  rw [this] at h
  have h2 : decide (n ≤ 0) = true := by injection h with h; exact (Prod.mk.inj h).1
  have := of_decide_eq_true h2
  omega

/-- One run of a genetic test, from any state of its optimizer in which the GoalNotChange object is as new. -/
theorem genetic_three {P : Platform σ} (hP : Platform.Sound P) {L : Lens σ Stop.GNC} (hL : Platform.Leaves L P)
    {goal : List F32 → F64} {size : Nat} (hsize : 0 < size) {lo hi : F32} {dims : Nat} (h1 : lo.isFinite = true)
    (h2 : hi.isFinite = true) (h3 : lo.lt hi = true)
    (hgoal : ∀ x, InBox (box lo hi dims) x → (goal x).isFinite = true) (rounds : Nat) (prob t : F64) {n : Nat} (hn : 0 < n)
    (fuel : Nat) (hfuel : n < fuel) (s : σ) (hs : (L.get s).changeIter = 0) :
    ∃ x o' w', GA.findMin fuel (geneticMade P (TestFunc.goalFromFunction goal) (statStops L t n P.profile) size (box lo hi dims)
        rounds prob []) ⟨s, []⟩ = .ok ((some (x, goal x), o'), w') ∧ InBox (box lo hi dims) x ∧ (goal x).isFinite = true := by
  have hlib := example_libProgram hP (goal := TestFunc.goalFromFunction goal) (statStops_lib L t n) hsize h1 h2 h3
    (fun x hx s => ⟨_, s, rfl, hgoal x hx⟩) rounds prob (ls := []) (by simp)
  have hown := geneticMade_owns hL (goal := TestFunc.goalFromFunction goal) (fun x => leaves_pure _ _)
    (statStops L t n .release) size (box lo hi dims) rounds prob (ls := []) (by simp)
  obtain ⟨x, v, o', w', e1, e2, ⟨u, u', e3⟩, e4, -, -⟩ := C71_find_min P.rng Fmt.embeds_f32 size (box lo hi dims) _ hlib n
    (C37_bounding n _ (by simp)) (statStops_first L t hn .release) fuel hfuel ⟨s, []⟩
  have hv : v = goal x := (M.pure_eq_ok.1 e3).1.symm
  subst hv
  obtain ⟨hag, -⟩ := GA.findMin_agree hown (limited_legal (n := size) rfl) (hasGNC_agree (statStops_gnc L t n) .release P.profile) fuel
    ⟨s, []⟩ hs
  have hag : GA.seen (GA.findMin fuel (geneticMade P (TestFunc.goalFromFunction goal) (statStops L t n .release) size
      (box lo hi dims) rounds prob []) ⟨s, []⟩) = GA.seen (GA.findMin fuel (geneticMade P (TestFunc.goalFromFunction goal)
      (statStops L t n P.profile) size (box lo hi dims) rounds prob []) ⟨s, []⟩) := hag
  rw [e1] at hag
  cases h6 : GA.findMin fuel (geneticMade P (TestFunc.goalFromFunction goal) (statStops L t n P.profile) size (box lo hi dims)
      rounds prob []) ⟨s, []⟩ with
  | error e => rw [h6] at hag; cases hag
  | ok q =>
    obtain ⟨⟨r, o2⟩, w2⟩ := q
    rw [h6] at hag
    simp only [GA.seen, Except.map, Except.ok.injEq, Prod.mk.injEq] at hag
    obtain ⟨⟨rfl, h7⟩, rfl⟩ := hag
    exact ⟨x, o2, w', rfl, e2, e4⟩

/-! ## The assertions -/

theorem verdict_some {dims : Nat} {valid : Nat → F32} {delta : F32} {limit : F64} {x : List F32} {v : F64} (hl : x.length = dims)
    (s : σ) : (Near dims valid delta limit x v → verdict dims valid delta limit (some (x, v)) s = .ok ((), s)) ∧
    (¬ Near dims valid delta limit x v → verdict dims valid delta limit (some (x, v)) s = .error .assert) := by
  have near : ∀ i (h : i < x.length), (nearAt x valid delta i : M σ Unit) s =
      if (x[i].sub (valid i)).abs.lt delta then .ok ((), s) else .error .assert := by
    intro i h
    unfold nearAt
    rw [M.bind_run, M.index_eq_ok.2 ⟨List.getElem?_eq_getElem h, rfl⟩]
    simp only
    cases (x[i].sub (valid i)).abs.lt delta <;> rfl
  have key : ∀ l : List Nat, (∀ i ∈ l, i < x.length) →
      ((∀ i ∈ l, ∀ h : i < x.length, (x[i].sub (valid i)).abs.lt delta = true) ∧
        M.foldL (fun _ i => nearAt x valid delta i) () l s = .ok ((), s)) ∨
      ((∃ i ∈ l, ∃ h : i < x.length, ¬ (x[i].sub (valid i)).abs.lt delta = true) ∧
        M.foldL (fun _ i => nearAt x valid delta i) () l s = .error .assert) := by
    intro l
    induction l with
    | nil => exact fun _ => .inl ⟨fun _ h => absurd h List.not_mem_nil, rfl⟩
    | cons i l ih =>
      intro hl
      have hi := hl i List.mem_cons_self
      have h0 := near i hi
      by_cases hb : (x[i].sub (valid i)).abs.lt delta = true
      · rw [if_pos hb] at h0
        rcases ih fun j hj => hl j (List.mem_cons_of_mem _ hj) with ⟨h1, h2⟩ | ⟨⟨j, hj, h1⟩, h2⟩
        · refine .inl ⟨?_, M.bind_eq_ok.2 ⟨(), s, h0, h2⟩⟩
          intro j hj h
          rcases List.mem_cons.1 hj with rfl | hj
          · exact hb
          · exact h1 j hj h
        · exact .inr ⟨⟨j, List.mem_cons_of_mem _ hj, h1⟩, M.bind_eq_error.2 (.inr ⟨(), s, h0, h2⟩)⟩
      · rw [if_neg hb] at h0
        exact .inr ⟨⟨i, List.mem_cons_self, hi, hb⟩, M.bind_eq_error.2 (.inl h0)⟩
  have hall : ∀ i ∈ List.range dims, i < x.length := fun i hi => by rw [hl]; exact List.mem_range.1 hi
  constructor
  · rintro ⟨h1, h2⟩
    rcases key (List.range dims) hall with ⟨-, h3⟩ | ⟨⟨i, hi, h, hb⟩, -⟩
    · exact M.bind_eq_ok.2 ⟨(), s, h3, M.assert_eq_ok.2 ⟨h2, rfl⟩⟩
    · exact absurd (h1 i h (List.mem_range.1 hi)) hb
  · intro hn
    rcases key (List.range dims) hall with ⟨h1, h3⟩ | ⟨-, h3⟩
    · refine M.bind_eq_error.2 (.inr ⟨(), s, h3, ?_⟩)
      have : ¬ v.abs.lt limit = true := fun h => hn ⟨fun i hi hd => h1 i (List.mem_range.2 hd) hi, h⟩
      unfold M.assert
      rw [if_neg this]
      rfl
    · exact M.bind_eq_error.2 (.inl h3)

/-! ## The paraboloid and the distances of its coordinates -/

/-- A computed sum of numbers that are not negative is not smaller than any of them. -/
theorem foldl_ge {f : Fmt} {l : List (Fl f)} : ∀ {a : Fl f}, (l.foldl Fl.add a).isFinite = true → 0 ≤ a.toInt →
    (∀ y ∈ l, 0 ≤ y.toInt) → a.toInt ≤ (l.foldl Fl.add a).toInt ∧ ∀ y ∈ l, y.toInt ≤ (l.foldl Fl.add a).toInt := by
  induction l with
  | nil => intro a _ _ _; exact ⟨_root_.le_refl _, fun _ h => absurd h List.not_mem_nil⟩
  | cons y l ih =>
    intro a hf ha hl
    rw [List.foldl_cons] at hf ⊢
    have h1 := (Fl.foldl_add_finite hf).1
    obtain ⟨h2, h3⟩ := Fl.finite_of_add h1
    have hy := hl y List.mem_cons_self
    have haR : (0 : ℝ) ≤ a.toInt := by exact_mod_cast ha
    have hyR : (0 : ℝ) ≤ y.toInt := by exact_mod_cast hy
    have h4 : a.toInt ≤ (a.add y).toInt := by
      rw [(Fl.add_rounds h2 h3).2, ← Fl.rnd_toInt (Fl.isNan_of_isFinite h2)]
      refine f.rnd_mono ?_
      rw [Fl.rnd_toInt (Fl.isNan_of_isFinite h2)]
      linarith
    have h5 : y.toInt ≤ (a.add y).toInt := by
      rw [(Fl.add_rounds h2 h3).2, ← Fl.rnd_toInt (Fl.isNan_of_isFinite h3)]
      refine f.rnd_mono ?_
      rw [Fl.rnd_toInt (Fl.isNan_of_isFinite h3)]
      linarith
    obtain ⟨h6, h7⟩ := ih hf (_root_.le_trans ha h4) fun z hz => hl z (List.mem_cons_of_mem _ hz)
    refine ⟨_root_.le_trans h4 h6, fun z hz => ?_⟩
    rcases List.mem_cons.1 hz with rfl | hz
    · exact _root_.le_trans h5 h6
    · exact h7 z hz

theorem succs_eq (i : Nat) : succs i = (succF i : F32) := by
  have : (plus 1 1 : F32) = FloatT.lit 1 1 := by decide +kernel
  unfold succs
  rw [this]
  rfl

/-- A small value of the paraboloid means that all the coordinates are near. -/
theorem paraboloid_near {x : List F32} (hx : (TestFunc.paraboloidF64 x).isFinite = true) {delta : F32} {limit : F64}
    (hd : delta.isFinite = true) (h0 : 0 ≤ delta.toInt) (hf : (delta.mul delta).isFinite = true)
    (hl : limit.le (delta.mul delta).cast = true) (hlt : (TestFunc.paraboloidF64 x).lt limit = true)
    (i : Nat) (hi : i < x.length) : (x[i].sub (succs i)).abs.lt delta = true := by
  have h1 : (TestFunc.paraboloid x).isFinite = true := by
    by_contra hc
    rw [Bool.not_eq_true] at hc
    have := Fl.isFinite_cast_inf (g := .f64) hc
    unfold TestFunc.paraboloidF64 at hx
    rw [this] at hx
    cases hx
  have e : TestFunc.paraboloid x = (((x.zipIdx 0).map fun p => p.1.sub (succF p.2)).map fun d => d.mul d).foldl Fl.add
      (FloatT.lit 0 1) := paraboloidLoop_eq x 0 _
  have hmem : (x[i].sub (succF i)).mul (x[i].sub (succF i)) ∈ ((x.zipIdx 0).map fun p => p.1.sub (succF p.2 : F32)).map
      fun d => d.mul d := by
    refine List.mem_map.2 ⟨_, List.mem_map.2 ⟨(x[i], i), ?_, rfl⟩, rfl⟩
    rw [List.mem_zipIdx_iff_getElem?]
    exact List.getElem?_eq_getElem hi
  have h1' := h1
  rw [e] at h1'
  have hall := (Fl.foldl_add_finite h1').2
  have hpos : ∀ y ∈ ((x.zipIdx 0).map fun p => p.1.sub (succF p.2 : F32)).map fun d => d.mul d, 0 ≤ y.toInt := by
    intro y hy
    obtain ⟨d, -, rfl⟩ := List.mem_map.1 hy
    exact value_nonneg.1 (sq_value_nonneg (hall _ hy))
  have hge := (foldl_ge h1' (by decide +kernel) hpos).2 _ hmem
  rw [← e] at hge
  rw [succs_eq]
  have hfin := hall _ hmem
  have hdf := (Fl.finite_of_mul hfin).1
  by_contra hc
  rw [Bool.not_eq_true] at hc
  have h2 : delta.toInt ≤ (x[i].sub (succF i : F32)).abs.toInt := by
    by_contra hlt'
    rw [Fl.lt_iff.2 ⟨Fl.isNan_of_isFinite (by rw [Fl.isFinite_abs]; exact hdf), Fl.isNan_of_isFinite hd, by omega⟩] at hc
    cases hc
  rw [Fl.toInt_abs] at h2
  have h3 : (delta.mul delta).toInt ≤ ((x[i].sub (succF i : F32)).mul (x[i].sub (succF i : F32))).toInt := by
    rw [(Fl.mul_rounds hd hd).2, (Fl.mul_rounds hdf hdf).2]
    refine Fmt.rnd_mono _ ?_
    have h4 : (0 : ℝ) ≤ delta.toInt := by exact_mod_cast h0
    have h5 : (delta.toInt : ℝ) ≤ |((x[i].sub (succF i : F32)).toInt : ℝ)| := by
      have : ((delta.toInt : ℤ) : ℝ) ≤ (((x[i].sub (succF i : F32)).toInt.natAbs : ℤ) : ℝ) := by exact_mod_cast h2
      push_cast at this
      exact this
    have h6 := mul_self_le_mul_self h4 h5
    rw [abs_mul_abs_self] at h6
    have hD := Fl.D_posR (f := Fmt.f32)
    first
    | exact h6
    | exact (div_le_div_iff_of_pos_right hD).2 h6
  have h7 := Fl.cast_le Fmt.embeds_f32 hf h1 (Fl.le_iff.2 ⟨Fl.isNan_of_isFinite hf, Fl.isNan_of_isFinite h1, _root_.le_trans h3 hge⟩)
  have h8 := Fl.le_iff.1 h7
  have h9 := Fl.le_iff.1 hl
  have h10 := Fl.lt_iff.1 hlt
  unfold TestFunc.paraboloidF64 at h10
  omega

/-! ## C85: the tests of the optimizers -/

theorem box_length {lo hi : F32} {d : Nat} {x : List F32} (h : InBox (box lo hi d) x) : x.length = d := by
  rw [← h.length_eq]
  unfold box
  rw [List.length_replicate]

theorem genetic_test {P : Platform σ} (hP : Platform.Sound P) {L : Lens σ Stop.GNC} (hL : Platform.Leaves L P)
    {goal : List F32 → F64} {size : Nat} (hsize : 0 < size) {lo hi : F32} {dims : Nat} (hd : 0 < dims) (h1 : lo.isFinite = true)
    (h2 : hi.isFinite = true) (h3 : lo.lt hi = true)
    (hgoal : ∀ x, InBox (box lo hi dims) x → (goal x).isFinite = true) (rounds : Nat) (prob t : F64) (m : Nat) (d : F64) {n : Nat}
    (hn : 0 < n) (valid : Nat → F32) (delta : F32) (limit : F64) (fuel : Nat) (hfuel : n < fuel) (s : σ) :
    ∃ o s1 x o' w', genetic P (TestFunc.goalFromFunction goal) (StatPrograms.threeStops L P.profile t m d n) size (box lo hi dims)
        rounds prob [] s = .ok (o, s1) ∧
      GA.findMin fuel o ⟨s1, []⟩ = .ok ((some (x, goal x), o'), w') ∧ InBox (box lo hi dims) x ∧ (goal x).isFinite = true ∧
      PassesIff (geneticTest (genetic P (TestFunc.goalFromFunction goal) (StatPrograms.threeStops L P.profile t m d n) size
        (box lo hi dims) rounds prob []) (verdict dims valid delta limit) fuel s) (Near dims valid delta limit x (goal x)) := by
  have hmake := genetic_ok (P := P) (goal := TestFunc.goalFromFunction goal) (threeStops_ok L P.profile t m d n s) hsize hd h3
    rounds prob []
  obtain ⟨x, o', w', e1, e2, e3⟩ := genetic_three hP hL hsize h1 h2 h3 hgoal rounds prob t hn fuel hfuel
    (L.set (Stop.GNC.new m d) s) (by rw [L.get_set]; rfl)
  have hv := verdict_some (valid := valid) (delta := delta) (limit := limit) (v := goal x) (box_length e2) w'.user
  have hrun : geneticTest (genetic P (TestFunc.goalFromFunction goal) (StatPrograms.threeStops L P.profile t m d n) size
        (box lo hi dims) rounds prob []) (verdict dims valid delta limit) fuel s =
      verdict dims valid delta limit (some (x, goal x)) w'.user := by
    unfold geneticTest
    rw [M.bind_run, hmake]
    simp only
    rw [e1]
  refine ⟨_, _, x, o', w', hmake, e1, e2, e3, ?_⟩
  rw [hrun]
  exact ⟨fun h => ⟨_, hv.1 h⟩, hv.2⟩

theorem passesIff_congr {run : Except Err (Unit × σ)} {p q : Prop} (h : PassesIff run p) (e : p ↔ q) : PassesIff run q :=
  ⟨fun k => h.1 (e.2 k), fun k => h.2 fun l => k (e.1 l)⟩

theorem paraboloid_abs {x : List F32} (hx : (TestFunc.paraboloidF64 x).isFinite = true) (limit : F64) :
    (TestFunc.paraboloidF64 x).abs.lt limit = (TestFunc.paraboloidF64 x).lt limit := by
  have h : (TestFunc.paraboloidF64 x).abs.toInt = (TestFunc.paraboloidF64 x).toInt := by
    rw [Fl.toInt_abs]
    rcases C61_nonneg x with h | h
    · rw [Fl.isNan_of_isFinite hx] at h; cases h
    · have := (Fl.le_iff.1 h).2.2
      rw [Fl.toInt_zero] at this
      omega
  rw [Bool.eq_iff_iff, Fl.lt_iff, Fl.lt_iff, h, Fl.isNan_of_isFinite hx,
    Fl.isNan_of_isFinite (x := (TestFunc.paraboloidF64 x).abs) (by rw [Fl.isFinite_abs]; exact hx)]

/-- C85: `genetic_paraboloid` in tests/genetic-paraboloid.rs, on any platform with any random numbers, with or without overflow
checks. Whether it passes depends on the goal value alone: if that is below 0.001, each coordinate is within 0.1. -/
theorem C85_genetic_paraboloid (P : Platform σ) (hP : Platform.Sound P) (L : Lens σ Stop.GNC) (hL : Platform.Leaves L P)
    (fuel : Nat) (hfuel : 5000 < fuel) (s : σ) :
    ∃ o s1 x o' w', TestPrograms.geneticParaboloid P L s = .ok (o, s1) ∧
      GA.findMin fuel o ⟨s1, []⟩ = .ok ((some (x, TestFunc.paraboloidF64 x), o'), w') ∧
      InBox (box (minus 100 1) (plus 100 1) 5) x ∧ (TestFunc.paraboloidF64 x).isFinite = true ∧
      PassesIff (testGeneticParaboloid P L fuel s) ((TestFunc.paraboloidF64 x).lt (Fl.ofRat false 1 1000) = true) := by
  obtain ⟨o, s1, x, o', w', e1, e2, e3, e4, e5⟩ := genetic_test hP hL (goal := TestFunc.paraboloidF64) (size := 800) (by omega)
    (lo := minus 100 1) (hi := plus 100 1) (dims := 5) (by omega) (by decide +kernel) (by decide +kernel) (by decide +kernel)
    (fun x hx => (C72_paraboloid (.inl rfl) x (box_moderate (by omega) (by decide +kernel) (by decide +kernel) hx)).1) 2 (Fl.ofNat 15)
    (Fl.ofRat false 1 1000000) 150 (Fl.ofRat false 1 10000000) (n := 5000) (by omega) succs (plus 1 10) (Fl.ofRat false 1 1000) fuel
    hfuel s
  refine ⟨o, s1, x, o', w', e1, e2, e3, e4, passesIff_congr e5 ?_⟩
  unfold Near
  rw [paraboloid_abs e4]
  refine ⟨fun h => h.2, fun h => ⟨fun i hi _ => ?_, h⟩⟩
  exact paraboloid_near e4 (by decide +kernel) (by decide +kernel) (by decide +kernel) (by decide +kernel) h i hi

/-- C85: `genetic_schwefel` in tests/genetic-schwefel.rs. It fails in no other way than by an assertion, and passes exactly if the
coordinates and the goal are as near as it asks for. -/
theorem C85_genetic_schwefel (P : Platform σ) (hP : Platform.Sound P) (L : Lens σ Stop.GNC) (hL : Platform.Leaves L P)
    (fuel : Nat) (hfuel : 3000 < fuel) (s : σ) :
    ∃ o s1 x o' w', TestPrograms.geneticSchwefel P L s = .ok (o, s1) ∧
      GA.findMin fuel o ⟨s1, []⟩ = .ok ((some (x, @TestFunc.schwefelF64 _ P.libm x), o'), w') ∧
      InBox (box (minus 500 1) (plus 500 1) 5) x ∧ (@TestFunc.schwefelF64 _ P.libm x).isFinite = true ∧
      PassesIff (testGeneticSchwefel P L fuel s)
        (Near 5 (fun _ => plus 421 1) (plus 1 10) (Fl.ofRat false 1 1000) x (@TestFunc.schwefelF64 _ P.libm x)) :=
  genetic_test hP hL (goal := @TestFunc.schwefelF64 _ P.libm) (by omega) (by omega) (by decide +kernel) (by decide +kernel)
    (by decide +kernel) (fun x hx => (C72_schwefel (.inl rfl) P.libm hP.libm x
      (box_moderate (by omega) (by decide +kernel) (by decide +kernel) hx)).1) 5 (Fl.ofNat 15)
    (Fl.ofRat false 1 10000) 200 (Fl.ofRat false 1 10000000) (n := 3000) (by omega) _ _ _ fuel hfuel s

/-- C85: `genetic_rastrigin` in tests/genetic-rastrigin.rs -/
theorem C85_genetic_rastrigin (P : Platform σ) (hP : Platform.Sound P) (L : Lens σ Stop.GNC) (hL : Platform.Leaves L P)
    (fuel : Nat) (hfuel : 3000 < fuel) (s : σ) :
    ∃ o s1 x o' w', TestPrograms.geneticRastrigin P L s = .ok (o, s1) ∧
      GA.findMin fuel o ⟨s1, []⟩ = .ok ((some (x, @TestFunc.rastriginF64 _ P.libm x), o'), w') ∧
      InBox (box (minus 512 100) (plus 512 100) 30) x ∧ (@TestFunc.rastriginF64 _ P.libm x).isFinite = true ∧
      PassesIff (testGeneticRastrigin P L fuel s)
        (Near 30 (fun _ => plus 0 1) (plus 1 100) (Fl.ofRat false 1 1000) x (@TestFunc.rastriginF64 _ P.libm x)) :=
  genetic_test hP hL (goal := @TestFunc.rastriginF64 _ P.libm) (by omega) (by omega) (by decide +kernel) (by decide +kernel)
    (by decide +kernel) (fun x hx => (C72_rastrigin (.inl rfl) P.libm hP.libm x
      (box_moderate (by omega) (by decide +kernel) (by decide +kernel) hx)).1) 5 (Fl.ofNat 15)
    (Fl.ofRat false 1 10000) 200 (Fl.ofRat false 1 10000000) (n := 3000) (by omega) _ _ _ fuel hfuel s

end Verif.Props

namespace Verif.Props.Swarm

open Verif Spec Spec.Swarm PSO Examples Fl Stats TestPrograms

variable {σ : Type}

/-- The optimizer of particleswarm-paraboloid.rs. -/
def testMade (P : Platform σ) (c : Velocity.Canonical F32) (stop : AlgState (List F32) → M σ Bool) : Opt σ F32 :=
  ⟨⟨TestFunc.goalFromFunction TestFunc.paraboloidF64, stop, Creation.randomInit P.rng (box (minus 100 1) (plus 100 1) 5) 150,
    Creation.zeroInit 5 150, Velocity.canonical P.rng c, [], [Hooks.moveToBoundary (box (minus 100 1) (plus 100 1) 5)], []⟩,
    ⟨[], none, none, 0⟩⟩

theorem testMade_lib (P : Platform σ) (c : Velocity.Canonical F32) {stop : AlgState (List F32) → M σ Bool} (hs : LibStop stop) :
    LibComps P.rng 5 150 (testMade P c stop).comps where
  coordInit := .random _ (by unfold box; rw [List.length_replicate])
    (box_increasing (by decide +kernel) (by decide +kernel) (by decide +kernel))
  velInit := .zero
  velCalc := .canonical c
  postVel := fun h hh => absurd hh List.not_mem_nil
  postMove := fun h hh => by
    rw [List.mem_singleton.1 hh]
    exact .boundary _ (by unfold box; rw [List.length_replicate])
  stop := hs
  loggers := fun l hl => absurd hl List.not_mem_nil
  goal := fun _ _ => pure_works trivial

theorem testMade_owns {κ : Type} {L : Lens σ κ} {P : Platform σ} (hL : Platform.Leaves L P) (c : Velocity.Canonical F32)
    (stop : AlgState (List F32) → M σ Bool) : StopOwns L (testMade P c stop).comps where
  operators :=
    { coordInit := Spec.Leaves.randomInit hL.rng _ _
      velInit := Spec.Leaves.zeroInit _ _
      velCalc := fun s p => Spec.Leaves.canonical hL.rng c s p
      postVel := fun h hh => absurd hh List.not_mem_nil
      postMove := fun h hh x => by
        rw [List.mem_singleton.1 hh]
        exact Spec.Leaves.moveToBoundary _ x }
  goal := fun _ => leaves_pure _ _
  loggers := fun l hl => absurd hl List.not_mem_nil

/-- C85: `test_particleswarm_paraboloid` in tests/particleswarm-paraboloid.rs. It passes exactly if the coordinates and the goal are as
near as it asks for: surely if the goal value is below 0.09, surely not if it is 0.1 or more. -/
theorem C85_swarm_paraboloid (P : Platform σ) (L : Lens σ Stop.GNC) (hL : Platform.Leaves L P)
    (fuel : Nat) (hfuel : 3000 < fuel) (s : σ) :
    ∃ o s1 x o' w', TestPrograms.swarmParaboloid P L s = .ok (o, s1) ∧
      PSO.findMin fuel o ⟨s1, []⟩ = .ok ((some (x, TestFunc.paraboloidF64 x), o'), w') ∧
      BestOfRun (box (minus 100 1) (plus 100 1) 5) (fun x v => v = TestFunc.paraboloidF64 x) (goalsSince w'.trace)
        (x, TestFunc.paraboloidF64 x) ∧ (TestFunc.paraboloidF64 x).isFinite = true ∧
      PassesIff (testSwarmParaboloid P L fuel s) (Near 5 succs (plus 3 10) (Fl.ofRat false 1 10) x (TestFunc.paraboloidF64 x)) ∧
      ((TestFunc.paraboloidF64 x).lt (Fl.ofRat false 9 100) = true →
        Near 5 succs (plus 3 10) (Fl.ofRat false 1 10) x (TestFunc.paraboloidF64 x)) ∧
      ((Fl.ofRat false 1 10 : F64).le (TestFunc.paraboloidF64 x) = true →
        ¬ Near 5 succs (plus 3 10) (Fl.ofRat false 1 10) x (TestFunc.paraboloidF64 x)) := by
  obtain ⟨c, hc⟩ : ∃ c, Velocity.Canonical.new (σ := σ) (plus 2 1) (plus 6 1) (plus 2 10) s = .ok (c, s) :=
    ⟨_, M.bind_eq_ok.2 ⟨(), s, M.assert_eq_ok.2 ⟨by decide +kernel, rfl⟩, M.bind_eq_ok.2 ⟨(), s,
      M.assert_eq_ok.2 ⟨by decide +kernel, rfl⟩, M.bind_eq_ok.2 ⟨(), s, M.assert_eq_ok.2 ⟨by decide +kernel, rfl⟩, rfl⟩⟩⟩⟩
  have hmake : TestPrograms.swarmParaboloid P L s = .ok (testMade P c (statStops L (Fl.ofRat false 1 1000000) 3000 P.profile),
      L.set (Stop.GNC.new 150 (Fl.ofRat false 1 10000000)) s) :=
    M.bind_eq_ok.2 ⟨c, s, hc, M.bind_eq_ok.2 ⟨_, _, threeStops_ok L P.profile _ 150 _ 3000 s, rfl⟩⟩
  obtain ⟨a, o', w', e1, e2, e3, e4⟩ := SwarmEndsWell.mono (C75_checked P.rng Fmt.embeds_f32 5 150 3000 (by omega)
    (box (minus 100 1) (plus 100 1) 5)
    (box_increasing (by decide +kernel) (by decide +kernel) (by decide +kernel)) L (statStops L (Fl.ofRat false 1 1000000) 3000)
    (statStops_gnc L _ 3000) (testMade P c (statStops L (Fl.ofRat false 1 1000000) 3000 P.profile)) (testMade_owns hL c _)
    (testMade_lib P c (statStops_lib L _ 3000)) ⟨[], rfl⟩ (by
      intro x v hx hv
      rw [returned_pure hv]
      exact (C72_paraboloid (.inl rfl) x (box_moderate (by omega) (by decide +kernel) (by decide +kernel) hx)).1)
    (C37_bounding 3000 _ (by simp)) fuel hfuel ⟨L.set (Stop.GNC.new 150 (Fl.ofRat false 1 10000000)) s, []⟩ ⟨rfl, rfl⟩ 150
    (Fl.ofRat false 1 10000000) (L.get_set _ s) P.profile) fun x v hv => returned_pure hv
  obtain ⟨x, v⟩ := a
  have hv : v = TestFunc.paraboloidF64 x := e2.values _ e2.mem
  subst hv
  have hbox : InBox (box (minus 100 1) (plus 100 1) 5) x := e2.inside _ e2.mem
  have hfin : (TestFunc.paraboloidF64 x).isFinite = true :=
    (C72_paraboloid (.inl rfl) x (box_moderate (by omega) (by decide +kernel) (by decide +kernel) hbox)).1
  have hv := verdict_some (valid := succs) (delta := plus 3 10) (limit := Fl.ofRat false 1 10) (v := TestFunc.paraboloidF64 x)
    (box_length hbox) w'.user
  have hrun : testSwarmParaboloid P L fuel s = verdict 5 succs (plus 3 10) (Fl.ofRat false 1 10)
      (some (x, TestFunc.paraboloidF64 x)) w'.user := by
    unfold testSwarmParaboloid swarmTest
    rw [M.bind_run, hmake]
    simp only
    have e1 : PSO.findMin fuel (testMade P c (statStops L (Fl.ofRat false 1 1000000) 3000 P.profile))
      ⟨L.set (Stop.GNC.new 150 (Fl.ofRat false 1 10000000)) s, []⟩ = .ok ((some (x, TestFunc.paraboloidF64 x), o'), w') := e1
    rw [e1]
  refine ⟨_, _, x, o', w', hmake, e1, e2, hfin, ?_, ?_, ?_⟩
  · rw [hrun]
    exact ⟨fun h => ⟨_, hv.1 h⟩, hv.2⟩
  · intro h
    unfold Near
    rw [paraboloid_abs hfin]
    refine ⟨fun i hi _ => paraboloid_near hfin (by decide +kernel) (by decide +kernel) (by decide +kernel) (by decide +kernel) h i hi,
      ?_⟩
    obtain ⟨k1, k2, k3⟩ := Fl.lt_iff.1 h
    have k4 : (Fl.ofRat false 9 100 : F64).toInt ≤ (Fl.ofRat false 1 10 : F64).toInt := by decide +kernel
    exact Fl.lt_iff.2 ⟨k1, by decide +kernel, lt_of_lt_of_le k3 k4⟩
  · rintro h ⟨-, h2⟩
    rw [paraboloid_abs hfin] at h2
    exact absurd (Fl.lt_iff.1 h2).2.2 (not_lt.2 (Fl.le_iff.1 h).2.2)

end Verif.Props.Swarm
