import Verif.Props.GeneticProgram
import Verif.Props.TestFuncFinite
import Verif.Props.Attach
import Verif.Props.Checked
import Verif.Proofs.LibLeaves
import Verif.Model.Examples

/-!
# C71: the genetic example programs
-/

namespace Verif.Props

open Verif Spec GA Examples Fl
open _root_.Verif.Spec.Swarm (Works)
open _root_.Verif.Props.Swarm (LibStop LibLogger)

variable {σ τ : Type} {f : Fmt}

/-- What the example programs need of the platform: printing does not fail, sine and cosine have their range. -/
structure Platform.Sound (P : Platform σ) : Prop where
  print : ∀ s, Works (P.print s) (fun _ => True)
  libm : SinCos P.libm

theorem box_mem {lo hi : F32} {d : Nat} {iv : F32 × F32} (h : iv ∈ box lo hi d) : iv = (lo, hi) := List.eq_of_mem_replicate h

theorem within_between {lo hi x : Fl f} {n : Nat} (h1 : Within n lo) (h2 : Within n hi) (h : InInterval (lo, hi) x) :
    Within n x := by
  refine ⟨h.1, ?_⟩
  have a := (Fl.le_iff.1 h.2.1).2.2
  have b := (Fl.le_iff.1 h.2.2).2.2
  have c := h1.2
  have d := h2.2
  simp only at a b
  omega

/-- A box inside the numbers up to `2 ^ 20` has moderate points only. -/
theorem moderate_of_box {ivs : List (Fl f × Fl f)} (hl : ivs.length ≤ 2 ^ 20)
    (h : ∀ iv ∈ ivs, Within (2 ^ 20) iv.1 ∧ Within (2 ^ 20) iv.2) {x : List (Fl f)} (hx : InBox ivs x) : Moderate x := by
  refine ⟨by rw [← hx.length_eq]; exact hl, ?_⟩
  intro a ha
  obtain ⟨k, hk, rfl⟩ := List.mem_iff_getElem.1 ha
  have hk' : k < ivs.length := by rw [hx.length_eq]; exact hk
  have h1 := hx.get hk' hk
  simp only [List.get_eq_getElem] at h1
  have h2 := h _ (List.getElem_mem hk')
  exact within_between h2.1 h2.2 h1

theorem box_moderate {lo hi : F32} {d : Nat} (hd : d ≤ 2 ^ 20) (hlo : Within (2 ^ 20) lo) (hhi : Within (2 ^ 20) hi)
    {x : List F32} (hx : InBox (box lo hi d) x) : Moderate x := by
  refine moderate_of_box (by unfold box; rw [List.length_replicate]; exact hd) ?_ hx
  intro iv hiv
  obtain rfl := box_mem hiv
  exact ⟨hlo, hhi⟩

theorem box_increasing {lo hi : F32} {d : Nat} (hlo : lo.isFinite = true) (hhi : hi.isFinite = true) (h : lo.lt hi = true) :
    FiniteIncreasing (box lo hi d) := by
  intro iv hiv
  obtain rfl := box_mem hiv
  exact ⟨hlo, hhi, h⟩

theorem anyOf_ok {T : Type} {cs : List (AlgState T → M σ Bool)} (h : cs ≠ []) (s : σ) : anyOf cs s = .ok (Stop.any cs, s) := by
  unfold anyOf Stop.compositeNew
  refine M.bind_eq_ok.2 ⟨cs, s, M.bind_eq_ok.2 ⟨(), s, M.assert_eq_ok.2 ⟨?_, rfl⟩, rfl⟩, rfl⟩
  have : cs.length ≠ 0 := fun h0 => h (List.length_eq_zero_iff.1 h0)
  simpa using this

/-- The optimizer a genetic program ends up with. -/
def geneticMade (P : Platform σ) (goal : List F32 → M σ F64) (stop : AlgState (List F32) → M σ Bool) (size : Nat)
    (intervals : List (F32 × F32)) (rounds : Nat) (mutationProbability : F64) (loggers : List (Logger σ (List F32))) :
    GA.Opt σ (List F32) :=
  ⟨⟨goal, stop, Creation.RandomCreator.create P.rng ⟨size, intervals⟩,
    Pairing.tournament P.rng ((Pairing.Tournament.new (size / 2)).withRounds rounds),
    Cross.vecCrossAllGenes (Cross.floatCrossExp P.profile P.rng P.libm.exp2),
    Mutation.vec P.rng mutationProbability (Mutation.bitwise P.rng 3),
    [Selection.killFitnessNaN, Selection.limitPopulation size],
    [Selection.preBirthInterval intervals], loggers⟩, ⟨[], none, none, 0⟩⟩

theorem genetic_ok {P : Platform σ} {goal : List F32 → M σ F64} {makeStop : M σ (AlgState (List F32) → M σ Bool)} {s s' : σ}
    {stop : AlgState (List F32) → M σ Bool} (hs : makeStop s = .ok (stop, s')) {size : Nat} (hsize : 0 < size)
    {lo hi : F32} {d : Nat} (hd : 0 < d) (h : lo.lt hi = true) (rounds : Nat) (prob : F64) (ls : List (Logger σ (List F32))) :
    genetic P goal makeStop size (box lo hi d) rounds prob ls s =
      .ok (geneticMade P goal stop size (box lo hi d) rounds prob ls, s') := by
  unfold genetic Creation.RandomCreator.new
  refine M.bind_eq_ok.2 ⟨⟨size, box lo hi d⟩, s, ?_, M.bind_eq_ok.2 ⟨stop, s', hs, rfl⟩⟩
  refine M.bind_eq_ok.2 ⟨(), s, M.assert_eq_ok.2 ⟨by simpa using hsize, rfl⟩, ?_⟩
  refine M.bind_eq_ok.2 ⟨(), s, M.assert_eq_ok.2 ⟨?_, rfl⟩, ?_⟩
  · unfold box
    rw [Bool.not_eq_true', ← Bool.not_eq_true, List.isEmpty_iff, List.replicate_eq_nil_iff]
    omega
  refine M.bind_eq_ok.2 ⟨(), s, M.assert_eq_ok.2 ⟨?_, rfl⟩, rfl⟩
  rw [List.all_eq_true]
  intro iv hiv
  rw [box_mem hiv]
  exact h

/-- The genetic programs are put together as C71 asks for. -/
theorem example_libProgram {P : Platform σ} (hP : Platform.Sound P) {goal : List F32 → M σ F64}
    {stop : AlgState (List F32) → M σ Bool} (hstop : LibStop stop) {size : Nat} (hsize : 0 < size) {lo hi : F32} {d : Nat}
    (h1 : lo.isFinite = true) (h2 : hi.isFinite = true) (h3 : lo.lt hi = true)
    (hgoal : ∀ x, InBox (box lo hi d) x → SurelyFinite goal x) (rounds : Nat) (prob : F64)
    {ls : List (Logger σ (List F32))} (hl : ∀ l ∈ ls, l = P.verbose ∨ l = P.resultOnly) :
    LibProgram P.rng size (box lo hi d) (geneticMade P goal stop size (box lo hi d) rounds prob ls).comps where
  positive := hsize
  intervals := box_increasing h1 h2 h3
  creator := rfl
  pairing := .inr ⟨size / 2, rounds, rfl⟩
  cross := ⟨_, .exponent _ _, rfl⟩
  mutation := ⟨prob, 3, rfl⟩
  preBirths := rfl
  selections := ⟨_, rfl, by
    intro s hs
    rw [List.mem_singleton] at hs
    subst hs
    exact .limitPopulation size hsize⟩
  stop := hstop
  loggers := by
    intro l hlm
    rcases hl l hlm with rfl | rfl
    · exact .verbose _ _ _ _ hP.print
    · exact .resultOnly _ _ _ _ hP.print
  goal := hgoal

theorem any_threshold_max (t : F64) (m : Nat) (hm : 0 < m) :
    LibStop (Stop.any [Stop.threshold t, Stop.maxIterations m] : AlgState (List (Fl f)) → M σ Bool) ∧
    Bounding m (Stop.any [Stop.threshold t, Stop.maxIterations m] : AlgState (List (Fl f)) → M σ Bool) ∧
    ¬ Returned ((Stop.any [Stop.threshold t, Stop.maxIterations m] : AlgState (List (Fl f)) → M σ Bool) ⟨none, 0⟩) true := by
  refine ⟨.any _ ?_, C37_bounding m _ (by simp), ?_⟩
  · intro c hc
    simp only [List.mem_cons, List.not_mem_nil, or_false] at hc
    rcases hc with rfl | rfl
    · exact .threshold t
    · exact .maxIterations m
  · rintro ⟨s, s', h⟩
    have : (Stop.any [Stop.threshold t, Stop.maxIterations m] : AlgState (List (Fl f)) → M σ Bool) ⟨none, 0⟩ s =
        .ok (decide (m ≤ 0), s) := by
      show (if decide (m ≤ 0) = true then pure true else pure false : M σ Bool) s = _
      cases decide (m ≤ 0) <;> rfl
    rw [this] at h
    have h2 : decide (m ≤ 0) = true := by injection h with h; exact (Prod.mk.inj h).1
    have := of_decide_eq_true h2
    omega

/-- A TimeLogger on the platform, with its own field, that can always write and read the clock. -/
structure Timer (τ : Type) where
  print : String → M τ Unit
  now : M τ Nat
  field : Lens τ (Option Nat)
  prints : ∀ s, Total (print s)
  reads : Total now

def Timer.logger (t : Timer τ) : Logger τ (List F32) := Logging.time t.print t.now t.field

/-- From an optimizer to the same with a TimeLogger. -/
theorem timed_findMin (t : Timer τ) (o : Opt σ (List F32)) (i fuel : Nat) (w : World σ (List F32)) (u : τ)
    {r : Option (Solution (List F32))} {o' : Opt σ (List F32)} {w' : World σ (List F32)}
    (h : findMin fuel o w = .ok ((r, o'), w')) :
    ∃ o2 w2, findMin fuel (o.attach i t.logger) ⟨(w.user, u), w.trace⟩ = .ok ((r, o2), w2) ∧ o2.pop = o'.pop := by
  have hrun : GA.run o [.findMin fuel] w = .ok (([some r], o'), w') := by
    unfold GA.run
    exact M.bind_eq_ok.2 ⟨(some r, o'), w', M.bind_eq_ok.2 ⟨(r, o'), w', h, rfl⟩, M.bind_eq_ok.2 ⟨([], o'), w', rfl, rfl⟩⟩
  obtain ⟨t', tr', h2, -, -⟩ := (C70_genetic (C70_time t.field t.prints t.reads) o i fuel [] w u trivial).returns
    ([some r], o'.pop) w' (by
      show gaView (GA.run o [.findMin fuel] w) = _
      rw [hrun]; rfl)
  have h2 : gaView (GA.run (o.attach i t.logger) [.findMin fuel] ⟨(w.user, u), w.trace⟩) = _ := h2
  cases h3 : GA.run (o.attach i t.logger) [.findMin fuel] ⟨(w.user, u), w.trace⟩ with
  | error e => rw [h3] at h2; cases h2
  | ok q =>
    obtain ⟨⟨rs, o2⟩, w2⟩ := q
    rw [h3] at h2
    have h4 : rs = [some r] ∧ o2.pop = o'.pop := by
      simp only [gaView, Except.ok.injEq, Prod.mk.injEq] at h2
      exact ⟨h2.1.1, h2.1.2⟩
    obtain ⟨⟨r1, o3⟩, w3, h5, h6⟩ := M.bind_eq_ok.1 h3
    obtain ⟨⟨rs2, o4⟩, w4, h7, h8⟩ := M.bind_eq_ok.1 h6
    obtain ⟨hr8, rfl⟩ := M.pure_eq_ok.1 h8
    obtain ⟨hr7, rfl⟩ := M.pure_eq_ok.1 h7
    obtain ⟨⟨r9, o9⟩, w9, h9, h10⟩ := M.bind_eq_ok.1 h5
    obtain ⟨hr10, rfl⟩ := M.pure_eq_ok.1 h10
    simp only [Prod.mk.injEq] at hr8 hr7 hr10
    obtain ⟨rfl, rfl⟩ := hr8
    obtain ⟨rfl, rfl⟩ := hr7
    obtain ⟨rfl, rfl⟩ := hr10
    have : r9 = r := by have := h4.1; simpa using this
    subst this
    exact ⟨_, _, h9, h4.2⟩

/-- The last generation of a program that ends well: it returns a point of the intervals with its goal value, a finite
number, after at least one and at most `m` generations. -/
def EndsWell (m : Nat) (ivs : List (F32 × F32)) (goal : List F32 → F64)
    (r : Except Err ((Option (Solution (List F32)) × Opt σ (List F32)) × World σ (List F32))) : Prop :=
  ∃ x o' w', r = .ok ((some (x, goal x), o'), w') ∧ InBox ivs x ∧ (goal x).isFinite = true ∧
    1 ≤ o'.pop.iteration ∧ o'.pop.iteration ≤ m

theorem endsWell {P : Platform σ} {o : Opt σ (List F32)} {size : Nat} {ivs : List (F32 × F32)} {goal : List F32 → F64}
    (h : LibProgram P.rng size ivs o.comps) (hg : o.comps.goal = TestFunc.goalFromFunction goal) {m : Nat}
    (hs : Bounding m o.comps.stop) (h0 : ¬ Returned (o.comps.stop ⟨none, 0⟩) true) {fuel : Nat} (hfuel : m < fuel)
    (t : Timer τ) (i : Nat) (w : World σ (List F32)) (u : τ) :
    EndsWell m ivs goal (findMin fuel (o.attach i t.logger) ⟨(w.user, u), w.trace⟩) := by
  obtain ⟨x, v, o', w', h1, h2, ⟨s, s', h3⟩, h4, h5, h6⟩ := C71_find_min P.rng Fmt.embeds_f32 size ivs o h m hs h0 fuel hfuel w
  obtain ⟨o2, w2, h7, h8⟩ := timed_findMin t o i fuel w u h1
  rw [hg] at h3
  have hv : v = goal x := by
    have h3 : (Except.ok (goal x, s) : Except Err (F64 × σ)) = .ok (v, s') := h3
    injection h3 with h3
    exact (Prod.mk.inj h3).1.symm
  subst hv
  exact ⟨x, o2, w2, h7, h2, h4, by rw [h8]; exact h5, by rw [h8]; exact h6⟩

/-- C71: genetic-paraboloid.rs, on any platform with any random numbers, ends with a point of `[-100, 100] ^ 5` and its
finite goal value, after 1 to 3000 generations. -/
theorem C71_paraboloid_program (P : Platform σ) (hP : Platform.Sound P) (t : Timer τ) (fuel : Nat) (hfuel : 3000 < fuel)
    (s : σ) (u : τ) : ∃ o s', geneticParaboloid P s = .ok (o, s') ∧
    EndsWell 3000 (box (minus 100 1) (plus 100 1) 5) TestFunc.paraboloidF64
      (findMin fuel (o.attach 2 t.logger) ⟨(s', u), []⟩) := by
  obtain ⟨s1, s2, s3⟩ := any_threshold_max (σ := σ) (f := Fmt.f32) (Fl.ofRat false 1 1000000) 3000 (by omega)
  refine ⟨_, s, genetic_ok (anyOf_ok (by simp) s) (by omega) (by omega) (by decide +kernel) _ _ _, ?_⟩
  refine endsWell (P := P) (size := 200) (example_libProgram hP s1 (by omega) (by decide +kernel) (by decide +kernel)
    (by decide +kernel) ?_ _ _ (by simp)) rfl s2 s3 hfuel t 2 ⟨s, []⟩ u
  intro x hx s1
  exact ⟨_, s1, rfl, (C72_paraboloid (.inl rfl) x (box_moderate (by omega) (by decide +kernel) (by decide +kernel) hx)).1⟩

/-- C71: genetic-schwefel.rs -/
theorem C71_schwefel_program (P : Platform σ) (hP : Platform.Sound P) (t : Timer τ) (fuel : Nat) (hfuel : 3000 < fuel)
    (s : σ) (u : τ) : ∃ o s', geneticSchwefel P s = .ok (o, s') ∧
    EndsWell 3000 (box (minus 500 1) (plus 500 1) 15) (@TestFunc.schwefelF64 _ P.libm)
      (findMin fuel (o.attach 1 t.logger) ⟨(s', u), []⟩) := by
  obtain ⟨s1, s2, s3⟩ := any_threshold_max (σ := σ) (f := Fmt.f32) (Fl.ofRat false 1 10000) 3000 (by omega)
  refine ⟨_, s, genetic_ok (anyOf_ok (by simp) s) (by omega) (by omega) (by decide +kernel) _ _ _, ?_⟩
  refine endsWell (P := P) (size := 500) (example_libProgram hP s1 (by omega) (by decide +kernel) (by decide +kernel)
    (by decide +kernel) ?_ _ _ (by simp)) rfl s2 s3 hfuel t 1 ⟨s, []⟩ u
  intro x hx s1
  exact ⟨_, s1, rfl, (C72_schwefel (.inl rfl) P.libm hP.libm x
    (box_moderate (by omega) (by decide +kernel) (by decide +kernel) hx)).1⟩

/-- C71: genetic-rastrigin.rs -/
theorem C71_rastrigin_program (P : Platform σ) (hP : Platform.Sound P) (t : Timer τ) (fuel : Nat) (hfuel : 3000 < fuel)
    (s : σ) (u : τ) : ∃ o s', geneticRastrigin P s = .ok (o, s') ∧
    EndsWell 3000 (box (minus 512 100) (plus 512 100) 30) (@TestFunc.rastriginF64 _ P.libm)
      (findMin fuel (o.attach 1 t.logger) ⟨(s', u), []⟩) := by
  obtain ⟨s1, s2, s3⟩ := any_threshold_max (σ := σ) (f := Fmt.f32) (Fl.ofRat false 1 10000) 3000 (by omega)
  refine ⟨_, s, genetic_ok (anyOf_ok (by simp) s) (by omega) (by omega) (by decide +kernel) _ _ _, ?_⟩
  refine endsWell (P := P) (size := 20) (example_libProgram hP s1 (by omega) (by decide +kernel) (by decide +kernel)
    (by decide +kernel) ?_ _ _ (by simp)) rfl s2 s3 hfuel t 1 ⟨s, []⟩ u
  intro x hx s1
  exact ⟨_, s1, rfl, (C72_rastrigin (.inl rfl) P.libm hP.libm x
    (box_moderate (by omega) (by decide +kernel) (by decide +kernel) hx)).1⟩

/-- C71: genetic-schwefel-iterative.rs (without its TimeLogger) returns twice: after exactly 100 generations, and after 400 more
from there. Both times it returns a point of `[-500, 500] ^ 15` with its finite goal value. -/
theorem C71_schwefel_iterative_program (P : Platform σ) (hP : Platform.Sound P) (fuel : Nat) (hfuel : 500 < fuel)
    (s : σ) : ∃ o s', geneticSchwefelIterative P s = .ok (o, s') ∧
    ∃ x y o' w', GA.run o (iterativeCalls fuel) ⟨s', []⟩ =
        .ok (([some (some (x, @TestFunc.schwefelF64 _ P.libm x)), none, some (some (y, @TestFunc.schwefelF64 _ P.libm y))], o'), w') ∧
      InBox (box (minus 500 1) (plus 500 1) 15) x ∧ (@TestFunc.schwefelF64 _ P.libm x).isFinite = true ∧
      InBox (box (minus 500 1) (plus 500 1) 15) y ∧ (@TestFunc.schwefelF64 _ P.libm y).isFinite = true ∧
      o'.pop.iteration = 500 := by
  have hgoal : ∀ x, InBox (box (minus 500 1) (plus 500 1) 15) x →
      SurelyFinite (σ := σ) (TestFunc.goalFromFunction (@TestFunc.schwefelF64 _ P.libm)) x := fun x hx s1 =>
    ⟨_, s1, rfl, (C72_schwefel (.inl rfl) P.libm hP.libm x
      (box_moderate (by omega) (by decide +kernel) (by decide +kernel) hx)).1⟩
  have bound : ∀ m, Bounding m (Stop.maxIterations m : AlgState (List F32) → M σ Bool) := by
    intro m s w b w' hle h
    have := (M.pure_eq_ok.1 h).1
    rw [← this]; exact decide_eq_true hle
  have stops : ∀ (m : Nat) (st : AlgState (List F32)), Returned (Stop.maxIterations (σ := σ) m st) true → m ≤ st.iteration := by
    rintro m st ⟨s, s', h⟩
    exact of_decide_eq_true (M.pure_eq_ok.1 h).1
  have lib : ∀ m, LibProgram P.rng 500 (box (minus 500 1) (plus 500 1) 15) (geneticMade P
      (TestFunc.goalFromFunction (@TestFunc.schwefelF64 _ P.libm)) (Stop.maxIterations m) 500
      (box (minus 500 1) (plus 500 1) 15) 5 (Fl.ofNat 15) [P.resultOnly]).comps := fun m =>
    example_libProgram hP (.maxIterations m) (by omega) (by decide +kernel) (by decide +kernel) (by decide +kernel)
      hgoal _ _ (by simp)
  have ret : ∀ {p : Population (List F32)}, Lasts (InBox (box (minus 500 1) (plus 500 1) 15))
      (TestFunc.goalFromFunction (σ := σ) (@TestFunc.schwefelF64 _ P.libm)) p → p.iteration ≠ 0 → ∃ x,
      p.best.map Individual.sol = some (x, @TestFunc.schwefelF64 _ P.libm x) ∧ InBox (box (minus 500 1) (plus 500 1) 15) x ∧
      (@TestFunc.schwefelF64 _ P.libm x).isFinite = true := by
    intro p hp hi
    obtain ⟨b, hb, h1, ⟨s, s', h2⟩, h3⟩ := hp.best hi
    have hv : b.fitness = @TestFunc.schwefelF64 _ P.libm b.chromosomes := (M.pure_eq_ok.1 h2).1.symm
    refine ⟨b.chromosomes, ?_, h1, by rw [← hv]; exact h3⟩
    rw [hb, ← hv]; rfl
  rcases total_findMin (C71_lasting P.rng Fmt.embeds_f32 500 _ _ (lib 100)) (bound 100) fuel (by omega) ⟨s, []⟩
    with ⟨⟨r, o1⟩, w1, h1, h2, h3, h4, h5, h6⟩ | ⟨h, -⟩
  swap
  · exact h.elim
  have i1 : o1.pop.iteration = 100 := Nat.le_antisymm h4 (stops 100 _ h5)
  obtain ⟨x, hx1, hx2, hx3⟩ := ret h3 (show o1.pop.iteration ≠ 0 by omega)
  have hr : r = some (x, @TestFunc.schwefelF64 _ P.libm x) := Eq.trans h6 hx1
  have hc : ({ o1.comps with stop := Stop.maxIterations 500 } : Comps σ (List F32)) = (geneticMade P
      (TestFunc.goalFromFunction (@TestFunc.schwefelF64 _ P.libm)) (Stop.maxIterations 500) 500
      (box (minus 500 1) (plus 500 1) 15) 5 (Fl.ofNat 15) [P.resultOnly]).comps := by
    have h2 : o1.comps = _ := h2
    rw [h2]; rfl
  rcases total_nextIterations (o := ⟨{ o1.comps with stop := Stop.maxIterations 500 }, o1.pop⟩)
    (by rw [hc]; exact C71_lasting P.rng Fmt.embeds_f32 500 _ _ (lib 500)) (m := 500) (bound 500) fuel
    (by rw [hc]; exact h3) (by show o1.pop.iteration ≤ 500; omega) (by show 500 < o1.pop.iteration + fuel; omega) w1
    with ⟨⟨r2, o2⟩, w2, k1, k2, k3, k4, k5, k6⟩ | ⟨h, -⟩
  swap
  · exact h.elim
  rw [hc] at k3
  have i2 : o2.pop.iteration = 500 := Nat.le_antisymm k4 (stops 500 _ k5)
  obtain ⟨y, hy1, hy2, hy3⟩ := ret k3 (show o2.pop.iteration ≠ 0 by omega)
  have hr2 : r2 = some (y, @TestFunc.schwefelF64 _ P.libm y) := Eq.trans k6 hy1
  subst hr hr2
  refine ⟨_, s, genetic_ok rfl (by omega) (by omega) (by decide +kernel) _ _ _, ?_⟩
  refine ⟨x, y, o2, w2, ?_, hx2, hx3, hy2, hy3, i2⟩
  unfold iterativeCalls
  refine M.bind_eq_ok.2 ⟨_, w1, M.bind_eq_ok.2 ⟨_, w1, h1, rfl⟩, ?_⟩
  refine M.bind_eq_ok.2 ⟨([none, some (some (y, @TestFunc.schwefelF64 _ P.libm y))], o2), w2, ?_, rfl⟩
  refine M.bind_eq_ok.2 ⟨(none, ⟨{ o1.comps with stop := Stop.maxIterations 500 }, o1.pop⟩), w1, rfl, ?_⟩
  refine M.bind_eq_ok.2 ⟨([some (some (y, @TestFunc.schwefelF64 _ P.libm y))], o2), w2, ?_, rfl⟩
  refine M.bind_eq_ok.2 ⟨_, w2, M.bind_eq_ok.2 ⟨_, w2, k1, rfl⟩, ?_⟩
  exact M.bind_eq_ok.2 ⟨_, w2, rfl, rfl⟩

/-- C71: without a bound on the generations a program either ends well or goes on for ever; it never panics. -/
theorem C71_unbounded (R : Rng σ) (hf : Fmt.Embeds f Fmt.f64) (size : Nat) (ivs : List (Fl f × Fl f))
    (o : Opt σ (List (Fl f))) (hc : LibProgram R size ivs o.comps) (hl : Legal o.comps)
    (hfirst : ¬ Returned (o.comps.stop ⟨none, 0⟩) true) (fuel : Nat) (w : World σ (List (Fl f))) :
    (∃ x v o' w', findMin fuel o w = .ok ((some (x, v), o'), w') ∧ InBox ivs x ∧ Returned (o.comps.goal x) v ∧
      v.isFinite = true ∧ 1 ≤ o'.pop.iteration) ∨ findMin fuel o w = .error .fuel := by
  rcases good_findMin (C71_lasting R hf size ivs o.comps hc) fuel w with ⟨⟨r, o'⟩, w', h, -, hlast⟩ | ⟨-, h⟩
  swap
  · exact .inr h
  obtain ⟨k, sts, ext, -, -, -, -, hr, -, -, -, -, -, p0, w1, w2, s', -, -, hend⟩ := findMin_spec hl h
  have hlast : Lasts (InBox ivs) o.comps.goal o'.pop := hlast
  have hne : o'.pop.iteration ≠ 0 := by
    intro h0
    have : o'.pop.state = ⟨none, 0⟩ := by
      show (⟨o'.pop.best.map Individual.sol, o'.pop.iteration⟩ : AlgState (List (Fl f))) = _
      rw [hlast.first h0, h0]; rfl
    rw [this] at hend
    exact hfirst ⟨_, _, hend⟩
  obtain ⟨b, hb, h1, h2, h3⟩ := hlast.best hne
  have hr : r = some (b.chromosomes, b.fitness) := by
    have hr : r = o'.pop.best.map Individual.sol := hr
    rw [hr, hb]; rfl
  subst hr
  exact .inl ⟨b.chromosomes, b.fitness, o', w', h, h1, h2, h3, Nat.one_le_iff_ne_zero.2 hne⟩

/-- Nothing on the platform touches the fields `L` of an object of the program. -/
structure Platform.Leaves {κ : Type} (L : Lens σ κ) (P : Platform σ) : Prop where
  rng : P.rng.Leaves L
  print : ∀ x, Spec.Leaves L (P.print x)

theorem geneticMade_owns {κ : Type} {L : Lens σ κ} {P : Platform σ} (hL : Platform.Leaves L P) {goal : List F32 → M σ F64}
    (hg : ∀ x, Spec.Leaves L (goal x)) (stop : AlgState (List F32) → M σ Bool) (size : Nat)
    (ivs : List (F32 × F32)) (rounds : Nat) (prob : F64) {ls : List (Logger σ (List F32))}
    (hl : ∀ l ∈ ls, l = P.verbose ∨ l = P.resultOnly) :
    StopOwns L (geneticMade P goal stop size ivs rounds prob ls).comps where
  operators :=
    { creator := Spec.Leaves.randomCreator hL.rng _
      pairing := fun p => Spec.Leaves.tournament hL.rng _ p
      cross := fun xs => Spec.Leaves.vecCrossAllGenes (fun ys => Spec.Leaves.floatCrossExp _ hL.rng _ ys) xs
      mutation := fun x => Spec.Leaves.vecMutation hL.rng _ (fun y => Spec.Leaves.bitwise hL.rng _ y) x
      selections := by
        intro sel hs p
        rcases List.mem_cons.1 hs with rfl | hs
        · exact Spec.Leaves.killFitnessNaN p
        · rw [List.mem_singleton.1 hs]; exact Spec.Leaves.limitPopulation _ p
      preBirths := by
        intro pb hs p xs
        rw [List.mem_singleton.1 hs]; exact Spec.Leaves.preBirthInterval _ p xs }
  goal := hg
  loggers := by
    intro l hlm k st
    rcases hl l hlm with rfl | rfl
    · exact Spec.Leaves.verbose hL.print _ _ _ k st
    · exact Spec.Leaves.resultOnly hL.print _ _ _ k st

/-- From an optimizer to the same with a TimeLogger, for a run that does not return. -/
theorem timed_findMin_error (t : Timer τ) (o : Opt σ (List F32)) (i fuel : Nat) (w : World σ (List F32)) (u : τ) {e : Err}
    (h : findMin fuel o w = .error e) : findMin fuel (o.attach i t.logger) ⟨(w.user, u), w.trace⟩ = .error e := by
  have hrun : GA.run o [.findMin fuel] w = .error e := by
    unfold GA.run
    exact M.bind_eq_error.2 (.inl (M.bind_eq_error.2 (.inl h)))
  have h2 := ((C70_genetic (C70_time t.field t.prints t.reads) o i fuel [] w u trivial).fails e).1 (by
      show gaView (GA.run o [.findMin fuel] w) = _
      rw [hrun]; rfl)
  have h2 : gaView (GA.run (o.attach i t.logger) [.findMin fuel] ⟨(w.user, u), w.trace⟩) = .error e := h2
  cases h3 : findMin fuel (o.attach i t.logger) ⟨(w.user, u), w.trace⟩ with
  | ok q =>
    have : GA.run (o.attach i t.logger) [.findMin fuel] ⟨(w.user, u), w.trace⟩ = .ok (([some q.1.1], q.1.2), q.2) := by
      unfold GA.run
      exact M.bind_eq_ok.2 ⟨(some q.1.1, q.1.2), q.2, M.bind_eq_ok.2 ⟨q.1, q.2, h3, rfl⟩,
        M.bind_eq_ok.2 ⟨([], q.1.2), q.2, rfl, rfl⟩⟩
    rw [this] at h2
    cases h2
  | error e' =>
    have : GA.run (o.attach i t.logger) [.findMin fuel] ⟨(w.user, u), w.trace⟩ = .error e' := by
      unfold GA.run
      exact M.bind_eq_error.2 (.inl (M.bind_eq_error.2 (.inl h3)))
    rw [this] at h2
    cases h2
    rfl

/-- C71: genetic-rosenbrock.rs has no bound on its generations. With or without overflow checks it never panics; if it ends,
it returns a point of `[-2, 2] ^ 3` with its finite goal value, after at least one generation. -/
theorem C71_rosenbrock_program (P : Platform σ) (hP : Platform.Sound P) (L : Lens σ Stop.GNC) (hL : Platform.Leaves L P)
    (t : Timer τ) (fuel : Nat) (s : σ) (u : τ) : ∃ o s', geneticRosenbrock P L s = .ok (o, s') ∧
    ((∃ x v o' w', findMin fuel (o.attach 2 t.logger) ⟨(s', u), []⟩ = .ok ((some (x, v), o'), w') ∧
      InBox (box (minus 2 1) (plus 2 1) 3) x ∧ Returned (TestFunc.rosenbrockF64 P.profile x : M σ F64) v ∧
      v.isFinite = true ∧ 1 ≤ o'.pop.iteration) ∨
    findMin fuel (o.attach 2 t.logger) ⟨(s', u), []⟩ = .error .fuel) := by
  have hgnc : HasGNC L (fun p => (Stop.any [fun s => L.zoom (Stop.goalNotChange p s)] : AlgState (List F32) → M σ Bool)) := by
    refine .any [fun p s => L.zoom (Stop.goalNotChange p s)] ?_
    intro c hc
    rw [List.mem_singleton.1 hc]
    exact .object
  generalize hst : (fun p => (Stop.any [fun s => L.zoom (Stop.goalNotChange p s)] : AlgState (List F32) → M σ Bool)) = stop at hgnc
  have hst1 : ∀ p, (Stop.any [fun s => L.zoom (Stop.goalNotChange p s)] : AlgState (List F32) → M σ Bool) = stop p :=
    fun p => congrFun hst p
  have hmake : geneticRosenbrockStop L P.profile s =
      .ok (stop P.profile, L.set (Stop.GNC.new 3000 (Fl.ofRat false 1 1000000000)) s) := by
    rw [← hst1]
    exact M.bind_eq_ok.2 ⟨(), _, rfl, anyOf_ok (by simp) _⟩
  refine ⟨_, _, genetic_ok hmake (by omega) (by omega) (by decide +kernel) _ _ _, ?_⟩
  have hlib : LibProgram P.rng 600 (box (minus 2 1) (plus 2 1) 3) (geneticMade P (TestFunc.rosenbrockF64 P.profile)
      (stop .release) 600 (box (minus 2 1) (plus 2 1) 3) 5 (Fl.ofNat 85) [P.verbose, P.resultOnly]).comps := by
    refine example_libProgram hP ?_ (by omega) (by decide +kernel) (by decide +kernel) (by decide +kernel) ?_ _ _ (by simp)
    · rw [← hst1]
      refine .any _ ?_
      intro c hc
      rw [List.mem_singleton] at hc
      subst hc
      exact .goalNotChange L
    · intro x hx s
      obtain ⟨v, s', h1, h2⟩ := C72_rosenbrock (.inl rfl) P.profile x
        (box_moderate (by omega) (by decide +kernel) (by decide +kernel) hx) (by
          intro h0
          have := hx.length_eq
          rw [h0] at this
          simp [box] at this) s
      exact ⟨v, s', h1, h2.1⟩
  have hfirst : ¬ Returned (stop .release ⟨none, 0⟩) true := by
    rintro ⟨s, s', h⟩
    rw [← hst1] at h
    cases h
  have hown := geneticMade_owns hL (goal := TestFunc.rosenbrockF64 P.profile) (fun x => Spec.Leaves.rosenbrockF64 _ x)
    (stop .release) 600 (box (minus 2 1) (plus 2 1) 3) 5 (Fl.ofNat 85) (ls := [P.verbose, P.resultOnly]) (by simp)
  have hleg : Legal (geneticMade P (TestFunc.rosenbrockF64 P.profile) (stop .release) 600 (box (minus 2 1) (plus 2 1) 3) 5
      (Fl.ofNat 85) [P.verbose, P.resultOnly]).comps := limited_legal (n := 600) rfl
  have hun := C71_unbounded P.rng Fmt.embeds_f32 600 _ _ hlib hleg hfirst fuel
    ⟨L.set (Stop.GNC.new 3000 (Fl.ofRat false 1 1000000000)) s, []⟩
  obtain ⟨hag, -⟩ := findMin_agree hown hleg (hasGNC_agree hgnc .release P.profile) fuel
    ⟨L.set (Stop.GNC.new 3000 (Fl.ofRat false 1 1000000000)) s, []⟩ (by show (L.get (L.set _ s)).changeIter = 0; rw [L.get_set]; rfl)
  have hag : seen (findMin fuel (geneticMade P (TestFunc.rosenbrockF64 P.profile) (stop .release) 600
      (box (minus 2 1) (plus 2 1) 3) 5 (Fl.ofNat 85) [P.verbose, P.resultOnly])
      ⟨L.set (Stop.GNC.new 3000 (Fl.ofRat false 1 1000000000)) s, []⟩) =
    seen (findMin fuel (geneticMade P (TestFunc.rosenbrockF64 P.profile) (stop P.profile) 600
      (box (minus 2 1) (plus 2 1) 3) 5 (Fl.ofNat 85) [P.verbose, P.resultOnly])
      ⟨L.set (Stop.GNC.new 3000 (Fl.ofRat false 1 1000000000)) s, []⟩) := hag
  generalize L.set (Stop.GNC.new 3000 (Fl.ofRat false 1 1000000000)) s = s1 at hun hag ⊢
  rcases hun with ⟨x, v, o', w', h1, h2, h3, h4, h5⟩ | h1
  · rw [h1] at hag
    cases h6 : findMin fuel (geneticMade P (TestFunc.rosenbrockF64 P.profile) (stop P.profile) 600
      (box (minus 2 1) (plus 2 1) 3) 5 (Fl.ofNat 85) [P.verbose, P.resultOnly]) ⟨s1, []⟩ with
    | error e => rw [h6] at hag; cases hag
    | ok q =>
      obtain ⟨⟨r, o2⟩, w2⟩ := q
      rw [h6] at hag
      simp only [seen, Except.map, Except.ok.injEq, Prod.mk.injEq] at hag
      obtain ⟨⟨rfl, h7⟩, rfl⟩ := hag
      obtain ⟨o3, w3, h8, h9⟩ := timed_findMin t _ 2 fuel ⟨s1, []⟩ u h6
      exact .inl ⟨x, v, o3, w3, h8, h2, h3, h4, by rw [h9, ← h7]; exact h5⟩
  · rw [h1] at hag
    cases h6 : findMin fuel (geneticMade P (TestFunc.rosenbrockF64 P.profile) (stop P.profile) 600
      (box (minus 2 1) (plus 2 1) 3) 5 (Fl.ofNat 85) [P.verbose, P.resultOnly]) ⟨s1, []⟩ with
    | ok q => rw [h6] at hag; cases hag
    | error e =>
      rw [h6] at hag
      cases hag
      exact .inr (timed_findMin_error t _ 2 fuel ⟨s1, []⟩ u h6)

/-! The conditions of C71 are needed. -/

/-- A program as C71 asks for, but for the goal and the stop checker. -/
def condOpt (goal : List F64 → M (List Nat) F64) (stop : AlgState (List F64) → M (List Nat) Bool) : GA.Opt (List Nat) (List F64) :=
  GA.new goal stop (Creation.RandomCreator.create Rng.script ⟨4, Demo.ivs⟩)
    (Pairing.tournament Rng.script (((Pairing.Tournament.new 2).withPartners 2).withRounds 1))
    (Cross.vecCrossAllGenes Cross.crossMean) (Mutation.vec Rng.script (Fl.ofNat 100) (Mutation.bitwise Rng.script 1))
    [Selection.killFitnessNaN, Selection.limitPopulation 4] [Selection.preBirthInterval Demo.ivs]

/-- It meets the conditions of C71 with the paraboloid. -/
theorem condOpt_lib (m : Nat) : LibProgram Rng.script 4 Demo.ivs
    (condOpt (TestFunc.goalFromFunction TestFunc.paraboloidF64) (Stop.maxIterations m)).comps where
  positive := by omega
  intervals := by
    intro iv hiv
    rw [Demo.ivs, List.mem_singleton] at hiv
    subst hiv
    decide +kernel
  creator := rfl
  pairing := .inr ⟨2, 1, rfl⟩
  cross := ⟨_, .mean, rfl⟩
  mutation := ⟨Fl.ofNat 100, 1, rfl⟩
  preBirths := rfl
  selections := ⟨_, rfl, by
    intro s hs
    rw [List.mem_singleton] at hs
    subst hs
    exact .limitPopulation 4 (by omega)⟩
  stop := .maxIterations m
  loggers := by intro l hl; simp [condOpt, GA.new] at hl
  goal := fun x hx s => ⟨_, s, rfl, (C72_paraboloid (.inr rfl) x (moderate_of_box (by decide) (by
    intro iv hiv
    rw [Demo.ivs, List.mem_singleton] at hiv
    subst hiv
    decide +kernel) hx)).1⟩

/-- A run with random numbers in which children are mutated and born. -/
example : M.okAnd (GA.findMin 4 (condOpt (TestFunc.goalFromFunction TestFunc.paraboloidF64) (Stop.maxIterations 3)) Demo.world)
    (fun r w => r.1.isSome && r.2.pop.iteration == 3 &&
      w.trace.any (fun | .preBorn _ _ ys => !ys.isEmpty | _ => false)) = true := by decide +kernel

/-- Executable check for a panic. -/
def errorIs {α σ : Type} (e : Err) (r : Except Err (α × σ)) : Bool :=
  match r with
  | .ok _ => false
  | .error e' => e' == e

theorem errorIs_iff {α σ : Type} {e : Err} {r : Except Err (α × σ)} : errorIs e r = true ↔ r = .error e := by
  cases r <;> simp [errorIs]

/-- C71: without a finite goal value the population dies out in the first generation and the second one panics. -/
theorem C71_dies_out_witness :
    GA.findMin 4 (condOpt (fun _ => pure Fl.nan) (Stop.maxIterations 3)) Demo.world = .error .range := by
  refine errorIs_iff.1 ?_; decide +kernel

/-- C71: a stop checker that answers `true` before the first generation makes `find_min` return nothing. -/
theorem C71_none_witness : M.okAnd (GA.findMin 4 (condOpt (TestFunc.goalFromFunction TestFunc.paraboloidF64)
    (Stop.maxIterations 0)) Demo.world) (fun r _ => r.1.isNone) = true := by decide +kernel

/-- C71: `next_iterations` before any `find_min` panics. -/
theorem C71_before_witness : GA.nextIterations 4 (condOpt (TestFunc.goalFromFunction TestFunc.paraboloidF64)
    (Stop.maxIterations 3)) Demo.world = .error .range := by
  refine errorIs_iff.1 ?_; decide +kernel

end Verif.Props
