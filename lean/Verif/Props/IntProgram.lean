import Verif.Props.IntCreation
import Verif.Props.GeneticProgram

/-!
# C81: a genetic search over integers
-/

namespace Verif.Props

open Verif Spec GA IntGenes
open _root_.Verif.Spec.Swarm (Works)
open _root_.Verif.Props.Swarm (LibStop libStop_works)

variable {σ T : Type}

/-- A genetic optimizer for vectors of integers: RandomCreator for `size` individuals in the intervals, RandomPairing or
Tournament of pairs, VecCrossAllGenes over CrossMean, any mutation that does not leave the intervals, KillFitnessNaN and then
limits on the population. The double of a bound is still a value of the type. The goal has finite values in the intervals. -/
structure IntProgram (I : IntTy) (profile : Profile) (R : Rng σ) (size : Nat) (ivs : List (Int × Int))
    (c : Comps σ (List Int)) : Prop where
  width : 8 ≤ I.width
  positive : 0 < size
  intervals : IntIntervals I ivs
  doubles : ∀ iv ∈ ivs, InRange I (2 * iv.1) ∧ InRange I (2 * iv.2)
  creator : c.creator = IntGenes.RandomCreator.create I R ⟨size, ivs⟩
  pairing : c.pairing = Pairing.randomPairing R ∨
    ∃ families rounds, c.pairing = Pairing.tournament R (((Pairing.Tournament.new families).withPartners 2).withRounds rounds)
  cross : c.cross = Cross.vecCrossAllGenes (IntGenes.crossMean I profile)
  mutation : ∀ x, IntBox ivs x → Works (c.mutation x) (IntBox ivs)
  preBirths : c.preBirths = []
  selections : ∃ rest, c.selections = Selection.killFitnessNaN :: rest ∧ ∀ s ∈ rest, ∃ n, 0 < n ∧ s = Selection.limitPopulation n
  stop : LibStop c.stop
  loggers : ∀ l ∈ c.loggers, ∀ s, Works (l.start s) (fun _ => True) ∧ Works (l.resume s) (fun _ => True) ∧
    Works (l.nextIteration s) (fun _ => True) ∧ Works (l.finish s) (fun _ => True)
  goal : ∀ x, IntBox ivs x → SurelyFinite c.goal x

theorem mean_two {I : IntTy} (hw : 8 ≤ I.width) (profile : Profile) {iv : Int × Int} (h1 : InRange I (2 * iv.1))
    (h2 : InRange I (2 * iv.2)) {a b : Int} (ha : iv.1 ≤ a ∧ a ≤ iv.2) (hb : iv.1 ≤ b ∧ b ≤ iv.2) (s : σ) :
    ∃ c, IntGenes.crossMean I profile [a, b] s = .ok ([c], s) ∧ iv.1 ≤ c ∧ c ≤ iv.2 := by
  have hmax : ((2 : Nat) : Int) ≤ I.max := by
    have h4 : (2 : Int) ^ 7 ≤ 2 ^ (I.width - 1) := pow_le_pow_right₀ (by norm_num) (by omega)
    have h5 : (2 : Int) ^ 8 ≤ 2 ^ I.width := pow_le_pow_right₀ (by norm_num) hw
    unfold IntTy.max
    split <;> push_cast <;> omega
  obtain ⟨c, hc, -, hb'⟩ := C79_mean I profile [a, b] (by simp) (by simpa using hmax) (C79_small I _ (by
    intro x hx
    have hx : iv.1 ≤ x ∧ x ≤ iv.2 := by
      rcases List.mem_cons.1 hx with rfl | hx
      · exact ha
      · rw [List.mem_singleton] at hx; subst hx; exact hb
    unfold InRange at *
    simp only [List.length_cons, List.length_nil]
    push_cast
    omega)) s
  refine ⟨c, hc, hb' iv.1 iv.2 ?_⟩
  intro x hx
  rcases List.mem_cons.1 hx with rfl | hx
  · exact ha
  · rw [List.mem_singleton] at hx; subst hx; exact hb

theorem intCross_works {I : IntTy} (hw : 8 ≤ I.width) (profile : Profile) :
    ∀ {ivs : List (Int × Int)} (_ : ∀ iv ∈ ivs, InRange I (2 * iv.1) ∧ InRange I (2 * iv.2)) {x1 x2 : List Int}
      (_ : IntBox ivs x1) (_ : IntBox ivs x2) (s : σ),
      ∃ parts, M.mapL (fun (g : Int × Int) => IntGenes.crossMean I profile [g.1, g.2]) (x1.zip x2) s = .ok (parts, s) ∧
        IntBox ivs parts.flatten
  | [], _, _, _, .nil, .nil, s => ⟨[], rfl, .nil⟩
  | iv :: ivs, h, _, _, .cons ha h1, .cons hb h2, s => by
    obtain ⟨c, hc, hi⟩ := mean_two hw profile (h iv (by simp)).1 (h iv (by simp)).2 ha hb s
    obtain ⟨parts, hp, his⟩ := intCross_works hw profile (fun iv hiv => h iv (by simp [hiv])) h1 h2 s
    exact ⟨[c] :: parts, M.mapL_cons_ok.2 ⟨[c], parts, s, hc, hp, rfl⟩, .cons hi his⟩

theorem vecMean_works {I : IntTy} (hw : 8 ≤ I.width) (profile : Profile) {ivs : List (Int × Int)}
    (h : ∀ iv ∈ ivs, InRange I (2 * iv.1) ∧ InRange I (2 * iv.2)) {x1 x2 : List Int} (h1 : IntBox ivs x1)
    (h2 : IntBox ivs x2) (s : σ) :
    ∃ y, Cross.vecCrossAllGenes (IntGenes.crossMean I profile) [x1, x2] s = .ok ([y], s) ∧ IntBox ivs y := by
  obtain ⟨parts, hp, hb⟩ := intCross_works hw profile h h1 h2 s
  refine ⟨parts.flatten, ?_, hb⟩
  rw [C06_vecCross _ x1 x2 (by rw [← h1.length_eq, ← h2.length_eq])]
  exact M.bind_eq_ok.2 ⟨parts, s, hp, rfl⟩

theorem limits_fit :
    ∀ (rest : List (Population T → M σ (Population T))) (p : Population T),
      (∀ s ∈ rest, ∃ n, 0 < n ∧ s = Selection.limitPopulation n) → Fit p →
      Works (M.foldL (fun p f => f p) p rest) (fun p' => OnlyKills p p' ∧ Fit p')
  | [], p, _, hp => fun s => ⟨p, s, rfl, onlyKills_refl p, hp⟩
  | sel :: rest, p, h, hp => by
    intro s
    obtain ⟨n, hn, rfl⟩ := h sel (by simp)
    obtain ⟨q, h1, hk, hlo, -⟩ := C15_limit n p s
    have hq : Fit q := by
      refine ⟨fun j hj ha => ?_, ?_⟩
      · obtain ⟨i, hi, -, h2, h3⟩ := onlyKills_mem hk hj
        rw [h2]; exact hp.1 i hi (h3 ha)
      · obtain ⟨i, hi, ha⟩ := hp.2
        have h1 : 0 < alive p := List.length_pos_of_mem (List.mem_filter.2 ⟨hi, ha⟩)
        have h2 : 0 < alive q := by omega
        obtain ⟨j, hj⟩ := List.exists_mem_of_length_pos h2
        exact ⟨j, (List.mem_filter.1 hj).1, (List.mem_filter.1 hj).2⟩
    obtain ⟨r, s2, h2, hk2, hr⟩ := limits_fit rest q (fun s hs => h s (by simp [hs])) hq s
    exact ⟨r, s2, M.foldL_cons_ok.2 ⟨q, s, h1, h2⟩, onlyKills_trans hk hk2, hr⟩

/-- C81: a population of such an optimizer lasts. -/
theorem C81_lasting (I : IntTy) (profile : Profile) (R : Rng σ) (size : Nat) (ivs : List (Int × Int))
    (c : Comps σ (List Int)) (h : IntProgram I profile R size ivs c) : Lasting (IntBox ivs) (IntBox ivs) c where
  goal := fun x hx s => by
    obtain ⟨v, s', h1, -⟩ := h.goal x hx s
    exact ⟨v, s', h1, trivial⟩
  stop := libStop_works h.stop
  creator := by
    intro s
    obtain ⟨xs, s', h1, hl, hb⟩ := C80_create I R size ivs h.intervals s
    refine ⟨xs, s', by rw [h.creator]; exact h1, hb, ?_⟩
    have hs := h.positive
    obtain ⟨x, hx⟩ := List.exists_mem_of_length_pos (by omega : 0 < xs.length)
    exact ⟨x, hx, h.goal x (hb x hx)⟩
  pairing := by
    intro p hne s
    rcases h.pairing with hp | ⟨families, rounds, hp⟩
    · obtain ⟨fams, s', h1, -, h2⟩ := C19_pairs R p hne s
      refine ⟨fams, s', by rw [hp]; exact h1, ?_⟩
      intro fam hfam
      obtain ⟨i, j, rfl, hi, hj⟩ := h2 fam hfam
      refine ⟨rfl, ?_⟩
      intro k hk
      simp only [List.mem_cons, List.not_mem_nil, or_false] at hk
      rcases hk with rfl | rfl
      · exact hi
      · exact hj
    · obtain ⟨fams, s', h1, -, h2⟩ := C20_shape R (((Pairing.Tournament.new families).withPartners 2).withRounds rounds) p hne s
      exact ⟨fams, s', by rw [hp]; exact h1, h2⟩
  cross := by
    intro xs hx hb
    match xs, hx with
    | [x1, x2], _ =>
      intro s
      obtain ⟨y, hy, hby⟩ := vecMean_works h.width profile h.doubles (hb x1 (by simp)) (hb x2 (by simp)) s
      refine ⟨[y], s, by rw [h.cross]; exact hy, ?_⟩
      intro z hz
      rw [List.mem_singleton] at hz
      subst hz
      exact hby
  mutation := h.mutation
  preBirths := by
    intro p xs hx s
    rw [h.preBirths]
    exact ⟨xs, s, rfl, hx⟩
  selections := by
    intro p hb hp s
    obtain ⟨rest, he, hl⟩ := h.selections
    rw [he]
    obtain ⟨q, s1, h1, hk, hq⟩ := killNaN_fit p hp s
    obtain ⟨r, s2, h2, hk2, hr⟩ := limits_fit rest q hl hq s1
    exact ⟨r, s2, M.foldL_cons_ok.2 ⟨q, s1, h1, h2⟩, onlyKills_trans hk hk2, hr⟩
  loggers := h.loggers

theorem intProgram_closed (I : IntTy) (profile : Profile) (R : Rng σ) (size : Nat) (ivs : List (Int × Int))
    (c : Comps σ (List Int)) (h : IntProgram I profile R size ivs c) : Closed (IntBox ivs) c := by
  refine ⟨?_, ?_, ?_⟩
  · intro sel hs
    obtain ⟨rest, he, hl⟩ := h.selections
    rw [he] at hs
    refine legal_of_onlyKills fun p s p' s' hr => ?_
    rcases List.mem_cons.1 hs with rfl | hs
    · obtain ⟨q, hq, hk, -⟩ := C12_killFitnessNaN p s
      rw [hr] at hq; cases hq; exact hk
    · obtain ⟨n, -, rfl⟩ := hl sel hs
      obtain ⟨q, hq, hk, -⟩ := C15_limit n p s
      rw [hr] at hq; cases hq; exact hk
  · rintro xs ⟨s, s', hx⟩
    rw [h.creator] at hx
    obtain ⟨ys, s2, hy, -, hb⟩ := C80_create I R size ivs h.intervals s
    rw [hx] at hy; cases hy
    exact hb
  intro p evs p' hp g y hy
  have hpar : ∀ ps ∈ g.parents, ∀ x ∈ ps, IntBox ivs x := by
    have := g.parents_ok
    intro ps hps x hxm
    obtain ⟨i, hi, rfl⟩ := List.getElem_of_mem hps
    have h3 := (List.forall₂_iff_get.1 this).2 i (by rw [this.length_eq]; exact hi) hi
    obtain ⟨j, hj, rfl⟩ := List.getElem_of_mem hxm
    have h4 := (List.forall₂_iff_get.1 h3).2 j (by rw [h3.length_eq]; exact hj) hj
    have h5 := List.mem_of_getElem? h4
    obtain ⟨ind, hind, he⟩ := List.mem_map.1 h5
    have := hp ind hind
    rw [he] at this
    simpa using this
  have hch : ∀ ks ∈ g.children, ∀ x ∈ ks, IntBox ivs x := by
    intro ks hks
    obtain ⟨i, hi, rfl⟩ := List.getElem_of_mem hks
    have hl := g.cross_ok.length_eq
    obtain ⟨s, s', h3⟩ := (List.forall₂_iff_get.1 g.cross_ok).2 i (by omega) hi
    have hps := hpar (g.parents.get ⟨i, by omega⟩) (List.getElem_mem _)
    revert hps h3
    generalize g.parents.get ⟨i, _⟩ = ps
    intro h3 hps
    rw [h.cross] at h3
    have h2 : ps.length = 2 := by
      by_contra hc
      rw [C06_wrong_arity _ ps hc s] at h3
      simp at h3
    match ps, h2 with
    | [x1, x2], _ =>
      obtain ⟨z, hz, hbz⟩ := vecMean_works h.width profile h.doubles (hps x1 (by simp)) (hps x2 (by simp)) s
      rw [hz] at h3
      simp only [List.get_eq_getElem, Except.ok.injEq, Prod.mk.injEq] at h3
      rw [← h3.1]
      intro x hx
      rw [List.mem_singleton] at hx
      subst hx; exact hbz
  have hmu : ∀ x ∈ g.mutants, IntBox ivs x := by
    intro x hxm
    obtain ⟨i, hi, rfl⟩ := List.getElem_of_mem hxm
    have hl := g.mutation_ok.length_eq
    obtain ⟨s, s', h3⟩ := (List.forall₂_iff_get.1 g.mutation_ok).2 i (by omega) hi
    have hi' : i < g.children.flatten.length := by omega
    have : g.children.flatten[i]'hi' ∈ g.children.flatten := List.getElem_mem _
    obtain ⟨ks, hks, hin⟩ := List.mem_flatten.1 this
    obtain ⟨z, s2, hz, hbz⟩ := h.mutation _ (hch ks hks _ hin) s
    simp only [List.get_eq_getElem] at h3
    rw [h3] at hz; cases hz
    exact hbz
  exact hmu y (preBirths_filter (by rw [h.preBirths]; simp) g.preBirth_ok y hy)

/-- C81: no history of such an optimizer panics at any point, in either build profile, if `next_iterations` is not called before
`find_min` (`fuel` is the bound on the number of turns, not a panic). -/
theorem C81_no_panic (I : IntTy) (profile : Profile) (R : Rng σ) (size : Nat) (ivs : List (Int × Int))
    (ks : List (Call σ (List Int))) (o : Opt σ (List Int)) (w : World σ (List Int))
    (hc : Always (IntProgram I profile R size ivs) o.comps ks) (pt : Point) (ho : InOrder false ks pt) :
    (∃ o' w', runTo o ks pt w = .ok (o', w')) ∨ runTo o ks pt w = .error .fuel := by
  rcases good_runTo ks (Always.imp (C81_lasting I profile R size ivs) hc) false pt (by simp) ho w with ⟨o', w', h, -⟩ | ⟨-, h⟩
  · exact .inl ⟨o', w', h⟩
  · exact .inr h

/-- C81: at every point of every history all individuals are inside the intervals, and only such points have been passed to the
goal or shown to loggers and stop checkers. -/
theorem C81_box (I : IntTy) (profile : Profile) (R : Rng σ) (size : Nat) (ivs : List (Int × Int))
    (o o' : Opt σ (List Int)) (w w' : World σ (List Int)) (ks : List (Call σ (List Int))) (pt : Point) (h0 : Fresh o w)
    (hc : Always (IntProgram I profile R size ivs) o.comps ks) (hr : runTo o ks pt w = .ok (o', w')) :
    (∀ i ∈ o'.pop.individuals, IntBox ivs i.chromosomes) ∧ (∀ e ∈ w'.trace, ShowsOnly (IntBox ivs) e) :=
  closed_all _ o o' w w' ks pt h0 (Always.imp (intProgram_closed I profile R size ivs) hc) hr

/-- C81: `find_min` of such an optimizer returns, if its stop checker answers `true` from iteration `m` on but not before the
first generation: after at most `m` generations, with a point in the intervals and its finite goal value. -/
theorem C81_find_min (I : IntTy) (profile : Profile) (R : Rng σ) (size : Nat) (ivs : List (Int × Int))
    (o : Opt σ (List Int)) (hc : IntProgram I profile R size ivs o.comps) (m : Nat) (hstop : Bounding m o.comps.stop)
    (hfirst : ¬ Returned (o.comps.stop ⟨none, 0⟩) true) (fuel : Nat) (hfuel : m < fuel) (w : World σ (List Int)) :
    ∃ x v o' w', findMin fuel o w = .ok ((some (x, v), o'), w') ∧ IntBox ivs x ∧ Returned (o.comps.goal x) v ∧
      v.isFinite = true ∧ 1 ≤ o'.pop.iteration ∧ o'.pop.iteration ≤ m := by
  rcases total_findMin (C81_lasting I profile R size ivs o.comps hc) hstop fuel hfuel w with
    ⟨⟨r, o'⟩, w', h, -, hl, hm, hs, hr⟩ | ⟨h, -⟩
  · have hne : o'.pop.iteration ≠ 0 := by
      intro h0
      have : o'.pop.state = ⟨none, 0⟩ := by
        show (⟨o'.pop.best.map Individual.sol, o'.pop.iteration⟩ : AlgState (List Int)) = _
        rw [hl.first h0, h0]; rfl
      rw [this] at hs
      exact hfirst hs
    obtain ⟨b, hb, h1, h2, h3⟩ := hl.best hne
    have hr : r = some (b.chromosomes, b.fitness) := by
      have hr : r = o'.pop.best.map Individual.sol := hr
      rw [hr, hb]; rfl
    subst hr
    exact ⟨b.chromosomes, b.fitness, o', w', h, h1, h2, h3, Nat.one_le_iff_ne_zero.2 hne, hm⟩
  · exact h.elim

/-! ## An instance -/

/-- A search in `[-10, 10] × [0, 100]` for `i32` genes: the goal is the distance of the first gene from zero, the mutation puts
the first gene to zero. -/
def intDemo (profile : Profile) : Comps (List Nat) (List Int) where
  goal := fun x => pure (Fl.ofInt (x.headD 0).natAbs)
  creator := IntGenes.RandomCreator.create i32 Rng.script ⟨4, [(-10, 10), (0, 100)]⟩
  pairing := Pairing.randomPairing Rng.script
  cross := Cross.vecCrossAllGenes (IntGenes.crossMean i32 profile)
  mutation := fun x => pure (0 :: x.tail)
  preBirths := []
  selections := [Selection.killFitnessNaN, Selection.limitPopulation 4]
  stop := Stop.maxIterations 3
  loggers := []

theorem intDemo_program (profile : Profile) : IntProgram i32 profile Rng.script 4 [(-10, 10), (0, 100)] (intDemo profile) where
  width := by decide
  positive := by decide
  intervals := C80_narrow_types _ (by decide) _ (by
    simp only [List.mem_cons, List.not_mem_nil, or_false, forall_eq_or_imp, forall_eq]; unfold InRange; decide)
  doubles := by simp only [List.mem_cons, List.not_mem_nil, or_false, forall_eq_or_imp, forall_eq]; unfold InRange; decide
  creator := rfl
  pairing := .inl rfl
  cross := rfl
  mutation := by
    intro x hx s
    cases hx with
    | cons h1 h2 => exact ⟨_, s, rfl, .cons (by decide) h2⟩
  preBirths := rfl
  selections := ⟨[Selection.limitPopulation 4], rfl, by
    intro s hs; rw [List.mem_singleton] at hs; exact ⟨4, by decide, hs⟩⟩
  stop := .maxIterations 3
  loggers := by simp [intDemo]
  goal := by
    intro x hx s
    cases hx with
    | @cons _ a _ l h1 h2 =>
      refine ⟨_, s, rfl, (toF64_exact ?_).2⟩
      simp only [List.headD_cons] at *
      omega

example (profile : Profile) (w : World (List Nat) (List Int)) :
    ∃ x v o' w', findMin 4 ⟨intDemo profile, ⟨[], none, none, 0⟩⟩ w = .ok ((some (x, v), o'), w') ∧
      IntBox [(-10, 10), (0, 100)] x ∧ v.isFinite = true := by
  obtain ⟨x, v, o', w', h1, h2, -, h3, -⟩ := C81_find_min i32 profile Rng.script 4 _ ⟨intDemo profile, ⟨[], none, none, 0⟩⟩
    (intDemo_program profile) 3 (maxIterations_bounding 3) (by
      rintro ⟨s, s', h⟩
      cases h) 4 (by decide) w
  exact ⟨x, v, o', w', h1, h2, h3⟩

end Verif.Props
