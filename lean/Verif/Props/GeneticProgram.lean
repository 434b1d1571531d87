import Verif.Proofs.Lasting
import Verif.Props.GeneticBox
import Verif.Props.CrossBits
import Verif.Props.CrossExp
import Verif.Props.Mean
import Verif.Props.Stop
import Verif.Props.SwarmShape

/-!
# C71: genetic optimizers put together from the library

The example programs (optlib/examples/genetic-*.rs) and the integration tests (optlib/tests/genetic-*.rs) all have this
form.
-/

namespace Verif.Props

open Verif Spec GA
open _root_.Verif.Spec.Swarm (Works)
open _root_.Verif.Props.Swarm (LibStop LibLogger libStop_works libLogger_works)

variable {σ T : Type} {f : Fmt}

/-- The library's gene crossings. -/
inductive LibCross (R : Rng σ) : (List (Fl f) → M σ (List (Fl f))) → Prop
  | bitwise (p : Profile) : LibCross R (Cross.crossBitwise p R)
  | exponent (p : Profile) (exp2 : Fl f → Fl f) : LibCross R (Cross.floatCrossExp p R exp2)
  | mean : LibCross R Cross.crossMean
  | geometric (F : FloatFn (Fl f)) : LibCross R Cross.crossGeomMean

/-- The selections that may follow KillFitnessNaN. -/
inductive ThenSelection (ivs : List (Fl f × Fl f)) : (Population (List (Fl f)) → M σ (Population (List (Fl f)))) → Prop
  | limitPopulation (n : Nat) : 0 < n → ThenSelection ivs (Selection.limitPopulation n)
  | killFitnessNaN : ThenSelection ivs Selection.killFitnessNaN
  | checkChromoInterval : ThenSelection ivs (Selection.checkChromoInterval ivs)

/-- A genetic optimizer put together from the library as the example programs do: RandomCreator for `size` individuals in
the intervals, RandomPairing or Tournament of pairs, VecCrossAllGenes over a library crossing, VecMutation of
BitwiseMutation, the pre-birth check for the intervals, KillFitnessNaN and then limits on the population. Only the goal is
the user's; it has finite values in the intervals. -/
structure LibProgram (R : Rng σ) (size : Nat) (ivs : List (Fl f × Fl f)) (c : Comps σ (List (Fl f))) : Prop where
  positive : 0 < size
  intervals : FiniteIncreasing ivs
  creator : c.creator = Creation.RandomCreator.create R ⟨size, ivs⟩
  pairing : c.pairing = Pairing.randomPairing R ∨
    ∃ families rounds, c.pairing = Pairing.tournament R (((Pairing.Tournament.new families).withPartners 2).withRounds rounds)
  cross : ∃ single, LibCross R single ∧ c.cross = Cross.vecCrossAllGenes single
  mutation : ∃ prob count, c.mutation = Mutation.vec R prob (Mutation.bitwise R count)
  preBirths : c.preBirths = [Selection.preBirthInterval ivs]
  selections : ∃ rest, c.selections = Selection.killFitnessNaN :: rest ∧ ∀ s ∈ rest, ThenSelection ivs s
  stop : LibStop c.stop
  loggers : ∀ l ∈ c.loggers, LibLogger l
  goal : ∀ x, InBox ivs x → SurelyFinite c.goal x

theorem libCross_one {R : Rng σ} {single : List (Fl f) → M σ (List (Fl f))} (h : LibCross R single) (a b : Fl f) :
    Works (single [a, b]) (fun cs => cs.length = 1) := by
  intro s
  cases h with
  | bitwise p =>
    obtain ⟨c, s', -, h, -⟩ := C03_crossBitwise p R a b s
    exact ⟨[c], s', h, rfl⟩
  | exponent p exp2 =>
    obtain ⟨c, s', h⟩ := C09_one_child p R exp2 a b s
    exact ⟨[c], s', h, rfl⟩
  | mean => exact ⟨_, s, rfl, rfl⟩
  | geometric F => exact ⟨_, s, rfl, rfl⟩

/-- Somebody is alive and everybody alive has a finite value. -/
def Fit (p : Population T) : Prop :=
  (∀ i ∈ p.individuals, i.alive = true → i.fitness.isFinite = true) ∧ ∃ i ∈ p.individuals, i.alive = true

theorem onlyKills_mem {p q : Population T} (h : OnlyKills p q) {j : Individual T} (hj : j ∈ q.individuals) :
    ∃ i ∈ p.individuals, j.chromosomes = i.chromosomes ∧ j.fitness = i.fitness ∧ (j.alive = true → i.alive = true) := by
  obtain ⟨-, -, -, h⟩ := h
  generalize p.individuals = xs at h
  generalize q.individuals = ys at h hj
  induction h with
  | nil => simp at hj
  | cons h1 _ ih =>
    rcases List.mem_cons.1 hj with rfl | hj
    · exact ⟨_, by simp, h1⟩
    · obtain ⟨i, hi, h⟩ := ih hj
      exact ⟨i, by simp [hi], h⟩

theorem killNaN_fit (p : Population T) (h : ∃ i ∈ p.individuals, i.alive = true ∧ i.fitness.isFinite = true) :
    Works (Selection.killFitnessNaN p : M σ (Population T)) (fun p' => OnlyKills p p' ∧ Fit p') := by
  intro s
  obtain ⟨p', hr, hk, hf⟩ := C12_killFitnessNaN p s
  refine ⟨p', s, hr, hk, ?_, ?_⟩
  · intro j hj ha
    obtain ⟨k, hkl, rfl⟩ := List.mem_iff_getElem.1 hj
    have hkl' : k < p.individuals.length := by rw [hf.length_eq]; exact hkl
    have h1 := hf.get hkl' hkl
    have h2 := hk.2.2.2.get hkl' hkl
    simp only [List.get_eq_getElem] at h1 h2
    rw [h2.2.1]
    exact (h1.1 ha).2
  · obtain ⟨i, hi, ha⟩ := h
    obtain ⟨k, hkl, rfl⟩ := List.mem_iff_getElem.1 hi
    have hkl' : k < p'.individuals.length := by rw [← hf.length_eq]; exact hkl
    have h1 := hf.get hkl hkl'
    simp only [List.get_eq_getElem] at h1
    exact ⟨_, List.getElem_mem hkl', h1.2 ha⟩

theorem thenSelection_fit {ivs : List (Fl f × Fl f)} (hivs : FiniteIncreasing ivs)
    {sel : Population (List (Fl f)) → M σ (Population (List (Fl f)))} (h : ThenSelection ivs sel)
    (p : Population (List (Fl f))) (hb : ∀ i ∈ p.individuals, InBox ivs i.chromosomes) (hp : Fit p) :
    Works (sel p) (fun p' => OnlyKills p p' ∧ Fit p') := by
  intro s
  have fit : ∀ {p' : Population (List (Fl f))}, OnlyKills p p' → (∃ i ∈ p'.individuals, i.alive = true) → Fit p' := by
    intro p' hk he
    refine ⟨fun j hj ha => ?_, he⟩
    obtain ⟨i, hi, -, h2, h3⟩ := onlyKills_mem hk hj
    rw [h2]; exact hp.1 i hi (h3 ha)
  cases h with
  | limitPopulation n hn =>
    obtain ⟨p', hr, hk, hlo, -⟩ := C15_limit n p s
    refine ⟨p', s, hr, hk, fit hk ?_⟩
    obtain ⟨i, hi, ha⟩ := hp.2
    have h1 : 0 < alive p := List.length_pos_of_mem (List.mem_filter.2 ⟨hi, ha⟩)
    have h2 : 0 < alive p' := by omega
    obtain ⟨j, hj⟩ := List.exists_mem_of_length_pos h2
    exact ⟨j, (List.mem_filter.1 hj).1, (List.mem_filter.1 hj).2⟩
  | killFitnessNaN =>
    obtain ⟨i, hi, ha⟩ := hp.2
    exact killNaN_fit p ⟨i, hi, ha, hp.1 i hi ha⟩ s
  | checkChromoInterval =>
    have hn : ∀ iv ∈ ivs, iv.1.isNan = false ∧ iv.2.isNan = false := by
      intro iv hiv
      have := Fl.lt_iff.1 (hivs iv hiv).2.2
      exact ⟨this.1, this.2.1⟩
    obtain ⟨p', hr, hk, hf⟩ := C13_checkInterval ivs hn p (fun i hi => (hb i hi).length_eq.symm) s
    refine ⟨p', s, hr, hk, fit hk ?_⟩
    obtain ⟨i, hi, ha⟩ := hp.2
    obtain ⟨k, hkl, rfl⟩ := List.mem_iff_getElem.1 hi
    have hkl' : k < p'.individuals.length := by rw [← hf.length_eq]; exact hkl
    have h1 := hf.get hkl hkl'
    simp only [List.get_eq_getElem] at h1
    exact ⟨_, List.getElem_mem hkl', h1.2 ⟨ha, hb _ hi⟩⟩

theorem thenSelections_fit {ivs : List (Fl f × Fl f)} (hivs : FiniteIncreasing ivs) :
    ∀ (rest : List (Population (List (Fl f)) → M σ (Population (List (Fl f))))) (p : Population (List (Fl f))),
      (∀ s ∈ rest, ThenSelection ivs s) → (∀ i ∈ p.individuals, InBox ivs i.chromosomes) → Fit p →
      Works (M.foldL (fun p f => f p) p rest) (fun p' => OnlyKills p p' ∧ Fit p')
  | [], p, _, _, hp => fun s => ⟨p, s, rfl, onlyKills_refl p, hp⟩
  | sel :: rest, p, h, hb, hp => by
    intro s
    obtain ⟨q, s1, h1, hk, hq⟩ := thenSelection_fit hivs (h sel (by simp)) p hb hp s
    obtain ⟨r, s2, h2, hk2, hr⟩ := thenSelections_fit hivs rest q (fun s hs => h s (by simp [hs])) (by
      intro j hj
      obtain ⟨i, hi, h2, -⟩ := onlyKills_mem hk hj
      rw [h2]; exact hb i hi) hq s1
    exact ⟨r, s2, M.foldL_cons_ok.2 ⟨q, s1, h1, h2⟩, onlyKills_trans hk hk2, hr⟩

/-- C71: a population of such an optimizer lasts. -/
theorem C71_lasting (R : Rng σ) (hf : Fmt.Embeds f Fmt.f64) (size : Nat) (ivs : List (Fl f × Fl f))
    (c : Comps σ (List (Fl f))) (h : LibProgram R size ivs c) :
    Lasting (InBox ivs) (fun x => x.length = ivs.length) c where
  goal := fun x hx s => by
    obtain ⟨v, s', h1, -⟩ := h.goal x hx s
    exact ⟨v, s', h1, trivial⟩
  stop := libStop_works h.stop
  creator := by
    intro s
    obtain ⟨xs, s', h1, hl, hb⟩ := C10_create R hf size ivs h.intervals s
    refine ⟨xs, s', by rw [h.creator]; exact h1, hb, ?_⟩
    have hs := h.positive
    obtain ⟨x, hx⟩ := List.exists_mem_of_length_pos (by omega : 0 < xs.length)
    exact ⟨x, hx, h.goal x (hb x hx)⟩
  pairing := by
    intro p hne s
    rcases h.pairing with hp | ⟨families, rounds, hp⟩
    · obtain ⟨fams, s', h1, -, h2⟩ := C19_pairs R p hne s
      refine ⟨fams, s', by rw [hp]; exact h1, ?_⟩
      intro fam hfam
      obtain ⟨i, j, rfl, hi, hj⟩ := h2 fam hfam
      refine ⟨rfl, ?_⟩
      intro k hk
      simp only [List.mem_cons, List.not_mem_nil, or_false] at hk
      rcases hk with rfl | rfl
      · exact hi
      · exact hj
    · obtain ⟨fams, s', h1, -, h2⟩ := C20_shape R (((Pairing.Tournament.new families).withPartners 2).withRounds rounds) p hne s
      exact ⟨fams, s', by rw [hp]; exact h1, h2⟩
  cross := by
    intro xs hx hb
    obtain ⟨single, h1, h2⟩ := h.cross
    match xs, hx with
    | [x1, x2], _ =>
      intro s
      have e1 : x1.length = ivs.length := (hb x1 (by simp)).length_eq.symm
      have e2 : x2.length = ivs.length := (hb x2 (by simp)).length_eq.symm
      have h3 := C06_vecCross single x1 x2 (by omega)
      obtain ⟨parts, s', hm, -⟩ := M.mapL_tot (R := fun (_ : Fl f × Fl f) (_ : List (Fl f)) => True)
        (f := fun g => single [g.1, g.2]) (x1.zip x2) s (by
          intro g _ s
          obtain ⟨cs, s', h, -⟩ := libCross_one h1 g.1 g.2 s
          exact ⟨cs, s', h, trivial⟩)
      have hrun : Cross.vecCrossAllGenes single [x1, x2] s = .ok ([parts.flatten], s') := by
        rw [h3]; exact M.bind_eq_ok.2 ⟨parts, s', hm, rfl⟩
      refine ⟨[parts.flatten], s', by rw [h2]; exact hrun, ?_⟩
      obtain ⟨child, hc, hl, -⟩ := C06_length single x1 x2 (by
        intro a b s cs s' hs
        obtain ⟨cs', s2, h4, h5⟩ := libCross_one h1 a b s
        rw [hs] at h4; cases h4; exact h5) (by omega) _ s s' hrun
      rw [hc]
      intro y hy
      rw [List.mem_singleton] at hy
      subst hy
      exact hl.trans e1
  mutation := by
    intro x hx s
    obtain ⟨prob, count, hm⟩ := h.mutation
    obtain ⟨ys, s', h1⟩ := C05_total R prob (Mutation.bitwise R count) (fun x s => by
      obtain ⟨y, s', h, -⟩ := C04_bitwise R count x s
      exact ⟨y, s', h⟩) x s
    exact ⟨ys, s', by rw [hm]; exact h1, (C05_vec R prob _ x ys s s' h1).1.trans hx⟩
  preBirths := by
    intro p xs hx s
    have hn : ∀ iv ∈ ivs, iv.1.isNan = false ∧ iv.2.isNan = false := by
      intro iv hiv
      have := Fl.lt_iff.1 (h.intervals iv hiv).2.2
      exact ⟨this.1, this.2.1⟩
    rw [h.preBirths]
    refine ⟨_, s, M.foldL_cons_ok.2 ⟨_, s, C14_preBirth ivs hn p xs hx s, rfl⟩, ?_⟩
    intro y hy
    simpa using (List.mem_filter.1 hy).2
  selections := by
    intro p hb hp s
    obtain ⟨rest, he, hl⟩ := h.selections
    rw [he]
    obtain ⟨q, s1, h1, hk, hq⟩ := killNaN_fit p hp s
    obtain ⟨r, s2, h2, hk2, hr⟩ := thenSelections_fit h.intervals rest q hl (by
      intro j hj
      obtain ⟨i, hi, h2, -⟩ := onlyKills_mem hk hj
      rw [h2]; exact hb i hi) hq s1
    exact ⟨r, s2, M.foldL_cons_ok.2 ⟨q, s1, h1, h2⟩, onlyKills_trans hk hk2, hr⟩
  loggers := fun l hl s => libLogger_works (h.loggers l hl) s

/-- C71: no history of such an optimizer panics at any point, if `next_iterations` is not called before `find_min`
(`fuel` is the bound on the number of turns, not a panic). -/
theorem C71_no_panic (R : Rng σ) (hf : Fmt.Embeds f Fmt.f64) (size : Nat) (ivs : List (Fl f × Fl f))
    (ks : List (Call σ (List (Fl f)))) (o : Opt σ (List (Fl f))) (w : World σ (List (Fl f)))
    (hc : Always (LibProgram R size ivs) o.comps ks) (pt : Point) (ho : InOrder false ks pt) :
    (∃ o' w', runTo o ks pt w = .ok (o', w')) ∨ runTo o ks pt w = .error .fuel := by
  rcases good_runTo ks (Always.imp (C71_lasting R hf size ivs) hc) false pt (by simp) ho w with ⟨o', w', h, -⟩ | ⟨-, h⟩
  · exact .inl ⟨o', w', h⟩
  · exact .inr h

/-- C71: `find_min` of such an optimizer returns, if its stop checker answers `true` from iteration `m` on but not before the
first generation: after at most `m` generations, with a point in the intervals and its finite goal value. -/
theorem C71_find_min (R : Rng σ) (hf : Fmt.Embeds f Fmt.f64) (size : Nat) (ivs : List (Fl f × Fl f))
    (o : Opt σ (List (Fl f))) (hc : LibProgram R size ivs o.comps) (m : Nat) (hstop : Bounding m o.comps.stop)
    (hfirst : ¬ Returned (o.comps.stop ⟨none, 0⟩) true) (fuel : Nat) (hfuel : m < fuel) (w : World σ (List (Fl f))) :
    ∃ x v o' w', findMin fuel o w = .ok ((some (x, v), o'), w') ∧ InBox ivs x ∧ Returned (o.comps.goal x) v ∧
      v.isFinite = true ∧ 1 ≤ o'.pop.iteration ∧ o'.pop.iteration ≤ m := by
  rcases total_findMin (C71_lasting R hf size ivs o.comps hc) hstop fuel hfuel w with ⟨⟨r, o'⟩, w', h, -, hl, hm, hs, hr⟩ | ⟨h, -⟩
  · have hne : o'.pop.iteration ≠ 0 := by
      intro h0
      have : o'.pop.state = ⟨none, 0⟩ := by
        show (⟨o'.pop.best.map Individual.sol, o'.pop.iteration⟩ : AlgState (List (Fl f))) = _
        rw [hl.first h0, h0]; rfl
      rw [this] at hs
      exact hfirst hs
    obtain ⟨b, hb, h1, h2, h3⟩ := hl.best hne
    have hr : r = some (b.chromosomes, b.fitness) := by
      have hr : r = o'.pop.best.map Individual.sol := hr
      rw [hr, hb]; rfl
    subst hr
    exact ⟨b.chromosomes, b.fitness, o', w', h, h1, h2, h3, Nat.one_le_iff_ne_zero.2 hne, hm⟩
  · exact h.elim

end Verif.Props
