import Verif.Props.GeneticBox
import Verif.Proofs.Throughout

/-!
# C29, C30: best fitness and population size from generation to generation
-/

namespace Verif.Props

open Verif Spec GA

variable {σ T : Type}

/-! ## C29 -/

/-- After this selection there is still somebody alive, with a finite fitness, who is at least as good as any living individual
with a finite fitness before. -/
def KeepsBest (sel : Population T → M σ (Population T)) : Prop :=
  ∀ p p', Returned (sel p) p' → ∀ i ∈ p.individuals, i.alive = true → i.fitness.isFinite = true →
    ∃ j ∈ p'.individuals, j.alive = true ∧ j.fitness.isFinite = true ∧ j.fitness.le i.fitness = true

theorem selections_keep : ∀ {fs : List (Population T → M σ (Population T))} {n : Nat} {p q : Population T}
    {evs : List (Ev T)}, (∀ sel ∈ fs, KeepsBest sel) → Selections n fs p evs q →
    ∀ i ∈ p.individuals, i.alive = true → i.fitness.isFinite = true →
    ∃ j ∈ q.individuals, j.alive = true ∧ j.fitness.isFinite = true ∧ j.fitness.le i.fitness = true := by
  intro fs n p q evs hk h
  induction h with
  | nil =>
    intro i hi ha hf
    exact ⟨i, hi, ha, hf, Fl.le_refl (Fl.isNan_of_isFinite hf)⟩
  | cons h1 _ ih =>
    intro i hi ha hf
    obtain ⟨j, hj, ja, jf, hle⟩ := hk _ (by simp) _ _ h1 i hi ha hf
    obtain ⟨k, hk', ka, kf, hle2⟩ := ih (fun sel h => hk sel (by simp [h])) j hj ja jf
    exact ⟨k, hk', ka, kf, Fl.le_trans hle2 hle⟩

/-- If the previous generation of the same population had a best with a finite fitness, this one has a best that is at least as
good. -/
def BestKept (before : List (Ev T)) (e : Ev T) : Prop :=
  ∀ ags best worst it, e = .generation ags best worst it →
    ∀ prev a, lastGeneration before = some (prev, some a) → a.2.isFinite = true →
      ∃ b, best = some b ∧ b.2.le a.2 = true

theorem inv_bestKept : Inv (σ := σ) (T := T) (fun c => Legal c ∧ ∀ sel ∈ c.selections, KeepsBest sel)
    (fun p tr => Throughout BestKept tr ∧
      ((∀ prev best, lastGeneration tr = some (prev, best) → best = p.state.best) ∧
        (∀ i ∈ p.individuals, i.alive = true) ∧
        ∀ i, p.best = some i → i.fitness.isFinite = true → i ∈ p.individuals)) := by
  refine inv_throughout (J := fun p l => (∀ prev best, l = some (prev, best) → best = p.state.best) ∧
        (∀ i ∈ p.individuals, i.alive = true) ∧
        ∀ i, p.best = some i → i.fitness.isFinite = true → i ∈ p.individuals) ?_ ?_ ?_ ?_ ?_ ?_
  · rintro b i k s _ _ _ _ h; cases h
  · rintro b s r _ _ _ _ h; cases h
  · rintro b e he _ _ _ _ rfl; exact absurd he id
  · rintro b s _ _ _ _ h; cases h
  · rintro c p' w w' - hr
    obtain ⟨xs, vals, -, -, rfl, -⟩ := begin_ok hr
    exact ⟨by simp, fun i hi => (mem_newborn hi).2.1, by simp⟩
  · rintro c p p' b evs ⟨hl, hk⟩ ⟨h1, h2, h3⟩ g hup
    have hqb := (Selections.legal hl g.select_ok).1
    have keep : ∀ i, p.best = some i → i.fitness.isFinite = true →
        ∃ j ∈ p'.individuals, j.fitness.isFinite = true ∧ j.fitness.le i.fitness = true := by
      intro i hi hf
      have hm := h3 i hi hf
      obtain ⟨j, hj, ja, jf, hle⟩ := selections_keep hk g.select_ok i (List.mem_append_left _ hm) (h2 i hm) hf
      exact ⟨j, by rw [g.alive_ok]; exact List.mem_filter.2 ⟨hj, ja⟩, jf, hle⟩
    refine ⟨⟨by simp, ?_, ?_⟩, ?_⟩
    · intro i hi
      rw [g.alive_ok] at hi
      exact (List.mem_filter.1 hi).2
    · intro i hi hf
      by_cases he : p'.individuals = []
      · rw [(hup.old he).1, hqb] at hi
        obtain ⟨j, hj, -⟩ := keep i hi hf
        rw [he] at hj; simp at hj
      · obtain ⟨x, hx, hmem, -⟩ := hup.best he
        rw [hx] at hi; cases hi; exact hmem
    · intro b' hb' ags best worst it he prev a hlast hf
      cases he
      rw [hb'] at hlast
      have hs := h1 _ _ hlast
      obtain ⟨i, hi, hia⟩ := Option.map_eq_some_iff.1 hs.symm
      have hia' : i.fitness = a.2 := by rw [← hia]; rfl
      obtain ⟨j, hj, jf, hle⟩ := keep i hi (by rw [hia']; exact hf)
      obtain ⟨x, hx, -, hba⟩ := hup.best (List.ne_nil_of_mem hj)
      refine ⟨x.sol, by simp [Population.state, hx], ?_⟩
      rw [← hia']
      exact Fl.le_trans (hba j hj (Fl.isNan_of_isFinite jf)) hle

/-- C29: with selections that keep the best individual, the best fitness never gets worse from one generation to the next,
at any point of any history. -/
theorem C29_best (o o' : Opt σ T) (w w' : World σ T) (ks : List (Call σ T)) (pt : Point) (h0 : Fresh o w)
    (hc : Always (fun c => Legal c ∧ ∀ sel ∈ c.selections, KeepsBest sel) o.comps ks)
    (hr : runTo o ks pt w = .ok (o', w')) : Throughout BestKept w'.trace :=
  (inv_bestKept.runTo hc hr (by
    rw [h0.1, h0.2]
    exact ⟨throughout_nil, by simp [lastGeneration]⟩)).1.1

/-- C29: KillFitnessNaN keeps the best individual. -/
theorem C29_killFitnessNaN : KeepsBest (σ := σ) (T := T) Selection.killFitnessNaN := by
  rintro p p' ⟨s, s', h⟩ i hi ha hf
  obtain ⟨p2, h2, hk, hall⟩ := C12_killFitnessNaN p s
  rw [h] at h2; cases h2
  obtain ⟨n, hn, rfl⟩ := List.getElem_of_mem hi
  have hl := hall.length_eq
  have e1 := (List.forall₂_iff_get.1 hall).2 n hn (by omega)
  have e2 := (List.forall₂_iff_get.1 hk.2.2.2).2 n hn (by omega)
  simp only [List.get_eq_getElem] at e1 e2
  refine ⟨_, List.getElem_mem _, e1.2 ⟨ha, hf⟩, by rw [e2.2.1]; exact hf, ?_⟩
  rw [e2.2.1]; exact Fl.le_refl (Fl.isNan_of_isFinite hf)

/-- C29: LimitPopulation keeps the best individual if at most one individual is in excess, the first one is alive and no
living individual has a NaN fitness (as after KillFitnessNaN, from the second generation on). -/
theorem C29_limit_one (max : Nat) (hm : 1 ≤ max) (p p' : Population T) (hr : Returned (Selection.limitPopulation (σ := σ) max p) p')
    (hex : alive p ≤ max + 1) (hfirst : AliveAt p 0)
    (hnan : ∀ i ∈ p.individuals, i.alive = true → i.fitness.isNan = false)
    (i : Individual T) (hi : i ∈ p.individuals) (ha : i.alive = true) :
    ∃ j ∈ p'.individuals, j.alive = true ∧ j.fitness.le i.fitness = true := by
  obtain ⟨s, s', h⟩ := hr
  unfold Selection.limitPopulation at h
  have hal : p.lenAlive = alive p := rfl
  by_cases hlt : max < p.lenAlive
  · rw [if_pos hlt] at h
    have h1 : p.lenAlive - max = 1 := by omega
    rw [h1] at h
    obtain ⟨p2, h2, hk, hcard, hle⟩ := C16_one p hnan hfirst s
    rw [h] at h2; cases h2
    -- somebody is alive
    have hpos : 0 < alive p' := by omega
    obtain ⟨j, hj⟩ := List.exists_mem_of_length_pos hpos
    obtain ⟨hj, ja⟩ := List.mem_filter.1 hj
    obtain ⟨n, hn, rfl⟩ := List.getElem_of_mem hi
    obtain ⟨m, hmm, rfl⟩ := List.getElem_of_mem hj
    have hl := hk.2.2.2.length_eq
    have e2 := (List.forall₂_iff_get.1 hk.2.2.2).2 n hn (by omega)
    have e3 := (List.forall₂_iff_get.1 hk.2.2.2).2 m (by omega) hmm
    simp only [List.get_eq_getElem] at e2 e3
    by_cases hdead : AliveAt p' n
    · obtain ⟨x, hx, hxa⟩ := hdead
      rw [List.getElem?_eq_getElem (by omega)] at hx
      cases hx
      exact ⟨_, List.getElem_mem _, hxa, by rw [e2.2.1]; exact Fl.le_refl (hnan _ hi ha)⟩
    · refine ⟨_, hj, ja, ?_⟩
      rw [e3.2.1]
      exact hle n m _ _ (List.getElem?_eq_getElem hn) (List.getElem?_eq_getElem (by omega))
        ⟨_, List.getElem?_eq_getElem hn, ha⟩ hdead ⟨_, List.getElem?_eq_getElem hmm, ja⟩
  · rw [if_neg hlt] at h
    obtain ⟨rfl, -⟩ := M.pure_eq_ok.1 h
    exact ⟨i, hi, ha, Fl.le_refl (hnan i hi ha)⟩

/-- An optimizer on numbers whose goal is the number itself; generation 1 produces the children 2 and 9, later ones the
children 3 and 4; the population is limited to two. -/
def worseOpt : Opt (List Nat) F64 :=
  GA.new (fun x => pure x) (Stop.maxIterations 2) (pure [Fl.ofNat 5, Fl.ofNat 1])
    (fun _ => pure [[0, 1]])
    (fun _ => do
      let s ← get
      match s with
      | [] => pure []
      | [_] => pure []
      | a :: b :: rest => do set rest; pure [Fl.ofNat a, Fl.ofNat b])
    (fun x => pure x) [Selection.killFitnessNaN, Selection.limitPopulation 2] []

/-- C29 fails with LimitPopulation: in this run with the library's selections the best fitness gets worse, from 1 to 2. -/
theorem C29_worse_witness : M.okAnd (GA.findMin 3 worseOpt ⟨[9, 9, 2, 3, 7, 7], []⟩) (fun _ w =>
    w.trace.filterMap (fun | .generation _ best _ _ => best.map (·.2) | _ => none) ==
      [Fl.ofNat 1, Fl.ofNat 2]) = true := by decide +kernel

example : M.okAnd (GA.findMin 4 (GA.new (fun x => pure x) (Stop.maxIterations 2)
    (pure [Fl.ofNat 5, Fl.nan, Fl.ofNat 4]) (fun _ => pure [[0, 1]]) (fun _ => pure [Fl.nan, Fl.ofNat 3])
    (fun x => pure x) [Selection.killFitnessNaN] []) ⟨(), []⟩) (fun _ w =>
    w.trace.filterMap (fun | .generation ags best _ _ => some (ags.length, best.map (·.2)) | _ => none) ==
      [(3, some (Fl.ofNat 3)), (4, some (Fl.ofNat 3))]) = true := by decide +kernel

/-! ## C30 -/

/-- At most `n + 1` individuals, and at most `n` if there was a previous generation that did not die out. -/
def SizeOK (n : Nat) (before : List (Ev T)) (e : Ev T) : Prop :=
  ∀ ags best worst it, e = .generation ags best worst it → ags.length ≤ n + 1 ∧
    ∀ prev b, lastGeneration before = some (prev, b) → prev ≠ [] → ags.length ≤ n

/-- KillFitnessNaN and LimitPopulation(n) are plugged in. -/
def Limited (n : Nat) (c : Comps σ T) : Prop :=
  c.selections = [Selection.killFitnessNaN, Selection.limitPopulation n]

theorem limited_select {n : Nat} {c : Comps σ T} (h : Limited n c) {p q : Population T} {evs : List (Ev T)}
    (hs : Selections 0 c.selections p evs q) : alive q ≤ n + 1 ∧
    (∀ i ∈ q.individuals, i.alive = true → i.fitness.isFinite = true) ∧
    (∀ i, p.individuals[0]? = some i → i.alive = true → i.fitness.isFinite = true → alive q ≤ n) := by
  rw [h] at hs
  cases hs with
  | cons hk hs =>
    cases hs with
    | cons hlim hs =>
      cases hs
      obtain ⟨s, s', hk⟩ := hk
      obtain ⟨t, t', hlim⟩ := hlim
      obtain ⟨p2, h2, hok, hall⟩ := C12_killFitnessNaN p s
      rw [hk] at h2; cases h2
      obtain ⟨p3, h3, hok3, -, hup, hal⟩ := C15_limit n _ t
      rw [hlim] at h3; cases h3
      refine ⟨by omega, ?_, ?_⟩
      · intro i hi ha
        obtain ⟨m, hm, rfl⟩ := List.getElem_of_mem hi
        have hl3 := hok3.2.2.2.length_eq
        have hl := hall.length_eq
        have e3 := (List.forall₂_iff_get.1 hok3.2.2.2).2 m (by omega) hm
        have e2 := (List.forall₂_iff_get.1 hok.2.2.2).2 m (by omega) (by omega)
        have e1 := (List.forall₂_iff_get.1 hall).2 m (by omega) (by omega)
        simp only [List.get_eq_getElem] at e1 e2 e3
        rw [e3.2.1, e2.2.1]
        exact (e1.1 (e3.2.2 ha)).2
      · intro i hi ha hf
        have h0 : 0 < p.individuals.length := (List.getElem?_eq_some_iff.1 hi).1
        have hl := hall.length_eq
        have e1 := (List.forall₂_iff_get.1 hall).2 0 h0 (by omega)
        simp only [List.get_eq_getElem] at e1
        have hi' := (List.getElem?_eq_some_iff.1 hi).2
        have := hal ⟨_, List.getElem?_eq_getElem (by omega), e1.2 (by rw [hi']; exact ⟨ha, hf⟩)⟩
        omega

theorem limited_length {n : Nat} {c : Comps σ T} (h : Limited n c) {p q : Population T} {evs : List (Ev T)}
    (hs : Selections 0 c.selections p evs q) : q.individuals.length = p.individuals.length := by
  rw [h] at hs
  cases hs with
  | cons hk hs =>
    cases hs with
    | cons hlim hs =>
      cases hs
      obtain ⟨s, s', hk⟩ := hk
      obtain ⟨t, t', hlim⟩ := hlim
      obtain ⟨p2, h2, hok, -⟩ := C12_killFitnessNaN _ s
      rw [hk] at h2; cases h2
      obtain ⟨p3, h3, hok3, -⟩ := C15_limit n _ t
      rw [hlim] at h3; cases h3
      rw [← hok3.2.2.2.length_eq, ← hok.2.2.2.length_eq]

theorem limited_legal {n : Nat} {c : Comps σ T} (h : Limited n c) : Legal c := by
  intro sel hs
  rw [h] at hs
  rcases List.mem_cons.1 hs with rfl | hs
  · refine legal_of_onlyKills fun p s p' s' hr => ?_
    obtain ⟨p2, h2, hk, -⟩ := C12_killFitnessNaN p s
    rw [hr] at h2; cases h2; exact hk
  · rw [List.mem_singleton] at hs
    subst hs
    refine legal_of_onlyKills fun p s p' s' hr => ?_
    obtain ⟨p2, h2, hk, -⟩ := C15_limit n p s
    rw [hr] at h2; cases h2; exact hk

/-- What is known of a population from the last generation record. -/
def SizeJ (p : Population T) (l : Option (List (Solution T) × Option (Solution T))) : Prop :=
  ∀ prev b, l = some (prev, b) → prev = agents p ∧ ∀ i ∈ p.individuals, i.alive = true ∧ i.fitness.isFinite = true

theorem size_core {n : Nat} {c : Comps σ T} (hc : Limited n c) {p p' : Population T} {evs : List (Ev T)}
    (g : Generation c p evs p') (hup : p'.UpToDate g.q.best g.q.worst)
    {l : Option (List (Solution T) × Option (Solution T))} (hJ : SizeJ p l) :
    SizeJ p' (some (agents p', p'.state.best)) ∧ (agents p').length ≤ n + 1 ∧
      ∀ prev b, l = some (prev, b) → prev ≠ [] → (agents p').length ≤ n := by
  obtain ⟨h1, h2, h3⟩ := limited_select hc g.select_ok
  have hlen : (agents p').length = alive g.q := by
    unfold agents alive; rw [List.length_map, g.alive_ok]
  refine ⟨?_, by omega, ?_⟩
  · rintro prev b h
    cases h
    refine ⟨rfl, fun i hi => ?_⟩
    rw [g.alive_ok] at hi
    obtain ⟨hi, ha⟩ := List.mem_filter.1 hi
    exact ⟨ha, h2 i hi ha⟩
  · rintro prev b h hne
    obtain ⟨rfl, hall⟩ := hJ prev b h
    rw [hlen]
    cases hp : p.individuals with
    | nil => exact absurd (by unfold agents; rw [hp]; rfl) hne
    | cons i is =>
      refine h3 i (by simp [hp]) (hall i (by simp [hp])).1 (hall i (by simp [hp])).2

/-- C30: at any point of any history, every generation so far had at most `n + 1` individuals, and at most `n` if it was not the
first one (and the previous one had not died out). -/
theorem C30_size (n : Nat) (o o' : Opt σ T) (w w' : World σ T) (ks : List (Call σ T)) (pt : Point) (h0 : Fresh o w)
    (hc : Always (Limited n) o.comps ks) (hr : runTo o ks pt w = .ok (o', w')) : Throughout (SizeOK n) w'.trace := by
  have : Inv (σ := σ) (T := T) (Limited n) (fun p tr => Throughout (SizeOK n) tr ∧ SizeJ p (lastGeneration tr)) := by
    refine inv_throughout ?_ ?_ ?_ ?_ ?_ ?_
    · rintro b i k s _ _ _ _ h; cases h
    · rintro b s r _ _ _ _ h; cases h
    · rintro b e he _ _ _ _ rfl; exact absurd he id
    · rintro b s _ _ _ _ h; cases h
    · rintro c p' w w' - - prev b h; cases h
    · rintro c p p' b evs hc hJ g hup
      obtain ⟨h1, h2, h3⟩ := size_core hc g hup hJ
      refine ⟨h1, ?_⟩
      rintro b' hb' ags best worst it he
      cases he
      rw [hb']
      exact ⟨h2, h3⟩
  exact (this.runTo hc hr (by
    rw [h0.1, h0.2]
    exact ⟨throughout_nil, by simp [SizeJ, lastGeneration]⟩)).1.1

/-- Nobody is born of nobody: pairing finds no families in an empty population and pre-birth components invent no
children. Every library pairing panics on an empty population, every library pre-birth only drops children. -/
def NothingFromNothing (c : Comps σ T) : Prop :=
  (∀ p fam, p.individuals = [] → Returned (c.pairing p) fam → fam = []) ∧
  ∀ g ∈ c.preBirths, ∀ p ys, Returned (g p []) ys → ys = []

/-- At most `n + 1` individuals in the first generation, at most `n` in the others. -/
def SizeOK' (n : Nat) (before : List (Ev T)) (e : Ev T) : Prop :=
  ∀ ags best worst it, e = .generation ags best worst it → ags.length ≤ n + 1 ∧
    (lastGeneration before ≠ none → ags.length ≤ n)

/-- C30, without the proviso about extinction, for pairings and pre-births like those of the library. -/
theorem C30_size_library (n : Nat) (o o' : Opt σ T) (w w' : World σ T) (ks : List (Call σ T)) (pt : Point)
    (h0 : Fresh o w) (hc : Always (fun c => Limited n c ∧ NothingFromNothing c) o.comps ks)
    (hr : runTo o ks pt w = .ok (o', w')) : Throughout (SizeOK' n) w'.trace := by
  have : Inv (σ := σ) (T := T) (fun c => Limited n c ∧ NothingFromNothing c)
      (fun p tr => Throughout (SizeOK' n) tr ∧ SizeJ p (lastGeneration tr)) := by
    refine inv_throughout ?_ ?_ ?_ ?_ ?_ ?_
    · rintro b i k s _ _ _ _ h; cases h
    · rintro b s r _ _ _ _ h; cases h
    · rintro b e he _ _ _ _ rfl; exact absurd he id
    · rintro b s _ _ _ _ h; cases h
    · rintro c p' w w' - - prev b h; cases h
    · rintro c p p' b evs ⟨hc, hnp, hnb⟩ hJ g hup
      obtain ⟨h1, h2, h3⟩ := size_core hc g hup hJ
      refine ⟨h1, ?_⟩
      rintro b' hb' ags best worst it he
      cases he
      rw [hb']
      refine ⟨h2, fun hsome => ?_⟩
      obtain ⟨⟨prev, bb⟩, hl⟩ := Option.ne_none_iff_exists'.1 hsome
      by_cases hp : p.individuals = []
      · -- nobody is born
        have hfam := hnp p _ hp g.pairing_ok
        have hpar : g.parents = [] := by
          have := g.parents_ok.length_eq
          rw [hfam] at this
          exact List.length_eq_zero_iff.1 this.symm
        have hch : g.children = [] := by
          have := g.cross_ok.length_eq
          rw [hpar] at this
          exact List.length_eq_zero_iff.1 this.symm
        have hmu : g.mutants = [] := by
          have := g.mutation_ok.length_eq
          rw [hch] at this
          exact List.length_eq_zero_iff.1 this.symm
        have hpre : ∀ {fs : List (Population T → List T → M σ (List T))} {i xs evs ys},
            (∀ g ∈ fs, ∀ p ys, Returned (g p []) ys → ys = []) →
            PreBirths p i fs xs evs ys → xs = [] → ys = [] := by
          intro fs i xs evs ys hn h
          induction h with
          | nil => exact fun h => h
          | cons hf _ ih =>
            rintro rfl
            exact ih (fun g hg => hn g (by simp [hg])) (hn _ (by simp) _ _ hf)
        have hborn := hpre hnb g.preBirth_ok hmu
        have hq : alive g.q = 0 := by
          have hlen : g.q.individuals.length = 0 := by
            rw [limited_length hc g.select_ok, hborn]
            simp [hp, newborn]
          unfold alive
          rw [List.length_eq_zero_iff.1 hlen]; rfl
        have : (agents p').length = alive g.q := by
          unfold agents alive; rw [List.length_map, g.alive_ok]
        omega
      · refine h3 prev bb hl ?_
        obtain ⟨rfl, -⟩ := hJ prev bb hl
        intro h; exact hp (List.map_eq_nil_iff.1 h)
  exact (this.runTo hc hr (by
    rw [h0.1, h0.2]
    exact ⟨throughout_nil, by simp [SizeJ, lastGeneration]⟩)).1.1

/-- The library's pairings and pre-birth filter meet the condition. -/
theorem C30_nothing_random {f : Fmt} (R : Rng σ) (c : Comps σ (List (Fl f)))
    (hp : c.pairing = Pairing.randomPairing R ∨ ∃ t, c.pairing = Pairing.tournament R t)
    (hb : ∀ g ∈ c.preBirths, ∃ ivs : List (Fl f × Fl f), g = Selection.preBirthInterval ivs) : NothingFromNothing c := by
  constructor
  · rintro p fam he ⟨s, s', h⟩
    rcases hp with hp | ⟨t, hp⟩
    · rw [hp, C21_random R p he s] at h; cases h
    · rw [hp, C21_tournament R t p he s] at h; cases h
  · rintro g hg p ys ⟨s, s', h⟩
    obtain ⟨ivs, rfl⟩ := hb g hg
    exact (M.pure_eq_ok.1 h).1.symm

/-- C30: the bound `n + 1` of the first generation is attained: three individuals after the first generation of
an optimizer limited to two, then two. -/
theorem C30_first_witness : M.okAnd (GA.findMin 3 (GA.new (fun x => pure x) (Stop.maxIterations 2)
    (pure [Fl.nan, Fl.ofNat 1, Fl.ofNat 2]) (fun _ => pure [[0, 1]]) (fun _ => pure [Fl.ofNat 3, Fl.ofNat 4])
    (fun x => pure x) [Selection.killFitnessNaN, Selection.limitPopulation 2] []) ⟨(), []⟩) (fun _ w =>
    w.trace.filterMap (fun | .generation ags _ _ _ => some ags.length | _ => none) == [3, 2]) = true := by
  decide +kernel

example : Limited 4 Demo.opt.comps := rfl

end Verif.Props
