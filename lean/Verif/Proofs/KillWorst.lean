import Verif.Proofs.Selection

/-!
The case in which `kill_worst` does kill the worst individuals.
-/

namespace Verif.Selection

open Spec

variable {σ T : Type}

/-- Fitness of individual `n`. -/
def fit (p : Population T) (n : Nat) : F64 :=
  match p.individuals[n]? with
  | some i => i.fitness
  | none => Fl.nan

theorem fit_eq {p : Population T} {n : Nat} {i : Individual T} (h : p.individuals[n]? = some i) :
    fit p n = i.fitness := by unfold fit; rw [h]

theorem findBest_spec (p : Population T) (kl : List Nat)
    (hkl : ∀ k ∈ kl, (fit p k).isNan = false) :
    ∀ (ms : List Nat) (bi : Nat) (bf : F64) (st st' : σ) (bi' : Nat) (bf' : F64),
      findBest p kl ms bi bf st = .ok ((bi', bf'), st') →
      (∃ k, kl[bi]? = some k ∧ fit p k = bf) →
      (∃ k, kl[bi']? = some k ∧ fit p k = bf') ∧ bf'.toInt ≤ bf.toInt ∧
        ∀ m ∈ ms, ∀ k, kl[m]? = some k → bf'.toInt ≤ (fit p k).toInt := by
  intro ms
  induction ms with
  | nil =>
    intro bi bf st st' bi' bf' h hb
    obtain ⟨h1, -⟩ := M.pure_eq_ok.1 h
    cases h1
    exact ⟨hb, le_rfl, by simp⟩
  | cons m ms ih =>
    intro bi bf st st' bi' bf' h hb
    unfold findBest at h
    obtain ⟨j, s1, h1, h⟩ := M.bind_eq_ok.1 h
    obtain ⟨hj, rfl⟩ := M.index_eq_ok.1 h1
    obtain ⟨i, s2, h2, h⟩ := M.bind_eq_ok.1 h
    obtain ⟨hi, rfl⟩ := M.index_eq_ok.1 h2
    have hfj := fit_eq hi
    have hnj := hkl j (List.mem_of_getElem? hj)
    have hnb : bf.isNan = false := by
      obtain ⟨k, hk, rfl⟩ := hb
      exact hkl k (List.mem_of_getElem? hk)
    split at h
    · next hlt =>
      obtain ⟨a1, a2, a3⟩ := ih m i.fitness _ _ _ _ h ⟨j, hj, hfj⟩
      have := (Fl.lt_iff.1 hlt).2.2
      refine ⟨a1, by omega, ?_⟩
      intro m' hm' k hk
      rcases List.mem_cons.1 hm' with rfl | hm'
      · rw [hj] at hk; cases hk; rw [hfj]; exact a2
      · exact a3 m' hm' k hk
    · next hlt =>
      obtain ⟨a1, a2, a3⟩ := ih bi bf _ _ _ _ h hb
      rw [Bool.not_eq_true, Fl.not_lt (by rw [← hfj]; exact hnj) hnb] at hlt
      have := (Fl.le_iff.1 hlt).2.2
      refine ⟨a1, a2, ?_⟩
      intro m' hm' k hk
      rcases List.mem_cons.1 hm' with rfl | hm'
      · rw [hj] at hk; cases hk; rw [hfj]; omega
      · exact a3 m' hm' k hk

/-- The situation in which the scan is right: everything alive has a number as fitness, the
first individual is alive and is the best of the first `count` living ones. -/
structure Good (p : Population T) (count : Nat) : Prop where
  nonan : ∀ n, aliveB p.individuals n = true → (fit p n).isNan = false
  first : aliveB p.individuals 0 = true
  pos : 1 ≤ count
  best : ∀ n, 1 ≤ n → aliveB p.individuals n = true →
    1 + (tail p.individuals (n + 1)).card ≤ count → (fit p 0).toInt ≤ (fit p n).toInt

/-- The kill list holds the worst individuals scanned so far. -/
structure Inv2 (p : Population T) (count n : Nat) (s : KW) : Prop where
  at_best : ∃ k, s.killList[s.bestIndex]? = some k ∧ fit p k = s.bestFitness
  min : ∀ k ∈ s.killList, s.bestFitness.toInt ≤ (fit p k).toInt
  out : ∀ j, j < n → aliveB p.individuals j = true → j ∉ s.killList →
    (fit p j).toInt ≤ s.bestFitness.toInt
  fill : s.killList.length < count → s.bestFitness = fit p 0

theorem kwStep_inv2 (p : Population T) (count n : Nat) (hg : Good p count) (h1 : 1 ≤ n)
    (s s' : KW) (hI : Inv p count n s) (hJ : Inv2 p count n s) (st st' : σ)
    (h : kwStep p count s n st = .ok (s', st')) : Inv2 p count (n + 1) s' := by
  have hts := tail_succ p.individuals h1
  have halive : ∀ k ∈ s.killList, aliveB p.individuals k = true := by
    intro k hk
    by_cases h0 : k = 0
    · rw [h0]; exact hg.first
    · exact hI.alive k hk h0
  have hnb : s.bestFitness.isNan = false := by
    obtain ⟨k, hk, hf⟩ := hJ.at_best
    rw [← hf]; exact hg.nonan k (halive k (List.mem_of_getElem? hk))
  unfold kwStep at h
  obtain ⟨ind, s1, hi', h⟩ := M.bind_eq_ok.1 h
  obtain ⟨hi, rfl⟩ := M.index_eq_ok.1 hi' 
  have hfn := fit_eq hi
  have hA : aliveB p.individuals n = ind.alive := by unfold aliveB; rw [hi]
  split at h
  · next hd =>
    obtain ⟨rfl, -⟩ := M.pure_eq_ok.1 h
    refine ⟨hJ.at_best, hJ.min, ?_, hJ.fill⟩
    intro j hj ha hn
    rcases Nat.lt_or_ge j n with hlt | hge
    · exact hJ.out j hlt ha hn
    · have : j = n := by omega
      subst this
      rw [hA] at ha; simp [ha] at hd
  · next hd =>
    have hal : ind.alive = true := by simpa using hd
    rw [hA, hal, if_pos rfl] at hts
    have hnn : ind.fitness.isNan = false := by rw [← hfn]; exact hg.nonan n (by rw [hA, hal])
    split at h
    · next hc =>
      have hlen := hI.len
      have hge : s.bestFitness.toInt ≤ ind.fitness.toInt := by
        rw [hJ.fill hc, ← hfn]
        apply hg.best n h1 (by rw [hA, hal])
        rw [hts]; omega
      rw [if_neg (by rw [Fl.lt_iff]; rintro ⟨-, -, h⟩; omega)] at h
      obtain ⟨rfl, -⟩ := M.pure_eq_ok.1 h
      refine ⟨?_, ?_, ?_, ?_⟩
      · obtain ⟨k, hk, hf⟩ := hJ.at_best
        refine ⟨k, ?_, hf⟩
        show (s.killList ++ [n])[s.bestIndex]? = _
        rw [List.getElem?_append_left hI.bi]; exact hk
      · intro k hk
        rcases List.mem_append.1 hk with hk | hk
        · exact hJ.min k hk
        · rw [List.mem_singleton] at hk; rw [hk, hfn]; exact hge
      · intro j hj ha hn
        have hn' : j ∉ s.killList ∧ j ≠ n := by simpa using hn
        exact hJ.out j (by omega) ha hn'.1
      · intro hc'
        exact hJ.fill hc
    · next hc =>
      split at h
      · next hlt =>
        have hlt' := (Fl.lt_iff.1 hlt).2.2
        obtain ⟨u0, s2, hassert, h⟩ := M.bind_eq_ok.1 h
        obtain ⟨-, rfl⟩ := M.assert_eq_ok.1 hassert
        obtain ⟨j0, s3, hj0', h⟩ := M.bind_eq_ok.1 h
        obtain ⟨hj0, rfl⟩ := M.index_eq_ok.1 hj0'
        obtain ⟨i0, s4, hi0', h⟩ := M.bind_eq_ok.1 h
        obtain ⟨hi0, rfl⟩ := M.index_eq_ok.1 hi0' 
        obtain ⟨⟨bi', bf'⟩, s5, hfb, h⟩ := M.bind_eq_ok.1 h
        obtain ⟨rfl, -⟩ := M.pure_eq_ok.1 h
        have hmem : ∀ k ∈ s.killList.set s.bestIndex n, k ∈ s.killList ∨ k = n := fun k hk =>
          List.mem_or_eq_of_mem_set hk
        have hal' : ∀ k ∈ s.killList.set s.bestIndex n, aliveB p.individuals k = true := by
          intro k hk
          rcases hmem k hk with hk | hk
          · exact halive k hk
          · rw [hk, hA, hal]
        obtain ⟨a1, a2, a3⟩ := findBest_spec p _ (fun k hk => hg.nonan k (hal' k hk)) _ _ _ _ _ _ _
          hfb ⟨j0, hj0, fit_eq hi0⟩
        have hmin : ∀ k ∈ s.killList.set s.bestIndex n, bf'.toInt ≤ (fit p k).toInt := by
          intro k hk
          obtain ⟨m, hm⟩ := List.getElem?_of_mem hk
          rcases Nat.eq_zero_or_pos m with h0 | h0
          · subst h0
            rw [hj0] at hm; cases hm
            rw [fit_eq hi0]; exact a2
          · apply a3 m _ k hm
            rw [List.mem_range'_1]
            have := (List.getElem?_eq_some_iff.1 hm).1
            omega
        have hold : s.bestFitness.toInt ≤ bf'.toInt := by
          obtain ⟨k, hk, hf⟩ := a1
          rw [← hf]
          rcases hmem k (List.mem_of_getElem? hk) with hk | hk
          · exact hJ.min k hk
          · rw [hk, hfn]; omega
        refine ⟨a1, hmin, ?_, ?_⟩
        · intro j hj ha hn
          show (fit p j).toInt ≤ bf'.toInt
          by_cases hjk : j ∈ s.killList
          · -- the replaced one
            obtain ⟨k, hk, hf⟩ := hJ.at_best
            obtain ⟨m, hm⟩ := List.getElem?_of_mem hjk
            by_cases hmb : m = s.bestIndex
            · subst hmb
              rw [hk] at hm; cases hm
              rw [hf]; exact hold
            · exfalso
              apply hn
              apply List.mem_of_getElem? (i := m)
              show (s.killList.set s.bestIndex n)[m]? = some j
              rw [List.getElem?_set_ne (fun h => hmb h.symm)]; exact hm
          · have hjn : j ≠ n := by
              rintro rfl
              apply hn
              exact List.mem_set hI.bi j
            have := hJ.out j (by omega) ha hjk
            omega
        · intro hc'
          rw [List.length_set] at hc'
          exact absurd hc' hc
      · next hlt =>
        obtain ⟨rfl, -⟩ := M.pure_eq_ok.1 h
        refine ⟨hJ.at_best, hJ.min, ?_, hJ.fill⟩
        intro j hj ha hn
        rcases Nat.lt_or_ge j n with hl | hge
        · exact hJ.out j hl ha hn
        · have : j = n := by omega
          subst this
          rw [hfn]
          rw [Bool.not_eq_true, Fl.not_lt hnb hnn] at hlt
          exact (Fl.le_iff.1 hlt).2.2

theorem killWorst_good (p : Population T) (count : Nat) (hg : Good p count) (st : σ) :
    ∃ kl, killWorst p count st =
        .ok ({ p with individuals := killSet p.individuals kl }, st) ∧
      kl.Nodup ∧ (∀ k ∈ kl, aliveB p.individuals k = true) ∧
      kl.length = min count (aliveSet p.individuals).card ∧
      ∀ k ∈ kl, ∀ j, aliveB p.individuals j = true → j ∉ kl →
        (fit p j).toInt ≤ (fit p k).toInt := by
  have h : 0 < p.individuals.length := by
    by_contra hc
    have h0 := hg.first
    unfold aliveB at h0
    rw [List.getElem?_eq_none (by omega)] at h0
    simp at h0
  have hinit : Inv p count 1 ⟨[0], 0, (p.individuals[0]).fitness⟩ := by
    refine ⟨by simp, by simp, by simp, by simp, ?_⟩
    rw [tail_one]; simp
  have h0f : fit p 0 = (p.individuals[0]).fitness := fit_eq (List.getElem?_eq_getElem h)
  have hinit2 : Inv2 p count 1 ⟨[0], 0, (p.individuals[0]).fitness⟩ := by
    refine ⟨⟨0, rfl, h0f⟩, ?_, ?_, fun _ => h0f.symm⟩
    · intro k hk
      rw [List.mem_singleton] at hk; rw [hk, h0f]
    · intro j hj _ hn
      have : j = 0 := by omega
      subst this; simp at hn
  obtain ⟨s', hf, hI, hJ⟩ := M.foldL_range'_tot (f := kwStep p count)
    (I := fun n s => Inv p count n s ∧ Inv2 p count n s)
    (p.individuals.length - 1) 1 _ st
    (fun n hn1 hn2 b hb => by
      obtain ⟨s', e1, e2⟩ := kwStep_tot p count n hn1 (by omega) b hb.1 st
      exact ⟨s', e1, e2, kwStep_inv2 p count n hg hn1 b s' hb.1 hb.2 st st e1⟩) ⟨hinit, hinit2⟩
  rw [show 1 + (p.individuals.length - 1) = p.individuals.length by omega] at hI hJ
  refine ⟨s'.killList, ?_, hI.nodup, ?_, ?_, ?_⟩
  · unfold killWorst
    refine M.bind_eq_ok.2 ⟨_, st, M.index_eq_ok.2 ⟨List.getElem?_eq_getElem h, rfl⟩, ?_⟩
    refine M.bind_eq_ok.2 ⟨s', st, hf, ?_⟩
    exact foldL_killAt _ p st hI.lt
  · intro k hk
    by_cases h0 : k = 0
    · rw [h0]; exact hg.first
    · exact hI.alive k hk h0
  · rw [hI.len, aliveSet_eq _ h, if_pos hg.first]
    have := hg.pos
    omega
  · intro k hk j ha hn
    have hjl : j < p.individuals.length := by
      by_contra hc
      unfold aliveB at ha
      rw [List.getElem?_eq_none (by omega)] at ha
      simp at ha
    have := hJ.min k hk
    have := hJ.out j hjl ha hn
    omega

/-! ### Without conditions on the order -/

/-- Everything alive, and the first individual, has a number as fitness. -/
structure Numbers (p : Population T) : Prop where
  nonan : ∀ n, aliveB p.individuals n = true → (fit p n).isNan = false
  first : (fit p 0).isNan = false

/-- What holds of the scan whatever the order is: until the first replacement the threshold is the fitness of the first
individual, afterwards it is the best one of the list. -/
structure Inv3 (p : Population T) (count n : Nat) (s : KW) : Prop where
  state : (s.bestFitness = fit p 0 ∧ ∃ k, s.killList[s.bestIndex]? = some k ∧ (fit p k).toInt ≤ (fit p 0).toInt) ∨
    (count ≤ s.killList.length ∧ (∃ k, s.killList[s.bestIndex]? = some k ∧ fit p k = s.bestFitness) ∧
      ∀ k ∈ s.killList, s.bestFitness.toInt ≤ (fit p k).toInt)
  out : ∀ j, j < n → (aliveB p.individuals j = true ∨ j = 0) → j ∉ s.killList →
    (fit p j).toInt ≤ max (fit p 0).toInt s.bestFitness.toInt

theorem kwStep_inv3 (p : Population T) (count n : Nat) (hg : Numbers p) (h1 : 1 ≤ n)
    (s s' : KW) (hI : Inv p count n s) (hJ : Inv3 p count n s) (st st' : σ)
    (h : kwStep p count s n st = .ok (s', st')) : Inv3 p count (n + 1) s' := by
  have hnum : ∀ k ∈ s.killList, (fit p k).isNan = false := by
    intro k hk
    by_cases h0 : k = 0
    · rw [h0]; exact hg.first
    · exact hg.nonan k (hI.alive k hk h0)
  have hnb : s.bestFitness.isNan = false := by
    rcases hJ.state with ⟨h, -⟩ | ⟨-, ⟨k, hk, hf⟩, -⟩
    · rw [h]; exact hg.first
    · rw [← hf]; exact hnum k (List.mem_of_getElem? hk)
  unfold kwStep at h
  obtain ⟨ind, s1, hi', h⟩ := M.bind_eq_ok.1 h
  obtain ⟨hi, rfl⟩ := M.index_eq_ok.1 hi'
  have hfn := fit_eq hi
  have hA : aliveB p.individuals n = ind.alive := by unfold aliveB; rw [hi]
  split at h
  · next hd =>
    obtain ⟨rfl, -⟩ := M.pure_eq_ok.1 h
    refine ⟨hJ.state, ?_⟩
    intro j hj ha hn
    rcases Nat.lt_or_ge j n with hlt | hge
    · exact hJ.out j hlt ha hn
    · have : j = n := by omega
      subst this
      rcases ha with ha | ha
      · rw [hA] at ha; simp [ha] at hd
      · omega
  · next hd =>
    have hal : ind.alive = true := by simpa using hd
    have hnn : ind.fitness.isNan = false := by rw [← hfn]; exact hg.nonan n (by rw [hA, hal])
    split at h
    · next hc =>
      obtain ⟨hb, k, hk, hk0⟩ : s.bestFitness = fit p 0 ∧ ∃ k, s.killList[s.bestIndex]? = some k ∧
          (fit p k).toInt ≤ (fit p 0).toInt := by
        rcases hJ.state with h | ⟨h, -⟩
        · exact h
        · omega
      have hout : ∀ j, j < n + 1 → (aliveB p.individuals j = true ∨ j = 0) → j ∉ s.killList ++ [n] →
          (fit p j).toInt ≤ max (fit p 0).toInt s.bestFitness.toInt := by
        intro j hj ha hn
        have hn' : j ∉ s.killList ∧ j ≠ n := by simpa using hn
        exact hJ.out j (by omega) ha hn'.1
      split at h
      · next hlt =>
        obtain ⟨rfl, -⟩ := M.pure_eq_ok.1 h
        refine ⟨.inl ⟨hb, n, by simp, ?_⟩, hout⟩
        have := (Fl.lt_iff.1 hlt).2.2
        rw [hfn, ← hb]
        omega
      · obtain ⟨rfl, -⟩ := M.pure_eq_ok.1 h
        refine ⟨.inl ⟨hb, k, ?_, hk0⟩, hout⟩
        show (s.killList ++ [n])[s.bestIndex]? = _
        rw [List.getElem?_append_left hI.bi]; exact hk
    · next hc =>
      split at h
      · next hlt =>
        have hlt' := (Fl.lt_iff.1 hlt).2.2
        obtain ⟨u0, s2, hassert, h⟩ := M.bind_eq_ok.1 h
        obtain ⟨-, rfl⟩ := M.assert_eq_ok.1 hassert
        obtain ⟨j0, s3, hj0', h⟩ := M.bind_eq_ok.1 h
        obtain ⟨hj0, rfl⟩ := M.index_eq_ok.1 hj0'
        obtain ⟨i0, s4, hi0', h⟩ := M.bind_eq_ok.1 h
        obtain ⟨hi0, rfl⟩ := M.index_eq_ok.1 hi0'
        obtain ⟨⟨bi', bf'⟩, s5, hfb, h⟩ := M.bind_eq_ok.1 h
        obtain ⟨rfl, -⟩ := M.pure_eq_ok.1 h
        have hmem : ∀ k ∈ s.killList.set s.bestIndex n, k ∈ s.killList ∨ k = n := fun k hk =>
          List.mem_or_eq_of_mem_set hk
        have hnum' : ∀ k ∈ s.killList.set s.bestIndex n, (fit p k).isNan = false := by
          intro k hk
          rcases hmem k hk with hk | hk
          · exact hnum k hk
          · rw [hk, hfn]; exact hnn
        obtain ⟨a1, a2, a3⟩ := findBest_spec p _ hnum' _ _ _ _ _ _ _ hfb ⟨j0, hj0, fit_eq hi0⟩
        have hmin : ∀ k ∈ s.killList.set s.bestIndex n, bf'.toInt ≤ (fit p k).toInt := by
          intro k hk
          obtain ⟨m, hm⟩ := List.getElem?_of_mem hk
          rcases Nat.eq_zero_or_pos m with h0 | h0
          · subst h0
            rw [hj0] at hm; cases hm
            rw [fit_eq hi0]; exact a2
          · apply a3 m _ k hm
            rw [List.mem_range'_1]
            have := (List.getElem?_eq_some_iff.1 hm).1
            omega
        -- the threshold does not fall below the old one and the fitness of the first individual
        have hold : max (fit p 0).toInt s.bestFitness.toInt ≤ max (fit p 0).toInt bf'.toInt := by
          rcases hJ.state with ⟨hb, -⟩ | ⟨-, -, hm⟩
          · rw [hb]; omega
          · obtain ⟨k, hk, hf⟩ := a1
            have : s.bestFitness.toInt ≤ bf'.toInt := by
              rw [← hf]
              rcases hmem k (List.mem_of_getElem? hk) with hk | hk
              · exact hm k hk
              · rw [hk, hfn]; omega
            omega
        refine ⟨.inr ⟨by simp only [List.length_set]; omega, a1, hmin⟩, ?_⟩
        intro j hj ha hn
        show (fit p j).toInt ≤ max (fit p 0).toInt bf'.toInt
        by_cases hjk : j ∈ s.killList
        · -- the replaced one
          obtain ⟨m, hm⟩ := List.getElem?_of_mem hjk
          by_cases hmb : m = s.bestIndex
          · subst hmb
            refine le_trans ?_ hold
            rcases hJ.state with ⟨hb, k, hk, hk0⟩ | ⟨-, ⟨k, hk, hf⟩, -⟩
            · rw [hk] at hm; cases hm; omega
            · rw [hk] at hm; cases hm; rw [hf]; omega
          · exfalso
            apply hn
            apply List.mem_of_getElem? (i := m)
            show (s.killList.set s.bestIndex n)[m]? = some j
            rw [List.getElem?_set_ne (fun h => hmb h.symm)]; exact hm
        · have hjn : j ≠ n := by
            rintro rfl
            apply hn
            exact List.mem_set hI.bi j
          exact le_trans (hJ.out j (by omega) ha hjk) hold
      · next hlt =>
        obtain ⟨rfl, -⟩ := M.pure_eq_ok.1 h
        refine ⟨hJ.state, ?_⟩
        intro j hj ha hn
        rcases Nat.lt_or_ge j n with hl | hge
        · exact hJ.out j hl ha hn
        · have : j = n := by omega
          subst this
          rw [hfn]
          rw [Bool.not_eq_true, Fl.not_lt hnb hnn] at hlt
          have := (Fl.le_iff.1 hlt).2.2
          omega

theorem killWorst_numbers (p : Population T) (count : Nat) (h : 0 < p.individuals.length) (hg : Numbers p) (st : σ) :
    ∃ kl, killWorst p count st = .ok ({ p with individuals := killSet p.individuals kl }, st) ∧
      (∀ k ∈ kl, k ≠ 0 → aliveB p.individuals k = true) ∧
      ∀ k ∈ kl, ∀ j, aliveB p.individuals j = true → j ∉ kl →
        (fit p j).toInt ≤ max (fit p 0).toInt (fit p k).toInt := by
  have hinit : Inv p count 1 ⟨[0], 0, (p.individuals[0]).fitness⟩ := by
    refine ⟨by simp, by simp, by simp, by simp, ?_⟩
    rw [tail_one]; simp
  have h0f : fit p 0 = (p.individuals[0]).fitness := fit_eq (List.getElem?_eq_getElem h)
  have hinit3 : Inv3 p count 1 ⟨[0], 0, (p.individuals[0]).fitness⟩ := by
    refine ⟨.inl ⟨h0f.symm, 0, rfl, le_rfl⟩, ?_⟩
    intro j hj _ hn
    have : j = 0 := by omega
    subst this; simp at hn
  obtain ⟨s', hf, hI, hJ⟩ := M.foldL_range'_tot (f := kwStep p count)
    (I := fun n s => Inv p count n s ∧ Inv3 p count n s)
    (p.individuals.length - 1) 1 _ st
    (fun n hn1 hn2 b hb => by
      obtain ⟨s', e1, e2⟩ := kwStep_tot p count n hn1 (by omega) b hb.1 st
      exact ⟨s', e1, e2, kwStep_inv3 p count n hg hn1 b s' hb.1 hb.2 st st e1⟩) ⟨hinit, hinit3⟩
  rw [show 1 + (p.individuals.length - 1) = p.individuals.length by omega] at hI hJ
  refine ⟨s'.killList, ?_, hI.alive, ?_⟩
  · unfold killWorst
    refine M.bind_eq_ok.2 ⟨_, st, M.index_eq_ok.2 ⟨List.getElem?_eq_getElem h, rfl⟩, ?_⟩
    refine M.bind_eq_ok.2 ⟨s', st, hf, ?_⟩
    exact foldL_killAt _ p st hI.lt
  · intro k hk j ha hn
    have hjl : j < p.individuals.length := by
      by_contra hc
      unfold aliveB at ha
      rw [List.getElem?_eq_none (by omega)] at ha
      simp at ha
    have := hJ.out j hjl (.inl ha) hn
    rcases hJ.state with ⟨hb, -⟩ | ⟨-, -, hm⟩
    · rw [hb] at this; omega
    · have := hm k hk; omega

/-! ## A first individual whose fitness is NaN -/

/-- Nothing compares with NaN, so the kill list is just the first living individuals. -/
structure Inv4 (p : Population T) (count n : Nat) (s : KW) : Prop where
  nan : s.bestFitness.isNan = true
  zero : 0 ∈ s.killList
  mem : ∀ k, 1 ≤ k → k < n → aliveB p.individuals k = true →
    (k ∈ s.killList ↔ 1 + (tail p.individuals k).card < count)

theorem kwStep_inv4 (p : Population T) (count n : Nat) (h1 : 1 ≤ n) (s s' : KW) (hI : Inv p count n s)
    (hJ : Inv4 p count n s) (st st' : σ) (h : kwStep p count s n st = .ok (s', st')) : Inv4 p count (n + 1) s' := by
  have hnb := hJ.nan
  have hlen := hI.len
  have hnot : n ∉ s.killList := fun hc => absurd (hI.lt n hc) (by omega)
  unfold kwStep at h
  obtain ⟨ind, s1, hi', h⟩ := M.bind_eq_ok.1 h
  obtain ⟨hi, rfl⟩ := M.index_eq_ok.1 hi'
  have hA : aliveB p.individuals n = ind.alive := by unfold aliveB; rw [hi]
  split at h
  · next hd =>
    obtain ⟨rfl, -⟩ := M.pure_eq_ok.1 h
    refine ⟨hnb, hJ.zero, fun k hk1 hk ha => ?_⟩
    rcases Nat.lt_or_ge k n with hlt | hge
    · exact hJ.mem k hk1 hlt ha
    · obtain rfl : k = n := by omega
      rw [hA] at ha; simp [ha] at hd
  · split at h
    · next hc =>
      rw [if_neg (by rw [Fl.lt_iff]; rintro ⟨-, h, -⟩; rw [hnb] at h; cases h)] at h
      obtain ⟨rfl, -⟩ := M.pure_eq_ok.1 h
      refine ⟨hnb, List.mem_append_left _ hJ.zero, fun k hk1 hk ha => ?_⟩
      rcases Nat.lt_or_ge k n with hlt | hge
      · rw [← hJ.mem k hk1 hlt ha]
        simp; omega
      · obtain rfl : k = n := by omega
        simp; omega
    · next hc =>
      rw [if_neg (by rw [Fl.lt_iff]; rintro ⟨h, -⟩; rw [hnb] at h; cases h)] at h
      obtain ⟨rfl, -⟩ := M.pure_eq_ok.1 h
      refine ⟨hnb, hJ.zero, fun k hk1 hk ha => ?_⟩
      rcases Nat.lt_or_ge k n with hlt | hge
      · exact hJ.mem k hk1 hlt ha
      · obtain rfl : k = n := by omega
        refine ⟨fun h => absurd h hnot, fun h => ?_⟩
        omega

theorem killWorst_nan (p : Population T) (count : Nat) (i0 : Individual T) (hi0 : p.individuals[0]? = some i0)
    (hnan : i0.fitness.isNan = true) (st : σ) :
    ∃ kl, killWorst p count st = .ok ({ p with individuals := killSet p.individuals kl }, st) ∧ 0 ∈ kl ∧ Inv p count p.individuals.length ⟨kl, 0, Fl.nan⟩ ∧
      ∀ k, 1 ≤ k → aliveB p.individuals k = true → (k ∈ kl ↔ 1 + (tail p.individuals k).card < count) := by
  obtain ⟨h, rfl⟩ := List.getElem?_eq_some_iff.1 hi0
  have hinit : Inv p count 1 ⟨[0], 0, (p.individuals[0]).fitness⟩ := by
    refine ⟨by simp, by simp, by simp, by simp, ?_⟩
    rw [tail_one]; simp
  obtain ⟨s', hf, hI, hJ⟩ := M.foldL_range'_tot (f := kwStep p count) (I := fun n s => Inv p count n s ∧ Inv4 p count n s)
    (p.individuals.length - 1) 1 _ st
    (fun n hn1 hn2 b hb => by
      obtain ⟨s', h, hI⟩ := kwStep_tot p count n hn1 (by omega) b hb.1 st
      exact ⟨s', h, hI, kwStep_inv4 p count n hn1 b s' hb.1 hb.2 st st h⟩)
    ⟨hinit, ⟨hnan, by simp, fun k h1 h2 => by omega⟩⟩
  rw [show 1 + (p.individuals.length - 1) = p.individuals.length by omega] at hI hJ
  refine ⟨s'.killList, ?_, hJ.zero, ⟨hI.nodup, hI.lt, hI.alive, List.length_pos_of_mem hJ.zero, hI.len⟩, fun k hk ha => hJ.mem k hk ?_ ha⟩
  · unfold killWorst
    refine M.bind_eq_ok.2 ⟨_, st, M.index_eq_ok.2 ⟨List.getElem?_eq_getElem h, rfl⟩, ?_⟩
    refine M.bind_eq_ok.2 ⟨s', st, hf, ?_⟩
    exact foldL_killAt _ p st hI.lt
  · by_contra hc
    unfold aliveB at ha
    rw [List.getElem?_eq_none (by omega)] at ha
    cases ha

end Verif.Selection
