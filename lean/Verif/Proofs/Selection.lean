import Verif.Model.Selection
import Verif.Spec.Selection
import Verif.IEEE.Lemmas
import Mathlib.Data.Finset.Card
import Mathlib.Data.Finset.Range
import Mathlib.Data.List.Nodup

namespace Verif

namespace M

variable {σ α β : Type}

theorem foldL_range'_tot {f : β → Nat → M σ β} {I : Nat → β → Prop} :
    ∀ (k a : Nat) (b : β) (s : σ),
      (∀ n, a ≤ n → n < a + k → ∀ b, I n b → ∃ b', f b n s = .ok (b', s) ∧ I (n + 1) b') →
      I a b → ∃ b', foldL f b (List.range' a k) s = .ok (b', s) ∧ I (a + k) b' := by
  intro k
  induction k with
  | zero => intro a b s _ h; exact ⟨b, rfl, h⟩
  | succ k ih =>
    intro a b s hs h
    obtain ⟨b1, h1, h2⟩ := hs a le_rfl (by omega) b h
    obtain ⟨b2, h3, h4⟩ := ih (a + 1) b1 s (fun n hn1 hn2 => hs n (by omega) (by omega)) h2
    refine ⟨b2, ?_, by rw [show a + (k + 1) = a + 1 + k by omega]; exact h4⟩
    rw [List.range'_succ]
    exact foldL_cons_ok.2 ⟨b1, s, h1, h3⟩

end M

namespace Selection

open Spec

variable {σ T : Type}

/-- Is individual `n` of the list alive? -/
def aliveB (inds : List (Individual T)) (n : Nat) : Bool :=
  match inds[n]? with
  | some i => i.alive
  | none => false

/-- The set of living indices. -/
def aliveSet (inds : List (Individual T)) : Finset Nat :=
  (Finset.range inds.length).filter (fun n => aliveB inds n = true)

theorem filter_length (inds : List (Individual T)) :
    (inds.filter (·.alive)).length = (aliveSet inds).card := by
  induction inds using List.reverseRecOn with
  | nil => rfl
  | append_singleton inds x ih =>
    have hcongr : (Finset.range inds.length).filter (fun n => aliveB (inds ++ [x]) n = true) =
        aliveSet inds := by
      apply Finset.filter_congr
      intro n hn
      rw [Finset.mem_range] at hn
      unfold aliveB
      rw [List.getElem?_append_left hn]
    have hx : aliveB (inds ++ [x]) inds.length = x.alive := by
      unfold aliveB; simp
    unfold aliveSet
    rw [List.filter_append, List.length_append, ih, List.length_append, List.length_singleton,
      Finset.range_add_one, Finset.filter_insert, hcongr, hx]
    cases h : x.alive
    · simp [h]
    · rw [if_pos rfl, Finset.card_insert_of_notMem]
      · simp [h]
      · simp [aliveSet]

/-- Killing the listed individuals. -/
def killSet (inds : List (Individual T)) (kl : List Nat) : List (Individual T) :=
  inds.mapIdx (fun n i => if n ∈ kl then i.kill else i)

theorem killSet_get (inds : List (Individual T)) (kl : List Nat) (n : Nat) :
    (killSet inds kl)[n]? = (inds[n]?).map (fun i => if n ∈ kl then i.kill else i) := by
  unfold killSet; rw [List.getElem?_mapIdx]

theorem killSet_length (inds : List (Individual T)) (kl : List Nat) :
    (killSet inds kl).length = inds.length := by
  unfold killSet; simp

theorem killSet_nil (inds : List (Individual T)) : killSet inds [] = inds := by
  apply List.ext_getElem?
  intro n
  rw [killSet_get]; simp

theorem foldL_killAt (kl : List Nat) : ∀ (p : Population T) (s : σ),
    (∀ k ∈ kl, k < p.individuals.length) →
    M.foldL killAt p kl s = .ok ({ p with individuals := killSet p.individuals kl }, s) := by
  induction kl with
  | nil => intro p s _; rw [killSet_nil]; rfl
  | cons k kl ih =>
    intro p s h
    have hk := h k (by simp)
    have h1 : killAt p k s = .ok ({ p with individuals := p.individuals.set k (p.individuals[k]).kill }, s) := by
      unfold killAt
      refine M.bind_eq_ok.2 ⟨p.individuals[k], s, M.index_eq_ok.2 ⟨by simp [hk], rfl⟩, rfl⟩
    rw [M.foldL, M.bind_run, h1]
    show M.foldL killAt _ kl s = _
    rw [ih _ s (by intro j hj; simp only [List.length_set]; exact h j (by simp [hj]))]
    congr 3
    apply List.ext_getElem?
    intro n
    rw [killSet_get, killSet_get, List.getElem?_set]
    by_cases hn : k = n
    · subst hn
      simp [hk]
      intro _; rfl
    · have : ¬ n = k := fun h => hn h.symm
      simp [hn, this]

theorem aliveSet_killSet (inds : List (Individual T)) (kl : List Nat) :
    aliveSet (killSet inds kl) = aliveSet inds \ kl.toFinset := by
  ext n
  rw [Finset.mem_sdiff, List.mem_toFinset]
  unfold aliveSet
  rw [Finset.mem_filter, Finset.mem_filter, Finset.mem_range, Finset.mem_range, killSet_length]
  unfold aliveB
  rw [killSet_get]
  cases h : inds[n]? with
  | none => simp
  | some i =>
    by_cases hn : n ∈ kl
    · simp [hn, Individual.kill]
    · simp [hn]

theorem killSet_onlyKills (p : Population T) (kl : List Nat) :
    OnlyKills p { p with individuals := killSet p.individuals kl } := by
  refine ⟨rfl, rfl, rfl, ?_⟩
  rw [List.forall₂_iff_get]
  refine ⟨(killSet_length _ _).symm, ?_⟩
  intro n h1 h2
  have := killSet_get p.individuals kl n
  rw [List.getElem?_eq_getElem h1, List.getElem?_eq_getElem h2] at this
  simp only [Option.map_some, Option.some.injEq] at this
  simp only [List.get_eq_getElem]
  rw [this]
  split
  · exact ⟨rfl, rfl, by simp [Individual.kill]⟩
  · exact ⟨rfl, rfl, fun h => h⟩

/-! ### The main loop of `kill_worst` -/

/-- Living indices in `[1, n)`. -/
def tail (inds : List (Individual T)) (n : Nat) : Finset Nat :=
  (Finset.range n).filter (fun k => 1 ≤ k ∧ aliveB inds k = true)

theorem tail_one (inds : List (Individual T)) : tail inds 1 = ∅ := by
  ext n; simp [tail]; omega

theorem tail_succ (inds : List (Individual T)) {n : Nat} (h : 1 ≤ n) :
    (tail inds (n + 1)).card = (tail inds n).card + if aliveB inds n = true then 1 else 0 := by
  unfold tail
  rw [Finset.range_add_one, Finset.filter_insert]
  by_cases ha : aliveB inds n = true
  · rw [if_pos ⟨h, ha⟩, Finset.card_insert_of_notMem (by simp), if_pos ha]
  · rw [if_neg (by tauto), if_neg ha]; rfl

theorem aliveSet_eq (inds : List (Individual T)) (h : 0 < inds.length) :
    (aliveSet inds).card = (tail inds inds.length).card + if aliveB inds 0 = true then 1 else 0 := by
  have hd : aliveSet inds = tail inds inds.length ∪ (if aliveB inds 0 = true then {0} else ∅) := by
    ext n
    simp only [aliveSet, tail, Finset.mem_union, Finset.mem_filter, Finset.mem_range]
    by_cases ha : aliveB inds 0 = true
    · rw [if_pos ha, Finset.mem_singleton]
      constructor
      · rintro ⟨h1, h2⟩
        rcases Nat.eq_zero_or_pos n with h0 | h0
        · right; exact h0
        · left; exact ⟨h1, h0, h2⟩
      · rintro (⟨h1, -, h2⟩ | rfl)
        · exact ⟨h1, h2⟩
        · exact ⟨h, ha⟩
    · rw [if_neg ha]
      constructor
      · rintro ⟨h1, h2⟩
        rcases Nat.eq_zero_or_pos n with h0 | h0
        · subst h0; exact absurd h2 ha
        · left; exact ⟨h1, h0, h2⟩
      · rintro (⟨h1, -, h2⟩ | h2)
        · exact ⟨h1, h2⟩
        · simp at h2
  rw [hd, Finset.card_union_of_disjoint]
  · split <;> simp
  · split
    · simp [tail]
    · simp

/-- What holds of the variables after the indices below `n` were scanned. -/
structure Inv (p : Population T) (count n : Nat) (s : KW) : Prop where
  nodup : s.killList.Nodup
  lt : ∀ k ∈ s.killList, k < n
  alive : ∀ k ∈ s.killList, k ≠ 0 → aliveB p.individuals k = true
  bi : s.bestIndex < s.killList.length
  len : s.killList.length = max 1 (min count (1 + (tail p.individuals n).card))

theorem findBest_tot (p : Population T) (kl : List Nat) (hkl : ∀ k ∈ kl, k < p.individuals.length) :
    ∀ (ms : List Nat) (bi : Nat) (bf : F64) (s : σ), (∀ m ∈ ms, m < kl.length) → bi < kl.length →
      ∃ bi' bf', findBest p kl ms bi bf s = .ok ((bi', bf'), s) ∧ bi' < kl.length := by
  intro ms
  induction ms with
  | nil => intro bi bf s _ h; exact ⟨bi, bf, rfl, h⟩
  | cons m ms ih =>
    intro bi bf s hm hb
    have hml := hm m (by simp)
    have hj := hkl _ (List.getElem_mem hml)
    unfold findBest
    rw [M.bind_run, show (M.index kl m : M σ Nat) s = .ok (kl[m], s) from
      M.index_eq_ok.2 ⟨by simp [hml], rfl⟩]
    simp only
    rw [M.bind_run, show (M.index p.individuals kl[m] : M σ _) s = .ok (p.individuals[kl[m]], s) from
      M.index_eq_ok.2 ⟨by simp [hj], rfl⟩]
    simp only
    split
    · exact ih _ _ s (fun m hm' => hm m (by simp [hm'])) hml
    · exact ih _ _ s (fun m hm' => hm m (by simp [hm'])) hb

theorem nodup_set {l : List Nat} {i n : Nat} (h : l.Nodup) (hn : n ∉ l) : (l.set i n).Nodup := by
  exact List.Nodup.set h hn

theorem kwStep_tot (p : Population T) (count n : Nat) (h1 : 1 ≤ n) (h2 : n < p.individuals.length)
    (s : KW) (hI : Inv p count n s) (st : σ) :
    ∃ s', kwStep p count s n st = .ok (s', st) ∧ Inv p count (n + 1) s' := by
  obtain ⟨nodup, hlt, halive, hbi, hlen⟩ := hI
  have hts := tail_succ p.individuals h1
  have hA : aliveB p.individuals n = p.individuals[n].alive := by
    unfold aliveB; rw [List.getElem?_eq_getElem h2]
  have hnotin : n ∉ s.killList := fun h => absurd (hlt n h) (by omega)
  unfold kwStep
  rw [M.bind_run, show (M.index p.individuals n : M σ _) st = .ok (p.individuals[n], st) from
    M.index_eq_ok.2 ⟨by simp [h2], rfl⟩]
  simp only
  rcases hal : p.individuals[n].alive with _ | _
  · -- dead
    rw [hA, hal] at hts
    refine ⟨s, by simp [M.pure_run], nodup, fun k hk => by have := hlt k hk; omega, halive, hbi, ?_⟩
    rw [hlen, hts]; simp
  · rw [hA, hal, if_pos rfl] at hts
    simp only [Bool.not_true, Bool.false_eq_true, if_false]
    by_cases hc : s.killList.length < count
    · rw [if_pos hc]
      have base : ∀ bi, bi < (s.killList ++ [n]).length → ∀ bf,
          Inv p count (n + 1) ⟨s.killList ++ [n], bi, bf⟩ := by
        intro bi hb bf
        refine ⟨?_, ?_, ?_, hb, ?_⟩
        · rw [List.nodup_append]
          refine ⟨nodup, by simp, ?_⟩
          intro a ha b hb'
          simp only [List.mem_singleton] at hb'
          rintro rfl
          rw [hb'] at ha
          exact hnotin ha
        · intro k hk
          rcases List.mem_append.1 hk with hk | hk
          · have := hlt k hk; omega
          · simp only [List.mem_singleton] at hk; omega
        · intro k hk hk0
          rcases List.mem_append.1 hk with hk | hk
          · exact halive k hk hk0
          · simp only [List.mem_singleton] at hk; rw [hk, hA, hal]
        · simp only [List.length_append, List.length_singleton]
          rw [hts]; omega
      split
      · exact ⟨_, rfl, base _ (by simp) _⟩
      · exact ⟨_, rfl, base _ (by simp; omega) _⟩
    · rw [if_neg hc]
      have hlen' : s.killList.length = max 1 (min count (1 + (tail p.individuals (n + 1)).card)) := by
        rw [hts]; omega
      split
      · have hall : ∀ k ∈ s.killList.set s.bestIndex n, k < n + 1 := by
          intro k hk
          rcases List.mem_or_eq_of_mem_set hk with hk | hk
          · have := hlt k hk; omega
          · omega
        have hall' : ∀ k ∈ s.killList.set s.bestIndex n, k < p.individuals.length := by
          intro k hk; have := hall k hk; omega
        have hpos : 0 < (s.killList.set s.bestIndex n).length := by
          rw [List.length_set]; omega
        have hj0 := hall' _ (List.getElem_mem hpos)
        obtain ⟨bi', bf', hfb, hbl⟩ := findBest_tot p (s.killList.set s.bestIndex n) hall'
          (List.range' 1 ((s.killList.set s.bestIndex n).length - 1)) 0
          (p.individuals[(s.killList.set s.bestIndex n)[0]]).fitness st
          (by intro m hm; rw [List.mem_range'_1] at hm; omega) hpos
        refine ⟨⟨s.killList.set s.bestIndex n, bi', bf'⟩, ?_, ?_, hall, ?_, hbl, ?_⟩
        · refine M.bind_eq_ok.2 ⟨(), st, M.assert_eq_ok.2 ⟨by simpa using hbi, rfl⟩, ?_⟩
          refine M.bind_eq_ok.2 ⟨_, st, M.index_eq_ok.2 ⟨List.getElem?_eq_getElem hpos, rfl⟩, ?_⟩
          refine M.bind_eq_ok.2 ⟨_, st, M.index_eq_ok.2 ⟨List.getElem?_eq_getElem hj0, rfl⟩, ?_⟩
          refine M.bind_eq_ok.2 ⟨_, st, hfb, rfl⟩
        · exact nodup_set nodup hnotin
        · intro k hk hk0
          rcases List.mem_or_eq_of_mem_set hk with hk | hk
          · exact halive k hk hk0
          · rw [hk, hA, hal]
        · rw [List.length_set]; exact hlen'
      · refine ⟨s, rfl, nodup, fun k hk => by have := hlt k hk; omega, halive, hbi, hlen'⟩

/-- `kill_worst` on a non-empty population kills exactly the indices of a list without
repetitions that consists of living indices and perhaps index 0. -/
theorem killWorst_spec (p : Population T) (count : Nat) (h : 0 < p.individuals.length) (st : σ) :
    ∃ kl, killWorst p count st =
        .ok ({ p with individuals := killSet p.individuals kl }, st) ∧
      kl.Nodup ∧ (∀ k ∈ kl, k < p.individuals.length) ∧
      (∀ k ∈ kl, k ≠ 0 → aliveB p.individuals k = true) ∧
      kl.length = max 1 (min count (1 + (tail p.individuals p.individuals.length).card)) := by
  have hinit : Inv p count 1 ⟨[0], 0, (p.individuals[0]).fitness⟩ := by
    refine ⟨by simp, by simp, by simp, by simp, ?_⟩
    rw [tail_one]; simp
  obtain ⟨s', hf, hI⟩ := M.foldL_range'_tot (f := kwStep p count) (I := Inv p count)
    (p.individuals.length - 1) 1 _ st
    (fun n hn1 hn2 b hb => kwStep_tot p count n hn1 (by omega) b hb st) hinit
  rw [show 1 + (p.individuals.length - 1) = p.individuals.length by omega] at hI
  refine ⟨s'.killList, ?_, hI.nodup, hI.lt, hI.alive, hI.len⟩
  unfold killWorst
  refine M.bind_eq_ok.2 ⟨_, st, M.index_eq_ok.2 ⟨List.getElem?_eq_getElem h, rfl⟩, ?_⟩
  refine M.bind_eq_ok.2 ⟨s', st, hf, ?_⟩
  exact foldL_killAt _ p st hI.lt

end Selection
end Verif
