import Verif.Proofs.KillWorst
import Verif.Spec.Intervals
import Verif.Model.Genetic

/-!
# C12 - C18: selections and the pre-birth filter
-/

namespace Verif.Props

open Verif Spec Selection

variable {σ T : Type} {f : Fmt}

/-- The number of living individuals. -/
def alive (p : Population T) : Nat := (p.individuals.filter (·.alive)).length

/-! ## C12 -/

/-- C12: `KillFitnessNaN` only kills, and an individual lives on iff it was alive with a finite fitness. -/
theorem C12_killFitnessNaN (p : Population T) (s : σ) :
    ∃ p', killFitnessNaN p s = .ok (p', s) ∧ OnlyKills p p' ∧
      List.Forall₂ (fun i j => j.alive = true ↔ i.alive = true ∧ i.fitness.isFinite = true)
        p.individuals p'.individuals := by
  refine ⟨_, rfl, ⟨rfl, rfl, rfl, ?_⟩, ?_⟩
  · rw [List.forall₂_map_right_iff, List.forall₂_same]
    intro i _
    cases h : i.fitness.isFinite <;> simp [Individual.kill]
  · rw [List.forall₂_map_right_iff, List.forall₂_same]
    intro i _
    cases h : i.fitness.isFinite <;> simp [Individual.kill]

/-- NaN and both infinities are the values that are not finite. -/
theorem C12_not_finite (v : F64) :
    v.isFinite = false ↔ v.isNan = true ∨ v.isInf = true := by
  rw [Fl.not_isFinite_iff, Fl.isNan_iff, Fl.isInf_iff]; omega

example : M.okAnd (killFitnessNaN (⟨[⟨(), Fl.one, true⟩, ⟨(), Fl.nan, true⟩, ⟨(), Fl.inf true, true⟩,
    ⟨(), Fl.zero, false⟩], none, none, 0⟩) ()) (fun p _ => p.individuals.map (·.alive) ==
    [true, false, false, false]) = true := by decide +kernel

/-! ## C13, C14 -/

theorem geneBad_iff {iv : Fl f × Fl f} {x : Fl f} (h1 : iv.1.isNan = false) (h2 : iv.2.isNan = false) :
    geneBad x iv = false ↔ InInterval iv x := by
  unfold geneBad InInterval
  simp only [Bool.or_eq_false_iff]
  show ((!x.isFinite) = false ∧ x.lt iv.1 = false) ∧ iv.2.lt x = false ↔ _
  constructor
  · rintro ⟨⟨a, b⟩, c⟩
    have hf : x.isFinite = true := by simpa using a
    have hn := Fl.isNan_of_isFinite hf
    exact ⟨hf, (Fl.not_lt hn h1).1 b, (Fl.not_lt h2 hn).1 c⟩
  · rintro ⟨a, b, c⟩
    have hn := Fl.isNan_of_isFinite a
    exact ⟨⟨by simp [a], (Fl.not_lt hn h1).2 b⟩, (Fl.not_lt h2 hn).2 c⟩

theorem anyBad_iff {ivs : List (Fl f × Fl f)} {xs : List (Fl f)} (hl : xs.length = ivs.length)
    (hn : ∀ iv ∈ ivs, iv.1.isNan = false ∧ iv.2.isNan = false) :
    anyBad xs ivs = false ↔ InBox ivs xs := by
  induction ivs generalizing xs with
  | nil =>
    cases xs with
    | nil => simp [anyBad, InBox]
    | cons x xs => simp at hl
  | cons iv ivs ih =>
    cases xs with
    | nil => simp at hl
    | cons x xs =>
      have h0 := hn iv (by simp)
      have ih' := ih (xs := xs) (by simpa using hl) (fun iv h => hn iv (by simp [h]))
      unfold anyBad InBox
      rw [Bool.or_eq_false_iff, List.forall₂_cons, geneBad_iff h0.1 h0.2, ih']
      rfl

theorem mapL_pure {α β : Type} {g : α → M σ β} {k : α → β} :
    ∀ (as : List α) (s : σ), (∀ a ∈ as, ∀ s, g a s = .ok (k a, s)) →
      M.mapL g as s = .ok (as.map k, s) := by
  intro as
  induction as with
  | nil => intro s _; rfl
  | cons a as ih =>
    intro s h
    exact M.mapL_cons_ok.2 ⟨k a, as.map k, s, h a (by simp) s,
      ih s (fun a ha => h a (by simp [ha])), rfl⟩

/-- C13: with one gene per interval everywhere (and no NaN bound) the selection returns, only kills,
and an individual lives on iff it was alive and all its genes are finite and inside their intervals. -/
theorem C13_checkInterval (ivs : List (Fl f × Fl f))
    (hn : ∀ iv ∈ ivs, iv.1.isNan = false ∧ iv.2.isNan = false) (p : Population (List (Fl f)))
    (hl : ∀ i ∈ p.individuals, i.chromosomes.length = ivs.length) (s : σ) :
    ∃ p', checkChromoInterval ivs p s = .ok (p', s) ∧ OnlyKills p p' ∧
      List.Forall₂ (fun i j => j.alive = true ↔ i.alive = true ∧ InBox ivs i.chromosomes)
        p.individuals p'.individuals := by
  refine ⟨{ p with individuals := p.individuals.map (fun i =>
      if anyBad i.chromosomes ivs then i.kill else i) }, ?_, ⟨rfl, rfl, rfl, ?_⟩, ?_⟩
  · unfold checkChromoInterval
    refine M.bind_eq_ok.2 ⟨_, s, mapL_pure _ s ?_, rfl⟩
    intro i hi s
    exact M.bind_eq_ok.2 ⟨(), s, M.assert_eq_ok.2 ⟨by simpa using hl i hi, rfl⟩, rfl⟩
  · rw [List.forall₂_map_right_iff, List.forall₂_same]
    intro i _
    cases anyBad i.chromosomes ivs <;> simp [Individual.kill]
  · rw [List.forall₂_map_right_iff, List.forall₂_same]
    intro i hi
    rw [← anyBad_iff (hl i hi) hn]
    cases anyBad i.chromosomes ivs <;> simp [Individual.kill]

theorem mapL_error {α β : Type} {g : α → M σ β} {e : Err} :
    ∀ (as : List α) (s : σ), (∀ a ∈ as, ∀ s, (∃ b, g a s = .ok (b, s)) ∨ g a s = .error e) →
      (∃ a ∈ as, ∀ s, g a s = .error e) → M.mapL g as s = .error e := by
  intro as
  induction as with
  | nil => intro s _ h; simp at h
  | cons a as ih =>
    intro s h hb
    rw [M.mapL, M.bind_eq_error]
    rcases h a (by simp) s with ⟨b, hb1⟩ | he
    · right
      refine ⟨b, s, hb1, ?_⟩
      rw [M.bind_eq_error]; left
      apply ih s (fun a ha => h a (by simp [ha]))
      obtain ⟨a', ha', hbad⟩ := hb
      rcases List.mem_cons.1 ha' with rfl | ha'
      · rw [hbad s] at hb1; simp at hb1
      · exact ⟨a', ha', hbad⟩
    · left; exact he

/-- C13: one individual with a wrong number of genes makes it panic. -/
theorem C13_wrong_length (ivs : List (Fl f × Fl f)) (p : Population (List (Fl f)))
    (hl : ∃ i ∈ p.individuals, i.chromosomes.length ≠ ivs.length) (s : σ) :
    checkChromoInterval ivs p s = .error .assert := by
  unfold checkChromoInterval
  rw [M.bind_eq_error]; left
  apply mapL_error
  · intro i _ s
    by_cases h : i.chromosomes.length = ivs.length
    · left
      exact ⟨_, M.bind_eq_ok.2 ⟨(), s, M.assert_eq_ok.2 ⟨by simpa using h, rfl⟩, rfl⟩⟩
    · right
      rw [M.bind_eq_error]; left
      simp [M.assert, h, M.fail]
  · obtain ⟨i, hi, h⟩ := hl
    refine ⟨i, hi, fun s => ?_⟩
    rw [M.bind_eq_error]; left
    simp [M.assert, h, M.fail]

open Classical in
/-- C14: with one gene per interval everywhere the filter keeps, in order, exactly the
chromosomes inside the box. -/
theorem C14_preBirth (ivs : List (Fl f × Fl f))
    (hn : ∀ iv ∈ ivs, iv.1.isNan = false ∧ iv.2.isNan = false) (p : Population (List (Fl f)))
    (cs : List (List (Fl f))) (hl : ∀ c ∈ cs, c.length = ivs.length) (s : σ) :
    preBirthInterval ivs p cs s = .ok (cs.filter (fun c => decide (InBox ivs c)), s) := by
  unfold preBirthInterval
  induction cs with
  | nil => rfl
  | cons c cs ih =>
    have hc := hl c (by simp)
    refine M.bind_eq_ok.2 ⟨!anyBad c ivs, s, ?_, ?_⟩
    · exact M.bind_eq_ok.2 ⟨(), s, M.assert_eq_ok.2 ⟨by simpa using hc, rfl⟩, rfl⟩
    · refine M.bind_eq_ok.2 ⟨_, s, ih (fun c h => hl c (by simp [h])), ?_⟩
      rw [M.pure_eq_ok]
      refine ⟨?_, rfl⟩
      by_cases hb : InBox ivs c
      · rw [(anyBad_iff hc hn).2 hb]; simp [hb]
      · have : anyBad c ivs = true := by
          rw [← Bool.not_eq_false, anyBad_iff hc hn]; exact hb
        simp [this, hb]

/-- C14: a chromosome with a wrong number of genes makes it panic. -/
theorem C14_wrong_length (ivs : List (Fl f × Fl f)) (p : Population (List (Fl f)))
    (cs : List (List (Fl f))) (hl : ∃ c ∈ cs, c.length ≠ ivs.length) (s : σ) :
    preBirthInterval ivs p cs s = .error .assert := by
  unfold preBirthInterval
  induction cs with
  | nil => simp at hl
  | cons c cs ih =>
    rw [retain, M.bind_eq_error]
    by_cases hc : c.length = ivs.length
    · right
      refine ⟨!anyBad c ivs, s,
        M.bind_eq_ok.2 ⟨(), s, M.assert_eq_ok.2 ⟨by simpa using hc, rfl⟩, rfl⟩, ?_⟩
      rw [M.bind_eq_error]; left
      apply ih
      obtain ⟨c', hc', h⟩ := hl
      rcases List.mem_cons.1 hc' with rfl | hc'
      · exact absurd hc h
      · exact ⟨c', hc', h⟩
    · left
      unfold checkChromo
      rw [M.bind_eq_error]; left
      simp [M.assert, hc, M.fail]

theorem geneBad_any_iff {iv : Fl f × Fl f} {x : Fl f} : geneBad x iv = false ↔ NotExcluded iv x := by
  have hnan : ∀ {a b : Fl f}, a.isNan = true ∨ b.isNan = true → a.lt b = false := by
    intro a b h
    rw [← Bool.not_eq_true, Fl.lt_iff]
    rintro ⟨h1, h2, -⟩
    rcases h with h | h
    · rw [h1] at h; cases h
    · rw [h2] at h; cases h
  unfold geneBad NotExcluded
  simp only [Bool.or_eq_false_iff]
  show ((!x.isFinite) = false ∧ x.lt iv.1 = false) ∧ iv.2.lt x = false ↔ _
  constructor
  · rintro ⟨⟨a, b⟩, c⟩
    have hf : x.isFinite = true := by simpa using a
    have hn := Fl.isNan_of_isFinite hf
    refine ⟨hf, ?_, ?_⟩
    · cases h1 : iv.1.isNan
      · exact .inr ((Fl.not_lt hn h1).1 b)
      · exact .inl rfl
    · cases h2 : iv.2.isNan
      · exact .inr ((Fl.not_lt h2 hn).1 c)
      · exact .inl rfl
  · rintro ⟨a, b, c⟩
    have hn := Fl.isNan_of_isFinite a
    refine ⟨⟨by simp [a], ?_⟩, ?_⟩
    · cases h1 : iv.1.isNan
      · exact (Fl.not_lt hn h1).2 (b.resolve_left (by simp [h1]))
      · exact hnan (.inr h1)
    · cases h2 : iv.2.isNan
      · exact (Fl.not_lt h2 hn).2 (c.resolve_left (by simp [h2]))
      · exact hnan (.inl h2)

theorem anyBad_any_iff {ivs : List (Fl f × Fl f)} {xs : List (Fl f)} (hl : xs.length = ivs.length) :
    anyBad xs ivs = false ↔ List.Forall₂ NotExcluded ivs xs := by
  induction ivs generalizing xs with
  | nil =>
    cases xs with
    | nil => simp [anyBad]
    | cons x xs => simp at hl
  | cons iv ivs ih =>
    cases xs with
    | nil => simp at hl
    | cons x xs =>
      have ih' := ih (xs := xs) (by simpa using hl)
      unfold anyBad
      rw [Bool.or_eq_false_iff, List.forall₂_cons, geneBad_any_iff, ih']

/-- C13, with any interval ends: an individual lives on iff it was alive and all its genes are finite and not excluded by
an end that is a number. -/
theorem C13_any_ends (ivs : List (Fl f × Fl f)) (p : Population (List (Fl f)))
    (hl : ∀ i ∈ p.individuals, i.chromosomes.length = ivs.length) (s : σ) :
    ∃ p', checkChromoInterval ivs p s = .ok (p', s) ∧ OnlyKills p p' ∧
      List.Forall₂ (fun i j => j.alive = true ↔ i.alive = true ∧ List.Forall₂ NotExcluded ivs i.chromosomes)
        p.individuals p'.individuals := by
  refine ⟨{ p with individuals := p.individuals.map (fun i =>
      if anyBad i.chromosomes ivs then i.kill else i) }, ?_, ⟨rfl, rfl, rfl, ?_⟩, ?_⟩
  · unfold checkChromoInterval
    refine M.bind_eq_ok.2 ⟨_, s, mapL_pure _ s ?_, rfl⟩
    intro i hi s
    exact M.bind_eq_ok.2 ⟨(), s, M.assert_eq_ok.2 ⟨by simpa using hl i hi, rfl⟩, rfl⟩
  · rw [List.forall₂_map_right_iff, List.forall₂_same]
    intro i _
    cases anyBad i.chromosomes ivs <;> simp [Individual.kill]
  · rw [List.forall₂_map_right_iff, List.forall₂_same]
    intro i hi
    rw [← anyBad_any_iff (hl i hi)]
    cases anyBad i.chromosomes ivs <;> simp [Individual.kill]

open Classical in
/-- C14, with any interval ends: the filter keeps, in order, exactly the chromosomes whose genes are finite and not excluded
by an end that is a number. -/
theorem C14_any_ends (ivs : List (Fl f × Fl f)) (p : Population (List (Fl f)))
    (cs : List (List (Fl f))) (hl : ∀ c ∈ cs, c.length = ivs.length) (s : σ) :
    preBirthInterval ivs p cs s = .ok (cs.filter (fun c => decide (List.Forall₂ NotExcluded ivs c)), s) := by
  unfold preBirthInterval
  induction cs with
  | nil => rfl
  | cons c cs ih =>
    have hc := hl c (by simp)
    refine M.bind_eq_ok.2 ⟨!anyBad c ivs, s, ?_, ?_⟩
    · exact M.bind_eq_ok.2 ⟨(), s, M.assert_eq_ok.2 ⟨by simpa using hc, rfl⟩, rfl⟩
    · refine M.bind_eq_ok.2 ⟨_, s, ih (fun c h => hl c (by simp [h])), ?_⟩
      rw [M.pure_eq_ok]
      refine ⟨?_, rfl⟩
      by_cases hb : List.Forall₂ NotExcluded ivs c
      · rw [(anyBad_any_iff hc).2 hb]; simp [hb]
      · have : anyBad c ivs = true := by
          rw [← Bool.not_eq_false, anyBad_any_iff hc]; exact hb
        simp [this, hb]

/-- A gene beyond everything is kept by an interval with a NaN end on that side. -/
example : M.okAnd (preBirthInterval [((Fl.zero : F64), Fl.nan)] ⟨[], none, none, 0⟩
    [[Fl.one], [Fl.ofNat (2 ^ 80)], [Fl.one.neg]] ()) (fun cs _ => cs == [[Fl.one], [Fl.ofNat (2 ^ 80)]]) = true := by
  decide +kernel

example : M.okAnd (checkChromoInterval [((Fl.zero : F64), Fl.one)]
    ⟨[⟨[Fl.one], Fl.one, true⟩, ⟨[Fl.ofNat 2], Fl.one, true⟩, ⟨[Fl.nan], Fl.one, true⟩], none, none, 0⟩ ())
    (fun p _ => p.individuals.map (·.alive) == [true, false, false]) = true := by decide +kernel

example : M.okAnd (preBirthInterval [((Fl.zero : F64), Fl.one)] ⟨[], none, none, 0⟩
    [[Fl.one], [Fl.ofNat 2], [Fl.zero]] ()) (fun cs _ => cs == [[Fl.one], [Fl.zero]]) = true := by
  decide +kernel

/-! ## C15 -/

theorem alive_killSet (p : Population T) (kl : List Nat) :
    alive { p with individuals := killSet p.individuals kl } =
      (aliveSet p.individuals \ kl.toFinset).card := by
  unfold alive
  rw [filter_length, aliveSet_killSet]

/-- C15: `LimitPopulation` returns, only kills, leaves at least `min max alive` individuals
and at most one more than that; and exactly `min max alive` if the first individual was alive.
With a dead first individual the limit is exceeded by one in some cases (`C15_exceeded_witness`, `C15_nan_first`). -/
theorem C15_limit (max : Nat) (p : Population T) (s : σ) :
    ∃ p', limitPopulation max p s = .ok (p', s) ∧ OnlyKills p p' ∧
      min max (alive p) ≤ alive p' ∧ alive p' ≤ min max (alive p) + 1 ∧
      (AliveAt p 0 → alive p' = min max (alive p)) := by
  unfold limitPopulation
  have hal : p.lenAlive = (aliveSet p.individuals).card := filter_length _
  have halive : alive p = (aliveSet p.individuals).card := filter_length _
  by_cases h : max < p.lenAlive
  · have hne : 0 < p.individuals.length := by
      by_contra hc
      have : p.individuals = [] := List.length_eq_zero_iff.1 (by omega)
      rw [hal, this] at h; simp [aliveSet] at h
    obtain ⟨kl, hk, hnd, hlt, hka, hlen⟩ := killWorst_spec p (p.lenAlive - max) hne s
    refine ⟨_, by rw [if_pos h]; exact hk, killSet_onlyKills _ _, ?_⟩
    rw [alive_killSet, halive]
    have hcard : kl.toFinset.card = kl.length := List.toFinset_card_of_nodup hnd
    have hsz := aliveSet_eq p.individuals hne
    have hsub : kl.toFinset.erase 0 ⊆ aliveSet p.individuals := by
      intro k hk
      rw [Finset.mem_erase, List.mem_toFinset] at hk
      unfold aliveSet
      rw [Finset.mem_filter, Finset.mem_range]
      exact ⟨hlt k hk.2, hka k hk.2 hk.1⟩
    have hinter := Finset.card_sdiff_add_card_inter (aliveSet p.individuals) kl.toFinset
    have hle : (aliveSet p.individuals ∩ kl.toFinset).card ≤ kl.toFinset.card :=
      Finset.card_le_card Finset.inter_subset_right
    have hge : kl.toFinset.card ≤ (aliveSet p.individuals ∩ kl.toFinset).card + 1 := by
      have h1 : kl.toFinset.erase 0 ⊆ aliveSet p.individuals ∩ kl.toFinset :=
        Finset.subset_inter hsub (Finset.erase_subset _ _)
      have h2 := Finset.card_le_card h1
      have h3 := Finset.pred_card_le_card_erase (s := kl.toFinset) (a := 0)
      omega
    refine ⟨?_, ?_, ?_⟩
    · by_cases h0 : aliveB p.individuals 0 = true
      · rw [if_pos h0] at hsz; omega
      · rw [if_neg h0] at hsz; omega
    · by_cases h0 : aliveB p.individuals 0 = true
      · rw [if_pos h0] at hsz; omega
      · rw [if_neg h0] at hsz; omega
    · rintro ⟨i, hi, ha⟩
      have h0 : aliveB p.individuals 0 = true := by unfold aliveB; rw [hi]; exact ha
      rw [if_pos h0] at hsz
      have hsub2 : kl.toFinset ⊆ aliveSet p.individuals := by
        intro k hk
        by_cases hk0 : k = 0
        · unfold aliveSet
          rw [Finset.mem_filter, Finset.mem_range, hk0]; exact ⟨hne, h0⟩
        · exact hsub (Finset.mem_erase.2 ⟨hk0, hk⟩)
      rw [Finset.inter_eq_right.2 hsub2] at hinter
      omega
  · refine ⟨p, by rw [if_neg h]; rfl, ⟨rfl, rfl, rfl, ?_⟩, ?_⟩
    · rw [List.forall₂_same]; intro i _; exact ⟨rfl, rfl, fun h => h⟩
    · rw [hal] at h
      rw [halive]
      refine ⟨by omega, by omega, fun _ => by omega⟩

/-- C15 fails when the first individual is dead: with limit 1 two individuals stay alive. -/
theorem C15_exceeded_witness :
    M.okAnd (limitPopulation 1
      ⟨[⟨(), Fl.nan, false⟩, ⟨(), Fl.one, true⟩, ⟨(), Fl.ofNat 2, true⟩], none, none, 0⟩ ())
      (fun p _ => p.individuals.map (·.alive) == [false, true, true]) = true := by decide +kernel

/-- The same through the usual pair of selections on a population in which all are alive. -/
theorem C15_exceeded_after_nan_witness :
    M.okAnd ((do
      let p ← killFitnessNaN
        ⟨[⟨(), Fl.nan, true⟩, ⟨(), Fl.one, true⟩, ⟨(), Fl.ofNat 5, true⟩, ⟨(), Fl.ofNat 7, true⟩], none, none, 0⟩
      limitPopulation 2 p : M Unit (Population Unit)) ())
      (fun p _ => p.individuals.map (·.alive) == [false, true, true, true]) = true := by decide +kernel

theorem card_take_dead (inds : List (Individual T)) (n : Nat) (hn : n < inds.length) (h0 : aliveB inds 0 = false) :
    ((inds.take n).filter (·.alive)).length = (tail inds n).card := by
  have hlen : (inds.take n).length = n := by rw [List.length_take]; omega
  have hb : ∀ k < n, aliveB (inds.take n) k = aliveB inds k := by
    intro k hk
    unfold aliveB
    rw [List.getElem?_take_of_lt hk]
  rcases Nat.eq_zero_or_pos n with rfl | hn0
  · simp [tail]
  rw [filter_length, aliveSet_eq _ (by omega), hlen, hb 0 (by omega), h0]
  have : tail (inds.take n) n = tail inds n := by
    unfold tail
    apply Finset.filter_congr
    intro k hk
    rw [Finset.mem_range] at hk
    rw [hb k hk]
  rw [this]; simp

/-- C15, when the limit is always missed: the first individual is dead and its fitness is NaN, as after `KillFitnessNaN`, and more than
`max` are alive. Then exactly `max + 1` individuals stay alive, and they are the last ones, whatever their fitness. -/
theorem C15_nan_first (max : Nat) (p : Population T) (i0 : Individual T) (hi0 : p.individuals[0]? = some i0)
    (hdead : i0.alive = false) (hnan : i0.fitness.isNan = true) (hmax : max < alive p) (s : σ) :
    ∃ p', limitPopulation max p s = .ok (p', s) ∧ OnlyKills p p' ∧ alive p' = max + 1 ∧
      ∀ n, AliveAt p n → (AliveAt p' n ↔ alive p ≤ max + 1 + ((p.individuals.take n).filter (·.alive)).length) := by
  have h0 : aliveB p.individuals 0 = false := by unfold aliveB; rw [hi0]; exact hdead
  have hne : 0 < p.individuals.length := (List.getElem?_eq_some_iff.1 hi0).1
  have halive : alive p = (aliveSet p.individuals).card := filter_length _
  obtain ⟨kl, hk, hz, hI, hmem⟩ := killWorst_nan p (alive p - max) i0 hi0 hnan s
  have hlim : limitPopulation max p s = .ok ({ p with individuals := killSet p.individuals kl }, s) := by
    unfold limitPopulation
    rw [← hk]
    exact congrFun (if_pos hmax) s
  refine ⟨_, hlim, killSet_onlyKills _ _, ?_, ?_⟩
  · rw [alive_killSet]
    have hsz := aliveSet_eq p.individuals hne
    rw [h0] at hsz
    simp only [Bool.false_eq_true, if_false] at hsz
    have hlen : kl.length = Max.max 1 (min (alive p - max) (1 + (tail p.individuals p.individuals.length).card)) := hI.len
    have hnd : kl.Nodup := hI.nodup
    have hinter : aliveSet p.individuals ∩ kl.toFinset = kl.toFinset.erase 0 := by
      ext k
      rw [Finset.mem_inter, Finset.mem_erase, List.mem_toFinset]
      unfold aliveSet
      rw [Finset.mem_filter, Finset.mem_range]
      constructor
      · rintro ⟨⟨-, ha⟩, hk⟩
        refine ⟨?_, hk⟩
        rintro rfl
        rw [h0] at ha; cases ha
      · rintro ⟨hk0, hk⟩
        exact ⟨⟨hI.lt k hk, hI.alive k hk hk0⟩, hk⟩
    have hcard := Finset.card_sdiff_add_card_inter (aliveSet p.individuals) kl.toFinset
    rw [hinter, Finset.card_erase_of_mem (List.mem_toFinset.2 hz), List.toFinset_card_of_nodup hnd] at hcard
    omega
  · intro n hn
    obtain ⟨i, hi, ha⟩ := hn
    have hna : aliveB p.individuals n = true := by unfold aliveB; rw [hi]; exact ha
    have hn1 : 1 ≤ n := by
      rcases Nat.eq_zero_or_pos n with rfl | h
      · rw [h0] at hna; cases hna
      · exact h
    have hm := hmem n hn1 hna
    rw [card_take_dead _ n (List.getElem?_eq_some_iff.1 hi).1 h0]
    have hget : (killSet p.individuals kl)[n]? = some (if n ∈ kl then i.kill else i) := by
      rw [killSet_get, hi]; rfl
    constructor
    · rintro ⟨j, hj, hja⟩
      have hj' : (killSet p.individuals kl)[n]? = some j := hj
      rw [hget] at hj'
      by_cases hnk : n ∈ kl
      · rw [if_pos hnk] at hj'
        cases hj'
        simp [Individual.kill] at hja
      · have := mt hm.2 hnk
        omega
    · intro hle
      have hnk : n ∉ kl := fun h => by have := hm.1 h; omega
      exact ⟨i, by rw [if_neg hnk] at hget; exact hget, ha⟩

example : AliveAt (⟨[⟨(), Fl.one, true⟩, ⟨(), Fl.ofNat 5, true⟩], none, none, 0⟩ : Population Unit) 0 :=
  ⟨_, rfl, rfl⟩

/-! ## C16 -/

theorem card_take (inds : List (Individual T)) (n : Nat) (hn : n < inds.length)
    (h0 : aliveB inds 0 = true) :
    ((inds.take (n + 1)).filter (·.alive)).length = 1 + (tail inds (n + 1)).card := by
  have hlen : (inds.take (n + 1)).length = n + 1 := by rw [List.length_take]; omega
  have hb : ∀ k < n + 1, aliveB (inds.take (n + 1)) k = aliveB inds k := by
    intro k hk
    unfold aliveB
    rw [List.getElem?_take_of_lt hk]
  rw [filter_length, aliveSet_eq _ (by omega), hlen, hb 0 (by omega), if_pos h0]
  have : tail (inds.take (n + 1)) (n + 1) = tail inds (n + 1) := by
    unfold tail
    apply Finset.filter_congr
    intro k hk
    rw [Finset.mem_range] at hk
    rw [hb k hk]
  rw [this]; omega

/-- C16: suppose no living individual has NaN fitness, the first individual is
alive, and it is the best of the first `count` living ones. Then `kill_worst` only kills,
exactly `count` individuals die (all, if there are fewer), and no survivor is worse than a killed one.
For populations whose first individual is not the best of the first `count` living ones
see `C16_kills_best_witness` and `C16_first_bounds`. -/
theorem C16_killWorst (p : Population T) (count : Nat) (hc : 1 ≤ count)
    (hnan : ∀ i ∈ p.individuals, i.alive = true → i.fitness.isNan = false)
    (i0 : Individual T) (hi0 : p.individuals[0]? = some i0) (ha0 : i0.alive = true)
    (hbest : ∀ n i, p.individuals[n]? = some i → i.alive = true →
      ((p.individuals.take (n + 1)).filter (·.alive)).length ≤ count → i0.fitness.le i.fitness = true)
    (s : σ) :
    ∃ p', killWorst p count s = .ok (p', s) ∧ OnlyKills p p' ∧ alive p' = alive p - count ∧
      ∀ n m i j, p.individuals[n]? = some i → p.individuals[m]? = some j →
        AliveAt p n → ¬ AliveAt p' n → AliveAt p' m → j.fitness.le i.fitness = true := by
  have hA : ∀ n, aliveB p.individuals n = true → ∃ i, p.individuals[n]? = some i ∧ i.alive = true := by
    intro n h
    unfold aliveB at h
    cases hi : p.individuals[n]? with
    | none => rw [hi] at h; simp at h
    | some i => rw [hi] at h; exact ⟨i, rfl, h⟩
  have h0 : aliveB p.individuals 0 = true := by unfold aliveB; rw [hi0]; exact ha0
  have hg : Good p count := by
    refine ⟨?_, h0, hc, ?_⟩
    · intro n h
      obtain ⟨i, hi, ha⟩ := hA n h
      rw [fit_eq hi]; exact hnan i (List.mem_of_getElem? hi) ha
    · intro n _ h hcard
      obtain ⟨i, hi, ha⟩ := hA n h
      rw [fit_eq hi, fit_eq hi0]
      apply (Fl.le_iff.1 (hbest n i hi ha ?_)).2.2
      rw [card_take _ n (List.getElem?_eq_some_iff.1 hi).1 h0]; exact hcard
  obtain ⟨kl, hk, hnd, hka, hlen, hord⟩ := killWorst_good p count hg s
  refine ⟨_, hk, killSet_onlyKills _ _, ?_, ?_⟩
  · rw [alive_killSet]
    have hsub : kl.toFinset ⊆ aliveSet p.individuals := by
      intro k hk
      rw [List.mem_toFinset] at hk
      unfold aliveSet
      rw [Finset.mem_filter, Finset.mem_range]
      obtain ⟨i, hi, -⟩ := hA k (hka k hk)
      exact ⟨(List.getElem?_eq_some_iff.1 hi).1, hka k hk⟩
    rw [Finset.card_sdiff_of_subset hsub, List.toFinset_card_of_nodup hnd, hlen]
    unfold alive
    rw [filter_length]; omega
  · intro n m i j hi hj hn hn' hm'
    have hnk : n ∈ kl := by
      by_contra hnot
      apply hn'
      obtain ⟨i', hi', ha'⟩ := hn
      refine ⟨i', ?_, ha'⟩
      show (killSet p.individuals kl)[n]? = _
      rw [killSet_get, hi']; simp [hnot]
    have hmk : m ∉ kl ∧ aliveB p.individuals m = true := by
      obtain ⟨j', hj', ha'⟩ := hm'
      have hj'' : (killSet p.individuals kl)[m]? = some j' := hj'
      rw [killSet_get, hj] at hj''
      simp only [Option.map_some, Option.some.injEq] at hj''
      by_cases hmem : m ∈ kl
      · rw [if_pos hmem] at hj''; rw [← hj''] at ha'; simp [Individual.kill] at ha'
      · rw [if_neg hmem] at hj''
        refine ⟨hmem, ?_⟩
        unfold aliveB; rw [hj, hj'']; exact ha'
    have := hord n hnk m hmk.2 hmk.1
    rw [fit_eq hi, fit_eq hj] at this
    rw [Fl.le_iff]
    refine ⟨?_, ?_, this⟩
    · have := hg.nonan m hmk.2
      rw [fit_eq hj] at this; exact this
    · have := hg.nonan n (hka n hnk)
      rw [fit_eq hi] at this; exact this

/-- C16 (without a condition on the order): a survivor is worse than a killed individual only if it is not worse than
the first individual of the population. -/
theorem C16_first_bounds (p : Population T) (count : Nat) (i0 : Individual T) (hi0 : p.individuals[0]? = some i0)
    (h0 : i0.fitness.isNan = false) (hnan : ∀ i ∈ p.individuals, i.alive = true → i.fitness.isNan = false) (s : σ) :
    ∃ p', killWorst p count s = .ok (p', s) ∧ OnlyKills p p' ∧
      ∀ n m i j, p.individuals[n]? = some i → p.individuals[m]? = some j →
        AliveAt p n → ¬ AliveAt p' n → AliveAt p' m → j.fitness.le i.fitness = true ∨ j.fitness.le i0.fitness = true := by
  have hg : Numbers p := by
    refine ⟨?_, by rw [fit_eq hi0]; exact h0⟩
    intro n h
    unfold aliveB at h
    cases hi : p.individuals[n]? with
    | none => rw [hi] at h; simp at h
    | some i => rw [hi] at h; rw [fit_eq hi]; exact hnan i (List.mem_of_getElem? hi) h
  obtain ⟨kl, hk, -, hord⟩ := killWorst_numbers p count (List.getElem?_eq_some_iff.1 hi0).1 hg s
  refine ⟨_, hk, killSet_onlyKills _ _, ?_⟩
  intro n m i j hi hj hn hn' hm'
  have hna : aliveB p.individuals n = true := by
    obtain ⟨i', hi', ha'⟩ := hn
    unfold aliveB; rw [hi']; exact ha'
  have hnk : n ∈ kl := by
    by_contra hnot
    apply hn'
    obtain ⟨i', hi', ha'⟩ := hn
    refine ⟨i', ?_, ha'⟩
    show (killSet p.individuals kl)[n]? = _
    rw [killSet_get, hi']; simp [hnot]
  have hmk : m ∉ kl ∧ aliveB p.individuals m = true := by
    obtain ⟨j', hj', ha'⟩ := hm'
    have hj'' : (killSet p.individuals kl)[m]? = some j' := hj'
    rw [killSet_get, hj] at hj''
    simp only [Option.map_some, Option.some.injEq] at hj''
    by_cases hmem : m ∈ kl
    · rw [if_pos hmem] at hj''; rw [← hj''] at ha'; simp [Individual.kill] at ha'
    · rw [if_neg hmem] at hj''
      refine ⟨hmem, ?_⟩
      unfold aliveB; rw [hj, hj'']; exact ha'
  have := hord n hnk m hmk.2 hmk.1
  have n1 := hg.nonan m hmk.2
  have n2 := hg.nonan n hna
  rw [fit_eq hj] at n1
  rw [fit_eq hi] at n2
  rw [fit_eq hi, fit_eq hj, fit_eq hi0] at this
  rw [Fl.le_iff, Fl.le_iff]
  rcases le_max_iff.1 this with h | h
  · exact .inr ⟨n1, h0, h⟩
  · exact .inl ⟨n1, n2, h⟩

/-- C16: an individual (other than the first one) that is strictly worse than all other living ones is killed. -/
theorem C16_worst_dies (p : Population T) (count : Nat) (i0 : Individual T) (hi0 : p.individuals[0]? = some i0)
    (ha0 : i0.alive = true) (hnan : ∀ i ∈ p.individuals, i.alive = true → i.fitness.isNan = false) (m : Nat) (hm0 : m ≠ 0)
    (j : Individual T) (hj : p.individuals[m]? = some j)
    (hworst : ∀ n i, n ≠ m → p.individuals[n]? = some i → i.alive = true → i.fitness.lt j.fitness = true) (s : σ) :
    ∃ p', killWorst p count s = .ok (p', s) ∧ ¬ AliveAt p' m := by
  have h0 := hnan i0 (List.mem_of_getElem? hi0) ha0
  obtain ⟨p', hk, hok, hord⟩ := C16_first_bounds p count i0 hi0 h0 hnan s
  refine ⟨p', hk, fun hm => ?_⟩
  obtain ⟨kl, hk2, hnd, -, hka, hlen⟩ := killWorst_spec p count (List.getElem?_eq_some_iff.1 hi0).1 s
  obtain ⟨k, hkm⟩ : ∃ k, k ∈ kl := by
    cases kl with
    | nil => simp only [List.length_nil] at hlen; omega
    | cons k kl => exact ⟨k, by simp⟩
  rw [hk2] at hk
  cases hk
  obtain ⟨ik, hik, hak⟩ : ∃ i, p.individuals[k]? = some i ∧ i.alive = true := by
    by_cases h : k = 0
    · rw [h]; exact ⟨i0, hi0, ha0⟩
    · have := hka k hkm h
      unfold aliveB at this
      cases hi : p.individuals[k]? with
      | none => rw [hi] at this; simp at this
      | some i => rw [hi] at this; exact ⟨i, rfl, this⟩
  have hdead : ∀ n, n ∈ kl → ¬ AliveAt { p with individuals := killSet p.individuals kl } n := by
    rintro n hn ⟨i, hi, ha⟩
    have hi : (killSet p.individuals kl)[n]? = some i := hi
    rw [killSet_get] at hi
    cases h : p.individuals[n]? with
    | none => rw [h] at hi; cases hi
    | some i' =>
      rw [h] at hi
      simp only [Option.map_some, if_pos hn, Option.some.injEq] at hi
      rw [← hi] at ha
      cases ha
  have hkne : k ≠ m := by rintro rfl; exact hdead k hkm hm
  have contra : ∀ a b : F64, a.lt b = true → b.le a = true → False := by
    intro a b h1 h2
    have := (Fl.lt_iff.1 h1).2.2
    have := (Fl.le_iff.1 h2).2.2
    omega
  rcases hord k m ik j hik hj ⟨ik, hik, hak⟩ (hdead k hkm) hm with h | h
  · exact contra _ _ (hworst k ik hkne hik hak) h
  · exact contra _ _ (hworst 0 i0 (fun h => hm0 h.symm) hi0 ha0) h

/-- C16 for `count = 1`: the only conditions left are that the first individual is alive and nothing alive is NaN. -/
theorem C16_one (p : Population T)
    (hnan : ∀ i ∈ p.individuals, i.alive = true → i.fitness.isNan = false) (hfirst : AliveAt p 0) (s : σ) :
    ∃ p', killWorst p 1 s = .ok (p', s) ∧ OnlyKills p p' ∧ alive p' = alive p - 1 ∧
      ∀ n m i j, p.individuals[n]? = some i → p.individuals[m]? = some j →
        AliveAt p n → ¬ AliveAt p' n → AliveAt p' m → j.fitness.le i.fitness = true := by
  obtain ⟨i0, hi0, ha0⟩ := hfirst
  have h0 : aliveB p.individuals 0 = true := by unfold aliveB; rw [hi0]; exact ha0
  apply C16_killWorst p 1 le_rfl hnan i0 hi0 ha0
  intro n i hi ha hcard
  rw [card_take _ n (List.getElem?_eq_some_iff.1 hi).1 h0] at hcard
  rcases Nat.eq_zero_or_pos n with hn | hn
  · subst hn
    rw [hi0] at hi; cases hi
    exact Fl.le_refl (hnan i0 (List.mem_of_getElem? hi0) ha0)
  · exfalso
    have hmem : n ∈ tail p.individuals (n + 1) := by
      unfold tail
      rw [Finset.mem_filter, Finset.mem_range]
      refine ⟨by omega, hn, ?_⟩
      unfold aliveB; rw [hi]; exact ha
    have := Finset.card_pos.2 ⟨n, hmem⟩
    omega

/-- C16 fails in general: of the fitness values 5, 1, 3 with `count = 2` the individuals 5 and 1 (the best) die. -/
theorem C16_kills_best_witness :
    M.okAnd (killWorst
      ⟨[⟨(), Fl.ofNat 5, true⟩, ⟨(), Fl.one, true⟩, ⟨(), Fl.ofNat 3, true⟩], none, none, 0⟩ 2 ())
      (fun p _ => p.individuals.map (·.alive) == [false, false, true]) = true := by decide +kernel

/-- What `C16_first_bounds` says here: the survivor 3 is worse than the killed 1, but not than the first individual. -/
example : let p : Population Unit :=
      ⟨[⟨(), Fl.ofNat 5, true⟩, ⟨(), Fl.one, true⟩, ⟨(), Fl.ofNat 3, true⟩], none, none, 0⟩
    (∀ i ∈ p.individuals, i.alive = true → i.fitness.isNan = false) ∧
    (Fl.ofNat 3 : F64).le Fl.one = false ∧ (Fl.ofNat 3 : F64).le (Fl.ofNat 5) = true := by
  refine ⟨?_, by decide +kernel, by decide +kernel⟩
  intro i hi _
  simp only [List.mem_cons, List.not_mem_nil, or_false] at hi
  rcases hi with rfl | rfl | rfl <;> decide +kernel

/-- An instance of the hypotheses of `C16_killWorst`, and what happens to it. -/
example : M.okAnd (killWorst
      ⟨[⟨(), Fl.one, true⟩, ⟨(), Fl.ofNat 3, true⟩, ⟨(), Fl.ofNat 2, true⟩, ⟨(), Fl.ofNat 9, true⟩],
        none, none, 0⟩ 2 ())
      (fun p _ => p.individuals.map (·.alive) == [true, false, true, false]) = true := by decide +kernel

example : let p : Population Unit :=
      ⟨[⟨(), Fl.one, true⟩, ⟨(), Fl.ofNat 3, true⟩, ⟨(), Fl.ofNat 2, true⟩], none, none, 0⟩
    (∀ i ∈ p.individuals, i.alive = true → i.fitness.isNan = false) ∧
    (∀ n < 3, ∀ i, p.individuals[n]? = some i → i.alive = true → (Fl.one : F64).le i.fitness = true) := by
  constructor
  · intro i hi _
    simp only [List.mem_cons, List.not_mem_nil, or_false] at hi
    rcases hi with rfl | rfl | rfl <;> decide +kernel
  · intro n hn i hi _
    have h3 : n = 0 ∨ n = 1 ∨ n = 2 := by omega
    rcases h3 with rfl | rfl | rfl <;> (simp at hi; subst hi; decide +kernel)

/-! ## C17 -/

theorem onlyKills_refl (p : Population T) : OnlyKills p p :=
  ⟨rfl, rfl, rfl, List.forall₂_same.2 (fun _ _ => ⟨rfl, rfl, fun h => h⟩)⟩

theorem forall₂_trans {α : Type} {R : α → α → Prop} (hR : ∀ a b c, R a b → R b c → R a c) :
    ∀ {l1 l2 l3 : List α}, List.Forall₂ R l1 l2 → List.Forall₂ R l2 l3 → List.Forall₂ R l1 l3 := by
  intro l1 l2 l3 h1
  induction h1 generalizing l3 with
  | nil => intro h; cases h; exact .nil
  | cons h _ ih => intro h2; cases h2 with
    | cons h' hs' => exact .cons (hR _ _ _ h h') (ih hs')

theorem onlyKills_trans {p q r : Population T} (h1 : OnlyKills p q) (h2 : OnlyKills q r) :
    OnlyKills p r := by
  obtain ⟨a1, a2, a3, a4⟩ := h1
  obtain ⟨b1, b2, b3, b4⟩ := h2
  refine ⟨b1.trans a1, b2.trans a2, b3.trans a3, forall₂_trans ?_ a4 b4⟩
  rintro i j k ⟨x1, x2, x3⟩ ⟨y1, y2, y3⟩
  exact ⟨y1.trans x1, y2.trans x2, fun h => x3 (y3 h)⟩

/-- The selections of the library for float vector chromosomes (`kill_worst` itself is public too). -/
inductive LibSelection : (Population (List (Fl f)) → M σ (Population (List (Fl f)))) → Prop
  | killFitnessNaN : LibSelection killFitnessNaN
  | limitPopulation (n : Nat) : LibSelection (limitPopulation n)
  | checkChromoInterval (ivs : List (Fl f × Fl f)) : LibSelection (checkChromoInterval ivs)
  | killWorst (count : Nat) : LibSelection (fun p => killWorst p count)

/-- C17: whenever a library selection returns, it only killed. -/
theorem C17_one (sel : Population (List (Fl f)) → M σ (Population (List (Fl f))))
    (h : LibSelection sel) (p p' : Population (List (Fl f))) (s s' : σ)
    (hr : sel p s = .ok (p', s')) : OnlyKills p p' ∧ s' = s := by
  cases h with
  | killFitnessNaN =>
    obtain ⟨q, hq, ho, -⟩ := C12_killFitnessNaN p s
    rw [hq] at hr; cases hr; exact ⟨ho, rfl⟩
  | limitPopulation n =>
    obtain ⟨q, hq, ho, -⟩ := C15_limit n p s
    rw [hq] at hr; cases hr; exact ⟨ho, rfl⟩
  | checkChromoInterval ivs =>
    unfold Selection.checkChromoInterval at hr
    obtain ⟨inds, s1, h1, h2⟩ := M.bind_eq_ok.1 hr
    obtain ⟨rfl, rfl⟩ := M.pure_eq_ok.1 h2
    refine ⟨⟨rfl, rfl, rfl, M.mapL_forall₂ ?_ h1⟩, ?_⟩
    · intro i _ s j s' hj
      obtain ⟨u, s2, -, h3⟩ := M.bind_eq_ok.1 hj
      obtain ⟨rfl, -⟩ := M.pure_eq_ok.1 h3
      cases anyBad i.chromosomes ivs <;> simp [Individual.kill]
    · refine M.mapL_state (I := fun t => t = s) ?_ rfl h1
      intro i _ s0 j s0' he hj
      obtain ⟨u, s2, ha, h3⟩ := M.bind_eq_ok.1 hj
      obtain ⟨-, rfl⟩ := M.assert_eq_ok.1 ha
      obtain ⟨-, rfl⟩ := M.pure_eq_ok.1 h3
      exact he
  | killWorst count =>
    rcases Nat.eq_zero_or_pos p.individuals.length with h0 | h0
    · have he : p.individuals = [] := List.length_eq_zero_iff.1 h0
      simp only [Selection.killWorst, he, M.index, M.bind_run, List.getElem?_nil, M.fail] at hr
      simp at hr
    · obtain ⟨kl, hk, -⟩ := killWorst_spec p count h0 s
      simp only [hk] at hr; cases hr; exact ⟨killSet_onlyKills _ _, rfl⟩

/-- C17: so does any sequence of library selections, as the optimizer runs them. -/
theorem C17_sequence (sels : List (Population (List (Fl f)) → M σ (Population (List (Fl f)))))
    (h : ∀ sel ∈ sels, LibSelection sel) (n : Nat) (p p' : Population (List (Fl f)))
    (w w' : World σ (List (Fl f))) (hr : GA.select n sels p w = .ok (p', w')) : OnlyKills p p' := by
  induction sels generalizing n p w with
  | nil =>
    obtain ⟨rfl, -⟩ := M.pure_eq_ok.1 hr
    exact onlyKills_refl _
  | cons sel sels ih =>
    unfold GA.select at hr
    obtain ⟨q, w1, h1, hr⟩ := M.bind_eq_ok.1 hr
    obtain ⟨u, w2, -, hr⟩ := M.bind_eq_ok.1 hr
    exact onlyKills_trans (C17_one sel (h sel (by simp)) p q _ _ (World.lift_eq_ok.1 h1).1).1
      (ih (fun s hs => h s (by simp [hs])) _ _ _ hr)

/-! ## C18 -/

/-- C18: `kill_worst` on an empty population panics. -/
theorem C18_empty (best worst : Option (Individual T)) (it count : Nat) (s : σ) :
    killWorst ⟨[], best, worst, it⟩ count s = .error .index := rfl

/-- C18: `count = 0` acts exactly like `count = 1`. -/
theorem C18_zero (p : Population T) : (killWorst p 0 : M σ (Population T)) = killWorst p 1 := by
  funext s
  unfold killWorst
  cases hi : p.individuals with
  | nil => rfl
  | cons i0 rest =>
    have key : ∀ (ns : List Nat) (k : KW) (s : σ), 1 ≤ k.killList.length →
        M.foldL (kwStep p 0) k ns s = M.foldL (kwStep p 1) k ns s := by
      intro ns
      induction ns with
      | nil => intros; rfl
      | cons n ns ih =>
        intro k s hk
        have hstep : kwStep (σ := σ) p 0 k n = kwStep p 1 k n := by
          unfold kwStep
          have h1 : ¬ (k.killList.length < 0) := by omega
          have h2 : ¬ (k.killList.length < 1) := by omega
          simp only [if_neg h1, if_neg h2]
        rw [M.foldL, M.foldL, hstep, M.bind_run, M.bind_run]
        cases h : kwStep p 1 k n s with
        | error e => rfl
        | ok r =>
          obtain ⟨k', s'⟩ := r
          apply ih
          unfold kwStep at h
          obtain ⟨ind, s1, -, h⟩ := M.bind_eq_ok.1 h
          split at h
          · obtain ⟨rfl, -⟩ := M.pure_eq_ok.1 h; exact hk
          · split at h
            · split at h <;> (obtain ⟨rfl, -⟩ := M.pure_eq_ok.1 h; simp)
            · split at h
              · obtain ⟨u, s2, -, h⟩ := M.bind_eq_ok.1 h
                obtain ⟨j0, s3, -, h⟩ := M.bind_eq_ok.1 h
                obtain ⟨i1, s4, -, h⟩ := M.bind_eq_ok.1 h
                obtain ⟨⟨b1, b2⟩, s5, -, h⟩ := M.bind_eq_ok.1 h
                obtain ⟨rfl, -⟩ := M.pure_eq_ok.1 h
                simpa using hk
              · obtain ⟨rfl, -⟩ := M.pure_eq_ok.1 h; exact hk
    have h0 : (M.index (i0 :: rest) 0 : M σ _) = pure i0 := rfl
    rw [M.bind_run, M.bind_run, h0, M.pure_run]
    show (M.foldL (kwStep p 0) _ _ >>= _) s = (M.foldL (kwStep p 1) _ _ >>= _) s
    rw [M.bind_run, M.bind_run, key _ _ _ (by simp)]

/-- C18: on a population in which all are alive `count = 0` kills exactly one individual. -/
theorem C18_zero_kills_one (p : Population T) (hne : p.individuals ≠ [])
    (hall : ∀ i ∈ p.individuals, i.alive = true) (s : σ) :
    ∃ p', killWorst p 0 s = .ok (p', s) ∧ alive p' + 1 = alive p := by
  have hpos : 0 < p.individuals.length := List.length_pos_of_ne_nil hne
  obtain ⟨kl, hk, hnd, hlt, -, hlen⟩ := killWorst_spec p 0 hpos s
  refine ⟨_, hk, ?_⟩
  rw [alive_killSet]
  have hsub : kl.toFinset ⊆ aliveSet p.individuals := by
    intro k hk
    rw [List.mem_toFinset] at hk
    unfold aliveSet
    rw [Finset.mem_filter, Finset.mem_range]
    refine ⟨hlt k hk, ?_⟩
    unfold aliveB
    rw [List.getElem?_eq_getElem (hlt k hk)]
    exact hall _ (List.getElem_mem _)
  have hle := Finset.card_le_card hsub
  rw [Finset.card_sdiff_of_subset hsub]
  rw [List.toFinset_card_of_nodup hnd, hlen] at hle ⊢
  unfold alive
  rw [filter_length]
  omega

/-- C18: `LimitPopulation` never panics, not even on an empty or a dead population. -/
theorem C18_limit_total (max : Nat) (p : Population T) (s : σ) :
    ∃ p', limitPopulation max p s = .ok (p', s) := by
  obtain ⟨p', h, -⟩ := C15_limit max p s
  exact ⟨p', h⟩

example : M.okAnd (killWorst
      ⟨[⟨(), Fl.one, true⟩, ⟨(), Fl.ofNat 3, true⟩, ⟨(), Fl.ofNat 2, true⟩], none, none, 0⟩ 0 ())
      (fun p _ => p.individuals.map (·.alive) == [true, false, true]) = true := by decide +kernel

end Verif.Props
