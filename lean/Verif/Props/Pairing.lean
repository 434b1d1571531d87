import Verif.Model.Pairing
import Verif.Model.Genetic
import Verif.Model.Selection
import Verif.Spec.Pairing

/-!
# C19 - C21: pairing
-/

namespace Verif.Props

open Verif Spec Pairing

variable {σ T : Type}

/-- C19: on a non-empty population `RandomPairing` returns `len / 2` pairs of valid indices. -/
theorem C19_pairs (R : Rng σ) (p : Population T) (h : p.individuals ≠ []) (s : σ) :
    ∃ fams s', randomPairing R p s = .ok (fams, s') ∧ fams.length = p.individuals.length / 2 ∧
      ∀ fam ∈ fams, ∃ i j, fam = [i, j] ∧ i < p.individuals.length ∧ j < p.individuals.length := by
  have hpos : 0 < p.len := List.length_pos_of_ne_nil h
  have hm : ∀ s, M.Tot (do
      let first ← R.uniformNat 0 p.len
      let second ← R.uniformNat 0 p.len
      pure [first, second] : M σ (List Nat)) s (fun fam _ =>
        ∃ i j, fam = [i, j] ∧ i < p.len ∧ j < p.len) := by
    intro s
    obtain ⟨i, s1, h1, -, hi⟩ := R.uniformNat_tot hpos s
    obtain ⟨j, s2, h2, -, hj⟩ := R.uniformNat_tot hpos s1
    exact ⟨[i, j], s2, M.bind_eq_ok.2 ⟨i, s1, h1, M.bind_eq_ok.2 ⟨j, s2, h2, rfl⟩⟩, i, j, rfl, hi, hj⟩
  obtain ⟨fams, s', hr, hl, hq⟩ := M.replicate_tot hm (p.len / 2) s
  refine ⟨fams, s', ?_, hl, hq⟩
  unfold randomPairing
  refine M.bind_eq_ok.2 ⟨(), s, ?_, hr⟩
  simp [uniformCheck, hpos, M.pure_run]

example : M.okAnd (randomPairing Rng.script
    (⟨List.replicate 5 ⟨(), Fl.one, true⟩, none, none, 0⟩ : Population Unit) [3, 1, 4, 2])
    (fun fams _ => fams == [[3, 1], [4, 2]]) = true := by decide +kernel

/-! ## C20 -/

theorem hasFitness_inj {p : Population T} {n : Nat} {v v' : F64} (h : HasFitness p n v)
    (h' : HasFitness p n v') : v = v' := by
  obtain ⟨i, hi, rfl⟩ := h
  obtain ⟨j, hj, rfl⟩ := h'
  rw [hi] at hj; cases hj; rfl

theorem hasFitness_of_lt {p : Population T} {n : Nat} (h : n < p.individuals.length) :
    ∃ v, HasFitness p n v := ⟨_, p.individuals[n], List.getElem?_eq_getElem h, rfl⟩

theorem rounds_spec (R : Rng σ) (p : Population T) (hpos : 0 < p.len) :
    ∀ (n best : Nat) (drawn : List Nat) (s : σ), best < p.len → drawn ≠ [] → Wins p drawn best →
      ∃ rest w s', M.replicate n (R.uniformNat 0 p.len) s = .ok (rest, s') ∧
        rounds R p n best s = .ok (w, s') ∧ Wins p (drawn ++ rest) w ∧ w < p.len := by
  intro n
  induction n with
  | zero =>
    intro best drawn s hb hne hw
    exact ⟨[], best, s, rfl, rfl, by simpa using hw, hb⟩
  | succ n ih =>
    intro best drawn s hb hne hw
    obtain ⟨c, s1, h1, -, hc⟩ := R.uniformNat_tot hpos s
    have hci : p.individuals[c]? = some p.individuals[c] := List.getElem?_eq_getElem hc
    have hbi : p.individuals[best]? = some p.individuals[best] := List.getElem?_eq_getElem hb
    obtain ⟨w0, hw0⟩ : ∃ w0, w0 = if (p.individuals[c]).fitness.lt (p.individuals[best]).fitness
        then c else best := ⟨_, rfl⟩
    have hw0lt : w0 < p.len := by rw [hw0]; split <;> assumption
    have hwin : Wins p (drawn ++ [c]) w0 := by
      refine ⟨?_, ?_⟩
      · rw [hw0]; split
        · simp
        · simp [hw.1]
      · intro first rest v hd hv
        obtain ⟨d0, ds, rfl⟩ : ∃ d0 ds, drawn = d0 :: ds := by
          cases drawn with
          | nil => exact absurd rfl hne
          | cons a l => exact ⟨a, l, rfl⟩
        simp only [List.cons_append, List.cons.injEq] at hd
        obtain ⟨rfl, rfl⟩ := hd
        obtain ⟨hn, hnn⟩ := hw.2 d0 ds v rfl hv
        have hfb : HasFitness p best (p.individuals[best]).fitness := ⟨_, hbi, rfl⟩
        have hfc : HasFitness p c (p.individuals[c]).fitness := ⟨_, hci, rfl⟩
        constructor
        · intro hvn
          have hb0 := hn hvn
          subst hb0
          rw [hasFitness_inj hv hfb] at hvn
          rw [hw0, if_neg]
          intro hlt
          have := (Fl.lt_iff.1 hlt).2.1
          rw [hvn] at this; cases this
        · intro hvn
          obtain ⟨vw, hvw, hvwn, hmin⟩ := hnn hvn
          rw [hasFitness_inj hvw hfb] at hvwn hmin
          by_cases hlt : (p.individuals[c]).fitness.lt (p.individuals[best]).fitness = true
          · rw [if_pos hlt] at hw0
            subst hw0
            have hl := Fl.lt_iff.1 hlt
            refine ⟨_, hfc, hl.1, ?_⟩
            intro d hd vd hvd
            rw [← Bool.not_eq_true]
            intro hcon
            have hcl := Fl.lt_iff.1 hcon
            rcases List.mem_append.1 hd with hd | hd
            · have := hmin d hd vd hvd
              rw [← Bool.not_eq_true, Fl.lt_iff] at this
              exact this ⟨hcl.1, hvwn, by omega⟩
            · rw [List.mem_singleton] at hd
              subst hd
              rw [hasFitness_inj hvd hfc] at hcl
              omega
          · rw [if_neg hlt] at hw0
            subst hw0
            refine ⟨_, hfb, hvwn, ?_⟩
            intro d hd vd hvd
            rcases List.mem_append.1 hd with hd | hd
            · exact hmin d hd vd hvd
            · rw [List.mem_singleton] at hd
              subst hd
              rw [hasFitness_inj hvd hfc]
              exact Bool.not_eq_true _ ▸ hlt
    obtain ⟨rest, w, s', hr, hro, hwr, hwl⟩ := ih w0 (drawn ++ [c]) s1 hw0lt (by simp) hwin
    refine ⟨c :: rest, w, s', M.replicate_succ_ok.2 ⟨c, rest, s1, h1, hr, rfl⟩, ?_, ?_, hwl⟩
    · unfold rounds
      refine M.bind_eq_ok.2 ⟨c, s1, h1, ?_⟩
      refine M.bind_eq_ok.2 ⟨_, s1, M.index_eq_ok.2 ⟨hci, rfl⟩, ?_⟩
      refine M.bind_eq_ok.2 ⟨_, s1, M.index_eq_ok.2 ⟨hbi, rfl⟩, ?_⟩
      rw [← hw0]; exact hro
    · rw [List.append_assoc] at hwr; exact hwr

theorem one_spec (R : Rng σ) (p : Population T) (hpos : 0 < p.len) (n : Nat) (s : σ) :
    ∃ drawn w s', M.replicate (n + 1) (R.uniformNat 0 p.len) s = .ok (drawn, s') ∧
      (do let first ← R.uniformNat 0 p.len
          rounds R p n first : M σ Nat) s = .ok (w, s') ∧ (Wins p drawn w ∧ w < p.len) := by
  obtain ⟨c, s1, h1, -, hc⟩ := R.uniformNat_tot hpos s
  have hw : Wins p [c] c := by
    refine ⟨by simp, ?_⟩
    intro first rest v hd hv
    simp only [List.cons.injEq] at hd
    obtain ⟨rfl, rfl⟩ := hd
    refine ⟨fun _ => rfl, fun hvn => ⟨v, hv, hvn, ?_⟩⟩
    intro d hd vd hvd
    rw [List.mem_singleton] at hd
    subst hd
    rw [hasFitness_inj hvd hv, ← Bool.not_eq_true, Fl.lt_iff]
    omega
  obtain ⟨rest, w, s', hr, hro, hwr, hwl⟩ := rounds_spec R p hpos n c [c] s1 hc (by simp) hw
  exact ⟨c :: rest, w, s', M.replicate_succ_ok.2 ⟨c, rest, s1, h1, hr, rfl⟩,
    M.bind_eq_ok.2 ⟨c, s1, h1, hro⟩, hwr, hwl⟩

theorem replicate_both {α β : Type} {m : M σ α} {m' : M σ β} {Q : α → β → Prop}
    (h : ∀ s, ∃ a b s', m s = .ok (a, s') ∧ m' s = .ok (b, s') ∧ Q a b) :
    ∀ (n : Nat) (s : σ), ∃ as bs s', M.replicate n m s = .ok (as, s') ∧
      M.replicate n m' s = .ok (bs, s') ∧ List.Forall₂ Q as bs := by
  intro n
  induction n with
  | zero => intro s; exact ⟨[], [], s, rfl, rfl, .nil⟩
  | succ n ih =>
    intro s
    obtain ⟨a, b, s1, h1, h2, q⟩ := h s
    obtain ⟨as, bs, s2, h3, h4, qs⟩ := ih s1
    exact ⟨a :: as, b :: bs, s2, M.replicate_succ_ok.2 ⟨a, as, s1, h1, h3, rfl⟩,
      M.replicate_succ_ok.2 ⟨b, bs, s1, h2, h4, rfl⟩, .cons q qs⟩

/-- C20: on a non-empty population the tournament draws, for each of `familiesCount` families and each of
`partnersCount` partners, `roundsCount + 1` random individuals, and returns for each the
winner among those drawn. `draws` are the random numbers the generator delivers in this order. -/
theorem C20_tournament (R : Rng σ) (t : Tournament) (p : Population T) (h : p.individuals ≠ []) (s : σ) :
    ∃ draws fams s',
      M.replicate t.familiesCount (M.replicate t.partnersCount (M.replicate (t.roundsCount + 1)
        (R.uniformNat 0 p.individuals.length))) s = .ok (draws, s') ∧
      tournament R t p s = .ok (fams, s') ∧
      List.Forall₂ (List.Forall₂ (fun drawn w => Wins p drawn w ∧ w < p.individuals.length)) draws fams := by
  have hpos : 0 < p.len := List.length_pos_of_ne_nil h
  obtain ⟨draws, fams, s', h1, h2, h3⟩ :=
    replicate_both (replicate_both (one_spec R p hpos t.roundsCount) t.partnersCount) t.familiesCount s
  refine ⟨draws, fams, s', h1, ?_, h3⟩
  unfold tournament
  refine M.bind_eq_ok.2 ⟨(), s, ?_, h2⟩
  simp [uniformCheck, hpos, M.pure_run]

/-- C20: so there are `familiesCount` families of `partnersCount` valid indices. -/
theorem C20_shape (R : Rng σ) (t : Tournament) (p : Population T) (h : p.individuals ≠ []) (s : σ) :
    ∃ fams s', tournament R t p s = .ok (fams, s') ∧ fams.length = t.familiesCount ∧
      ∀ fam ∈ fams, fam.length = t.partnersCount ∧ ∀ i ∈ fam, i < p.individuals.length := by
  have hpos : 0 < p.len := List.length_pos_of_ne_nil h
  have hm : ∀ s, M.Tot (M.replicate t.partnersCount (do
      let first ← R.uniformNat 0 p.len
      rounds R p t.roundsCount first)) s
      (fun fam _ => fam.length = t.partnersCount ∧ ∀ i ∈ fam, i < p.individuals.length) := by
    intro s
    apply M.replicate_tot (Q := fun i => i < p.individuals.length)
    intro s
    obtain ⟨_, w, s', -, h2, -, h3⟩ := one_spec R p hpos t.roundsCount s
    exact ⟨w, s', h2, h3⟩
  obtain ⟨fams, s', h1, h2, h3⟩ := M.replicate_tot hm t.familiesCount s
  refine ⟨fams, s', ?_, h2, h3⟩
  unfold tournament
  refine M.bind_eq_ok.2 ⟨(), s, ?_, h1⟩
  simp [uniformCheck, hpos, M.pure_run]

/-- The pairing returns `families` families of `partners` indices each of which won against the `rounds` others drawn
with it. -/
def Plays (families partners rounds : Nat) (R : Rng σ) (t : Tournament) : Prop :=
  ∀ (p : Population T), p.individuals ≠ [] → ∀ s, ∃ draws fams s',
    M.replicate families (M.replicate partners (M.replicate (rounds + 1) (R.uniformNat 0 p.individuals.length))) s =
      .ok (draws, s') ∧
    tournament R t p s = .ok (fams, s') ∧
    List.Forall₂ (List.Forall₂ (fun drawn w => Wins p drawn w ∧ w < p.individuals.length)) draws fams

/-- C20: `Tournament::new(n)` plays one round for each partner of `n` pairs; `partners_count` and `rounds_count` change one
of the two numbers each, in any order. -/
theorem C20_built (R : Rng σ) (n k r : Nat) :
    Plays (T := T) n 2 1 R (.new n) ∧ Plays (T := T) n k 1 R ((Tournament.new n).withPartners k) ∧
    Plays (T := T) n 2 r R ((Tournament.new n).withRounds r) ∧
    Plays (T := T) n k r R (((Tournament.new n).withPartners k).withRounds r) ∧
    Plays (T := T) n k r R (((Tournament.new n).withRounds r).withPartners k) :=
  ⟨fun p h s => C20_tournament R (.new n) p h s, fun p h s => C20_tournament R ((Tournament.new n).withPartners k) p h s,
    fun p h s => C20_tournament R ((Tournament.new n).withRounds r) p h s,
    fun p h s => C20_tournament R (((Tournament.new n).withPartners k).withRounds r) p h s,
    fun p h s => C20_tournament R (((Tournament.new n).withRounds r).withPartners k) p h s⟩

/-- Three challengers: of the draws 1, 3, 0 the individual 3 has the smallest fitness. A NaN drawn
first wins against everything. -/
example : M.okAnd (tournament Rng.script ⟨1, 2, 2⟩
    (⟨[⟨(), Fl.ofNat 4, true⟩, ⟨(), Fl.ofNat 3, true⟩, ⟨(), Fl.nan, true⟩, ⟨(), Fl.one, true⟩], none, none, 0⟩ :
      Population Unit) [1, 3, 0, 2, 3, 0])
    (fun fams _ => fams == [[3, 2]]) = true := by decide +kernel

/-! ## C21 -/

/-- C21: both pairings panic on an empty population. -/
theorem C21_random (R : Rng σ) (p : Population T) (h : p.individuals = []) (s : σ) :
    randomPairing R p s = .error .range := by
  unfold randomPairing uniformCheck Population.len
  rw [h]; rfl

/-- C21: Tournament panics on a population without individuals. -/
theorem C21_tournament (R : Rng σ) (t : Tournament) (p : Population T) (h : p.individuals = []) (s : σ) :
    tournament R t p s = .error .range := by
  unfold tournament uniformCheck Population.len
  rw [h]; rfl

/-- C21: a genetic optimizer (with any pairing that panics on empty populations) that stands at an extinct
population and whose stop checker answers "go on" panics. -/
theorem C21_extinct (c : GA.Comps σ T) (e : Err)
    (hpair : ∀ p : Population T, p.individuals = [] → ∀ s, c.pairing p s = .error e)
    (p : Population T) (h : p.individuals = []) (w : World σ T) (s' : σ)
    (hstop : c.stop p.state w.user = .ok (false, s')) (fuel : Nat) :
    GA.loop c (fuel + 1) p w = .error e := by
  unfold GA.loop
  rw [M.bind_eq_error]; right
  refine ⟨false, ⟨s', w.trace⟩, World.lift_eq_ok.2 ⟨hstop, rfl⟩, ?_⟩
  rw [M.bind_eq_error]; right
  refine ⟨(), ⟨s', w.trace ++ [.check p.state false]⟩, World.emit_eq_ok.2 ⟨rfl, rfl⟩, ?_⟩
  simp only [Bool.false_eq_true, if_false]
  rw [M.bind_eq_error]; left
  unfold GA.step
  rw [M.bind_eq_error]; left
  unfold GA.runPairing
  rw [M.bind_eq_error]; left
  unfold World.lift
  rw [hpair p h]

/-- A whole run that dies out and panics: the goal is NaN everywhere, `KillFitnessNaN` empties the population in
the first generation, and the second one panics in the pairing. -/
theorem C21_run_witness : (match GA.findMin 10 (GA.new (σ := List Nat) (T := Unit) (fun _ => pure Fl.nan)
      (fun st => pure (decide (5 ≤ st.iteration))) (pure [(), ()])
      (randomPairing Rng.script) (fun _ => pure [()]) pure [Selection.killFitnessNaN] []) ⟨[], []⟩ with
    | .ok _ => false | .error e => decide (e = .range)) = true := by decide +kernel

end Verif.Props
