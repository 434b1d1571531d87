import Verif.Proofs.Rank
import Verif.Model.Selection
import Verif.Model.Pairing
import Verif.Model.StopChecker
import Verif.Model.Velocity

/-!
# Library components look at nothing but the order of the goal values
-/

namespace Verif.Rank

open Verif Spec.Rank Selection

variable {σ T U W V α β γ δ : Type} {H : T → U → Prop} {Q : F64 → F64 → Prop}

theorem eq_of_alike {m m' : M σ α} (h : Alike Eq Eq m m') : m = m' := by
  funext s
  have := h s s rfl
  cases h1 : m s with
  | error e =>
    cases h2 : m' s with
    | error e' => rw [h1, h2] at this; exact congrArg _ this
    | ok r => rw [h1, h2] at this; exact this.elim
  | ok r =>
    cases h2 : m' s with
    | error e' => rw [h1, h2] at this; exact this.elim
    | ok r' =>
      rw [h1, h2] at this
      obtain ⟨a, w⟩ := r
      obtain ⟨b, v⟩ := r'
      obtain ⟨rfl, rfl⟩ := this
      rfl

/-- The same beginning. -/
theorem same {Q' : γ → δ → Prop} (m : M σ α) {f : α → M σ γ} {g : α → M σ δ} (hf : ∀ a, Alike Eq Q' (f a) (g a)) :
    Alike Eq Q' (m >>= f) (m >>= g) := bind (refl m) fun a _ h => h ▸ hf a

theorem len_eq {p : Population T} {p' : Population U} (hp : Pop H Q p p') : p.len = p'.len := hp.individuals.length_eq

/-! ## Pairing -/

theorem randomPairing (R : Rng σ) : Pairings H Q (Pairing.randomPairing R) (Pairing.randomPairing R) := by
  intro p p' hp
  unfold Pairing.randomPairing
  rw [len_eq hp]

theorem rounds (hQ : SameOrder Q) (R : Rng σ) {p : Population T} {p' : Population U} (hp : Pop H Q p p') :
    ∀ n best, Alike Eq Eq (Pairing.rounds R p n best) (Pairing.rounds R p' n best) := by
  intro n
  induction n with
  | zero => intro best; exact pure rfl
  | succ n ih =>
    intro best
    unfold Pairing.rounds
    rw [len_eq hp]
    refine same _ fun k => bind (index hp.individuals k) fun c c' hc => bind (index hp.individuals best) fun b b' hb => ?_
    rw [hQ.lt _ _ _ _ hc.2.1 hb.2.1]
    exact ih _

theorem tournament (hQ : SameOrder Q) (R : Rng σ) (t : Pairing.Tournament) :
    Pairings H Q (Pairing.tournament R t) (Pairing.tournament R t) := by
  intro p p' hp
  unfold Pairing.tournament
  rw [len_eq hp]
  have : (fun first => Pairing.rounds R p t.roundsCount first) = fun first => Pairing.rounds R p' t.roundsCount first :=
    funext fun k => eq_of_alike (rounds hQ R hp _ k)
  rw [this]

/-! ## Selection -/

theorem ind_kill {i : Individual T} {j : Individual U} (h : Ind H Q i j) : Ind H Q i.kill j.kill := ⟨h.1, h.2.1, rfl⟩

theorem pop_with {p : Population T} {p' : Population U} (hp : Pop H Q p p') {l : List (Individual T)} {l' : List (Individual U)}
    (h : List.Forall₂ (Ind H Q) l l') : Pop H Q { p with individuals := l } { p' with individuals := l' } :=
  ⟨h, hp.best, hp.worst, hp.iteration⟩

theorem killFitnessNaN (hQ : SameOrder Q) : Selections (σ := σ) H Q Selection.killFitnessNaN Selection.killFitnessNaN := by
  intro p p' hp
  refine pure (pop_with hp (forall₂_map ?_ hp.individuals))
  intro i j h
  rw [hQ.finite _ _ h.2.1]
  split
  · exact ind_kill h
  · exact h

/-- The variables of `kill_worst` on the two sides -/
def SameKW (Q : F64 → F64 → Prop) (s s' : KW) : Prop :=
  s.killList = s'.killList ∧ s.bestIndex = s'.bestIndex ∧ Q s.bestFitness s'.bestFitness

theorem findBest (hQ : SameOrder Q) {p : Population T} {p' : Population U} (hp : Pop H Q p p') (kl : List Nat) :
    ∀ ms bi {bf bf' : F64}, Q bf bf' → Alike (W := σ) Eq (fun a b => a.1 = b.1 ∧ Q a.2 b.2)
      (Selection.findBest p kl ms bi bf) (Selection.findBest p' kl ms bi bf') := by
  intro ms
  induction ms with
  | nil => intro bi bf bf' h; exact pure ⟨rfl, h⟩
  | cons m ms ih =>
    intro bi bf bf' h
    unfold Selection.findBest
    refine same _ fun j => bind (index hp.individuals j) fun i i' hi => ?_
    rw [hQ.lt _ _ _ _ hi.2.1 h]
    split
    · exact ih _ hi.2.1
    · exact ih _ h

theorem kwStep (hQ : SameOrder Q) {p : Population T} {p' : Population U} (hp : Pop H Q p p') (count : Nat) {s s' : KW}
    (hs : SameKW Q s s') (n : Nat) :
    Alike (W := σ) Eq (SameKW Q) (Selection.kwStep p count s n) (Selection.kwStep p' count s' n) := by
  obtain ⟨kl, bi, bf⟩ := s
  obtain ⟨kl', bi', bf'⟩ := s'
  obtain ⟨h1, h2, h3⟩ := hs
  obtain rfl : kl = kl' := h1
  obtain rfl : bi = bi' := h2
  unfold Selection.kwStep
  refine bind (index hp.individuals n) fun i i' hi => ?_
  rw [hi.2.2, hQ.lt _ _ _ _ hi.2.1 h3, hQ.lt _ _ _ _ h3 hi.2.1]
  split
  · exact pure ⟨rfl, rfl, h3⟩
  split
  · dsimp only
    split
    · exact pure ⟨rfl, rfl, h3⟩
    · exact pure ⟨rfl, rfl, h3⟩
  split
  · refine same _ fun _ => same _ fun j => bind (index hp.individuals j) fun i0 i0' h0 => ?_
    refine bind (findBest hQ hp _ _ _ h0.2.1) ?_
    rintro ⟨a, b⟩ ⟨a', b'⟩ ⟨e1, e2⟩
    obtain rfl : a = a' := e1
    exact pure ⟨rfl, rfl, e2⟩
  · exact pure ⟨rfl, rfl, h3⟩

theorem forall₂_set {R : α → β → Prop} {as : List α} {bs : List β} (h : List.Forall₂ R as bs) (n : Nat) {a : α} {b : β}
    (hab : R a b) : List.Forall₂ R (as.set n a) (bs.set n b) := by
  induction h generalizing n with
  | nil => exact .nil
  | cons h1 h2 ih =>
    cases n with
    | zero => exact .cons hab h2
    | succ n => exact .cons h1 (ih n)

theorem killWorst (hQ : SameOrder Q) (count : Nat) {p : Population T} {p' : Population U} (hp : Pop H Q p p') :
    Alike (W := σ) Eq (Pop H Q) (Selection.killWorst p count) (Selection.killWorst p' count) := by
  unfold Selection.killWorst
  rw [len_eq hp]
  refine bind (index hp.individuals 0) fun i0 i0' h0 => ?_
  refine bind (Q := SameKW Q) (foldL (Q := Eq) (Q' := SameKW Q) ?_ (forall₂_eq _) ⟨rfl, rfl, h0.2.1⟩) ?_
  · rintro s s' n _ hs rfl
    exact kwStep hQ hp count hs n
  · rintro ⟨kl, bi, bf⟩ ⟨kl', bi', bf'⟩ ⟨h1, -, -⟩
    obtain rfl : kl = kl' := h1
    refine foldL (Q := Eq) (Q' := Pop H Q) ?_ (forall₂_eq _) hp
    rintro q q' n _ hq rfl
    exact bind (index hq.individuals n) fun i i' hi => pure (pop_with hq (forall₂_set hq.individuals n (ind_kill hi)))

theorem lenAlive_eq {p : Population T} {p' : Population U} (hp : Pop H Q p p') : p.lenAlive = p'.lenAlive :=
  (removeDead hp).individuals.length_eq

theorem limitPopulation (hQ : SameOrder Q) (n : Nat) :
    Selections (σ := σ) H Q (Selection.limitPopulation n) (Selection.limitPopulation n) := by
  intro p p' hp
  unfold Selection.limitPopulation
  simp only [lenAlive_eq hp]
  split
  · exact killWorst hQ _ hp
  · exact pure hp

theorem checkChromoInterval [FloatT α] (ivs : List (α × α)) :
    Selections (σ := σ) Eq Q (Selection.checkChromoInterval ivs) (Selection.checkChromoInterval ivs) := by
  intro p p' hp
  refine bind (Q := List.Forall₂ (Ind Eq Q)) (mapL ?_ hp.individuals) fun l l' h => pure (pop_with hp h)
  intro i i' hi
  rw [show i.chromosomes = i'.chromosomes from hi.1]
  refine same _ fun _ => pure ?_
  split
  · exact ind_kill hi
  · exact hi

theorem preBirthInterval [FloatT α] (ivs : List (α × α)) :
    PreBirths (σ := σ) Eq Q (Selection.preBirthInterval ivs) (Selection.preBirthInterval ivs) := by
  intro p p' xs ys _ h
  obtain rfl : xs = ys := List.forall₂_eq_eq_eq ▸ h
  exact refl_list _

/-! ## Stop checkers -/

theorem maxIterations (n : Nat) : Stops (σ := σ) H Q (Stop.maxIterations n) (Stop.maxIterations n) := by
  intro s s' h
  unfold Stop.maxIterations
  rw [h.2]

theorem threshold {t t' : F64} (ht : ∀ v v', Q v v' → v'.le t' = v.le t) :
    Stops (σ := σ) H Q (Stop.threshold t) (Stop.threshold t') := by
  rintro ⟨b, n⟩ ⟨b', n'⟩ ⟨h, -⟩
  unfold Stop.threshold
  have h' : Option.Rel (Sol H Q) b b' := h
  cases h' with
  | none => rfl
  | some h1 => exact congrArg _ (ht _ _ h1.2).symm

theorem any {cs : List (AlgState T → M σ Bool)} {cs' : List (AlgState U → M σ Bool)} (h : List.Forall₂ (Stops H Q) cs cs') :
    Stops H Q (Stop.any cs) (Stop.any cs') := by
  intro s s' hs
  induction h with
  | nil => rfl
  | cons h1 _ ih => simp only [Stop.any, h1 s s' hs, ih]

theorem all {cs : List (AlgState T → M σ Bool)} {cs' : List (AlgState U → M σ Bool)} (h : List.Forall₂ (Stops H Q) cs cs') :
    Stops H Q (Stop.all cs) (Stop.all cs') := by
  intro s s' hs
  induction h with
  | nil => rfl
  | cons h1 _ ih => simp only [Stop.all, h1 s s' hs, ih]

end Verif.Rank
