import Verif.Proofs.RankLib
import Verif.Proofs.RankSwarm
import Verif.Spec.Trace
import Verif.Props.Demo

/-!
# C98: only the order of the goal values matters; C99: chromosomes are opaque
-/

namespace Verif.Props

open Verif Spec Spec.Rank

variable {σ T U α : Type} {H : T → U → Prop} {Q : F64 → F64 → Prop}

/-- C98 (genetic): two optimizers with the same components, except that their goal functions return different values which are
ordered in the same way, and any history of calls with the same random numbers. Both panic in the same way or both return. Then they
have evaluated, paired, crossed, mutated and killed the same individuals, return the same points, and have the same population. -/
theorem C98_genetic (hQ : SameOrder Q) {o o' : GA.Opt σ T} (ho : GeneticOpt Eq Q o o') {ks ks' : List (GA.Call σ T)}
    (hk : List.Forall₂ (GeneticCall Eq Q) ks ks') {w w' : World σ T} (hw : Worlds Eq Q w w') :
    Outcome (Worlds Eq Q) (fun r r' => List.Forall₂ (Returned Eq Q) r.1 r'.1 ∧ GeneticOpt Eq Q r.2 r'.2)
      (GA.run o ks w) (GA.run o' ks' w') := Rank.run hQ hk ho w w' hw

/-- C98 (swarm): the same for the swarm optimizer; the positions, velocities and personal bests are the same on both sides. -/
theorem C98_swarm [FloatT α] (hQ : SameOrder Q) {o o' : PSO.Opt σ α} (ho : SwarmOpt Eq Eq Q o o') {ks ks' : List (PSO.Call σ α)}
    (hk : List.Forall₂ (SwarmCall Eq Eq Q) ks ks') {w w' : World σ (List α)} (hw : Worlds Eq Q w w') :
    Outcome (Worlds Eq Q) (fun r r' => List.Forall₂ (Returned Eq Q) r.1 r'.1 ∧ SwarmOpt Eq Eq Q r.2 r'.2)
      (PSO.run o ks w) (PSO.run o' ks' w') := RankPSO.run RankPSO.moves_eq hQ hk ho w w' hw

/-- C98: the library's pairing methods pair the same individuals, and its selections kill the same ones. -/
theorem C98_components (hQ : SameOrder Q) (R : Rng σ) (t : Pairing.Tournament) (n : Nat) :
    Pairings H Q (Pairing.randomPairing R) (Pairing.randomPairing R) ∧
    Pairings H Q (Pairing.tournament R t) (Pairing.tournament R t) ∧
    Selections (σ := σ) H Q Selection.killFitnessNaN Selection.killFitnessNaN ∧
    Selections (σ := σ) H Q (Selection.limitPopulation n) (Selection.limitPopulation n) :=
  ⟨Rank.randomPairing R, Rank.tournament hQ R t, Rank.killFitnessNaN hQ, Rank.limitPopulation hQ n⟩

/-- C98: the interval checks do not look at goal values. -/
theorem C98_intervals [FloatT α] (ivs : List (α × α)) :
    Selections (σ := σ) Eq Q (Selection.checkChromoInterval ivs) (Selection.checkChromoInterval ivs) ∧
    PreBirths (σ := σ) Eq Q (Selection.preBirthInterval ivs) (Selection.preBirthInterval ivs) :=
  ⟨Rank.checkChromoInterval ivs, Rank.preBirthInterval ivs⟩

/-- C98: all velocity calculators -/
theorem C98_velocities [FloatT α] (hQ : SameOrder Q) (R : Rng σ) (phiP phiG : α) (w : Nat → M σ α) (c : Velocity.Canonical α)
    (d : Velocity.NegReinf α) :
    Calcs Eq Eq Q (Velocity.classic R phiP phiG) (Velocity.classic R phiP phiG) ∧
    Calcs Eq Eq Q (Velocity.canonical R c) (Velocity.canonical R c) ∧
    Calcs Eq Eq Q (Velocity.inertia R phiP phiG w) (Velocity.inertia R phiP phiG w) ∧
    Calcs Eq Eq Q (Velocity.negReinf R d) (Velocity.negReinf R d) :=
  ⟨RankPSO.classic R phiP phiG, RankPSO.canonical R c, RankPSO.inertia R phiP phiG w, RankPSO.negReinf hQ R d⟩

/-- C98: of the stop checkers MaxIterations, and Threshold if it is moved along with the values; also inside composite checkers. -/
theorem C98_stop_checkers (n : Nat) (t t' : F64) (ht : ∀ v v', Q v v' → v'.le t' = v.le t) (cs : List (AlgState T → M σ Bool))
    (cs' : List (AlgState U → M σ Bool)) (hc : List.Forall₂ (Stops H Q) cs cs') :
    Stops (σ := σ) H Q (Stop.maxIterations n) (Stop.maxIterations n) ∧
    Stops (σ := σ) H Q (Stop.threshold t) (Stop.threshold t') ∧
    Stops H Q (Stop.any cs) (Stop.any cs') ∧ Stops H Q (Stop.all cs) (Stop.all cs') :=
  ⟨Rank.maxIterations n, Rank.threshold ht, Rank.any hc, Rank.all hc⟩

/-! ### The same for goal functions without a state of their own -/

/-- The pairs of values of two functions at the same points. -/
def ValuesOf (f f' : T → F64) (v v' : F64) : Prop := ∃ x, v = f x ∧ v' = f' x

theorem sameOrder {f f' : T → F64} (h : RankAlike f f') : SameOrder (ValuesOf f f') where
  finite := by rintro _ _ ⟨x, rfl, rfl⟩; exact h.1 x
  nan := by rintro _ _ ⟨x, rfl, rfl⟩; exact h.2.1 x
  lt := by rintro _ _ _ _ ⟨x, rfl, rfl⟩ ⟨y, rfl, rfl⟩; exact h.2.2 x y

theorem goalArgs_alike {tr tr' : List (Ev T)} (h : List.Forall₂ (Event Eq Q Eq) tr tr') : goalArgs tr = goalArgs tr' := by
  unfold goalArgs
  induction h with
  | nil => rfl
  | cons h _ ih =>
    cases h with
    | goal hx _ =>
      subst hx
      simp only [List.filterMap_cons]
      rw [ih]
    | _ => rw [List.filterMap_cons_none rfl, List.filterMap_cons_none rfl, ih]

theorem points_alike {r r' : Option (Solution T)} (h : Option.Rel (Sol Eq Q) r r') : r.map Prod.fst = r'.map Prod.fst := by
  cases h with
  | none => rfl
  | some h => exact congrArg some h.1

/-- C98 (genetic, library): find_min of a new optimizer with tournaments, KillFitnessNaN, LimitPopulation, the pre-birth interval check
and MaxIterations, whatever creator, crossing and mutation it has, on two goal functions that rank the points in the same way: with the
same random numbers both panic in the same way, or both return the same point, having evaluated the same points in the same order. -/
theorem C98_genetic_find_min [FloatT α] (f f' : List α → F64) (h : RankAlike f f') (creator : M σ (List (List α))) (R : Rng σ)
    (t : Pairing.Tournament) (cross : List (List α) → M σ (List (List α))) (mutation : List α → M σ (List α)) (n m fuel : Nat)
    (ivs : List (α × α)) (s : σ) :
    Outcome (fun w w' => w.user = w'.user ∧ goalArgs w.trace = goalArgs w'.trace) (fun r r' => r.1.map Prod.fst = r'.1.map Prod.fst)
      (GA.findMin fuel (GA.new (fun x => pure (f x)) (Stop.maxIterations m) creator (Pairing.tournament R t) cross mutation
        [Selection.killFitnessNaN, Selection.limitPopulation n] [Selection.preBirthInterval ivs]) ⟨s, []⟩)
      (GA.findMin fuel (GA.new (fun x => pure (f' x)) (Stop.maxIterations m) creator (Pairing.tournament R t) cross mutation
        [Selection.killFitnessNaN, Selection.limitPopulation n] [Selection.preBirthInterval ivs]) ⟨s, []⟩) := by
  have hQ := sameOrder h
  have hc : Genetic Eq (ValuesOf f f') (GA.new (fun x => pure (f x)) (Stop.maxIterations m) creator (Pairing.tournament R t) cross
      mutation [Selection.killFitnessNaN, Selection.limitPopulation n] [Selection.preBirthInterval ivs]).comps
      (GA.new (fun x => pure (f' x)) (Stop.maxIterations m) creator (Pairing.tournament R t) cross mutation
        [Selection.killFitnessNaN, Selection.limitPopulation n] [Selection.preBirthInterval ivs]).comps := by
    refine ⟨?_, Rank.maxIterations m, Rank.refl_list _, Rank.tournament hQ R t, ?_, ?_,
      .cons (Rank.killFitnessNaN hQ) (.cons (Rank.limitPopulation hQ n) .nil), .cons (Rank.preBirthInterval ivs) .nil, .nil⟩
    · rintro x _ rfl
      exact Rank.pure ⟨x, rfl, rfl⟩
    · intro xs ys hx
      obtain rfl : xs = ys := List.forall₂_eq_eq_eq ▸ hx
      exact Rank.refl_list _
    · rintro x _ rfl
      exact Rank.refl _
  have key := Rank.findMin hQ fuel ⟨hc, ⟨.nil, .none, .none, rfl⟩⟩ (⟨s, []⟩ : World σ (List α)) ⟨s, []⟩ ⟨rfl, .nil⟩
  revert key
  generalize GA.findMin fuel _ _ = x
  generalize GA.findMin fuel _ _ = y
  intro key
  cases x with
  | error e =>
    cases y with
    | error e' => exact key
    | ok r => exact key
  | ok r =>
    cases y with
    | error e' => exact key
    | ok r' => exact ⟨points_alike key.1.1, key.2.1, goalArgs_alike key.2.2⟩

/-- C98 (swarm, library): find_min of a new swarm with any initializers and the canonical velocity calculator and MaxIterations, on two goal
functions that rank the points in the same way. -/
theorem C98_swarm_find_min [FloatT α] (f f' : List α → F64) (h : RankAlike f f') (coordInit velInit : M σ (List (List α))) (R : Rng σ)
    (c : Velocity.Canonical α) (m fuel : Nat) (s : σ) :
    Outcome (fun w w' => w.user = w'.user ∧ goalArgs w.trace = goalArgs w'.trace) (fun r r' => r.1.map Prod.fst = r'.1.map Prod.fst)
      (PSO.findMin fuel (PSO.new (fun x => pure (f x)) (Stop.maxIterations m) coordInit velInit (Velocity.canonical R c)) ⟨s, []⟩)
      (PSO.findMin fuel (PSO.new (fun x => pure (f' x)) (Stop.maxIterations m) coordInit velInit (Velocity.canonical R c)) ⟨s, []⟩) := by
  have hQ := sameOrder h
  have hc : Spec.Rank.Swarm Eq Eq (ValuesOf f f')
      (PSO.new (fun x => pure (f x)) (Stop.maxIterations m) coordInit velInit (Velocity.canonical R c)).comps
      (PSO.new (fun x => pure (f' x)) (Stop.maxIterations m) coordInit velInit (Velocity.canonical R c)).comps :=
    ⟨by rintro x _ rfl; exact Rank.pure ⟨x, rfl, rfl⟩, Rank.maxIterations m, Rank.refl_list _, Rank.refl_list _, RankPSO.canonical R c,
      RankPSO.hooks_eq _, RankPSO.hooks_eq _, .nil⟩
  have key := RankPSO.findMin (α := α) RankPSO.moves_eq hQ fuel ⟨hc, ⟨.nil, .none, .none, rfl⟩⟩ (⟨s, []⟩ : World σ (List α)) ⟨s, []⟩ ⟨rfl, .nil⟩
  revert key
  generalize PSO.findMin (α := α) fuel _ _ = x
  generalize PSO.findMin (α := α) fuel _ _ = y
  intro key
  cases x with
  | error e =>
    cases y with
    | error e' => exact key
    | ok r => exact key
  | ok r =>
    cases y with
    | error e' => exact key
    | ok r' => exact ⟨points_alike key.1.1, key.2.1, goalArgs_alike key.2.2⟩

/-- Points with a paraboloid value below 3/2 have the goal value `v`, the others `u`. -/
def nearGoal (v u : F64) (x : List F64) : F64 := if (TestFunc.paraboloid x).lt (Fl.ofRat false 3 2) then v else u

theorem nearGoal_alike : RankAlike (nearGoal Fl.zero Fl.one) (nearGoal (Fl.ofRat true 5 1) (Fl.ofNat 700)) := by
  refine ⟨fun x => ?_, fun x => ?_, fun x y => ?_⟩
  · unfold nearGoal; split <;> decide +kernel
  · unfold nearGoal; split <;> decide +kernel
  · unfold nearGoal; split <;> split <;> decide +kernel

/-- The demo optimizer with another goal function. -/
def demoWith (f : List F64 → F64) : GA.Opt (List Nat) (List F64) :=
  GA.new (fun x => pure (f x)) (Stop.maxIterations 2)
    (Creation.RandomCreator.create Rng.script ⟨4, Demo.ivs⟩)
    (Pairing.tournament Rng.script (Pairing.Tournament.new 2))
    (Cross.vecCrossAllGenes Cross.crossMean)
    (Mutation.vec Rng.script (Fl.zero) (fun x => pure x))
    [Selection.killFitnessNaN, Selection.limitPopulation 4]
    [Selection.preBirthInterval Demo.ivs]

/-- Two runs that rank the points in the same way: two generations, both kinds of points are met, and the best values are 0 and -5. -/
example : RankAlike (nearGoal Fl.zero Fl.one) (nearGoal (Fl.ofRat true 5 1) (Fl.ofNat 700)) ∧
    M.okAnd (GA.findMin 3 (demoWith (nearGoal Fl.zero Fl.one)) Demo.world) (fun r w =>
      r.2.pop.iteration == 2 && r.1.map Prod.snd == some Fl.zero && (goalArgs w.trace).contains [Fl.ofNat 10]) = true ∧
    M.okAnd (GA.findMin 3 (demoWith (nearGoal (Fl.ofRat true 5 1) (Fl.ofNat 700))) Demo.world) (fun r _ =>
      r.2.pop.iteration == 2 && r.1.map Prod.snd == some (Fl.ofRat true 5 1)) = true :=
  ⟨nearGoal_alike, by decide +kernel, by decide +kernel⟩

/-! ### Stop checkers that look at more than the order -/

/-- Points below 2 have the goal value `v`, the others 0. -/
def stepGoal (v : F64) (x : Nat) : F64 := if x < 2 then v else Fl.zero

/-- 1 and 2^-40 are both greater than 0. -/
theorem stepGoal_alike : RankAlike (stepGoal Fl.one) (stepGoal (Fl.ofRat false 1 (2 ^ 40))) := by
  refine ⟨fun x => ?_, fun x => ?_, fun x y => ?_⟩
  · unfold stepGoal; split <;> decide +kernel
  · unfold stepGoal; split <;> decide +kernel
  · unfold stepGoal; split <;> split <;> decide +kernel

/-- A search in which the child is one more than its parent, and only the best individual survives. -/
def climber {τ : Type} (stop : AlgState Nat → M τ Bool) (v : F64) : GA.Opt τ Nat :=
  GA.new (fun x => pure (stepGoal v x)) stop (pure [0]) (fun p => pure [[p.len - 1]]) (fun xs => pure [xs.foldl (· + ·) 0])
    (fun x => pure (x + 1)) [fun p => pure { p with individuals := p.individuals.drop 1 }] []

/-- C98, GoalNotChange is not among these stop checkers: a delta of 1/1000 on goal values that rank the points in the same way, 1 and 0
or 2^-40 and 0; the first search makes 4 generations, the second one 3. -/
theorem C98_goalNotChange_witness : RankAlike (stepGoal Fl.one) (stepGoal (Fl.ofRat false 1 (2 ^ 40))) ∧
    M.okAnd (GA.findMin 10 (climber (Stop.goalNotChange .debug) Fl.one) ⟨Stop.GNC.new 1 (Fl.ofRat false 1 1000), []⟩)
      (fun r _ => r.2.pop.iteration == 4) = true ∧
    M.okAnd (GA.findMin 10 (climber (Stop.goalNotChange .debug) (Fl.ofRat false 1 (2 ^ 40)))
      ⟨Stop.GNC.new 1 (Fl.ofRat false 1 1000), []⟩) (fun r _ => r.2.pop.iteration == 3) = true :=
  ⟨stepGoal_alike, by decide +kernel, by decide +kernel⟩

/-- C98, a Threshold has to be moved along with the values: at 1/1000 the first search goes on to the second generation, the second one
stops after the first. -/
theorem C98_threshold_witness : RankAlike (stepGoal Fl.one) (stepGoal (Fl.ofRat false 1 (2 ^ 40))) ∧
    M.okAnd (GA.findMin 10 (climber (Stop.threshold (Fl.ofRat false 1 1000)) Fl.one) ⟨(), []⟩)
      (fun r _ => r.2.pop.iteration == 2) = true ∧
    M.okAnd (GA.findMin 10 (climber (Stop.threshold (Fl.ofRat false 1 1000)) (Fl.ofRat false 1 (2 ^ 40))) ⟨(), []⟩)
      (fun r _ => r.2.pop.iteration == 1) = true :=
  ⟨stepGoal_alike, by decide +kernel, by decide +kernel⟩

/-! ### C99 -/

theorem sameOrder_eq : SameOrder Eq where
  finite := by rintro _ _ rfl; rfl
  nan := by rintro _ _ rfl; rfl
  lt := by rintro _ _ _ _ rfl rfl; rfl

/-- C99: take two genetic optimizers over different types of chromosomes, and let `H` say which chromosomes of the two correspond. If
creator, goal, crossing, mutation and pre-births of the second one do to corresponding chromosomes what those of the first one do, then
with the same random numbers all that happens in a history of calls corresponds, and so do the results. -/
theorem C99_representation {o : GA.Opt σ T} {o' : GA.Opt σ U} (ho : GeneticOpt H Eq o o') {ks : List (GA.Call σ T)}
    {ks' : List (GA.Call σ U)} (hk : List.Forall₂ (GeneticCall H Eq) ks ks') {w : World σ T} {w' : World σ U} (hw : Worlds H Eq w w') :
    Outcome (Worlds H Eq) (fun r r' => List.Forall₂ (Returned H Eq) r.1 r'.1 ∧ GeneticOpt H Eq r.2 r'.2)
      (GA.run o ks w) (GA.run o' ks' w') :=
  Rank.run sameOrder_eq hk ho w w' hw

/-- The climbing search again, on integers. -/
def climberInt {τ : Type} (stop : AlgState Int → M τ Bool) (v : F64) : GA.Opt τ Int :=
  GA.new (fun x => pure (if x < 2 then v else Fl.zero)) stop (pure [0]) (fun p => pure [[p.len - 1]])
    (fun xs => pure [xs.foldl (· + ·) 0]) (fun x => pure (1 + x))
    [fun p => pure { p with individuals := p.individuals.drop 1 }] []

/-- A natural number stands for the integer equal to it. -/
def SameNumber (n : Nat) (i : Int) : Prop := i = n

theorem sum_alike {xs : List Nat} {ys : List Int} (h : List.Forall₂ SameNumber xs ys) :
    ∀ a : Nat, ys.foldl (· + ·) (a : Int) = ((xs.foldl (· + ·) a : Nat) : Int) := by
  induction h with
  | nil => exact fun _ => rfl
  | @cons x y _ _ h1 _ ih =>
    intro a
    have h1 : y = x := h1
    subst h1
    exact_mod_cast ih (a + x)

/-- The searches on natural numbers and on integers correspond to each other. -/
theorem climbers (m : Nat) (v : F64) :
    GeneticOpt (σ := Unit) SameNumber Eq (climber (Stop.maxIterations m) v) (climberInt (Stop.maxIterations m) v) := by
  refine ⟨⟨?_, Rank.maxIterations m, Rank.pure (.cons rfl .nil), ?_, ?_, ?_, .cons ?_ .nil, .nil, .nil⟩, ⟨.nil, .none, .none, rfl⟩⟩
  · intro x y (h : y = x)
    refine Rank.pure ?_
    unfold stepGoal
    subst h
    by_cases h2 : x < 2
    · rw [if_pos h2, if_pos (by omega)]
    · rw [if_neg h2, if_neg (by omega)]
  · intro p p' h
    show pure [[p.individuals.length - 1]] = pure [[p'.individuals.length - 1]]
    rw [h.individuals.length_eq]
  · intro xs ys h
    exact Rank.pure (.cons (sum_alike h 0) .nil)
  · intro x y (h : y = x)
    refine Rank.pure ?_
    show 1 + y = ((x + 1 : Nat) : Int)
    rw [h]; push_cast; ring
  · intro p p' h
    refine Rank.pure ⟨?_, h.best, h.worst, h.iteration⟩
    have := h.individuals
    revert this
    generalize p.individuals = l
    generalize p'.individuals = l'
    rintro (_ | ⟨_, h⟩)
    · exact .nil
    · exact h

/-- An instance of C99: the two searches find the same number. -/
example (m fuel : Nat) (v : F64) :
    Outcome (Worlds SameNumber Eq) (fun r r' => List.Forall₂ (Returned SameNumber Eq) r.1 r'.1 ∧ GeneticOpt SameNumber Eq r.2 r'.2)
      (GA.run (climber (Stop.maxIterations m) v) [.findMin fuel] ⟨(), []⟩)
      (GA.run (climberInt (Stop.maxIterations m) v) [.findMin fuel] ⟨(), []⟩) :=
  C99_representation (climbers m v) (.cons (.findMin fuel) .nil) ⟨rfl, .nil⟩

/-- After three generations this is 3. -/
example : M.okAnd (GA.findMin 10 (climber (Stop.maxIterations 3) Fl.one) ⟨(), []⟩) (fun r _ => r.1.map Prod.fst == some 3) = true ∧
    M.okAnd (GA.findMin 10 (climberInt (Stop.maxIterations 3) Fl.one) ⟨(), []⟩) (fun r _ => r.1.map Prod.fst == some 3) = true := by
  decide +kernel

end Verif.Props
