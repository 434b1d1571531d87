import Verif.Spec.Rank

/-!
# Optimizers whose goal values are ordered in the same way do the same
-/

namespace Verif.Rank

open Verif Spec.Rank

variable {σ T U W V α β γ δ : Type}

section

variable {R : W → V → Prop}

theorem pure {Q : α → β → Prop} {a : α} {b : β} (h : Q a b) : Alike R Q (pure a) (pure b) := fun _ _ hR => ⟨h, hR⟩

theorem fail {Q : α → β → Prop} (e : Err) : Alike R Q (M.fail e) (M.fail e) := fun _ _ _ => rfl

theorem bind {Q : α → β → Prop} {Q' : γ → δ → Prop} {m : M W α} {m' : M V β} {f : α → M W γ} {g : β → M V δ}
    (hm : Alike R Q m m') (hf : ∀ a b, Q a b → Alike R Q' (f a) (g b)) : Alike R Q' (m >>= f) (m' >>= g) := by
  intro w v hR
  rw [M.bind_run, M.bind_run]
  have := hm w v hR
  cases h1 : m w with
  | error e =>
    cases h2 : m' v with
    | error e' => rw [h1, h2] at this; exact this
    | ok r => rw [h1, h2] at this; exact this.elim
  | ok r =>
    cases h2 : m' v with
    | error e' => rw [h1, h2] at this; exact this.elim
    | ok r' => rw [h1, h2] at this; exact hf _ _ this.1 _ _ this.2

theorem mono {Q Q' : α → β → Prop} {m : M W α} {m' : M V β} (h : Alike R Q m m') (hQ : ∀ a b, Q a b → Q' a b) :
    Alike R Q' m m' := by
  intro w v hR
  have := h w v hR
  cases h1 : m w with
  | error e =>
    cases h2 : m' v with
    | error e' => rw [h1, h2] at this; exact this
    | ok r => rw [h1, h2] at this; exact this.elim
  | ok r =>
    cases h2 : m' v with
    | error e' => rw [h1, h2] at this; exact this.elim
    | ok r' => rw [h1, h2] at this; exact ⟨hQ _ _ this.1, this.2⟩

theorem mapL {Q : α → β → Prop} {Q' : γ → δ → Prop} {f : α → M W γ} {g : β → M V δ}
    (h : ∀ a b, Q a b → Alike R Q' (f a) (g b)) {as : List α} {bs : List β} (hl : List.Forall₂ Q as bs) :
    Alike R (List.Forall₂ Q') (M.mapL f as) (M.mapL g bs) := by
  induction hl with
  | nil => exact pure .nil
  | cons h1 _ ih => exact bind (h _ _ h1) fun _ _ h2 => bind ih fun _ _ h3 => pure (.cons h2 h3)

theorem foldL {Q : α → β → Prop} {Q' : γ → δ → Prop} {f : γ → α → M W γ} {g : δ → β → M V δ}
    (h : ∀ c d a b, Q' c d → Q a b → Alike R Q' (f c a) (g d b)) {as : List α} {bs : List β} (hl : List.Forall₂ Q as bs) :
    ∀ {c d}, Q' c d → Alike R Q' (M.foldL f c as) (M.foldL g d bs) := by
  induction hl with
  | nil => intro c d hc; exact pure hc
  | cons h1 _ ih => intro c d hc; exact bind (h _ _ _ _ hc h1) fun _ _ h2 => ih h2

theorem index {Q : α → β → Prop} {as : List α} {bs : List β} (hl : List.Forall₂ Q as bs) (i : Nat) :
    Alike R Q (M.index as i) (M.index bs i) := by
  induction hl generalizing i with
  | nil => exact fail _
  | cons h1 _ ih =>
    cases i with
    | zero => exact pure h1
    | succ i => exact ih i

theorem unwrap {Q : α → β → Prop} {a : Option α} {b : Option β} (h : Option.Rel Q a b) :
    Alike R Q (M.unwrap a) (M.unwrap b) := by
  cases h with
  | none => exact fail _
  | some h => exact pure h

theorem assert (b : Bool) : Alike R Eq (M.assert b) (M.assert b) := by
  cases b
  · exact fail _
  · exact pure rfl

end

/-- A computation is like itself. -/
theorem refl (m : M σ α) : Alike Eq Eq m m := by
  rintro w _ rfl
  cases m w with
  | error e => rfl
  | ok r => exact ⟨rfl, rfl⟩

theorem forall₂_eq (l : List α) : List.Forall₂ Eq l l := List.forall₂_same.2 fun _ _ => rfl

/-- Equal programs with lists of points -/
theorem refl_list (m : M σ (List α)) : Alike Eq (List.Forall₂ Eq) m m :=
  mono (refl m) fun a _ h => h ▸ forall₂_eq a

theorem forall₂_map {R : α → β → Prop} {S : γ → δ → Prop} {f : α → γ} {g : β → δ} (h : ∀ a b, R a b → S (f a) (g b))
    {as : List α} {bs : List β} (hl : List.Forall₂ R as bs) : List.Forall₂ S (as.map f) (bs.map g) := by
  induction hl with
  | nil => exact .nil
  | cons h1 _ ih => exact .cons (h _ _ h1) ih

theorem rel_map {R : α → β → Prop} {S : γ → δ → Prop} {f : α → γ} {g : β → δ} (h : ∀ a b, R a b → S (f a) (g b))
    {a : Option α} {b : Option β} (hr : Option.Rel R a b) : Option.Rel S (a.map f) (b.map g) := by
  cases hr with
  | none => exact .none
  | some h1 => exact .some (h _ _ h1)

variable {H K : T → U → Prop} {Q : F64 → F64 → Prop}

theorem lift {S : α → β → Prop} {m : M σ α} {m' : M σ β} (h : Alike Eq S m m') :
    Alike (WorldsV H Q K) S (World.lift m) (World.lift m') := by
  rintro ⟨u, t⟩ ⟨u', t'⟩ ⟨hu, ht⟩
  obtain rfl : u = u' := hu
  have := h u u rfl
  unfold World.lift
  simp only
  cases h1 : m u with
  | error e =>
    cases h2 : m' u with
    | error e' => rw [h1, h2] at this; exact this
    | ok r => rw [h1, h2] at this; exact this.elim
  | ok r =>
    cases h2 : m' u with
    | error e' => rw [h1, h2] at this; exact this.elim
    | ok r' => rw [h1, h2] at this; exact ⟨this.1, this.2, ht⟩

/-- The same component. -/
theorem lift_eq {m m' : M σ α} (h : m = m') : Alike (WorldsV H Q K) Eq (World.lift m) (World.lift m') := lift (h ▸ refl m)

theorem emit {e : Ev T} {e' : Ev U} (h : Event H Q K e e') :
    Alike (WorldsV (σ := σ) H Q K) (fun _ _ => True) (World.emit e) (World.emit e') := by
  rintro ⟨u, t⟩ ⟨u', t'⟩ ⟨hu, ht⟩
  exact ⟨trivial, hu, List.rel_append ht (.cons h .nil)⟩

theorem callLoggers (k : LogKind) {s : AlgState T} {s' : AlgState U} (hs : State H Q s s') {ls : List (Logger σ T)}
    {ls' : List (Logger σ U)} (hl : List.Forall₂ (Loggers H Q) ls ls') :
    ∀ i, Alike (WorldsV H Q K) Eq (Verif.callLoggers k s i ls) (Verif.callLoggers k s' i ls') := by
  induction hl with
  | nil => intro i; exact pure rfl
  | cons h _ ih =>
    intro i
    refine bind (Q := Eq) (lift_eq ?_) fun _ _ _ => bind (emit (.log i k hs)) fun _ _ _ => ih _
    cases k
    · exact h.start _ _ hs
    · exact h.resume _ _ hs
    · exact h.next _ _ hs
    · exact h.finish _ _ hs

/-! ## Orders -/

theorem partialCmp_eq (hQ : SameOrder Q) {v v' u u' : F64} (h1 : Q v v') (h2 : Q u u') :
    v'.partialCmp u' = v.partialCmp u := by
  have e1 := hQ.nan _ _ h1
  have e2 := hQ.nan _ _ h2
  have e3 := hQ.lt _ _ _ _ h1 h2
  have e4 := hQ.lt _ _ _ _ h2 h1
  unfold Fl.lt at e3 e4
  unfold Fl.partialCmp
  rw [e1, e2] at *
  cases hn : v.isNan <;> cases hm : u.isNan <;> simp only [hn, hm, Bool.not_false, Bool.not_true, Bool.true_and, Bool.or_false,
    Bool.or_true, decide_eq_decide, ↓reduceIte, Bool.false_and, Bool.false_eq_true] at *
  by_cases a : v.toInt < u.toInt
  · simp [a, e3.2 a]
  · have a' : ¬ v'.toInt < u'.toInt := fun h => a (e3.1 h)
    by_cases b : u.toInt < v.toInt
    · have b' := e4.2 b
      simp [a, a', show ¬ v.toInt = u.toInt by omega, show ¬ v'.toInt = u'.toInt by omega]
    · have b' : ¬ u'.toInt < v'.toInt := fun h => b (e4.1 h)
      simp [show v.toInt = u.toInt by omega, show v'.toInt = u'.toInt by omega]

theorem le_eq (hQ : SameOrder Q) {v v' u u' : F64} (h1 : Q v v') (h2 : Q u u') : v'.le u' = v.le u := by
  have e1 := hQ.nan _ _ h1
  have e2 := hQ.nan _ _ h2
  have e4 := hQ.lt _ _ _ _ h2 h1
  unfold Fl.lt at e4
  unfold Fl.le
  rw [e1, e2] at *
  cases hn : v.isNan <;> cases hm : u.isNan <;> simp only [hn, hm, Bool.not_false, Bool.not_true, Bool.true_and,
    decide_eq_decide, Bool.false_and] at *
  omega

theorem minCmp_eq (hQ : SameOrder Q) {i j : Individual T} {i' j' : Individual U} (h1 : Ind H Q i i') (h2 : Ind H Q j j') :
    (Population.minCmp i' j' : M σ Ordering) = Population.minCmp i j := by
  unfold Population.minCmp
  rw [hQ.nan _ _ h1.2.1, hQ.nan _ _ h2.2.1, partialCmp_eq hQ h1.2.1 h2.2.1]

theorem maxCmp_eq (hQ : SameOrder Q) {i j : Individual T} {i' j' : Individual U} (h1 : Ind H Q i i') (h2 : Ind H Q j j') :
    (Population.maxCmp i' j' : M σ Ordering) = Population.maxCmp i j := by
  unfold Population.maxCmp
  rw [hQ.nan _ _ h1.2.1, hQ.nan _ _ h2.2.1, partialCmp_eq hQ h1.2.1 h2.2.1]

/-! ## Genetic -/

section

variable {R : W → V → Prop}

theorem cmp_alike {m : M W Ordering} {m' : M V Ordering} (e : Except Err Ordering) (h1 : m = M.ofExcept e) (h2 : m' = M.ofExcept e) :
    Alike R Eq m m' := by
  subst h1 h2
  intro w v hR
  cases e with
  | error e => rfl
  | ok o => exact ⟨rfl, hR⟩

theorem minCmp_alike (hQ : SameOrder Q) {i j : Individual T} {i' j' : Individual U} (h1 : Ind H Q i i') (h2 : Ind H Q j j') :
    Alike R Eq (Population.minCmp i j) (Population.minCmp i' j') := by
  rw [minCmp_eq hQ h1 h2]
  unfold Population.minCmp
  split
  · exact pure rfl
  split
  · exact pure rfl
  split
  · exact pure rfl
  cases i.fitness.partialCmp j.fitness with
  | none => exact fail _
  | some o => exact pure rfl

theorem maxCmp_alike (hQ : SameOrder Q) {i j : Individual T} {i' j' : Individual U} (h1 : Ind H Q i i') (h2 : Ind H Q j j') :
    Alike R Eq (Population.maxCmp i j) (Population.maxCmp i' j') := by
  rw [maxCmp_eq hQ h1 h2]
  unfold Population.maxCmp
  split
  · exact pure rfl
  split
  · exact pure rfl
  split
  · exact pure rfl
  cases i.fitness.partialCmp j.fitness with
  | none => exact fail _
  | some o => exact pure rfl

theorem minByLoop_alike {S : α → β → Prop} {cmp : α → α → M W Ordering} {cmp' : β → β → M V Ordering}
    (hc : ∀ a b a' b', S a a' → S b b' → Alike R Eq (cmp a b) (cmp' a' b')) {as : List α} {bs : List β}
    (hl : List.Forall₂ S as bs) : ∀ {a b}, S a b → Alike R S (Population.minByLoop cmp a as) (Population.minByLoop cmp' b bs) := by
  induction hl with
  | nil => intro a b h; exact pure h
  | cons h1 _ ih =>
    intro a b h
    refine bind (Q := Eq) (hc _ _ _ _ h h1) ?_
    rintro o _ rfl
    cases o
    · exact ih h
    · exact ih h
    · exact ih h1

theorem maxByLoop_alike {S : α → β → Prop} {cmp : α → α → M W Ordering} {cmp' : β → β → M V Ordering}
    (hc : ∀ a b a' b', S a a' → S b b' → Alike R Eq (cmp a b) (cmp' a' b')) {as : List α} {bs : List β}
    (hl : List.Forall₂ S as bs) : ∀ {a b}, S a b → Alike R S (Population.maxByLoop cmp a as) (Population.maxByLoop cmp' b bs) := by
  induction hl with
  | nil => intro a b h; exact pure h
  | cons h1 _ ih =>
    intro a b h
    refine bind (Q := Eq) (hc _ _ _ _ h h1) ?_
    rintro o _ rfl
    cases o
    · exact ih h1
    · exact ih h1
    · exact ih h

theorem minBy_alike {S : α → β → Prop} {cmp : α → α → M W Ordering} {cmp' : β → β → M V Ordering}
    (hc : ∀ a b a' b', S a a' → S b b' → Alike R Eq (cmp a b) (cmp' a' b')) {as : List α} {bs : List β}
    (hl : List.Forall₂ S as bs) : Alike R (Option.Rel S) (Population.minBy cmp as) (Population.minBy cmp' bs) := by
  cases hl with
  | nil => exact pure .none
  | cons h1 h2 => exact bind (minByLoop_alike hc h2 h1) fun _ _ h => pure (.some h)

theorem maxBy_alike {S : α → β → Prop} {cmp : α → α → M W Ordering} {cmp' : β → β → M V Ordering}
    (hc : ∀ a b a' b', S a a' → S b b' → Alike R Eq (cmp a b) (cmp' a' b')) {as : List α} {bs : List β}
    (hl : List.Forall₂ S as bs) : Alike R (Option.Rel S) (Population.maxBy cmp as) (Population.maxBy cmp' bs) := by
  cases hl with
  | nil => exact pure .none
  | cons h1 h2 => exact bind (maxByLoop_alike hc h2 h1) fun _ _ h => pure (.some h)

theorem updateBestWorst (hQ : SameOrder Q) {p : Population T} {p' : Population U} (hp : Pop H Q p p') :
    Alike R (Pop H Q) p.updateBestWorst p'.updateBestWorst := by
  refine bind (minBy_alike (fun _ _ _ _ => minCmp_alike hQ) hp.individuals) fun b b' hb => ?_
  refine bind (maxBy_alike (S := Ind H Q) (fun _ _ _ _ => maxCmp_alike hQ) ?_) fun w w' hw => ?_
  · cases hb <;> exact hp.individuals
  · refine pure ?_
    cases hb <;> cases hw <;> constructor <;> first | exact .some ‹_› | exact hp.individuals | exact hp.best | exact hp.worst | exact hp.iteration

end

theorem state {p : Population T} {p' : Population U} (hp : Pop H Q p p') : State H Q p.state p'.state :=
  ⟨rel_map (fun _ _ h => ⟨h.1, h.2.1⟩) hp.best, hp.iteration⟩

theorem agents {p : Population T} {p' : Population U} (hp : Pop H Q p p') :
    List.Forall₂ (Sol H Q) (GA.agents p) (GA.agents p') := forall₂_map (fun _ _ h => ⟨h.1, h.2.1⟩) hp.individuals

theorem flagged {p : Population T} {p' : Population U} (hp : Pop H Q p p') :
    List.Forall₂ (fun a b => Sol H Q a.1 b.1 ∧ a.2 = b.2) (GA.flagged p) (GA.flagged p') :=
  forall₂_map (fun _ _ h => ⟨⟨h.1, h.2.1⟩, h.2.2⟩) hp.individuals

theorem removeDead {p : Population T} {p' : Population U} (hp : Pop H Q p p') : Pop H Q p.removeDead p'.removeDead := by
  refine ⟨?_, hp.best, hp.worst, hp.iteration⟩
  have key : ∀ (l : List (Individual T)) (l' : List (Individual U)), List.Forall₂ (Ind H Q) l l' →
      List.Forall₂ (Ind H Q) (l.filter (·.alive)) (l'.filter (·.alive)) := by
    intro l l' h
    induction h with
    | nil => exact .nil
    | cons h _ ih =>
      rw [List.filter_cons, List.filter_cons, ← h.2.2]
      split
      · exact .cons h ih
      · exact ih
  exact key _ _ hp.individuals

section

variable {c : GA.Comps σ T} {c' : GA.Comps σ U}

theorem push (hc : Genetic H Q c c') {p : Population T} {p' : Population U} (hp : Pop H Q p p') {x : T} {y : U} (hx : H x y) :
    Alike (Worlds H Q) (Pop H Q) (GA.push c p x) (GA.push c' p' y) :=
  bind (lift (hc.goal x y hx)) fun _ _ hv => bind (emit (.goal hx hv)) fun _ _ _ =>
    pure ⟨List.rel_append hp.individuals (.cons ⟨hx, hv, rfl⟩ .nil), hp.best, hp.worst, hp.iteration⟩

theorem append (hc : Genetic H Q c c') {p : Population T} {p' : Population U} (hp : Pop H Q p p') {xs : List T} {ys : List U}
    (hx : List.Forall₂ H xs ys) : Alike (Worlds H Q) (Pop H Q) (GA.append c p xs) (GA.append c' p' ys) :=
  foldL (Q := H) (Q' := Pop H Q) (f := GA.push c) (g := GA.push c') (fun _ _ _ _ hp hx => push hc hp hx) hx hp

theorem runPairing (hc : Genetic H Q c c') {p : Population T} {p' : Population U} (hp : Pop H Q p p') :
    Alike (Worlds H Q) (List.Forall₂ H) (GA.runPairing c p) (GA.runPairing c' p') := by
  refine bind (Q := Eq) (lift_eq (hc.pairing p p' hp)) ?_
  rintro fs _ rfl
  refine bind (emit (.paired fs (agents hp))) fun _ _ _ => ?_
  refine bind (Q := List.Forall₂ (List.Forall₂ H)) (mapL (Q := Eq) ?_ (forall₂_eq fs)) fun _ _ h => pure ?_
  · rintro f _ rfl
    refine bind (Q := List.Forall₂ H) (mapL (Q := Eq) ?_ (forall₂_eq f)) fun _ _ h => ?_
    · rintro i _ rfl
      exact bind (index hp.individuals i) fun _ _ h => pure h.1
    · exact bind (lift (hc.cross _ _ h)) fun _ _ h2 => bind (emit (.crossed h h2)) fun _ _ _ => pure h2
  · induction h with
    | nil => exact .nil
    | cons h1 _ ih => exact List.rel_append h1 ih

theorem mutate (hc : Genetic H Q c c') {xs : List T} {ys : List U} (hx : List.Forall₂ H xs ys) :
    Alike (Worlds H Q) (List.Forall₂ H) (GA.mutate c xs) (GA.mutate c' ys) :=
  mapL (fun _ _ h => bind (lift (hc.mutation _ _ h)) fun _ _ h2 => bind (emit (.mutated h h2)) fun _ _ _ => pure h2) hx

theorem preBirth {p : Population T} {p' : Population U} (hp : Pop H Q p p')
    {fs : List (Population T → List T → M σ (List T))} {fs' : List (Population U → List U → M σ (List U))}
    (hf : List.Forall₂ (PreBirths H Q) fs fs') : ∀ {i : Nat} {xs : List T} {ys : List U}, List.Forall₂ H xs ys →
      Alike (Worlds H Q) (List.Forall₂ H) (GA.preBirth p i fs xs) (GA.preBirth p' i fs' ys) := by
  induction hf with
  | nil => intro i xs ys hx; exact pure hx
  | cons h _ ih =>
    intro i xs ys hx
    exact bind (lift (h p p' xs ys hp hx)) fun _ _ h2 => bind (emit (.preBorn i hx h2)) fun _ _ _ => ih h2

theorem select {fs : List (Population T → M σ (Population T))} {fs' : List (Population U → M σ (Population U))}
    (hf : List.Forall₂ (Selections H Q) fs fs') : ∀ {i : Nat} {p : Population T} {p' : Population U}, Pop H Q p p' →
      Alike (Worlds H Q) (Pop H Q) (GA.select i fs p) (GA.select i fs' p') := by
  induction hf with
  | nil => intro i p p' hp; exact pure hp
  | cons h _ ih =>
    intro i p p' hp
    exact bind (lift (h p p' hp)) fun _ _ h2 => bind (emit (.selected i (flagged hp) (flagged h2))) fun _ _ _ => ih h2

theorem step (hQ : SameOrder Q) (hc : Genetic H Q c c') {p : Population T} {p' : Population U} (hp : Pop H Q p p') :
    Alike (Worlds H Q) (Pop H Q) (GA.step c p) (GA.step c' p') := by
  refine bind (runPairing hc hp) fun _ _ h1 => bind (mutate hc h1) fun _ _ h2 => bind (preBirth hp hc.preBirths h2) fun _ _ h3 =>
    bind (append hc hp h3) fun _ _ h4 => bind (select hc.selections h4) fun _ _ h5 =>
    bind (updateBestWorst hQ (removeDead h5)) fun q q' h6 => ?_
  have h7 : Pop H Q q.nextIteration q'.nextIteration :=
    ⟨h6.individuals, h6.best, h6.worst, congrArg (· + 1) h6.iteration⟩
  refine bind (Q := fun _ _ => True) ?_ fun _ _ _ => bind (callLoggers .next (state h7) hc.loggers 0) fun _ _ _ => pure h7
  have := h7.iteration
  rw [← this]
  exact emit (.generation _ (agents h7) (state h7).1 (rel_map (fun _ _ h => ⟨h.1, h.2.1⟩) h7.worst))

theorem loop (hQ : SameOrder Q) (hc : Genetic H Q c c') : ∀ (fuel : Nat) {p : Population T} {p' : Population U}, Pop H Q p p' →
    Alike (Worlds H Q) (Pop H Q) (GA.loop c fuel p) (GA.loop c' fuel p') := by
  intro fuel
  induction fuel with
  | zero => intro p p' _; exact fail _
  | succ n ih =>
    intro p p' hp
    refine bind (Q := Eq) (lift_eq (hc.stop _ _ (state hp))) ?_
    rintro b _ rfl
    refine bind (emit (.check b (state hp))) fun _ _ _ => ?_
    cases b
    · exact bind (step hQ hc hp) fun _ _ h => ih h
    · exact pure hp

end

/-- A result and the optimizer afterwards -/
def After (r : Option (Solution T) × GA.Opt σ T) (r' : Option (Solution U) × GA.Opt σ U) : Prop :=
  Option.Rel (Sol H Q) r.1 r'.1 ∧ GeneticOpt H Q r.2 r'.2

theorem nextIterations (hQ : SameOrder Q) (fuel : Nat) {o : GA.Opt σ T} {o' : GA.Opt σ U} (ho : GeneticOpt H Q o o') :
    Alike (Worlds H Q) (After (H := H) (Q := Q)) (GA.nextIterations fuel o) (GA.nextIterations fuel o') := by
  refine bind (callLoggers .resume (state ho.2) ho.1.loggers 0) fun _ _ _ => bind (loop hQ ho.1 fuel ho.2) fun p p' hp =>
    bind (callLoggers .finish (state hp) ho.1.loggers 0) fun _ _ _ => pure ⟨?_, ho.1, hp⟩
  have := hp.best
  show Option.Rel (Sol H Q) (match p.best with
    | none => none
    | some i => some (i.chromosomes, i.fitness)) (match p'.best with
    | none => none
    | some i => some (i.chromosomes, i.fitness))
  generalize p.best = b at this
  generalize p'.best = b' at this
  cases this with
  | none => exact .none
  | some h => exact .some ⟨h.1, h.2.1⟩

theorem findMin (hQ : SameOrder Q) (fuel : Nat) {o : GA.Opt σ T} {o' : GA.Opt σ U} (ho : GeneticOpt H Q o o') :
    Alike (Worlds H Q) (After (H := H) (Q := Q)) (GA.findMin fuel o) (GA.findMin fuel o') :=
  bind (lift ho.1.creator) fun _ _ h => bind (emit (.created h)) fun _ _ _ =>
    bind (append ho.1 (p := o.pop.reset) (p' := o'.pop.reset) ⟨.nil, .none, .none, rfl⟩ h) fun _ _ hp =>
    bind (callLoggers .start (state hp) ho.1.loggers 0) fun _ _ _ => nextIterations hQ fuel ⟨ho.1, hp⟩

theorem call (hQ : SameOrder Q) {o : GA.Opt σ T} {o' : GA.Opt σ U} (ho : GeneticOpt H Q o o') {k : GA.Call σ T} {k' : GA.Call σ U}
    (hk : GeneticCall H Q k k') :
    Alike (Worlds H Q) (fun r r' => Returned H Q r.1 r'.1 ∧ GeneticOpt H Q r.2 r'.2) (GA.call o k) (GA.call o' k') := by
  have hc := ho.1
  cases hk with
  | findMin fuel => exact bind (findMin hQ fuel ho) fun _ _ h => pure ⟨.some h.1, h.2⟩
  | nextIterations fuel => exact bind (nextIterations hQ fuel ho) fun _ _ h => pure ⟨.some h.1, h.2⟩
  | setLoggers h => exact pure ⟨.none, ⟨hc.1, hc.2, hc.3, hc.4, hc.5, hc.6, hc.7, hc.8, h⟩, ho.2⟩
  | setPairing h => exact pure ⟨.none, ⟨hc.1, hc.2, hc.3, h, hc.5, hc.6, hc.7, hc.8, hc.9⟩, ho.2⟩
  | setCross h => exact pure ⟨.none, ⟨hc.1, hc.2, hc.3, hc.4, h, hc.6, hc.7, hc.8, hc.9⟩, ho.2⟩
  | setMutation h => exact pure ⟨.none, ⟨hc.1, hc.2, hc.3, hc.4, hc.5, h, hc.7, hc.8, hc.9⟩, ho.2⟩
  | setSelection h => exact pure ⟨.none, ⟨hc.1, hc.2, hc.3, hc.4, hc.5, hc.6, h, hc.8, hc.9⟩, ho.2⟩
  | setPreBirth h => exact pure ⟨.none, ⟨hc.1, hc.2, hc.3, hc.4, hc.5, hc.6, hc.7, h, hc.9⟩, ho.2⟩
  | setStopChecker h => exact pure ⟨.none, ⟨hc.1, h, hc.3, hc.4, hc.5, hc.6, hc.7, hc.8, hc.9⟩, ho.2⟩

theorem run (hQ : SameOrder Q) {ks : List (GA.Call σ T)} {ks' : List (GA.Call σ U)}
    (hk : List.Forall₂ (GeneticCall H Q) ks ks') : ∀ {o : GA.Opt σ T} {o' : GA.Opt σ U}, GeneticOpt H Q o o' →
    Alike (Worlds H Q) (fun r r' => List.Forall₂ (Returned H Q) r.1 r'.1 ∧ GeneticOpt H Q r.2 r'.2) (GA.run o ks) (GA.run o' ks') := by
  induction hk with
  | nil => intro o o' ho; exact pure ⟨.nil, ho⟩
  | cons h _ ih =>
    intro o o' ho
    exact bind (call hQ ho h) fun _ _ h1 => bind (ih h1.2) fun _ _ h2 => pure ⟨.cons h1.1 h2.1, h2.2⟩

end Verif.Rank
