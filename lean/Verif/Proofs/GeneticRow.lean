import Verif.Proofs.SwarmRow
import Verif.Props.GeneticRun

/-!
# The row of bests of one call of `find_min` of a genetic optimizer
-/

namespace Verif.GA

open Verif Spec
open _root_.Verif.PSO (bestsOf bestsOf_append bestsOf_silent bestsOf_logBlock goalsOf_append' goalsOf_logBlock created_logBlock
  goalArgs_length)

variable {σ T : Type}

theorem goalsOf_zip {A B : Type} (f : A → B → Ev T) (h : ∀ a b x v, f a b ≠ .goal x v) : ∀ (xs : List A) (ys : List B),
    goalsOf (List.zipWith f xs ys) = [] := by
  intro xs
  induction xs with
  | nil => intro ys; rfl
  | cons a xs ih =>
    intro ys
    cases ys with
    | nil => rfl
    | cons b ys =>
      have := ih ys
      unfold goalsOf at this ⊢
      rw [List.zipWith_cons_cons, List.filterMap_cons, this]
      cases h1 : f a b <;> simp
      exact absurd h1 (h a b _ _)

theorem goalsOf_goals : ∀ (xs : List T) (vs : List F64), goalsOf (List.zipWith Ev.goal xs vs) = List.zip xs vs := by
  intro xs
  induction xs with
  | nil => intro ys; rfl
  | cons a xs ih =>
    intro ys
    cases ys with
    | nil => rfl
    | cons b ys =>
      have := ih ys
      unfold goalsOf at this ⊢
      rw [List.zipWith_cons_cons, List.filterMap_cons, this]
      rfl

theorem goalsOf_preBirths : ∀ {p : Population T} {fs : List (Population T → List T → M σ (List T))} {i : Nat}
    {xs ys : List T} {evs : List (Ev T)}, PreBirths p i fs xs evs ys → goalsOf evs = [] := by
  intro p fs i xs ys evs h
  induction h with
  | nil => rfl
  | cons _ _ ih => exact ih

theorem goalsOf_selections : ∀ {fs : List (Population T → M σ (Population T))} {i : Nat}
    {p q : Population T} {evs : List (Ev T)}, Selections i fs p evs q → goalsOf evs = [] := by
  intro fs i p q evs h
  induction h with
  | nil => rfl
  | cons _ _ ih => exact ih

theorem Generation.goals {c : Comps σ T} {p p' : Population T} {evs : List (Ev T)} (g : Generation c p evs p') :
    goalsOf evs = List.zip g.born g.vals := by
  refine (congrArg goalsOf g.events_ok).trans ?_
  simp only [goalsOf_append']
  rw [goalsOf_zip _ (by simp), goalsOf_zip _ (by simp), goalsOf_preBirths g.preBirth_ok, goalsOf_goals,
    goalsOf_selections g.select_ok]
  simp [goalsOf]

theorem zip_returned {goal : T → M σ F64} : ∀ {xs : List T} {vs : List F64}, List.Forall₂ (fun x v => Returned (goal x) v) xs vs →
    ∀ a ∈ List.zip xs vs, Returned (goal a.1) a.2 := by
  intro xs vs h
  induction h with
  | nil => simp
  | cons h1 _ ih =>
    intro a ha
    rcases List.mem_cons.1 ha with rfl | ha
    · exact h1
    · exact ih a ha

theorem created_silent {c : Comps σ T} {p p' : Population T} {evs : List (Ev T)} (g : Generation c p evs p') (xs : List T) :
    Ev.created xs ∉ evs := by
  have hp : ∀ {fs : List (Population T → List T → M σ (List T))} {i : Nat} {xs' ys : List T} {evs : List (Ev T)},
      PreBirths p i fs xs' evs ys → Ev.created xs ∉ evs := by
    intro fs i xs' ys evs h
    induction h with
    | nil => simp
    | cons _ _ ih => simp [ih]
  have hs : ∀ {fs : List (Population T → M σ (Population T))} {i : Nat} {p q : Population T} {evs : List (Ev T)},
      Selections i fs p evs q → Ev.created xs ∉ evs := by
    intro fs i p q evs h
    induction h with
    | nil => simp
    | cons _ _ ih => simp [ih]
  rw [g.events_ok]
  intro he
  simp only [List.mem_append, List.mem_singleton] at he
  rcases he with (((((he | he) | he) | he) | he) | he) | he
  · cases he
  · obtain ⟨_, _, _, _, h⟩ := mem_zipWith he; cases h
  · obtain ⟨_, _, _, _, h⟩ := mem_zipWith he; cases h
  · exact hp g.preBirth_ok he
  · obtain ⟨_, _, _, _, h⟩ := mem_zipWith he; cases h
  · exact hs g.select_ok he
  · cases he

/-- What `k` turns leave in the trace, if at most `F` are born in each and each has a best. -/
theorem turns_row {c : Comps σ T} {F : Nat} {J : Population T → Prop}
    (hborn : ∀ p evs p' (g : Generation c p evs p'), J p → g.born.length ≤ F)
    (hstep : ∀ p p1 w w1, J p → step c p w = .ok (p1, w1) → J p1 ∧ p1.state.best ≠ none) :
    ∀ {k : Nat} {p p' : Population T} {w w' : World σ T}, turns c k p w = .ok (p', w') → J p →
    ∃ ext, w'.trace = w.trace ++ ext ∧ (∀ xs, .created xs ∉ ext) ∧
      (bestsOf ext).length = k ∧ (bestsOf ext = [] ∨ (bestsOf ext).getLast? = some p'.state.best) ∧
      (goalsOf ext).length ≤ F * k ∧ (∀ a ∈ goalsOf ext, Returned (c.goal a.1) a.2) ∧ none ∉ bestsOf ext ∧
      ∀ (i : Nat) best, (bestsOf ext)[i]? = some best → ∃ before ags worst it after,
        ext = before ++ .generation ags best worst it :: after ∧ (goalsOf before).length ≤ F * (i + 1) := by
  intro k
  induction k with
  | zero =>
    intro p p' w w' h _
    obtain ⟨rfl, rfl⟩ := M.pure_eq_ok.1 h
    exact ⟨[], by simp, by simp, rfl, .inl rfl, by simp [goalsOf], by simp [goalsOf], by simp [bestsOf], by simp [bestsOf]⟩
  | succ k ih =>
    intro p p' w w' h hJ
    obtain ⟨s', -, p1, w1, h1, h2⟩ := turns_succ_ok.1 h
    obtain ⟨hJ1, hb1⟩ := hstep _ _ _ _ hJ h1
    obtain ⟨ext, ht, hnc, hbl, hlast, hgl, hret, hsome, hrow⟩ := ih h2 hJ1
    obtain ⟨w2, h3, h4⟩ := step_ok.1 h1
    obtain ⟨evs, gen, ht2, -⟩ := core_ok h3
    have hgoals := Generation.goals gen
    have hgevs : (goalsOf evs).length ≤ F := by
      rw [hgoals, List.length_zip]
      exact Nat.le_trans (Nat.min_le_left _ _) (hborn _ _ _ gen hJ)
    have hgret : ∀ a ∈ goalsOf evs, Returned (c.goal a.1) a.2 := by rw [hgoals]; exact zip_returned gen.goal_ok
    have hcr := created_silent gen
    obtain ⟨sil, hsil, hs, -⟩ := gen.split
    obtain ⟨g, hg⟩ : ∃ g : Ev T, g = .generation (agents p1) p1.state.best (p1.worst.map Individual.sol) p1.iteration := ⟨_, rfl⟩
    rw [← hg] at hsil
    have hgsil : goalsOf sil = goalsOf evs := by rw [hsil, goalsOf_append', hg]; simp [goalsOf]
    have htr : w'.trace = w.trace ++ ([.check p.state false] ++ sil ++ [g] ++
        logBlock .next p1.state 0 c.loggers.length ++ ext) := by
      rw [ht, callLoggers_trace h4, ht2, hsil]
      simp only [List.append_assoc]
    have hb : bestsOf ([.check p.state false] ++ sil ++ [g] ++ logBlock .next p1.state 0 c.loggers.length ++ ext) =
        p1.state.best :: bestsOf ext := by
      rw [bestsOf_append, bestsOf_append, bestsOf_append, bestsOf_append, bestsOf_logBlock, bestsOf_silent hs, hg]
      simp [bestsOf]
    have hgc : goalsOf ([.check p.state false] ++ sil ++ [g] ++ logBlock .next p1.state 0 c.loggers.length) = goalsOf evs := by
      rw [goalsOf_append', goalsOf_append', goalsOf_append', goalsOf_logBlock, hg, hgsil]
      simp [goalsOf]
    refine ⟨_, htr, ?_, ?_, ?_, ?_, ?_, ?_, ?_⟩
    · intro xs hx
      simp only [List.mem_append, List.mem_cons, List.not_mem_nil, or_false] at hx
      rcases hx with (((hx | hx) | hx) | hx) | hx
      · cases hx
      · exact hcr xs (by rw [hsil]; exact List.mem_append_left _ hx)
      · rw [hg] at hx; cases hx
      · exact created_logBlock _ _ _ _ _ hx
      · exact hnc xs hx
    · rw [hb, List.length_cons, hbl]
    · right
      rw [hb]
      rcases hlast with h0 | h0
      · rw [h0] at hbl ⊢
        obtain rfl : k = 0 := hbl.symm
        obtain ⟨rfl, -⟩ := M.pure_eq_ok.1 h2
        rfl
      · rw [List.getLast?_cons, h0]; rfl
    · rw [goalsOf_append', hgc, List.length_append, Nat.mul_succ]; omega
    · rw [goalsOf_append', hgc]
      intro a ha
      rcases List.mem_append.1 ha with ha | ha
      · exact hgret a ha
      · exact hret a ha
    · rw [hb]
      intro hn
      rcases List.mem_cons.1 hn with h0 | h0
      · exact hb1 h0.symm
      · exact hsome h0
    · intro i best hi
      rw [hb] at hi
      cases i with
      | zero =>
        obtain rfl : p1.state.best = best := by simpa using hi
        refine ⟨[.check p.state false] ++ sil, agents p1, (p1.worst.map Individual.sol), p1.iteration,
          logBlock .next p1.state 0 c.loggers.length ++ ext, by rw [hg]; simp only [List.append_assoc]; rfl, ?_⟩
        rw [goalsOf_append', List.length_append, hgsil]
        simp [goalsOf] at hgevs ⊢
        exact hgevs
      | succ i =>
        obtain ⟨before, ags, worst, it, after, h5, h6⟩ := hrow i best (by simpa using hi)
        refine ⟨[.check p.state false] ++ sil ++ [g] ++ logBlock .next p1.state 0 c.loggers.length ++ before, ags, worst, it,
          after, by rw [h5]; simp only [List.append_assoc], ?_⟩
        rw [goalsOf_append', hgc, List.length_append, Nat.mul_succ]
        omega

/-- One `find_min`: a row of as many bests as there were generations, the last one is what is returned, and what had been
evaluated at each entry. -/
theorem findMin_row {o o' : Opt σ T} {fuel : Nat} {r : Option (Solution T)} {w w' : World σ T} {F size : Nat}
    {J : Population T → Prop}
    (hborn : ∀ p evs p' (g : Generation o.comps p evs p'), J p → g.born.length ≤ F)
    (hstep : ∀ p p1 w w1, J p → step o.comps p w = .ok (p1, w1) → J p1 ∧ p1.state.best ≠ none)
    (hfirst : ∀ p w w1, begin o.comps w = .ok (p, w1) → J p)
    (hsize : ∀ xs, Returned o.comps.creator xs → xs.length = size)
    (hl : Legal o.comps)
    (hr : findMin fuel o w = .ok ((r, o'), w')) (h0 : w.trace = []) : ∃ row, rowsOf w'.trace = [row] ∧
      row.length = o'.pop.iteration ∧ (row = [] ∨ row.getLast? = some r) ∧ none ∉ row ∧
      size ≤ (goalsOf w'.trace).length ∧ (goalsOf w'.trace).length ≤ size + F * row.length ∧
      (∀ a ∈ goalsOf w'.trace, Returned (o.comps.goal a.1) a.2) ∧
      ∀ (i : Nat) best, row[i]? = some best → ∃ before ags worst it after,
        w'.trace = before ++ .generation ags best worst it :: after ∧ (goalsOf before).length ≤ size + F * (i + 1) := by
  obtain ⟨p, w1, w2, h1, h2, h3⟩ := findMin_ok.1 hr
  obtain ⟨p2, w3, w4, h4, h5, h6, hr', rfl⟩ := nextIterations_ok.1 h3
  obtain ⟨k, w5, s', -, hk, hend, rfl⟩ := loop_turns h5
  have hJ := hfirst _ _ _ h1
  obtain ⟨ext, ht, hnc, hbl, hlast, hgl, hret, hsome, hrow⟩ := turns_row hborn hstep hk hJ
  obtain ⟨hit, -⟩ := turns_spec hl hk
  obtain ⟨xs, vals, hx, hv, hp, ht1⟩ := begin_ok h1
  have hlen := hsize xs hx
  have e1 := callLoggers_trace h6
  have e2 := callLoggers_trace h4
  have e3 := callLoggers_trace h2
  obtain ⟨A, hA⟩ : ∃ A : List (Ev T), A = List.zipWith Ev.goal xs vals ++
      logBlock .start p.state 0 o.comps.loggers.length ++ logBlock .resume p.state 0 o.comps.loggers.length := ⟨_, rfl⟩
  obtain ⟨B, hB⟩ : ∃ B : List (Ev T), B = [.check p2.state true] ++ logBlock .finish p2.state 0 o.comps.loggers.length :=
    ⟨_, rfl⟩
  have htr : w'.trace = .created xs :: (A ++ ext ++ B) := by
    rw [e1]; simp only
    rw [ht, e2, e3, ht1, h0, hA, hB]
    simp only [List.append_assoc, List.nil_append, List.cons_append]
  have hAg : goalsOf A = List.zip xs vals := by
    rw [hA, goalsOf_append', goalsOf_append', goalsOf_logBlock, goalsOf_logBlock, goalsOf_goals]; simp
  have hAl : (goalsOf A).length = size := by
    rw [hAg, List.length_zip, ← hv.length_eq, Nat.min_self, hlen]
  have hz : bestsOf (List.zipWith Ev.goal xs vals) = [] :=
    bestsOf_silent fun e he => by obtain ⟨_, _, _, _, rfl⟩ := mem_zipWith he; trivial
  have hAb : bestsOf A = [] := by
    rw [hA, bestsOf_append, bestsOf_append, bestsOf_logBlock, bestsOf_logBlock, hz]; simp
  have hBg : goalsOf B = [] := by rw [hB, goalsOf_append', goalsOf_logBlock]; simp [goalsOf]
  have hBb : bestsOf B = [] := by rw [hB, bestsOf_append, bestsOf_logBlock]; simp [bestsOf]
  have hall : ∀ ys, .created ys ∉ A ++ ext ++ B := by
    intro ys hy
    rw [hA, hB] at hy
    simp only [List.mem_append, List.mem_cons, List.not_mem_nil, or_false] at hy
    rcases hy with (((hy | hy) | hy) | hy) | hy | hy
    · obtain ⟨_, _, _, _, h⟩ := mem_zipWith hy; cases h
    · exact created_logBlock _ _ _ _ _ hy
    · exact created_logBlock _ _ _ _ _ hy
    · exact hnc ys hy
    · cases hy
    · exact created_logBlock _ _ _ _ _ hy
  have hrows : rowsOf w'.trace = [bestsOf ext] := by
    rw [htr]
    have := Props.C50_last_row [] (A ++ ext ++ B) xs hall
    simp only [List.nil_append] at this
    rw [this]
    show rowsOf [] ++ [bestsOf (A ++ ext ++ B)] = _
    rw [bestsOf_append, bestsOf_append, hAb, hBb]
    simp [rowsOf]
  have hcons : ∀ l : List (Ev T), goalsOf (.created xs :: l) = goalsOf l := fun l => rfl
  have hgs : goalsOf w'.trace = goalsOf A ++ goalsOf ext := by
    rw [htr, hcons, goalsOf_append', goalsOf_append', hBg, List.append_nil]
  have hi0 : p.iteration = 0 := by rw [hp]
  refine ⟨bestsOf ext, hrows, ?_, ?_, hsome, ?_, ?_, ?_, ?_⟩
  · rw [hbl]; show k = p2.iteration; rw [hit]; show k = p.iteration + k; omega
  · rcases hlast with h | h
    · exact .inl h
    · exact .inr (by rw [h, hr'])
  · rw [hgs, List.length_append, hAl]; omega
  · rw [hgs, List.length_append, hAl, hbl]; omega
  · rw [hgs, hAg]
    intro a ha
    rcases List.mem_append.1 ha with ha | ha
    · exact zip_returned hv a ha
    · exact hret a ha
  · intro i best hi
    obtain ⟨before, ags, worst, it, after, h7, h8⟩ := hrow i best hi
    refine ⟨.created xs :: (A ++ before), ags, worst, it, after ++ B, ?_, ?_⟩
    · rw [htr, h7]; simp
    · rw [hcons, goalsOf_append', List.length_append, hAl]; omega

end Verif.GA
