import Verif.Proofs.Genetic
import Verif.Spec.Trace

/-!
# Invariants of genetic runs
-/

namespace Verif.Spec

variable {T : Type}

theorem Evaluated.append {tr tr' : List (Ev T)} {a : Solution T} (h : Evaluated tr a) :
    Evaluated (tr ++ tr') a := List.mem_append_left _ h

theorem onlyEvaluated_snoc {tr : List (Ev T)} {e : Ev T} :
    OnlyEvaluated (tr ++ [e]) ↔ OnlyEvaluated tr ∧ ShowsEvaluated tr e := by
  constructor
  · intro h
    refine ⟨?_, h tr e [] rfl⟩
    intro b e' a hb
    exact h b e' (a ++ [e]) (by rw [hb]; simp)
  · rintro ⟨h1, h2⟩ b e' a hb
    rcases List.eq_nil_or_concat a with rfl | ⟨a', x, rfl⟩
    · have := List.append_inj' hb rfl
      obtain ⟨rfl, h3⟩ := this
      simp only [List.cons.injEq, and_true] at h3
      subst h3; exact h2
    · rw [List.concat_eq_append, ← List.cons_append, ← List.append_assoc] at hb
      have := List.append_inj' hb rfl
      exact h1 b e' a' this.1

/-- Events that show no solutions. -/
def Silent : Ev T → Prop
  | .generation .. => False
  | .log .. => False
  | .check .. => False
  | _ => True

theorem onlyEvaluated_silent {tr : List (Ev T)} :
    ∀ {evs : List (Ev T)}, (∀ e ∈ evs, Silent e) → OnlyEvaluated tr → OnlyEvaluated (tr ++ evs) := by
  intro evs
  induction evs using List.reverseRecOn with
  | nil => intro _ h; simpa using h
  | append_singleton evs e ih =>
    intro hs h
    rw [← List.append_assoc, onlyEvaluated_snoc]
    refine ⟨ih (fun e he => hs e (by simp [he])) h, ?_⟩
    have := hs e (by simp)
    cases e <;> first | trivial | exact absurd this id

theorem mem_zipWith {α β γ : Type} {f : α → β → γ} {c : γ} :
    ∀ {as : List α} {bs : List β}, c ∈ List.zipWith f as bs → ∃ a b, a ∈ as ∧ b ∈ bs ∧ c = f a b := by
  intro as
  induction as with
  | nil => intro bs h; simp at h
  | cons a as ih =>
    intro bs h
    cases bs with
    | nil => simp at h
    | cons b bs =>
      rw [List.zipWith_cons_cons, List.mem_cons] at h
      rcases h with rfl | h
      · exact ⟨a, b, by simp, by simp, rfl⟩
      · obtain ⟨a', b', ha, hb, hc⟩ := ih h
        exact ⟨a', b', by simp [ha], by simp [hb], hc⟩

theorem mem_newborn {i : Individual T} : ∀ {xs : List T} {vals : List F64}, i ∈ newborn xs vals →
    Ev.goal i.chromosomes i.fitness ∈ List.zipWith Ev.goal xs vals ∧ i.alive = true ∧ i.chromosomes ∈ xs := by
  intro xs
  induction xs with
  | nil => intro vals h; simp [newborn] at h
  | cons x xs ih =>
    intro vals h
    cases vals with
    | nil => simp [newborn] at h
    | cons v vals =>
      unfold newborn at h
      rw [List.zipWith_cons_cons, List.mem_cons] at h
      rcases h with rfl | h
      · simp
      · obtain ⟨h1, h2, h3⟩ := ih h
        exact ⟨by simp [h1], h2, by simp [h3]⟩

end Verif.Spec

namespace Verif.GA

open Verif Spec

variable {σ T : Type}

theorem Selections.legal : ∀ {fs : List (Population T → M σ (Population T))} {i : Nat}
    {p q : Population T} {evs : List (Ev T)}, (∀ sel ∈ fs, LegalSelection sel) →
    Selections i fs p evs q →
      q.best = p.best ∧ q.worst = p.worst ∧ q.iteration = p.iteration ∧
      ∀ j ∈ q.individuals, j.sol ∈ p.individuals.map Individual.sol ∨
        p.best.map Individual.sol = some j.sol ∨ p.worst.map Individual.sol = some j.sol := by
  intro fs i p q evs hl h
  induction h with
  | nil =>
    exact ⟨rfl, rfl, rfl, fun j hj => .inl (List.mem_map_of_mem hj)⟩
  | cons hf _ ih =>
    obtain ⟨s, s', hf⟩ := hf
    obtain ⟨b1, w1, i1, m1⟩ := hl _ (by simp) _ _ _ _ hf
    obtain ⟨b2, w2, i2, m2⟩ := ih (fun sel hs => hl sel (by simp [hs]))
    refine ⟨b2.trans b1, w2.trans w1, i2.trans i1, ?_⟩
    intro j hj
    rcases m2 j hj with h | h | h
    · obtain ⟨j', hj', he⟩ := List.mem_map.1 h
      rw [← he]; exact m1 j' hj'
    · rw [b1] at h; exact .inr (.inl h)
    · rw [w1] at h; exact .inr (.inr h)

theorem PreBirths.silent : ∀ {p : Population T} {fs : List (Population T → List T → M σ (List T))} {i : Nat}
    {xs ys : List T} {evs : List (Ev T)}, PreBirths p i fs xs evs ys → ∀ e ∈ evs, Silent e := by
  intro p fs i xs ys evs h
  induction h with
  | nil => simp
  | cons _ _ ih =>
    intro e he
    rcases List.mem_cons.1 he with rfl | he
    · trivial
    · exact ih e he

theorem Selections.silent : ∀ {fs : List (Population T → M σ (Population T))} {i : Nat}
    {p q : Population T} {evs : List (Ev T)}, Selections i fs p evs q → ∀ e ∈ evs, Silent e := by
  intro fs i p q evs h
  induction h with
  | nil => simp
  | cons _ _ ih =>
    intro e he
    rcases List.mem_cons.1 he with rfl | he
    · trivial
    · exact ih e he

/-- A generation's events are silent ones followed by the `generation` record. -/
theorem _root_.Verif.Spec.Generation.split {c : Comps σ T} {p p' : Population T} {evs : List (Ev T)}
    (g : Generation c p evs p') : ∃ sil, evs = sil ++
      [.generation (agents p') p'.state.best (p'.worst.map Individual.sol) p'.iteration] ∧
      (∀ e ∈ sil, Silent e) ∧ ∀ e ∈ List.zipWith Ev.goal g.born g.vals, e ∈ sil := by
  refine ⟨_, g.events_ok, ?_, ?_⟩
  · intro e he
    simp only [List.mem_append, List.mem_singleton] at he
    rcases he with ((((rfl | he) | he) | he) | he) | he
    · trivial
    · obtain ⟨_, _, _, _, rfl⟩ := mem_zipWith he; trivial
    · obtain ⟨_, _, _, _, rfl⟩ := mem_zipWith he; trivial
    · exact PreBirths.silent g.preBirth_ok e he
    · obtain ⟨_, _, _, _, rfl⟩ := mem_zipWith he; trivial
    · exact Selections.silent g.select_ok e he
  · intro e he
    simp only [List.mem_append]
    exact .inl (.inr he)

/-- A property of solutions that holds of everything evaluated carries over to the next population, under legal
selections. -/
theorem _root_.Verif.Spec.Generation.sols {c : Comps σ T} {p p' : Population T} {evs : List (Ev T)}
    (g : Generation c p evs p') (hup : p'.UpToDate g.q.best g.q.worst) (hl : Legal c)
    {Q : Solution T → Prop} (h1 : ∀ i ∈ p.individuals, Q i.sol)
    (h2 : ∀ i, p.best = some i → Q i.sol) (h3 : ∀ i, p.worst = some i → Q i.sol)
    (h4 : ∀ i ∈ newborn g.born g.vals, Q i.sol) :
    (∀ i ∈ p'.individuals, Q i.sol) ∧ (∀ i, p'.best = some i → Q i.sol) ∧
      (∀ i, p'.worst = some i → Q i.sol) := by
  obtain ⟨hb, hw, -, hm⟩ := Selections.legal hl g.select_ok
  have hq : ∀ j ∈ g.q.individuals, Q j.sol := by
    intro j hj
    rcases hm j hj with h | h | h
    · obtain ⟨i, hi, he⟩ := List.mem_map.1 h
      rw [← he]
      rcases List.mem_append.1 hi with hi | hi
      · exact h1 i hi
      · exact h4 i hi
    · obtain ⟨i, hi, he⟩ := Option.map_eq_some_iff.1 h
      rw [← he]; exact h2 i hi
    · obtain ⟨i, hi, he⟩ := Option.map_eq_some_iff.1 h
      rw [← he]; exact h3 i hi
  have hp : ∀ i ∈ p'.individuals, Q i.sol := by
    intro i hi
    rw [g.alive_ok] at hi
    exact hq i (List.mem_of_mem_filter hi)
  refine ⟨hp, ?_, ?_⟩
  · intro i hi
    by_cases he : p'.individuals = []
    · rw [(hup.old he).1, hb] at hi; exact h2 i hi
    · obtain ⟨x, hx, hmem, -⟩ := hup.best he
      rw [hx] at hi; cases hi; exact hp _ hmem
  · intro i hi
    by_cases he : p'.individuals = []
    · rw [(hup.old he).2, hw] at hi; exact h3 i hi
    · obtain ⟨x, hx, hmem, -⟩ := hup.worst he
      rw [hx] at hi; cases hi; exact hp _ hmem

theorem _root_.Verif.Spec.Generation.iteration {c : Comps σ T} {p p' : Population T} {evs : List (Ev T)}
    (g : Generation c p evs p') (hl : Legal c) : p'.iteration = p.iteration + 1 := by
  rw [g.iteration_ok, (Selections.legal hl g.select_ok).2.2.1]

/-! ## Everything was evaluated -/

/-- All solutions of the population were evaluated. -/
def AllEvaluated (p : Population T) (tr : List (Ev T)) : Prop :=
  (∀ i ∈ p.individuals, Evaluated tr i.sol) ∧ (∀ i, p.best = some i → Evaluated tr i.sol) ∧
    (∀ i, p.worst = some i → Evaluated tr i.sol)

theorem AllEvaluated.append {p : Population T} {tr tr' : List (Ev T)} (h : AllEvaluated p tr) :
    AllEvaluated p (tr ++ tr') :=
  ⟨fun i hi => (h.1 i hi).append, fun i hi => (h.2.1 i hi).append, fun i hi => (h.2.2 i hi).append⟩

theorem AllEvaluated.state {p : Population T} {tr : List (Ev T)} (h : AllEvaluated p tr) :
    ∀ a, p.state.best = some a → Evaluated tr a := by
  intro a ha
  obtain ⟨i, hi, rfl⟩ := Option.map_eq_some_iff.1 ha
  exact h.2.1 i hi

theorem inv_evaluated : Inv (σ := σ) (T := T) Legal
    (fun p tr => OnlyEvaluated tr ∧ AllEvaluated p tr) where
  log := fun p tr i k ⟨h1, h2⟩ => ⟨onlyEvaluated_snoc.2 ⟨h1, h2.state⟩, h2.append⟩
  check := fun p tr b ⟨h1, h2⟩ => ⟨onlyEvaluated_snoc.2 ⟨h1, h2.state⟩, h2.append⟩
  begin := by
    rintro c p p' w w' - ⟨h1, -⟩ hr
    obtain ⟨xs, vals, -, -, rfl, ht⟩ := begin_ok hr
    rw [ht]
    refine ⟨onlyEvaluated_silent ?_ h1, ?_, by simp, by simp⟩
    · intro e he
      rcases List.mem_cons.1 he with rfl | he
      · trivial
      · obtain ⟨_, _, _, _, rfl⟩ := mem_zipWith he; trivial
    · intro i hi
      exact List.mem_append_right _ (List.mem_cons_of_mem _ (mem_newborn hi).1)
  core := by
    rintro c p p' w w' hc ⟨h1, h2⟩ hr
    obtain ⟨evs, g, ht, hup⟩ := core_ok hr
    obtain ⟨sil, he, hs, hg⟩ := g.split
    have hall : AllEvaluated p' (w.trace ++ sil) := by
      apply g.sols hup hc
      · intro i hi; exact (h2.1 i hi).append
      · intro i hi; exact (h2.2.1 i hi).append
      · intro i hi; exact (h2.2.2 i hi).append
      · intro i hi; exact List.mem_append_right _ (hg _ (mem_newborn hi).1)
    rw [ht, he, ← List.append_assoc]
    refine ⟨onlyEvaluated_snoc.2 ⟨onlyEvaluated_silent hs h1, ?_, hall.state, ?_⟩, hall.append⟩
    · intro a ha
      obtain ⟨i, hi, rfl⟩ := List.mem_map.1 ha
      exact hall.1 i hi
    · intro a ha
      obtain ⟨i, hi, rfl⟩ := Option.map_eq_some_iff.1 ha
      exact hall.2.2 i hi

/-- What a run method returns is the best of a state in which the invariant holds. -/
theorem Inv.run_ret {P : Comps σ T → Prop} {I : Population T → List (Ev T) → Prop} (h : Inv P I) :
    ∀ {ks : List (Call σ T)} {o o' : Opt σ T} {rs : List (Ret T)} {w w' : World σ T},
      Always P o.comps ks → GA.run o ks w = .ok ((rs, o'), w') → I o.pop w.trace →
      (∃ ext, w'.trace = w.trace ++ ext) ∧
      ∀ r, some r ∈ rs → ∃ p tr ext, I p tr ∧ r = p.state.best ∧ w'.trace = tr ++ ext := by
  -- traces only grow
  have hgrow : ∀ tr0 : List (Ev T), Inv (σ := σ) (T := T) (fun _ => True)
      (fun _ tr => ∃ ext, tr = tr0 ++ ext) := by
    intro tr0
    refine ⟨?_, ?_, ?_, ?_⟩
    · rintro p tr i k ⟨ext, rfl⟩; exact ⟨ext ++ [_], by rw [List.append_assoc]⟩
    · rintro p tr b ⟨ext, rfl⟩; exact ⟨ext ++ [_], by rw [List.append_assoc]⟩
    · rintro c p p' w w' - ⟨ext, he⟩ hr
      obtain ⟨xs, vals, -, -, -, ht⟩ := begin_ok hr
      rw [ht, he]; exact ⟨ext ++ _, by rw [List.append_assoc]⟩
    · rintro c p p' w w' - ⟨ext, he⟩ hr
      obtain ⟨evs, g, ht, -⟩ := core_ok hr
      rw [ht, he]; exact ⟨ext ++ evs, by rw [List.append_assoc]⟩
  intro ks
  induction ks with
  | nil =>
    intro o o' rs w w' hP hr hI
    obtain ⟨h1, rfl⟩ := M.pure_eq_ok.1 hr
    cases h1
    exact ⟨⟨[], by simp⟩, by simp⟩
  | cons k ks ih =>
    intro o o' rs w w' hP hr hI
    obtain ⟨r, o1, w1, rs', h1, h2, rfl⟩ := run_cons_ok.1 hr
    have hI1 := h.call hP.1 h1 hI
    obtain ⟨ext1, he1⟩ := (hgrow w.trace).call (o := o) trivial h1 ⟨[], by simp⟩
    obtain ⟨⟨ext2, he2⟩, hrs⟩ := ih (by rw [call_comps h1]; exact hP.2) h2 hI1
    refine ⟨⟨ext1 ++ ext2, by rw [he2, he1, List.append_assoc]⟩, ?_⟩
    intro r0 hr0
    rcases List.mem_cons.1 hr0 with h0 | h0
    · subst h0
      refine ⟨o1.pop, w1.trace, ext2, hI1, ?_, he2⟩
      cases k with
      | findMin fuel =>
        obtain ⟨⟨r1, o2⟩, w2, h3, h4⟩ := M.bind_eq_ok.1 h1
        obtain ⟨h5, rfl⟩ := M.pure_eq_ok.1 h4
        cases h5
        obtain ⟨p, w3, w4, -, -, h6⟩ := findMin_ok.1 h3
        obtain ⟨p2, w5, w6, -, -, -, rfl, rfl⟩ := nextIterations_ok.1 h6
        rfl
      | nextIterations fuel =>
        obtain ⟨⟨r1, o2⟩, w2, h3, h4⟩ := M.bind_eq_ok.1 h1
        obtain ⟨h5, rfl⟩ := M.pure_eq_ok.1 h4
        cases h5
        obtain ⟨p2, w5, w6, -, -, -, rfl, rfl⟩ := nextIterations_ok.1 h3
        rfl
      | _ =>
        obtain ⟨h3, rfl⟩ := M.pure_eq_ok.1 h1
        cases h3
    · exact hrs r0 h0

end Verif.GA
