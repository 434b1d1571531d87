import Verif.Proofs.GeneticClosed

/-!
# Properties of every event of a trace in its context
-/

namespace Verif.Spec

variable {T : Type}

/-- `Q before e` holds for every event `e` of the trace, where `before` is what happened before it. -/
def Throughout (Q : List (Ev T) → Ev T → Prop) (tr : List (Ev T)) : Prop :=
  ∀ before e after, tr = before ++ e :: after → Q before e

theorem throughout_nil {Q : List (Ev T) → Ev T → Prop} : Throughout Q [] := by
  intro b e a h; simp at h

theorem throughout_snoc {Q : List (Ev T) → Ev T → Prop} {tr : List (Ev T)} {e : Ev T} :
    Throughout Q (tr ++ [e]) ↔ Throughout Q tr ∧ Q tr e := by
  constructor
  · intro h
    refine ⟨?_, h tr e [] rfl⟩
    intro b e' a hb
    exact h b e' (a ++ [e]) (by rw [hb]; simp)
  · rintro ⟨h1, h2⟩ b e' a hb
    rcases List.eq_nil_or_concat a with rfl | ⟨a', x, rfl⟩
    · have := List.append_inj' hb rfl
      obtain ⟨rfl, h3⟩ := this
      simp only [List.cons.injEq, and_true] at h3
      subst h3; exact h2
    · rw [List.concat_eq_append, ← List.cons_append, ← List.append_assoc] at hb
      exact h1 b e' a' (List.append_inj' hb rfl).1

theorem throughout_append {Q : List (Ev T) → Ev T → Prop} {tr : List (Ev T)} :
    ∀ {evs : List (Ev T)}, (∀ e ∈ evs, ∀ b, Q b e) → Throughout Q tr → Throughout Q (tr ++ evs) := by
  intro evs
  induction evs using List.reverseRecOn with
  | nil => intro _ h; simpa using h
  | append_singleton evs e ih =>
    intro hs h
    rw [← List.append_assoc, throughout_snoc]
    exact ⟨ih (fun e he => hs e (by simp [he])) h, hs e (by simp) _⟩

/-- What the last completed generation left, none directly after the creation of a population: the agents and the best. -/
def lastGeneration (tr : List (Ev T)) : Option (List (Solution T) × Option (Solution T)) :=
  tr.foldl (fun l e => match e with
    | .created _ => none
    | .generation ags best _ _ => some (ags, best)
    | _ => l) none

theorem lastGeneration_snoc (a : List (Ev T)) (e : Ev T) : lastGeneration (a ++ [e]) =
    (match e with
      | .created _ => none
      | .generation ags best _ _ => some (ags, best)
      | _ => lastGeneration a) := by
  unfold lastGeneration; rw [List.foldl_append]; cases e <;> rfl

/-- Events inside a generation. -/
def Inner : Ev T → Prop
  | .created _ => False
  | .generation .. => False
  | .log .. => False
  | .check .. => False
  | _ => True

theorem lastGeneration_inner {a : List (Ev T)} : ∀ {b : List (Ev T)}, (∀ e ∈ b, Inner e) →
    lastGeneration (a ++ b) = lastGeneration a := by
  intro b
  induction b using List.reverseRecOn with
  | nil => intro _; simp
  | append_singleton b e ih =>
    intro h
    rw [← List.append_assoc, lastGeneration_snoc, ih (fun e he => h e (by simp [he]))]
    have := h e (by simp)
    cases e <;> first | rfl | exact absurd this id

end Verif.Spec

namespace Verif.GA

open Verif Spec

variable {σ T : Type}

theorem Generation.inner {c : Comps σ T} {p p' : Population T} {evs : List (Ev T)}
    (g : Generation c p evs p') : ∃ inn, evs = inn ++
      [.generation (agents p') p'.state.best (p'.worst.map Individual.sol) p'.iteration] ∧
      (∀ e ∈ inn, Inner e) := by
  refine ⟨_, g.events_ok, ?_⟩
  have hpre : ∀ {fs : List (Population T → List T → M σ (List T))} {i xs evs ys},
      PreBirths p i fs xs evs ys → ∀ e ∈ evs, Inner e := by
    intro fs i xs evs ys hp
    induction hp with
    | nil => simp
    | cons _ _ ih => simp only [List.mem_cons, forall_eq_or_imp]; exact ⟨trivial, ih⟩
  have hsel : ∀ {fs : List (Population T → M σ (Population T))} {i q evs q'},
      Selections i fs q evs q' → ∀ e ∈ evs, Inner e := by
    intro fs i q evs q' hp
    induction hp with
    | nil => simp
    | cons _ _ ih => simp only [List.mem_cons, forall_eq_or_imp]; exact ⟨trivial, ih⟩
  intro e he
  simp only [List.mem_append, List.mem_singleton] at he
  rcases he with ((((rfl | he) | he) | he) | he) | he
  · trivial
  · obtain ⟨_, _, _, _, rfl⟩ := mem_zipWith he; trivial
  · obtain ⟨_, _, _, _, rfl⟩ := mem_zipWith he; trivial
  · exact hpre g.preBirth_ok e he
  · obtain ⟨_, _, _, _, rfl⟩ := mem_zipWith he; trivial
  · exact hsel g.select_ok e he

/-- To prove a property of all generation records in their context together with a property of the population. -/
theorem inv_throughout {P : Comps σ T → Prop} {Q : List (Ev T) → Ev T → Prop}
    {J : Population T → Option (List (Solution T) × Option (Solution T)) → Prop}
    (hlog : ∀ b i k s, Q b (.log i k s)) (hcheck : ∀ b s r, Q b (.check s r))
    (hinner : ∀ b e, Inner e → Q b e) (hcreated : ∀ b xs, Q b (.created xs))
    (hbegin : ∀ c p' w w', P c → begin c w = .ok (p', w') → J p' none)
    (hcore : ∀ c p p' b evs, P c → J p (lastGeneration b) → (g : Generation c p evs p') →
      p'.UpToDate g.q.best g.q.worst →
      J p' (some (agents p', p'.state.best)) ∧
      ∀ b', lastGeneration b' = lastGeneration b →
        Q b' (.generation (agents p') p'.state.best (p'.worst.map Individual.sol) p'.iteration)) :
    Inv P (fun p tr => Throughout Q tr ∧ J p (lastGeneration tr)) where
  log := by
    rintro p tr i k ⟨h1, h2⟩
    refine ⟨throughout_snoc.2 ⟨h1, hlog _ _ _ _⟩, ?_⟩
    rw [lastGeneration_snoc]; exact h2
  check := by
    rintro p tr b ⟨h1, h2⟩
    refine ⟨throughout_snoc.2 ⟨h1, hcheck _ _ _⟩, ?_⟩
    rw [lastGeneration_snoc]; exact h2
  begin := by
    rintro c p p' w w' hc ⟨h1, -⟩ hr
    obtain ⟨xs, vals, -, -, -, ht⟩ := begin_ok hr
    have hs : ∀ e ∈ List.zipWith Ev.goal xs vals, Inner e := by
      intro e he
      obtain ⟨_, _, _, _, rfl⟩ := mem_zipWith he; trivial
    have ht' : w'.trace = (w.trace ++ [.created xs]) ++ List.zipWith Ev.goal xs vals := by rw [ht]; simp
    rw [ht']
    refine ⟨throughout_append (fun e he b => hinner b e (hs e he)) (throughout_snoc.2 ⟨h1, hcreated _ _⟩), ?_⟩
    rw [lastGeneration_inner hs, lastGeneration_snoc]
    exact hbegin c p' w w' hc hr
  core := by
    rintro c p p' w w' hc ⟨h1, h2⟩ hr
    obtain ⟨evs, g, ht, hup⟩ := core_ok hr
    obtain ⟨hj, hq⟩ := hcore c p p' w.trace evs hc h2 g hup
    obtain ⟨inn, he, hs⟩ := Generation.inner g
    rw [ht, he, ← List.append_assoc]
    refine ⟨throughout_snoc.2 ⟨throughout_append (fun e he b => hinner b e (hs e he)) h1, ?_⟩, ?_⟩
    · exact hq _ (lastGeneration_inner hs)
    · rw [lastGeneration_snoc]; exact hj

end Verif.GA
