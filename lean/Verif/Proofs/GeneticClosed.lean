import Verif.Proofs.GeneticTurns

/-!
# Properties of chromosomes that a run preserves
-/

namespace Verif.GA

open Verif Spec

variable {σ T : Type}

/-- The components keep all chromosomes inside `B`. -/
def Closed (B : T → Prop) (c : Comps σ T) : Prop :=
  Legal c ∧ (∀ xs, Returned c.creator xs → ∀ x ∈ xs, B x) ∧
  (∀ p evs p', (∀ i ∈ p.individuals, B i.chromosomes) → ∀ g : Generation c p evs p', ∀ y ∈ g.born, B y)

theorem mem_zipWith_goal {x : T} {v : F64} : ∀ {xs : List T} {vals : List F64},
    Ev.goal x v ∈ List.zipWith Ev.goal xs vals → x ∈ xs := by
  intro xs vals h
  obtain ⟨a, b, ha, -, he⟩ := mem_zipWith h
  cases he; exact ha

theorem generation_goal {c : Comps σ T} {p p' : Population T} {evs : List (Ev T)}
    (g : Generation c p evs p') {x : T} {v : F64} (h : Ev.goal x v ∈ evs) : x ∈ g.born := by
  have h : Ev.goal x v ∈ _ := g.events_ok ▸ h
  simp only [List.mem_append, List.mem_singleton, reduceCtorEq, false_or, or_false] at h
  have hpre : ∀ {fs : List (Population T → List T → M σ (List T))} {i xs evs ys},
      PreBirths p i fs xs evs ys → Ev.goal x v ∉ evs := by
    intro fs i xs evs ys hp
    induction hp with
    | nil => simp
    | cons _ _ ih => simpa using ih
  have hsel : ∀ {fs : List (Population T → M σ (Population T))} {i q evs q'},
      Selections i fs q evs q' → Ev.goal x v ∉ evs := by
    intro fs i q evs q' hp
    induction hp with
    | nil => simp
    | cons _ _ ih => simpa using ih
  rcases h with (((h | h) | h) | h) | h
  · obtain ⟨_, _, _, _, h'⟩ := mem_zipWith h; cases h'
  · obtain ⟨_, _, _, _, h'⟩ := mem_zipWith h; cases h'
  · exact absurd h (hpre g.preBirth_ok)
  · exact mem_zipWith_goal h
  · exact absurd h (hsel g.select_ok)

theorem inv_closed (B : T → Prop) : Inv (σ := σ) (T := T) (Closed B)
    (fun p tr => ((∀ i ∈ p.individuals, B i.chromosomes) ∧ (∀ i, p.best = some i → B i.chromosomes) ∧
      (∀ i, p.worst = some i → B i.chromosomes)) ∧ ∀ x v, Ev.goal x v ∈ tr → B x) where
  log := by rintro p tr i k ⟨h1, h2⟩; exact ⟨h1, fun x v hm => h2 x v (by simpa using hm)⟩
  check := by rintro p tr b ⟨h1, h2⟩; exact ⟨h1, fun x v hm => h2 x v (by simpa using hm)⟩
  begin := by
    rintro c p p' w w' ⟨-, hcr, -⟩ ⟨-, h2⟩ hr
    obtain ⟨xs, vals, hx, -, rfl, ht⟩ := begin_ok hr
    refine ⟨⟨fun i hi => hcr xs hx _ (mem_newborn hi).2.2, by simp, by simp⟩, ?_⟩
    intro x v hm
    rw [ht, List.mem_append, List.mem_cons] at hm
    rcases hm with hm | hm | hm
    · exact h2 x v hm
    · cases hm
    · exact hcr xs hx x (mem_zipWith_goal hm)
  core := by
    rintro c p p' w w' ⟨hl, -, hb⟩ ⟨⟨h1, h2, h3⟩, h4⟩ hr
    obtain ⟨evs, g, ht, hup⟩ := core_ok hr
    refine ⟨g.sols hup hl (Q := fun a => B a.1) h1 h2 h3
      (fun i hi => hb p evs p' h1 g _ (mem_newborn hi).2.2), ?_⟩
    intro x v hm
    rw [ht, List.mem_append] at hm
    rcases hm with hm | hm
    · exact h4 x v hm
    · exact hb p evs p' h1 g x (generation_goal g hm)

theorem Always.imp {P Q : Comps σ T → Prop} (h : ∀ c, P c → Q c) :
    ∀ {ks : List (Call σ T)} {c : Comps σ T}, Always P c ks → Always Q c ks := by
  intro ks
  induction ks with
  | nil => intro c hp; exact h c hp
  | cons k ks ih => intro c hp; exact ⟨h c hp.1, ih hp.2⟩

theorem preBirths_append {p : Population T} : ∀ {fs gs : List (Population T → List T → M σ (List T))} {i : Nat}
    {xs zs : List T} {evs : List (Ev T)}, PreBirths p i (fs ++ gs) xs evs zs →
    ∃ ys evs1 evs2, PreBirths p i fs xs evs1 ys ∧ PreBirths p (i + fs.length) gs ys evs2 zs := by
  intro fs
  induction fs with
  | nil => intro gs i xs zs evs h; exact ⟨xs, [], evs, .nil, h⟩
  | cons f fs ih =>
    intro gs i xs zs evs h
    cases h with
    | cons hf h =>
      obtain ⟨ys, e1, e2, h1, h2⟩ := ih h
      refine ⟨ys, _, e2, .cons hf h1, ?_⟩
      rw [List.length_cons, show i + (fs.length + 1) = i + 1 + fs.length by omega]
      exact h2

/-- Pre-birth components that only drop children. -/
def Filtering (f : Population T → List T → M σ (List T)) : Prop :=
  ∀ p xs ys, Returned (f p xs) ys → ∀ y ∈ ys, y ∈ xs

theorem preBirths_filter {p : Population T} : ∀ {fs : List (Population T → List T → M σ (List T))} {i : Nat}
    {xs ys : List T} {evs : List (Ev T)}, (∀ f ∈ fs, Filtering f) → PreBirths p i fs xs evs ys →
    ∀ y ∈ ys, y ∈ xs := by
  intro fs i xs ys evs hf h
  induction h with
  | nil => intro y hy; exact hy
  | cons h1 _ ih =>
    intro y hy
    exact hf _ (by simp) _ _ _ h1 _ (ih (fun f h => hf f (by simp [h])) y hy)

end Verif.GA
