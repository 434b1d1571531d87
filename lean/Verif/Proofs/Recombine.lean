import Verif.Spec.Recombine
import Verif.Proofs.GeneticClosed
import Verif.Proofs.SwarmInv
import Verif.Props.VecCross
import Verif.Props.Mutation

/-!
# Properties that a population inherits from the one it began with
-/

namespace Verif.GA

open Verif Spec Props

variable {σ T G : Type}

theorem lastCreated_append {tr : List (Ev T)} {evs : List (Ev T)} (h : ∀ e ∈ evs, NotCreated e) :
    lastCreated (tr ++ evs) = lastCreated tr := by
  unfold lastCreated
  rw [List.foldl_append]
  generalize List.foldl _ [] tr = l
  induction evs generalizing l with
  | nil => rfl
  | cons e evs ih =>
    have hne := h e (by simp)
    rw [List.foldl_cons, ih (fun e he => h e (by simp [he]))]
    cases e <;> first | exact absurd hne id | rfl

theorem lastCreated_created (tr : List (Ev T)) (xs : List T) : lastCreated (tr ++ [.created xs]) = xs := by
  unfold lastCreated
  rw [List.foldl_append]
  rfl

theorem generation_notCreated {c : Comps σ T} {p p' : Population T} {evs : List (Ev T)}
    (g : Generation c p evs p') : ∀ e ∈ evs, NotCreated e := by
  intro e he
  have he : e ∈ _ := g.events_ok ▸ he
  have hpre : ∀ {fs : List (Population T → List T → M σ (List T))} {i xs evs ys},
      PreBirths p i fs xs evs ys → ∀ e ∈ evs, NotCreated e := by
    intro fs i xs evs ys hp
    induction hp with
    | nil => simp
    | cons _ _ ih =>
      intro e he
      rcases List.mem_cons.1 he with rfl | he
      · trivial
      · exact ih e he
  have hsel : ∀ {fs : List (Population T → M σ (Population T))} {i q evs q'},
      Selections i fs q evs q' → ∀ e ∈ evs, NotCreated e := by
    intro fs i q evs q' hp
    induction hp with
    | nil => simp
    | cons _ _ ih =>
      intro e he
      rcases List.mem_cons.1 he with rfl | he
      · trivial
      · exact ih e he
  simp only [List.mem_append, List.mem_singleton] at he
  rcases he with (((((he | he) | he) | he) | he) | he) | he
  · subst he; trivial
  · obtain ⟨_, _, _, _, h'⟩ := mem_zipWith he; subst h'; trivial
  · obtain ⟨_, _, _, _, h'⟩ := mem_zipWith he; subst h'; trivial
  · exact hpre g.preBirth_ok e he
  · obtain ⟨_, _, _, _, h'⟩ := mem_zipWith he; subst h'; trivial
  · exact hsel g.select_ok e he
  · subst he; trivial

/-- The components keep the chromosomes within what `C` says about those of the beginning. -/
structure Breeds (C : List T → T → Prop) (c : Comps σ T) : Prop where
  legal : Legal c
  start : ∀ xs, Returned c.creator xs → ∀ x ∈ xs, C xs x
  born : ∀ xs p evs p', (∀ i ∈ p.individuals, C xs i.chromosomes) → ∀ g : Generation c p evs p', ∀ y ∈ g.born, C xs y

theorem inv_breeds (C : List T → T → Prop) : Inv (σ := σ) (T := T) (Breeds C)
    (fun p tr => ((∀ i ∈ p.individuals, C (lastCreated tr) i.chromosomes) ∧
      (∀ i, p.best = some i → C (lastCreated tr) i.chromosomes) ∧ (∀ i, p.worst = some i → C (lastCreated tr) i.chromosomes)) ∧
      ∀ a ∈ goalsSince tr, C (lastCreated tr) a.1) where
  log := by
    rintro p tr i k h
    rw [lastCreated_append (by simp [NotCreated]), goalsSince_snoc]; exact h
  check := by
    rintro p tr b h
    rw [lastCreated_append (by simp [NotCreated]), goalsSince_snoc]; exact h
  begin := by
    rintro c p p' w w' hb - hr
    obtain ⟨xs, vals, hx, -, rfl, ht⟩ := begin_ok hr
    have hn : ∀ e ∈ List.zipWith Ev.goal xs vals, NotCreated e := by
      intro e he; obtain ⟨_, _, _, _, h'⟩ := mem_zipWith he; subst h'; trivial
    rw [ht, show (.created xs :: List.zipWith Ev.goal xs vals) = [.created xs] ++ List.zipWith Ev.goal xs vals from rfl,
      ← List.append_assoc, lastCreated_append hn, lastCreated_created, goalsSince_append hn, goalsSince_created, List.nil_append]
    refine ⟨⟨fun i hi => hb.start xs hx _ (mem_newborn hi).2.2, by simp, by simp⟩, ?_⟩
    intro a ha
    unfold goalsOf at ha
    obtain ⟨e, he, h2⟩ := List.mem_filterMap.1 ha
    obtain ⟨x, v, hxm, -, rfl⟩ := mem_zipWith he
    cases h2
    exact hb.start xs hx x hxm
  core := by
    rintro c p p' w w' hb ⟨⟨h1, h2, h3⟩, h4⟩ hr
    obtain ⟨evs, g, ht, hup⟩ := core_ok hr
    have hn := generation_notCreated g
    rw [ht, lastCreated_append hn, goalsSince_append hn]
    refine ⟨g.sols hup hb.legal (Q := fun a => C (lastCreated w.trace) a.1) h1 h2 h3
      (fun i hi => hb.born _ p evs p' h1 g _ (mem_newborn hi).2.2), ?_⟩
    intro a ha
    rcases List.mem_append.1 ha with ha | ha
    · exact h4 a ha
    · unfold goalsOf at ha
      obtain ⟨e, he, h5⟩ := List.mem_filterMap.1 ha
      cases e <;> simp at h5
      subst h5
      exact hb.born _ p evs p' h1 g _ (generation_goal g he)

/-- What holds of the genes place by place, and of the number of genes. -/
structure Genewise (K : List (List G) → Nat → G → Prop) (xs : List (List G)) (y : List G) : Prop where
  length : ∃ x ∈ xs, x.length = y.length
  gene : ∀ j g, y[j]? = some g → K xs j g

theorem forall₂_getElem? {α β : Type} {R : α → β → Prop} {as : List α} {bs : List β} (h : List.Forall₂ R as bs) {j : Nat} {b : β}
    (hb : bs[j]? = some b) : ∃ a, as[j]? = some a ∧ R a b := by
  induction h generalizing j with
  | nil => simp at hb
  | cons h1 _ ih =>
    cases j with
    | zero => exact ⟨_, rfl, by simpa using (by simpa using hb : _ = b) ▸ h1⟩
    | succ j => exact ih (by simpa using hb)

theorem recombining_breeds {K : List (List G) → Nat → G → Prop} {single : List G → M σ (List G)} {c : Comps σ (List G)}
    (hc : Recombining single c) (hs : ∀ a b cs, Returned (single [a, b]) cs → cs.length = 1)
    (hstart : ∀ xs, Returned c.creator xs → ∀ x ∈ xs, Genewise K xs x)
    (hK : ∀ xs j a b d, K xs j a → K xs j b → Returned (single [a, b]) [d] → K xs j d) : Breeds (Genewise K) c := by
  refine ⟨hc.legal, hstart, ?_⟩
  intro xs p evs p' hp g y hy
  have hpar : ∀ ps ∈ g.parents, ∀ x ∈ ps, Genewise K xs x := by
    have := g.parents_ok
    intro ps hps x hxm
    obtain ⟨i, hi, rfl⟩ := List.getElem_of_mem hps
    have h3 := (List.forall₂_iff_get.1 this).2 i (by rw [this.length_eq]; exact hi) hi
    obtain ⟨j, hj, rfl⟩ := List.getElem_of_mem hxm
    have h4 := (List.forall₂_iff_get.1 h3).2 j (by rw [h3.length_eq]; exact hj) hj
    have h5 := List.mem_of_getElem? h4
    obtain ⟨ind, hind, he⟩ := List.mem_map.1 h5
    have := hp ind hind
    rw [he] at this
    simpa using this
  have hch : ∀ ks ∈ g.children, ∀ x ∈ ks, Genewise K xs x := by
    intro ks hks
    obtain ⟨i, hi, rfl⟩ := List.getElem_of_mem hks
    have hl := g.cross_ok.length_eq
    have h3 := (List.forall₂_iff_get.1 g.cross_ok).2 i (by omega) hi
    rw [hc.cross] at h3
    have hps := hpar _ (List.getElem_mem (show i < g.parents.length by omega))
    obtain ⟨s, s', h3⟩ := h3
    simp only [List.get_eq_getElem] at h3
    generalize g.parents[i]'_ = ps at h3 hps
    generalize g.children[i] = cs at h3
    have h2 : ps.length = 2 := by
      by_contra hcc
      rw [C06_wrong_arity single ps hcc s] at h3
      simp at h3
    match ps, h2 with
    | [p1, p2], _ =>
      have hlen : p1.length ≤ p2.length := by
        by_contra hcc
        exact C06_short_second single p1 p2 (by omega) s _ h3
      obtain ⟨child, rfl, hl, hf⟩ := C06_length single p1 p2 (fun a b s cs s' h => hs a b cs ⟨s, s', h⟩) hlen _ s s' h3
      intro x hx
      rw [List.mem_singleton] at hx
      subst hx
      have g1 := hps p1 (by simp)
      have g2 := hps p2 (by simp)
      refine ⟨by rw [hl]; exact g1.length, ?_⟩
      intro j d hd
      obtain ⟨⟨a, b⟩, hab, s1, s2, hsg⟩ := forall₂_getElem? hf hd
      rw [List.getElem?_zip_eq_some] at hab
      exact hK xs j a b d (g1.gene j a hab.1) (g2.gene j b hab.2) ⟨s1, s2, hsg⟩
  have hmu : ∀ x ∈ g.mutants, Genewise K xs x := by
    intro x hxm
    obtain ⟨i, hi, rfl⟩ := List.getElem_of_mem hxm
    have hl := g.mutation_ok.length_eq
    obtain ⟨s, s', h3⟩ := (List.forall₂_iff_get.1 g.mutation_ok).2 i (by omega) hi
    obtain ⟨R, prob, m, hprob, hm⟩ := hc.mutation
    rw [hm] at h3
    obtain ⟨s2, h4⟩ := C05_never R prob m hprob (g.children.flatten.get ⟨i, by omega⟩) s
    rw [h3] at h4
    have e : g.mutants.get ⟨i, hi⟩ = g.children.flatten.get ⟨i, by omega⟩ := by
      simp only [Except.ok.injEq, Prod.mk.injEq] at h4; exact h4.1
    simp only [List.get_eq_getElem] at e
    rw [e]
    have hi' : i < g.children.flatten.length := by omega
    have : g.children.flatten[i]'hi' ∈ g.children.flatten := List.getElem_mem _
    obtain ⟨ks, hks, hin⟩ := List.mem_flatten.1 this
    exact hch ks hks _ hin
  exact hmu y (preBirths_filter hc.preBirths g.preBirth_ok y hy)

end Verif.GA
