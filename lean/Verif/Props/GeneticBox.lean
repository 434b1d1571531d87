import Verif.Props.GeneticApi
import Verif.Props.Creation
import Verif.Props.VecCross
import Verif.Props.Mutation
import Verif.Proofs.Safe
import Verif.Props.Pairing

/-!
# C28, C66: what all individuals of all runs have in common
-/

namespace Verif.Props

open Verif Spec GA

variable {σ T : Type}

/-- Everything an event shows has a point in `B`. -/
def ShowsOnly (B : T → Prop) : Ev T → Prop
  | .goal x _ => B x
  | .generation ags best worst _ => (∀ a ∈ ags, B a.1) ∧ (∀ a, best = some a → B a.1) ∧ (∀ a, worst = some a → B a.1)
  | .log _ _ s => ∀ a, s.best = some a → B a.1
  | .check s _ => ∀ a, s.best = some a → B a.1
  | _ => True

theorem closed_all (B : T → Prop) (o o' : Opt σ T) (w w' : World σ T) (ks : List (Call σ T)) (pt : Point)
    (h0 : Fresh o w) (hc : Always (Closed B) o.comps ks) (hr : runTo o ks pt w = .ok (o', w')) :
    (∀ i ∈ o'.pop.individuals, B i.chromosomes) ∧ (∀ e ∈ w'.trace, ShowsOnly B e) := by
  obtain ⟨⟨h1, h2⟩, -⟩ := (inv_closed B).runTo hc hr (by rw [h0.1, h0.2]; simp)
  refine ⟨h1.1, ?_⟩
  have hev := (C22_evaluated o o' w w' ks pt h0 (Always.imp (fun c h => h.1) hc) hr).1
  have key : ∀ before e after, w'.trace = before ++ e :: after → ∀ a, Evaluated before a → B a.1 := by
    intro before e after hs a ha
    exact h2 a.1 a.2 (by rw [hs]; exact List.mem_append_left _ ha)
  intro e he
  obtain ⟨before, after, hs⟩ := List.append_of_mem he
  have hsh := hev before e after hs
  cases e with
  | goal x v => exact h2 x v he
  | generation ags best worst it =>
    exact ⟨fun a ha => key _ _ _ hs a (hsh.1 a ha), fun a ha => key _ _ _ hs a (hsh.2.1 a ha),
      fun a ha => key _ _ _ hs a (hsh.2.2 a ha)⟩
  | log i k s => exact fun a ha => key _ _ _ hs a (hsh a ha)
  | check s b => exact fun a ha => key _ _ _ hs a (hsh a ha)
  | _ => trivial

theorem closed_ret (B : T → Prop) (o o' : Opt σ T) (w w' : World σ T) (ks : List (Call σ T)) (rs : List (Ret T))
    (h0 : Fresh o w) (hc : Always (Closed B) o.comps ks) (hr : run o ks w = .ok ((rs, o'), w'))
    (a : Solution T) (ha : some (some a) ∈ rs) : B a.1 := by
  have h1 := C22_returned o o' w w' ks rs h0 (Always.imp (fun c h => h.1) hc) hr a ha
  have hto : runTo o ks .done w = .ok (o', w') := by
    unfold runTo; exact M.bind_eq_ok.2 ⟨_, _, hr, rfl⟩
  exact (closed_all B o o' w w' ks .done h0 hc hto).2 _ h1

/-! ## C28 -/

variable {f : Fmt}

/-- RandomCreator and the pre-birth interval check are plugged in, with the same intervals. Other pre-birth components
may come before; those after it must only drop children. Everything else is arbitrary (selections: anything that a
selection can do). -/
def Boxed (R : Rng σ) (size : Nat) (ivs : List (Fl f × Fl f)) (c : Comps σ (List (Fl f))) : Prop :=
  Legal c ∧ c.creator = Creation.RandomCreator.create R ⟨size, ivs⟩ ∧
  ∃ pre post, c.preBirths = pre ++ Selection.preBirthInterval ivs :: post ∧ ∀ g ∈ post, Filtering g

theorem boxed_closed (R : Rng σ) (size : Nat) (ivs : List (Fl f × Fl f)) (hf : Fmt.Embeds f Fmt.f64)
    (hivs : FiniteIncreasing ivs) (c : Comps σ (List (Fl f))) (h : Boxed R size ivs c) : Closed (InBox ivs) c := by
  obtain ⟨h1, h2, pre, post, h3, h4⟩ := h
  refine ⟨h1, ?_, ?_⟩
  · rintro xs ⟨s, s', hx⟩
    rw [h2] at hx
    obtain ⟨ys, s2, hy, -, hb⟩ := C10_create R hf size ivs hivs s
    rw [hx] at hy; cases hy
    exact hb
  · intro p evs p' _ g y hy
    have hp := g.preBirth_ok
    rw [h3] at hp
    obtain ⟨xs, e1, e2, -, hp2⟩ := preBirths_append hp
    cases hp2 with
    | cons hk hp3 =>
      have hm := preBirths_filter h4 hp3 y hy
      obtain ⟨s, s', hk⟩ := hk
      have hlen : ∀ c ∈ xs, c.length = ivs.length := by
        by_contra hc
        push Not at hc
        rw [C14_wrong_length ivs p xs hc s] at hk
        simp at hk
      have hn : ∀ iv ∈ ivs, iv.1.isNan = false ∧ iv.2.isNan = false := by
        intro iv hiv
        have := Fl.lt_iff.1 (hivs iv hiv).2.2
        exact ⟨this.1, this.2.1⟩
      rw [C14_preBirth ivs hn p xs hlen s] at hk
      cases hk
      simpa using (List.mem_filter.1 hm).2

/-- C28: at every point of every history all individuals are inside the intervals, the goal has only been called inside
the intervals, and so is everything shown to loggers and stop checkers. -/
theorem C28_box (R : Rng σ) (size : Nat) (ivs : List (Fl f × Fl f)) (hf : Fmt.Embeds f Fmt.f64)
    (hivs : FiniteIncreasing ivs) (o o' : Opt σ (List (Fl f))) (w w' : World σ (List (Fl f)))
    (ks : List (Call σ (List (Fl f)))) (pt : Point) (h0 : Fresh o w)
    (hc : Always (Boxed R size ivs) o.comps ks) (hr : runTo o ks pt w = .ok (o', w')) :
    (∀ i ∈ o'.pop.individuals, InBox ivs i.chromosomes) ∧ (∀ e ∈ w'.trace, ShowsOnly (InBox ivs) e) :=
  closed_all _ o o' w w' ks pt h0 (Always.imp (boxed_closed R size ivs hf hivs) hc) hr

/-- C28: what `find_min` and `next_iterations` return is inside the intervals. -/
theorem C28_returned (R : Rng σ) (size : Nat) (ivs : List (Fl f × Fl f)) (hf : Fmt.Embeds f Fmt.f64)
    (hivs : FiniteIncreasing ivs) (o o' : Opt σ (List (Fl f))) (w w' : World σ (List (Fl f)))
    (ks : List (Call σ (List (Fl f)))) (rs : List (Ret (List (Fl f)))) (h0 : Fresh o w)
    (hc : Always (Boxed R size ivs) o.comps ks) (hr : run o ks w = .ok ((rs, o'), w'))
    (a : Solution (List (Fl f))) (ha : some (some a) ∈ rs) : InBox ivs a.1 :=
  closed_ret _ o o' w w' ks rs h0 (Always.imp (boxed_closed R size ivs hf hivs) hc) hr a ha

/-- The demo optimizer has these components. -/
example : Boxed Rng.script 4 Demo.ivs Demo.opt.comps ∧ FiniteIncreasing Demo.ivs ∧ Fresh Demo.opt Demo.world := by
  refine ⟨⟨demo_legal, rfl, [], [], rfl, by simp⟩, ?_, demo_fresh⟩
  unfold FiniteIncreasing Demo.ivs
  simp only [List.mem_singleton, forall_eq]
  decide +kernel

/-! ## C66 -/

/-- The number of genes is kept: vector crossing over a one-child gene crossing, vector mutation, pre-birth
components that only drop children, initial chromosomes of `n` genes. -/
def Genes (n : Nat) {G : Type} (c : Comps σ (List G)) : Prop :=
  Legal c ∧ (∀ xs, Returned c.creator xs → ∀ x ∈ xs, x.length = n) ∧
  (∃ single, (∀ a b cs, Returned (single [a, b]) cs → cs.length = 1) ∧ c.cross = Cross.vecCrossAllGenes single) ∧
  (∃ (R : Rng σ) (prob : F64) (single : G → M σ G), c.mutation = Mutation.vec R prob single) ∧
  ∀ g ∈ c.preBirths, Filtering g

theorem vecCross_length {G : Type} (n : Nat) (single : List G → M σ (List G))
    (hs : ∀ a b cs, Returned (single [a, b]) cs → cs.length = 1) (ps : List (List G))
    (hp : ∀ x ∈ ps, x.length = n) (cs : List (List G)) (h : Returned (Cross.vecCrossAllGenes single ps) cs) :
    ∀ x ∈ cs, x.length = n := by
  obtain ⟨s, s', h⟩ := h
  have h2 : ps.length = 2 := by
    by_contra hc
    rw [C06_wrong_arity single ps hc s] at h
    simp at h
  match ps, h2 with
  | [p1, p2], _ =>
    have e1 := hp p1 (by simp)
    have e2 := hp p2 (by simp)
    obtain ⟨child, rfl, hl, -⟩ := C06_length single p1 p2
      (fun a b s cs s' h => hs a b cs ⟨s, s', h⟩) (by omega) cs s s' h
    intro x hx
    rw [List.mem_singleton] at hx
    subst hx; omega

theorem genes_closed (n : Nat) {G : Type} (c : Comps σ (List G)) (h : Genes n c) :
    Closed (fun x => x.length = n) c := by
  obtain ⟨h1, h2, ⟨single, hs, hx⟩, ⟨R, prob, gm, hm⟩, hpb⟩ := h
  refine ⟨h1, h2, ?_⟩
  intro p evs p' hp g y hy
  have hpar : ∀ ps ∈ g.parents, ∀ x ∈ ps, x.length = n := by
    have := g.parents_ok
    intro ps hps x hxm
    obtain ⟨i, hi, rfl⟩ := List.getElem_of_mem hps
    have h3 := (List.forall₂_iff_get.1 this).2 i (by rw [this.length_eq]; exact hi) hi
    obtain ⟨j, hj, rfl⟩ := List.getElem_of_mem hxm
    have h4 := (List.forall₂_iff_get.1 h3).2 j (by rw [h3.length_eq]; exact hj) hj
    have h5 := List.mem_of_getElem? h4
    obtain ⟨ind, hind, he⟩ := List.mem_map.1 h5
    have := hp ind hind
    rw [he] at this
    simpa using this
  have hch : ∀ ks ∈ g.children, ∀ x ∈ ks, x.length = n := by
    intro ks hks
    obtain ⟨i, hi, rfl⟩ := List.getElem_of_mem hks
    have hl := g.cross_ok.length_eq
    have h3 := (List.forall₂_iff_get.1 g.cross_ok).2 i (by omega) hi
    rw [hx] at h3
    exact vecCross_length n single hs _ (hpar _ (List.getElem_mem _)) _ h3
  have hmu : ∀ x ∈ g.mutants, x.length = n := by
    intro x hxm
    obtain ⟨i, hi, rfl⟩ := List.getElem_of_mem hxm
    have hl := g.mutation_ok.length_eq
    obtain ⟨s, s', h3⟩ := (List.forall₂_iff_get.1 g.mutation_ok).2 i (by omega) hi
    rw [hm] at h3
    have h4 := (C05_vec R prob gm _ _ s s' h3).1
    simp only [List.get_eq_getElem] at h4
    rw [h4]
    have hi' : i < g.children.flatten.length := by omega
    have : g.children.flatten[i]'hi' ∈ g.children.flatten := List.getElem_mem _
    obtain ⟨ks, hks, hin⟩ := List.mem_flatten.1 this
    exact hch ks hks _ hin
  exact hmu y (preBirths_filter hpb g.preBirth_ok y hy)

/-- C66: at every point of every history all individuals have `n` genes, and only points with `n` genes have been passed
to the goal or shown. -/
theorem C66_genes (n : Nat) {G : Type} (o o' : Opt σ (List G)) (w w' : World σ (List G))
    (ks : List (Call σ (List G))) (pt : Point) (h0 : Fresh o w)
    (hc : Always (Genes n) o.comps ks) (hr : runTo o ks pt w = .ok (o', w')) :
    (∀ i ∈ o'.pop.individuals, i.chromosomes.length = n) ∧
    (∀ e ∈ w'.trace, ShowsOnly (fun x => x.length = n) e) :=
  closed_all _ o o' w w' ks pt h0 (Always.imp (genes_closed n) hc) hr

/-- Library selections whose intervals, if any, are `n`. -/
inductive SelectionFor (n : Nat) : (Population (List (Fl f)) → M σ (Population (List (Fl f)))) → Prop
  | killFitnessNaN : SelectionFor n Selection.killFitnessNaN
  | limitPopulation (max : Nat) : SelectionFor n (Selection.limitPopulation max)
  | checkChromoInterval (ivs : List (Fl f × Fl f)) (h : ivs.length = n) :
      SelectionFor n (Selection.checkChromoInterval ivs)

/-- Library components for chromosomes of `n` genes; the goal, the gene crossing, the gene mutation and the loggers
are arbitrary but do not fail an assertion of their own. -/
structure LibraryFor (n : Nat) (c : Comps σ (List (Fl f))) : Prop where
  goal : ∀ x s, x.length = n → c.goal x s ≠ .error .assert
  creator : ∀ xs, Returned c.creator xs → ∀ x ∈ xs, x.length = n
  pairing : (∃ R, c.pairing = Pairing.randomPairing R) ∨
    (∃ R k r, c.pairing = Pairing.tournament R ⟨k, 2, r⟩)
  cross : ∃ single, (∀ a b cs, Returned (single [a, b]) cs → cs.length = 1) ∧
    (∀ a b s, single [a, b] s ≠ .error .assert) ∧ c.cross = Cross.vecCrossAllGenes single
  mutation : ∃ (R : Rng σ) (prob : F64) (single : Fl f → M σ (Fl f)),
    (∀ x s, single x s ≠ .error .assert) ∧ c.mutation = Mutation.vec R prob single
  preBirths : ∀ g ∈ c.preBirths, ∃ ivs, ivs.length = n ∧ g = Selection.preBirthInterval ivs
  selections : ∀ g ∈ c.selections, SelectionFor n g
  loggers : ∀ l ∈ c.loggers, ∀ s t, l.start s t ≠ .error .assert ∧ l.resume s t ≠ .error .assert ∧
    l.nextIteration s t ≠ .error .assert ∧ l.finish s t ≠ .error .assert

theorem retain_run {β : Type} {keep : β → M σ Bool} : ∀ {xs ys : List β} {s s' : σ},
    Selection.retain keep xs s = .ok (ys, s') → ∀ y ∈ ys, y ∈ xs := by
  intro xs
  induction xs with
  | nil => intro ys s s' h y hy; obtain ⟨rfl, -⟩ := M.pure_eq_ok.1 h; exact hy
  | cons x xs ih =>
    intro ys s s' h y hy
    obtain ⟨b, s1, -, h⟩ := M.bind_eq_ok.1 h
    obtain ⟨r, s2, h2, h⟩ := M.bind_eq_ok.1 h
    obtain ⟨rfl, -⟩ := M.pure_eq_ok.1 h
    cases b with
    | true =>
      simp only [↓reduceIte] at hy
      rcases List.mem_cons.1 hy with rfl | hy
      · simp
      · exact List.mem_cons_of_mem _ (ih h2 y hy)
    | false => simp only [Bool.false_eq_true, ↓reduceIte] at hy; exact List.mem_cons_of_mem _ (ih h2 y hy)

theorem preBirthInterval_filtering (ivs : List (Fl f × Fl f)) :
    Filtering (σ := σ) (Selection.preBirthInterval ivs) := by
  rintro p xs ys ⟨s, s', h⟩
  exact retain_run h

theorem library_genes (n : Nat) (c : Comps σ (List (Fl f))) (h : LibraryFor n c) : Genes n c := by
  refine ⟨?_, h.creator, ?_, ?_, ?_⟩
  · intro sel hs
    cases h.selections sel hs with
    | killFitnessNaN => exact legal_library _ .killFitnessNaN
    | limitPopulation m => exact legal_library _ (.limitPopulation m)
    | checkChromoInterval ivs _ => exact legal_library _ (.checkChromoInterval ivs)
  · obtain ⟨single, h1, -, h3⟩ := h.cross
    exact ⟨single, h1, h3⟩
  · obtain ⟨R, prob, single, -, h2⟩ := h.mutation
    exact ⟨R, prob, single, h2⟩
  · intro g hg
    obtain ⟨ivs, -, rfl⟩ := h.preBirths g hg
    exact preBirthInterval_filtering ivs

theorem onlyKills_allIn {T : Type} {B : T → Prop} {p p' : Population T} (h : OnlyKills p p') (hp : AllIn B p) :
    AllIn B p' := by
  obtain ⟨h1, h2, -, h4⟩ := h
  refine ⟨?_, by rw [h1]; exact hp.2.1, by rw [h2]; exact hp.2.2⟩
  intro j hj
  obtain ⟨n, hn, rfl⟩ := List.getElem_of_mem hj
  have hl := h4.length_eq
  have := (List.forall₂_iff_get.1 h4).2 n (by omega) hn
  simp only [List.get_eq_getElem] at this
  rw [this.1]
  exact hp.1 _ (List.getElem_mem _)

theorem range_ne_assert : (Err.range : Err) ≠ .assert := by decide

theorem vecCrossLoop_safe {G : Type} (single : List G → M σ (List G))
    (hs : ∀ a b s, single [a, b] s ≠ .error .assert) (p1 p2 : List G) :
    ∀ (is : List Nat) (acc : List G), (Cross.vecCrossLoop single p1 p2 is acc).Safe .assert (fun _ => True) := by
  intro is
  induction is with
  | nil => intro acc; exact .pure trivial
  | cons i is ih =>
    intro acc
    unfold Cross.vecCrossLoop
    refine (M.Safe.index (by decide)).bind fun a _ => (M.Safe.index (by decide)).bind fun b _ => ?_
    refine M.Safe.bind (Q := fun _ => True) (fun s => ⟨hs a b s, fun _ _ _ => trivial⟩) fun _ _ => ?_
    exact ih _

theorem library_safe (n : Nat) (c : Comps σ (List (Fl f))) (h : LibraryFor n c) :
    SafeComps .assert (fun x => x.length = n) c where
  goal := fun x hx s => ⟨h.goal x s hx, fun _ _ _ => trivial⟩
  pairing := by
    intro p _ s
    rcases h.pairing with ⟨R, hp⟩ | ⟨R, k, r, hp⟩
    · rw [hp]
      by_cases he : p.individuals = []
      · rw [C21_random R p he s]; simp
      · obtain ⟨fams, s', hr, -, hf⟩ := C19_pairs R p he s
        rw [hr]
        refine ⟨by simp, ?_⟩
        rintro a s2 ⟨⟩ fam hfam
        obtain ⟨i, j, rfl, -⟩ := hf fam hfam
        rfl
    · rw [hp]
      by_cases he : p.individuals = []
      · rw [C21_tournament R _ p he s]; simp
      · obtain ⟨fams, s', hr, -, hf⟩ := C20_shape R ⟨k, 2, r⟩ p he s
        rw [hr]
        refine ⟨by simp, ?_⟩
        rintro a s2 ⟨⟩ fam hfam
        exact (hf fam hfam).1
  cross := by
    intro xs hx hl
    obtain ⟨single, h1, h2, h3⟩ := h.cross
    rw [h3]
    intro s
    refine ⟨?_, fun a s' ha => vecCross_length n single h1 xs hl a ⟨s, s', ha⟩⟩
    have : (Cross.vecCrossAllGenes single xs).Safe .assert (fun _ => True) := by
      unfold Cross.vecCrossAllGenes
      refine (M.Safe.assert (by simp [hx])).bind fun _ _ => (M.Safe.index (by decide)).bind fun p1 _ =>
        (M.Safe.index (by decide)).bind fun p2 _ => (vecCrossLoop_safe single h2 p1 p2 _ _).bind fun _ _ => .pure trivial
    exact (this s).1
  mutation := by
    intro x hx
    obtain ⟨R, prob, single, h1, h2⟩ := h.mutation
    rw [h2]
    intro s
    refine ⟨?_, fun a s' ha => (C05_vec R prob single x a s s' ha).1.trans hx⟩
    have : (Mutation.vec R prob single x).Safe .assert (fun bs => ∀ b ∈ bs, True) := by
      unfold Mutation.vec
      refine M.Safe.mapL (P := fun _ => True) (Q := fun _ => True) (fun g _ => ?_) x (fun _ _ => trivial)
      refine M.Safe.bind (Q := fun _ => True) ?_ fun r _ => ?_
      · intro s
        obtain ⟨x, s1, hr, -⟩ := R.uniformFl_tot hundred_facts.1 hundred_facts.2.1 hundred_facts.2.2 s
        rw [hr]; exact ⟨by simp, fun _ _ _ => trivial⟩
      · split
        · exact fun s => ⟨h1 g s, fun _ _ _ => trivial⟩
        · exact .pure trivial
    exact (this s).1
  preBirths := by
    intro g hg p xs hx s
    obtain ⟨ivs, hl, rfl⟩ := h.preBirths g hg
    refine ⟨?_, fun ys s' hy y hym => hx y (preBirthInterval_filtering ivs p xs ys ⟨s, s', hy⟩ y hym)⟩
    have : ∀ (xs : List (List (Fl f))), (∀ x ∈ xs, x.length = n) →
        (Selection.retain (Selection.checkChromo ivs) xs : M σ _).Safe .assert (fun _ => True) := by
      intro xs
      induction xs with
      | nil => intro _; exact .pure trivial
      | cons x xs ih =>
        intro hx
        unfold Selection.retain
        refine M.Safe.bind (Q := fun _ => True) ?_ fun _ _ =>
          (ih (fun x h => hx x (by simp [h]))).bind fun _ _ => .pure trivial
        unfold Selection.checkChromo
        have := hx x (by simp)
        exact (M.Safe.assert (by simp [this, hl])).bind fun _ _ => .pure trivial
    exact (this xs hx s).1
  selections := by
    intro g hg p hp s
    cases h.selections g hg with
    | killFitnessNaN =>
      obtain ⟨p', hr, hk, -⟩ := C12_killFitnessNaN p s
      rw [hr]
      exact ⟨by simp, by rintro a s' ⟨⟩; exact onlyKills_allIn hk hp⟩
    | limitPopulation m =>
      obtain ⟨p', hr, hk, -⟩ := C15_limit m p s
      rw [hr]
      exact ⟨by simp, by rintro a s' ⟨⟩; exact onlyKills_allIn hk hp⟩
    | checkChromoInterval ivs hl =>
      refine ⟨?_, ?_⟩
      · have : (Selection.checkChromoInterval ivs p : M σ _).Safe .assert (fun _ => True) := by
          unfold Selection.checkChromoInterval
          refine M.Safe.bind (Q := fun _ => True) ?_ fun _ _ => .pure trivial
          refine M.Safe.weaken (M.Safe.mapL (P := fun i => i.chromosomes.length = n) (Q := fun _ => True)
            (fun i hi => ?_) p.individuals hp.1) (fun _ _ => trivial)
          exact (M.Safe.assert (by simp [hi, hl])).bind fun _ _ => .pure trivial
        exact (this s).1
      · intro p' s' hr
        exact onlyKills_allIn (C17_one _ (.checkChromoInterval ivs) p p' s s' hr).1 hp
  loggers := by
    intro l hl s
    exact ⟨fun t => ⟨(h.loggers l hl s t).1, fun _ _ _ => trivial⟩,
      fun t => ⟨(h.loggers l hl s t).2.1, fun _ _ _ => trivial⟩,
      fun t => ⟨(h.loggers l hl s t).2.2.1, fun _ _ _ => trivial⟩,
      fun t => ⟨(h.loggers l hl s t).2.2.2, fun _ _ _ => trivial⟩⟩

/-- C66: with library components for `n` genes no assertion fails in the next generation, at any point of any history. -/
theorem C66_no_assertion (n : Nat) (o o' : Opt σ (List (Fl f))) (w w' : World σ (List (Fl f)))
    (ks : List (Call σ (List (Fl f)))) (pt : Point) (h0 : Fresh o w)
    (hc : Always (LibraryFor n) o.comps ks) (hr : runTo o ks pt w = .ok (o', w')) :
    step o'.comps o'.pop w' ≠ .error .assert := by
  have hcl := Always.imp (fun c h => genes_closed n c (library_genes n c h)) hc
  obtain ⟨⟨h1, -⟩, -⟩ := (inv_closed (fun x : List (Fl f) => x.length = n)).runTo hcl hr (by rw [h0.1, h0.2]; simp)
  have hlib : LibraryFor n o'.comps := by
    have := (show Inv (σ := σ) (LibraryFor (f := f) n) (fun _ _ => True) from
      ⟨fun _ _ _ _ h => h, fun _ _ _ h => h, fun _ _ _ _ _ _ _ _ => trivial,
        fun _ _ _ _ _ _ _ _ => trivial⟩).runTo hc hr trivial
    exact this.2
  exact (safe_step (by decide) (library_safe n _ hlib) o'.pop h1 w').1

example : LibraryFor 1 Demo.opt.comps where
  goal := by intro x s _ h; cases h
  creator := by
    rintro xs ⟨s, s', h⟩ x hx
    obtain ⟨ys, s2, hy, -, hb⟩ := C10_create Rng.script (Fmt.embeds_refl _) 4 Demo.ivs (by
      unfold FiniteIncreasing Demo.ivs
      simp only [List.mem_singleton, forall_eq]
      decide +kernel) s
    have h : Creation.RandomCreator.create Rng.script ⟨4, Demo.ivs⟩ s = .ok (xs, s') := h
    rw [hy] at h; cases h
    exact (hb x hx).length_eq.symm
  pairing := .inr ⟨_, _, _, rfl⟩
  cross := by
    refine ⟨Cross.crossMean, ?_, ?_, rfl⟩
    · rintro a b cs ⟨s, s', h⟩; cases h; rfl
    · intro a b s h; cases h
  mutation := ⟨_, _, fun x => pure x, (fun x s h => by cases h), rfl⟩
  preBirths := by
    intro g hg
    have : g = Selection.preBirthInterval Demo.ivs := by simpa [Demo.opt, GA.new] using hg
    exact ⟨Demo.ivs, rfl, this⟩
  selections := by
    intro g hg
    have : g = Selection.killFitnessNaN ∨ g = Selection.limitPopulation 4 := by simpa [Demo.opt, GA.new] using hg
    rcases this with rfl | rfl
    · exact .killFitnessNaN
    · exact .limitPopulation 4
  loggers := by
    intro l hl s t
    have : l = Logging.silent := by
      have : l ∈ [Logging.silent, Logging.silent] := hl
      simpa using this
    subst this
    exact ⟨(fun h => by cases h), (fun h => by cases h), (fun h => by cases h), (fun h => by cases h)⟩

end Verif.Props
