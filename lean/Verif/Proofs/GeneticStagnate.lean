import Verif.Proofs.Stagnate
import Verif.Proofs.NoFuel
import Verif.Proofs.GeneticClosed
import Verif.Proofs.Private
import Verif.Spec.Stagnate
import Verif.Props.GeneticSize

/-!
# The genetic loop with `GoalNotChange` ends by itself if the selections keep the best
-/

namespace Verif.GA

open Verif Spec Stop Props

variable {σ T : Type}

theorem Consented.winv {τ : Type} {L : Lens σ τ} {chk : AlgState T → M τ Bool} {c : Comps σ T}
    (h : Consented L chk c) (t : τ) :
    WInv (fun w => L.get w.user = t) { c with stop := fun _ => pure false } :=
  { quiet := fun e w _ hJ => hJ
    goal := fun x w v s' hJ hr => (h.goal x _ _ _ hr).trans hJ
    check := fun s w b s' hJ hr => by rw [← (M.pure_eq_ok.1 hr).2]; exact hJ
    log := fun i l hl k s w s' hJ hr => (h.loggers l (List.mem_of_getElem? hl) k s _ _ _ hr).trans hJ
    creator := fun w _ s' hJ hr => (h.operators.creator w.user _ s' hr).trans hJ
    pairing := fun p w _ s' hJ hr => (h.operators.pairing p w.user _ s' hr).trans hJ
    cross := fun xs w _ s' hJ hr => (h.operators.cross xs w.user _ s' hr).trans hJ
    mutation := fun x w _ s' hJ hr => (h.operators.mutation x w.user _ s' hr).trans hJ
    selections := fun f hf p w _ s' hJ hr => (h.operators.selections f hf p w.user _ s' hr).trans hJ
    preBirths := fun f hf p xs w _ s' hJ hr => (h.operators.preBirths f hf p xs w.user _ s' hr).trans hJ }

/-- Somebody lives, everybody in the population does, with a chromosome in `B` and a fitness in `Val`. -/
structure Lively (B : T → Prop) (Val : F64 → Prop) (p : Population T) : Prop where
  ne : p.individuals ≠ []
  all : ∀ i ∈ p.individuals, i.alive = true ∧ B i.chromosomes ∧ Val i.fitness
  best : ∀ i, p.best = some i → i ∈ p.individuals
  worst : ∀ i, p.worst = some i → i ∈ p.individuals

theorem step_lively {c : Comps σ T} {B : T → Prop} {Val : F64 → Prop} (hfin : ∀ v, Val v → v.isFinite = true)
    (hl : Closed B c) (hkb : ∀ sel ∈ c.selections, KeepsBest sel) (hg : ∀ x v, B x → Returned (c.goal x) v → Val v)
    {p p' : Population T} {w w' : World σ T} (hp : Lively B Val p) (h : step c p w = .ok (p', w')) :
    Lively B Val p' ∧ p'.iteration = p.iteration + 1 ∧ ∃ b', p'.best = some b' ∧
      ∀ b, p.best = some b → NotWorse b'.fitness b.fitness := by
  obtain ⟨w1, h1, -⟩ := step_ok.1 h
  obtain ⟨evs, g, -, hup⟩ := core_ok h1
  obtain ⟨l1, l2, l3, l4⟩ := Selections.legal hl.1 g.select_ok
  have hbig : ∀ i ∈ p.individuals ++ newborn g.born g.vals, i.alive = true ∧ B i.chromosomes ∧ Val i.fitness := by
    intro i hi
    rcases List.mem_append.1 hi with hi | hi
    · exact hp.all i hi
    · obtain ⟨n, hn, rfl⟩ := List.getElem_of_mem hi
      have hB : B (newborn g.born g.vals)[n].chromosomes :=
        hl.2.2 p evs p' (fun i hi => (hp.all i hi).2.1) g _ (mem_newborn hi).2.2
      unfold newborn at hn hB ⊢
      rw [List.getElem_zipWith] at hB ⊢
      rw [List.length_zipWith] at hn
      refine ⟨rfl, hB, hg _ _ hB ((List.forall₂_iff_get.1 g.goal_ok).2 n (by omega) (by omega))⟩
  have hval : ∀ j ∈ g.q.individuals, B j.chromosomes ∧ Val j.fitness := by
    have of : ∀ i j : Individual T, i.sol = j.sol → B i.chromosomes ∧ Val i.fitness → B j.chromosomes ∧ Val j.fitness := by
      intro i j he h
      have e1 : j.chromosomes = i.chromosomes := (congrArg Prod.fst he).symm
      have e2 : j.fitness = i.fitness := (congrArg Prod.snd he).symm
      rw [e1, e2]; exact h
    intro j hj
    rcases l4 j hj with h | h | h
    · obtain ⟨i, hi, he⟩ := List.mem_map.1 h
      exact of i j he (hbig i hi).2
    · obtain ⟨i, hi, he⟩ := Option.map_eq_some_iff.1 h
      exact of i j he (hp.all i (hp.best i hi)).2
    · obtain ⟨i, hi, he⟩ := Option.map_eq_some_iff.1 h
      exact of i j he (hp.all i (hp.worst i hi)).2
  have hall : ∀ j ∈ p'.individuals, j.alive = true ∧ B j.chromosomes ∧ Val j.fitness := by
    intro j hj
    rw [g.alive_ok] at hj
    exact ⟨(List.mem_filter.1 hj).2, hval j (List.mem_filter.1 hj).1⟩
  have keep : ∀ i ∈ p.individuals, ∃ j ∈ p'.individuals, j.fitness.isFinite = true ∧ j.fitness.le i.fitness = true := by
    intro i hi
    obtain ⟨j, hj, ja, jf, hle⟩ := selections_keep hkb g.select_ok i (List.mem_append_left _ hi) (hp.all i hi).1
      (hfin _ (hp.all i hi).2.2)
    exact ⟨j, by rw [g.alive_ok]; exact List.mem_filter.2 ⟨hj, ja⟩, jf, hle⟩
  have hne : p'.individuals ≠ [] := by
    obtain ⟨i, hi⟩ := List.exists_mem_of_ne_nil _ hp.ne
    obtain ⟨j, hj, -⟩ := keep i hi
    exact List.ne_nil_of_mem hj
  obtain ⟨x, hx, hxm, hxb⟩ := hup.best hne
  obtain ⟨y, hy, hym, -⟩ := hup.worst hne
  refine ⟨⟨hne, hall, ?_, ?_⟩, by rw [g.iteration_ok, l3], x, hx, ?_⟩
  · intro i hi; rw [hx] at hi; cases hi; exact hxm
  · intro i hi; rw [hy] at hi; cases hi; exact hym
  · intro b hb _
    obtain ⟨j, hj, jf, hle⟩ := keep b (hp.best b hb)
    exact (Fl.le_iff.1 (Fl.le_trans (hxb j hj (Fl.isNan_of_isFinite jf)) hle)).2.2

/-- A bound on the number of turns still to be done; before the first generation there is no best, and one turn more. -/
def turnsLeft (κ : F64 → F64 → Nat) (N : Nat) (t : GNC) (p : Population T) : Nat :=
  match p.best with
  | none => N + 1
  | some b => potential κ t b.fitness p.iteration

theorem loop_stagnates {pr : Profile} {L : Lens σ GNC} {c : Comps σ T} (hc : Consented L (goalNotChange pr) c) {d : F64}
    {m n : Nat} {B : T → Prop} {Val Old : F64 → Prop} {κ : F64 → F64 → Nat} (hk : Counts d NotWorse Val Old κ)
    (hfin : ∀ v, Val v → v.isFinite = true) (hl : Closed B c) (hkb : ∀ sel ∈ c.selections, KeepsBest sel)
    (hg : ∀ x v, B x → Returned (c.goal x) v → Val v) (N : Nat)
    (hN : ∀ (t : GNC) v i, t.delta = d → t.maxIter = m → t.changeIter = n → Val v → potential κ t v i ≤ N) :
    ∀ (f1 f2 : Nat) (p : Population T) (w : World σ T), Lively B Val p → (p.best = none → (L.get w.user).changeIter = n) →
      (L.get w.user).delta = d → (L.get w.user).maxIter = m → Old (L.get w.user).oldGoal →
      turnsLeft κ N (L.get w.user) p < f1 → turnsLeft κ N (L.get w.user) p < f2 →
      loop c f1 p w = loop c f2 p w ∧
      (NoFuel c → loop c f1 p w ≠ .error .fuel) ∧
      (∀ p' w', loop c f1 p w = .ok (p', w') → p'.iteration ≤ p.iteration + turnsLeft κ N (L.get w.user) p) := by
  intro f1
  induction f1 with
  | zero => intro _ _ _ _ _ _ _ _ h; omega
  | succ f1 ih =>
    intro f2 p w hs hi hd hm ho h1 h2
    obtain ⟨f2, rfl⟩ : ∃ k, f2 = k + 1 := ⟨f2 - 1, by omega⟩
    -- one turn
    have turn : ∀ s' (w1 : World σ T) p1 w2, c.stop p.state w.user = .ok (false, s') →
        w1.user = s' → step c p w1 = .ok (p1, w2) → Lively B Val p1 ∧ (p1.best = none → (L.get w2.user).changeIter = n) ∧
          (L.get w2.user).delta = d ∧ (L.get w2.user).maxIter = m ∧ Old (L.get w2.user).oldGoal ∧
          p1.iteration = p.iteration + 1 ∧
          turnsLeft κ N (L.get w2.user) p1 < turnsLeft κ N (L.get w.user) p := by
      rintro s' w1 p1 w2 hq rfl hst
      obtain ⟨hp', hit, b', hb', hbt⟩ := step_lively hfin hl hkb hg hs hst
      have hgn := hc.stop _ _ _ hq
      have hkeep : L.get w2.user = L.get w1.user := (hc.winv (L.get w1.user)).step p w1 p1 w2 rfl hst
      have hne1 : p1.best ≠ none := by rw [hb']; simp
      have hv' := (hp'.all b' (hp'.best b' hb')).2.2
      have e1 : turnsLeft κ N (L.get w2.user) p1 = potential κ (L.get w1.user) b'.fitness (p.iteration + 1) := by
        unfold turnsLeft; rw [hb', hkeep, hit]
      rw [e1, hkeep]
      cases hb : p.best with
      | none =>
        have hsame : L.get w1.user = L.get w.user := by
          have : p.state.best = none := by show p.best.map _ = none; rw [hb]; rfl
          unfold goalNotChange at hgn
          rw [this] at hgn
          exact (M.pure_eq_ok.1 hgn).2.symm
        rw [hsame]
        have e2 : turnsLeft κ N (L.get w.user) p = N + 1 := by unfold turnsLeft; rw [hb]
        rw [e2]
        have := hN (L.get w.user) b'.fitness (p.iteration + 1) hd hm (hi hb) hv'
        exact ⟨hp', fun h => absurd h hne1, hd, hm, ho, hit, by omega⟩
      | some b =>
        have hbest : p.state.best = some (b.chromosomes, b.fitness) := by
          show p.best.map Individual.sol = _
          rw [hb]; rfl
        have e2 : turnsLeft κ N (L.get w.user) p = potential κ (L.get w.user) b.fitness p.iteration := by
          unfold turnsLeft; rw [hb]
        obtain ⟨g1, g2, g3, g4⟩ := hk.decreases hd hbest (hs.all b (hs.best b hb)).2.2 hv' ho (hbt b hb) hgn
        rw [e2]
        exact ⟨hp', fun h => absurd h hne1, g1, g2.trans hm, g3, hit, g4⟩
    refine ⟨?_, ?_, ?_⟩
    · rw [loop, loop, M.bind_run, M.bind_run]
      cases hq : (World.lift (c.stop p.state) : M (World σ T) Bool) w with
      | error e => rfl
      | ok r =>
        obtain ⟨x, w1⟩ := r
        simp only
        obtain ⟨hx, -⟩ := World.lift_eq_ok.1 hq
        rw [M.bind_run, M.bind_run]
        cases hq2 : (World.emit (.check p.state x) : M (World σ T) Unit) w1 with
        | error e => rfl
        | ok r =>
          obtain ⟨u, w2⟩ := r
          simp only
          cases x with
          | true => rfl
          | false =>
            simp only [Bool.false_eq_true, ↓reduceIte]
            rw [M.bind_run, M.bind_run]
            cases hst : step c p w2 with
            | error e => rfl
            | ok r =>
              obtain ⟨p1, w3⟩ := r
              simp only
              obtain ⟨g1, g0, g2, g3, g4, -, g5⟩ := turn _ w2 p1 w3 hx (World.emit_eq_ok.1 hq2).1 hst
              exact (ih f2 p1 w3 g1 g0 g2 g3 g4 (by omega) (by omega)).1
    · intro hn herr
      rw [loop] at herr
      rcases M.bind_eq_error.1 herr with h | ⟨x, w1, hq, h⟩
      · exact World.noFuel_lift (hn.stop _) _ h
      rcases M.bind_eq_error.1 h with h | ⟨u, w2, hq2, h⟩
      · exact World.noFuel_emit _ _ h
      obtain ⟨hx, -⟩ := World.lift_eq_ok.1 hq
      cases x with
      | true => simp only [↓reduceIte] at h; cases h
      | false =>
        simp only [Bool.false_eq_true, ↓reduceIte] at h
        rcases M.bind_eq_error.1 h with h | ⟨p1, w3, hst, h⟩
        · exact noFuel_step hn _ _ h
        · obtain ⟨g1, g0, g2, g3, g4, -, g5⟩ := turn _ w2 p1 w3 hx (World.emit_eq_ok.1 hq2).1 hst
          exact (ih f1 p1 w3 g1 g0 g2 g3 g4 (by omega) (by omega)).2.1 hn h
    · intro p2 w' hr
      obtain ⟨x, s', hx, hr⟩ := loop_succ_ok.1 hr
      rcases hr with ⟨rfl, rfl, rfl⟩ | ⟨rfl, p1, w1, hst, hr⟩
      · omega
      · obtain ⟨g1, g0, g2, g3, g4, g6, g5⟩ := turn _ _ p1 w1 hx rfl hst
        have := (ih f1 p1 w1 g1 g0 g2 g3 g4 (by omega) (by omega)).2.2 _ _ hr
        omega

variable {pr : Profile} {L : Lens σ GNC} {d : F64} {B : T → Prop} {Val Old : F64 → Prop} {κ : F64 → F64 → Nat}

theorem nextIterations_stagnates {o : Opt σ T} (hc : Consented L (goalNotChange pr) o.comps)
    (hk : Counts d NotWorse Val Old κ) (hfin : ∀ v, Val v → v.isFinite = true) (hl : Closed B o.comps)
    (hkb : ∀ sel ∈ o.comps.selections, KeepsBest sel) (hg : ∀ x v, B x → Returned (o.comps.goal x) v → Val v)
    (w : World σ T) (N : Nat) (hN : ∀ (t : GNC) v i, t.delta = d → t.maxIter = (L.get w.user).maxIter →
      t.changeIter = (L.get w.user).changeIter → Val v → potential κ t v i ≤ N)
    (hs : Lively B Val o.pop) (hd : (L.get w.user).delta = d) (ho : Old (L.get w.user).oldGoal)
    (f1 f2 : Nat) (h1 : N + 1 < f1) (h2 : N + 1 < f2) :
    nextIterations f1 o w = nextIterations f2 o w ∧
    (NoFuel o.comps → nextIterations f1 o w ≠ .error .fuel) ∧
    (∀ r o' w', nextIterations f1 o w = .ok ((r, o'), w') → o'.pop.iteration ≤ o.pop.iteration + (N + 1)) := by
  have key : ∀ u w5, callLoggers .resume o.pop.state 0 o.comps.loggers w = .ok (u, w5) →
      loop o.comps f1 o.pop w5 = loop o.comps f2 o.pop w5 ∧
      (NoFuel o.comps → loop o.comps f1 o.pop w5 ≠ .error .fuel) ∧
      (∀ p' w', loop o.comps f1 o.pop w5 = .ok (p', w') → p'.iteration ≤ o.pop.iteration + (N + 1)) := by
    intro u w5 hw5
    have hkeep : L.get w5.user = L.get w.user := (hc.winv (L.get w.user)).loggers .resume o.pop.state w u w5 rfl hw5
    have hle : turnsLeft κ N (L.get w.user) o.pop ≤ N + 1 := by
      unfold turnsLeft
      cases hb : o.pop.best with
      | none => exact Nat.le_refl _
      | some b => exact Nat.le_succ_of_le (hN _ _ _ hd rfl rfl (hs.all b (hs.best b hb)).2.2)
    have := loop_stagnates hc (m := (L.get w.user).maxIter) (n := (L.get w.user).changeIter) hk hfin hl hkb hg N hN f1 f2
      o.pop w5 hs (fun _ => by rw [hkeep]) (by rw [hkeep]; exact hd)
      (by rw [hkeep]) (by rw [hkeep]; exact ho) (by rw [hkeep]; omega) (by rw [hkeep]; omega)
    rw [hkeep] at this
    exact ⟨this.1, this.2.1, fun p' w' hr => by have := this.2.2 p' w' hr; omega⟩
  refine ⟨?_, ?_, ?_⟩
  · unfold nextIterations
    rw [M.bind_run, M.bind_run]
    cases h5 : callLoggers .resume o.pop.state 0 o.comps.loggers w with
    | error e => rfl
    | ok r =>
      obtain ⟨u, w5⟩ := r
      simp only
      rw [M.bind_run, M.bind_run, (key u w5 h5).1]
  · intro hn h
    unfold nextIterations at h
    rcases M.bind_eq_error.1 h with h | ⟨u, w5, hw5, h⟩
    · exact noFuel_callLoggers hn.loggers _ h
    rcases M.bind_eq_error.1 h with h | ⟨p', w6, -, h⟩
    · exact (key u w5 hw5).2.1 hn h
    rcases M.bind_eq_error.1 h with h | ⟨u, w6, -, h⟩
    · exact noFuel_callLoggers hn.loggers _ h
    · cases h
  · intro r o' w' h
    unfold nextIterations at h
    obtain ⟨u, w5, hw5, h⟩ := M.bind_eq_ok.1 h
    obtain ⟨s', w6, h6, h⟩ := M.bind_eq_ok.1 h
    obtain ⟨u', w7, h7, h⟩ := M.bind_eq_ok.1 h
    obtain ⟨h8, -⟩ := M.pure_eq_ok.1 h
    cases h8
    exact (key u w5 hw5).2.2 _ _ h6

theorem begin_lively {c : Comps σ T} (hl : Closed B c) (hg : ∀ x v, B x → Returned (c.goal x) v → Val v) (hne : ¬ Returned c.creator [])
    {p : Population T} {w w' : World σ T} (h : begin c w = .ok (p, w')) : Lively B Val p ∧ p.iteration = 0 := by
  obtain ⟨xs, vals, h1, h2, rfl, -⟩ := begin_ok h
  refine ⟨⟨?_, ?_, by simp, by simp⟩, rfl⟩
  · intro he
    have : (newborn xs vals).length = xs.length := by
      unfold newborn; rw [List.length_zipWith, ← h2.length_eq, Nat.min_self]
    rw [show newborn xs vals = [] from he] at this
    rw [List.length_eq_zero_iff.1 this.symm] at h1
    exact hne h1
  · intro i hi
    obtain ⟨n, hn, rfl⟩ := List.getElem_of_mem hi
    have hB : B (newborn xs vals)[n].chromosomes := hl.2.1 xs h1 _ (mem_newborn hi).2.2
    unfold newborn at hn hB ⊢
    rw [List.getElem_zipWith] at hB ⊢
    rw [List.length_zipWith] at hn
    exact ⟨rfl, hB, hg _ _ hB ((List.forall₂_iff_get.1 h2).2 n (by omega) (by omega))⟩

theorem findMin_stagnates {o : Opt σ T} (hc : Consented L (goalNotChange pr) o.comps)
    (hk : Counts d NotWorse Val Old κ) (hfin : ∀ v, Val v → v.isFinite = true) (hl : Closed B o.comps)
    (hkb : ∀ sel ∈ o.comps.selections, KeepsBest sel) (hg : ∀ x v, B x → Returned (o.comps.goal x) v → Val v)
    (hne : ¬ Returned o.comps.creator [])
    (w : World σ T) (N : Nat) (hN : ∀ (t : GNC) v i, t.delta = d → t.maxIter = (L.get w.user).maxIter →
      t.changeIter = (L.get w.user).changeIter → Val v → potential κ t v i ≤ N)
    (hd : (L.get w.user).delta = d) (ho : Old (L.get w.user).oldGoal)
    (f1 f2 : Nat) (h1 : N + 1 < f1) (h2 : N + 1 < f2) :
    findMin f1 o w = findMin f2 o w ∧
    (NoFuel o.comps → findMin f1 o w ≠ .error .fuel) ∧
    (∀ r o' w', findMin f1 o w = .ok ((r, o'), w') → o'.pop.iteration ≤ N + 1) := by
  have split : ∀ f, findMin f o w = (begin o.comps >>= fun p => callLoggers .start p.state 0 o.comps.loggers >>= fun _ =>
      nextIterations f { o with pop := p }) w := by
    intro f
    unfold findMin begin
    simp only [M.bind_run]
    cases World.lift o.comps.creator w with
    | error e => rfl
    | ok r =>
      obtain ⟨a, w1⟩ := r
      simp only
      cases (World.emit (.created a) : M (World σ T) Unit) w1 with
      | error e => rfl
      | ok r => rfl
  have key : ∀ p w1 u w4, begin o.comps w = .ok (p, w1) →
      callLoggers .start p.state 0 o.comps.loggers w1 = .ok (u, w4) →
      nextIterations f1 { o with pop := p } w4 = nextIterations f2 { o with pop := p } w4 ∧
      (NoFuel o.comps → nextIterations f1 { o with pop := p } w4 ≠ .error .fuel) ∧
      (∀ r o' w', nextIterations f1 { o with pop := p } w4 = .ok ((r, o'), w') → o'.pop.iteration ≤ N + 1) := by
    intro p w1 u w4 hw1 hw4
    obtain ⟨hb, hi⟩ := begin_lively hl hg hne hw1
    have hk1 : L.get w1.user = L.get w.user := by
      have hJ := hc.winv (L.get w.user)
      unfold begin at hw1
      obtain ⟨a, w2, h1, hw1⟩ := M.bind_eq_ok.1 hw1
      obtain ⟨b, w3, h2, hw1⟩ := M.bind_eq_ok.1 hw1
      have e1 : L.get w2.user = L.get w.user := hc.operators.creator _ _ _ (World.lift_eq_ok.1 h1).1
      have e2 : L.get w3.user = L.get w.user := by rw [(World.emit_eq_ok.1 h2).1]; exact e1
      exact hJ.append _ _ w3 _ w1 e2 hw1
    have hk4 : L.get w4.user = L.get w.user := (hc.winv (L.get w.user)).loggers .start p.state w1 u w4 hk1 hw4
    obtain ⟨g1, g2, g3⟩ := nextIterations_stagnates (o := { o with pop := p }) hc hk hfin hl hkb hg w4 N
      (by rw [hk4]; exact hN) hb (by rw [hk4]; exact hd) (by rw [hk4]; exact ho) f1 f2 h1 h2
    refine ⟨g1, g2, fun r o' w' hr => ?_⟩
    have := g3 r o' w' hr
    simp only [hi, Nat.zero_add] at this
    exact this
  refine ⟨?_, ?_, ?_⟩
  · rw [split, split, M.bind_run, M.bind_run]
    cases hb : begin o.comps w with
    | error e => rfl
    | ok r =>
      obtain ⟨p, w1⟩ := r
      simp only
      rw [M.bind_run, M.bind_run]
      cases h4 : callLoggers .start p.state 0 o.comps.loggers w1 with
      | error e => rfl
      | ok r =>
        obtain ⟨u, w4⟩ := r
        exact (key p w1 u w4 hb h4).1
  · intro hn h
    rw [split] at h
    rcases M.bind_eq_error.1 h with h | ⟨p, w1, hw1, h⟩
    · unfold begin at h
      rcases M.bind_eq_error.1 h with h | ⟨_, _, -, h⟩
      · exact World.noFuel_lift hn.creator _ h
      rcases M.bind_eq_error.1 h with h | ⟨_, _, -, h⟩
      · exact World.noFuel_emit _ _ h
      · exact noFuel_append hn _ _ _ h
    rcases M.bind_eq_error.1 h with h | ⟨u, w4, hw4, h⟩
    · exact noFuel_callLoggers hn.loggers _ h
    exact (key p w1 u w4 hw1 hw4).2.1 hn h
  · intro r o' w' h
    rw [split] at h
    obtain ⟨p, w1, hw1, h⟩ := M.bind_eq_ok.1 h
    obtain ⟨u, w4, hw4, h⟩ := M.bind_eq_ok.1 h
    exact (key p w1 u w4 hw1 hw4).2.2 r o' w' h

end Verif.GA
