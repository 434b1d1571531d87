import Verif.Spec.Lasting
import Verif.Spec.Trace
import Verif.Proofs.Genetic
import Verif.Proofs.Shape

/-!
# Runs of lasting components neither panic nor die out
-/

namespace Verif.GA

open Verif Spec Spec.Swarm
open _root_.Verif.PSO (Good good_loggers)

variable {σ T : Type} {B L : T → Prop} {F : Prop}

/-- A population that lasts: everybody is alive, lives in `B` and has a value of the goal, and somebody's value is finite.
After a generation there is a best individual, with a finite value. -/
structure Lasts (B : T → Prop) (goal : T → M σ F64) (p : Population T) : Prop where
  all : ∀ i ∈ p.individuals, i.alive = true ∧ B i.chromosomes ∧ Returned (goal i.chromosomes) i.fitness
  finite : ∃ i ∈ p.individuals, i.fitness.isFinite = true
  best : p.iteration ≠ 0 → ∃ b, p.best = some b ∧ B b.chromosomes ∧ Returned (goal b.chromosomes) b.fitness ∧
    b.fitness.isFinite = true
  first : p.iteration = 0 → p.best = none

theorem Works.ret {m : M σ T} {Q : T → Prop} (h : Works m Q) : Works m (fun a => Q a ∧ Returned m a) := by
  intro s
  obtain ⟨b, s', h1, h2⟩ := h s
  exact ⟨b, s', h1, h2, s, s', h1⟩

theorem good_push {c : Comps σ T} (hg : ∀ x, B x → Works (c.goal x) (fun _ => True)) (p : Population T) (x : T) (hx : B x)
    (w : World σ T) : Good F (push c p x) w (fun q => ∃ v, Returned (c.goal x) v ∧
      (SurelyFinite c.goal x → v.isFinite = true) ∧ q = { p with individuals := p.individuals ++ [⟨x, v, true⟩] }) := by
  refine Good.bind (Good.lift (Q := fun v => Returned (c.goal x) v ∧ (SurelyFinite c.goal x → v.isFinite = true)) ?_)
    fun v w1 hv => Good.bind Good.emit fun _ w2 _ => Good.pure ⟨v, hv.1, hv.2, rfl⟩
  intro s
  obtain ⟨v, s', h1, -⟩ := hg x hx s
  refine ⟨v, s', h1, ⟨s, s', h1⟩, fun h => ?_⟩
  obtain ⟨v', s2, h2, h3⟩ := h s
  rw [h1] at h2; cases h2; exact h3

theorem good_append {c : Comps σ T} (hg : ∀ x, B x → Works (c.goal x) (fun _ => True)) :
    ∀ (xs : List T) (p : Population T) (w : World σ T), (∀ x ∈ xs, B x) →
      Good F (append c p xs) w (fun q => ∃ js, q = { p with individuals := p.individuals ++ js } ∧
        (∀ i ∈ js, i.alive = true ∧ B i.chromosomes ∧ Returned (c.goal i.chromosomes) i.fitness) ∧
        ((∃ x ∈ xs, SurelyFinite c.goal x) → ∃ i ∈ js, i.fitness.isFinite = true))
  | [], p, w, _ => Good.pure ⟨[], by simp, by simp, by simp⟩
  | x :: xs, p, w, hx => by
    refine Good.bind (good_push hg p x (hx x (by simp)) w) fun q w1 hq => ?_
    obtain ⟨v, h1, h2, rfl⟩ := hq
    refine Good.mono (good_append hg xs _ w1 (fun x h => hx x (by simp [h]))) ?_
    rintro q ⟨js, rfl, h3, h4⟩
    refine ⟨⟨x, v, true⟩ :: js, by simp, ?_, ?_⟩
    · intro i hi
      rcases List.mem_cons.1 hi with rfl | hi
      · exact ⟨rfl, hx x (by simp), h1⟩
      · exact h3 i hi
    · rintro ⟨y, hy, hs⟩
      rcases List.mem_cons.1 hy with rfl | hy
      · exact ⟨⟨y, v, true⟩, List.mem_cons_self, h2 hs⟩
      · obtain ⟨i, hi, hf⟩ := h4 ⟨y, hy, hs⟩
        exact ⟨i, by simp [hi], hf⟩

theorem preBirth_run (p : Population T) : ∀ (fs : List (Population T → List T → M σ (List T))) (i : Nat) (xs ys : List T)
    (w : World σ T) (s' : σ), M.foldL (fun xs f => f p xs) xs fs w.user = .ok (ys, s') →
    ∃ tr, preBirth p i fs xs w = .ok (ys, ⟨s', tr⟩)
  | [], i, xs, ys, w, s', h => by
    obtain ⟨rfl, rfl⟩ := M.pure_eq_ok.1 h
    exact ⟨w.trace, rfl⟩
  | f :: fs, i, xs, ys, w, s', h => by
    obtain ⟨zs, s1, h1, h2⟩ := M.foldL_cons_ok.1 h
    obtain ⟨tr, h3⟩ := preBirth_run p fs (i + 1) zs ys ⟨s1, w.trace ++ [.preBorn i xs zs]⟩ s' h2
    exact ⟨tr, M.bind_eq_ok.2 ⟨zs, ⟨s1, w.trace⟩, World.lift_eq_ok.2 ⟨h1, rfl⟩, M.bind_eq_ok.2 ⟨(), _, rfl, h3⟩⟩⟩

theorem select_run : ∀ (fs : List (Population T → M σ (Population T))) (i : Nat) (p q : Population T)
    (w : World σ T) (s' : σ), M.foldL (fun p f => f p) p fs w.user = .ok (q, s') →
    ∃ tr, select i fs p w = .ok (q, ⟨s', tr⟩)
  | [], i, p, q, w, s', h => by
    obtain ⟨rfl, rfl⟩ := M.pure_eq_ok.1 h
    exact ⟨w.trace, rfl⟩
  | f :: fs, i, p, q, w, s', h => by
    obtain ⟨p1, s1, h1, h2⟩ := M.foldL_cons_ok.1 h
    obtain ⟨tr, h3⟩ := select_run fs (i + 1) p1 q ⟨s1, w.trace ++ [.selected i (flagged p) (flagged p1)]⟩ s' h2
    exact ⟨tr, M.bind_eq_ok.2 ⟨p1, ⟨s1, w.trace⟩, World.lift_eq_ok.2 ⟨h1, rfl⟩, M.bind_eq_ok.2 ⟨(), _, rfl, h3⟩⟩⟩

theorem good_children {c : Comps σ T} (hc : Lasting B L c) (p : Population T) (hne : p.individuals ≠ [])
    (hp : ∀ i ∈ p.individuals, B i.chromosomes) (w : World σ T) :
    Good F (runPairing c p) w (fun ys => ∀ y ∈ ys, L y) := by
  refine Good.bind (Good.lift (hc.pairing p hne)) fun fams w1 hf => Good.bind Good.emit fun _ w2 _ => ?_
  refine Good.bind (Good.mapL (P := fun fam => fam.length = 2 ∧ ∀ i ∈ fam, i < p.individuals.length)
    (Q := fun ys => ∀ y ∈ ys, L y) fams w2 hf fun fam w hfam => ?_) fun kids w3 hk => Good.pure ?_
  · unfold crossFamily
    refine Good.bind (Good.mapL (P := fun i => i < p.individuals.length) (Q := B) fam w hfam.2 fun i w hi => ?_)
      fun xs w1 hxs => ?_
    · refine Good.bind (P := fun a => a ∈ p.individuals) ?_ fun a w1 ha => Good.pure (hp a ha)
      exact .inl ⟨p.individuals[i], w, M.index_eq_ok.2 ⟨List.getElem?_eq_getElem hi, rfl⟩, List.getElem_mem hi⟩
    · refine Good.bind (Good.lift (hc.cross xs (hxs.1.trans hfam.1) hxs.2)) fun ys w2 hys =>
        Good.bind Good.emit fun _ w3 _ => Good.pure hys
  · intro y hy
    obtain ⟨k, hk1, hk2⟩ := List.mem_flatten.1 hy
    exact hk.2 k hk1 y hk2

theorem good_mutate {c : Comps σ T} (hc : Lasting B L c) (xs : List T) (hx : ∀ x ∈ xs, L x) (w : World σ T) :
    Good F (mutate c xs) w (fun ys => ∀ y ∈ ys, L y) :=
  Good.mono (Good.mapL (P := L) (Q := L) xs w hx fun x w hx =>
    Good.bind (Good.lift (hc.mutation x hx)) fun y w1 hy => Good.bind Good.emit fun _ w2 _ => Good.pure hy)
    fun _ h => h.2

theorem good_step {c : Comps σ T} (hc : Lasting B L c) (p : Population T) (hp : Lasts B c.goal p) (w : World σ T) :
    Good F (step c p) w (fun q => Lasts B c.goal q ∧ q.iteration = p.iteration + 1) := by
  obtain ⟨i0, hi0, hf0⟩ := hp.finite
  have hne : p.individuals ≠ [] := by rintro h; rw [h] at hi0; simp at hi0
  refine Good.bind (good_children hc p hne (fun i hi => (hp.all i hi).2.1) w) fun ks w1 hks => ?_
  refine Good.bind (good_mutate hc ks hks w1) fun ms w2 hms => ?_
  refine Good.bind (P := fun ys => ∀ y ∈ ys, B y) ?_ fun born w3 hb => ?_
  · obtain ⟨ys, s', h1, h2⟩ := hc.preBirths p ms hms w2.user
    obtain ⟨tr, h3⟩ := preBirth_run p c.preBirths 0 ms ys w2 s' h1
    exact .inl ⟨ys, _, h3, h2⟩
  refine Good.bind (good_append hc.goal born p w3 hb) fun p1 w4 hp1 => ?_
  obtain ⟨js, rfl, hjs, -⟩ := hp1
  have hall : ∀ i ∈ p.individuals ++ js, i.alive = true ∧ B i.chromosomes ∧ Returned (c.goal i.chromosomes) i.fitness := by
    intro i hi
    rcases List.mem_append.1 hi with hi | hi
    · exact hp.all i hi
    · exact hjs i hi
  refine Good.bind (P := fun q => OnlyKills { p with individuals := p.individuals ++ js } q ∧
      (∀ i ∈ q.individuals, i.alive = true → i.fitness.isFinite = true) ∧ ∃ i ∈ q.individuals, i.alive = true)
    ?_ fun q w5 hq => ?_
  · obtain ⟨q, s', h1, h2⟩ := hc.selections { p with individuals := p.individuals ++ js }
      (fun i hi => (hall i hi).2.1) ⟨i0, List.mem_append_left _ hi0, (hp.all i0 hi0).1, hf0⟩ w4.user
    obtain ⟨tr, h3⟩ := select_run c.selections 0 _ q w4 s' h1
    exact .inl ⟨q, _, h3, h2⟩
  obtain ⟨⟨-, -, hit, hk⟩, hfin, j0, hj0, hj0a⟩ := hq
  have hq : ∀ i ∈ q.removeDead.individuals, i.alive = true ∧ i.fitness.isFinite = true ∧ B i.chromosomes ∧
      Returned (c.goal i.chromosomes) i.fitness := by
    intro i hi
    obtain ⟨hi, hal⟩ := List.mem_filter.1 hi
    obtain ⟨k, hkl⟩ := List.mem_iff_getElem.1 hi
    obtain ⟨hkl, rfl⟩ := hkl
    have hkl' : k < (p.individuals ++ js).length := by rw [hk.length_eq]; exact hkl
    have h1 := hk.get hkl' hkl
    simp only [List.get_eq_getElem] at h1
    have h2 := hall _ (List.getElem_mem hkl')
    refine ⟨hal, hfin _ hi hal, ?_, ?_⟩
    · rw [h1.1]; exact h2.2.1
    · rw [h1.1, h1.2.1]; exact h2.2.2
  have hmem : j0 ∈ q.removeDead.individuals := List.mem_filter.2 ⟨hj0, hj0a⟩
  obtain ⟨q', hr, hq1, hq2, hq3⟩ := q.removeDead.updateBestWorst_run w5
  refine Good.bind (P := fun x => x = q') (.inl ⟨q', w5, hr, rfl⟩) fun x w6 hx => ?_
  subst hx
  refine Good.bind Good.emit fun _ w7 _ => Good.bind (good_loggers hc.loggers) fun _ w8 _ => Good.pure ⟨⟨?_, ?_, ?_, fun h => (Nat.succ_ne_zero _ h).elim⟩, ?_⟩
  · intro i hi
    have := hq i (by rw [← hq1]; exact hi)
    exact ⟨this.1, this.2.2⟩
  · exact ⟨j0, by show j0 ∈ x.individuals; rw [hq1]; exact hmem, (hq j0 hmem).2.1⟩
  · intro _
    have hne : x.individuals ≠ [] := by rw [hq1]; rintro h; rw [h] at hmem; simp at hmem
    obtain ⟨b, hb, hbm, -⟩ := hq3.best hne
    have := hq b (by rw [← hq1]; exact hbm)
    exact ⟨b, hb, this.2.2.1, this.2.2.2, this.2.1⟩
  · show x.iteration + 1 = _
    rw [hq2]; show q.iteration + 1 = _; rw [hit]

theorem good_loop {c : Comps σ T} (hc : Lasting B L c) :
    ∀ (fuel : Nat) (p : Population T), Lasts B c.goal p → ∀ (w : World σ T), Good True (loop c fuel p) w (Lasts B c.goal)
  | 0, _, _, _ => .inr ⟨trivial, rfl⟩
  | fuel + 1, p, hp, w => by
    refine Good.bind (Good.lift (hc.stop _)) fun b w1 _ => ?_
    refine Good.bind Good.emit fun _ w2 _ => ?_
    cases b with
    | true => exact Good.pure hp
    | false => exact Good.bind (good_step hc p hp w2) fun s1 w3 hs1 => good_loop hc fuel s1 hs1.1 w3

theorem good_turns {c : Comps σ T} (hc : Lasting B L c) :
    ∀ (m : Nat) (p : Population T), Lasts B c.goal p → ∀ (w : World σ T), Good True (turns c m p) w (Lasts B c.goal)
  | 0, _, hs, _ => Good.pure hs
  | m + 1, p, hp, w => by
    refine Good.bind (Good.lift (hc.stop _)) fun b w1 _ => ?_
    refine Good.bind Good.emit fun _ w2 _ => ?_
    cases b with
    | true => exact .inr ⟨trivial, rfl⟩
    | false => exact Good.bind (good_step hc p hp w2) fun s1 w3 hs1 => good_turns hc m s1 hs1.1 w3

theorem good_nextIterations {o : Opt σ T} (hc : Lasting B L o.comps) (hs : Lasts B o.comps.goal o.pop)
    (fuel : Nat) (w : World σ T) :
    Good True (nextIterations fuel o) w (fun r => r.2.comps = o.comps ∧ Lasts B o.comps.goal r.2.pop) := by
  refine Good.bind (good_loggers hc.loggers) fun _ w1 _ => ?_
  refine Good.bind (good_loop hc fuel _ hs w1) fun s w2 hs => ?_
  refine Good.bind (good_loggers hc.loggers) fun _ w3 _ => ?_
  exact Good.pure ⟨rfl, hs⟩

theorem good_first {c : Comps σ T} (hc : Lasting B L c) (p0 : Population T) (w : World σ T) :
    Good F (do
      let start ← World.lift c.creator
      World.emit (.created start)
      append c p0.reset start) w (fun p => Lasts B c.goal p ∧ p.iteration = 0 ∧ p.best = none) := by
  refine Good.bind (Good.lift hc.creator) fun xs w1 hx => Good.bind Good.emit fun _ w2 _ => ?_
  refine Good.mono (good_append hc.goal xs _ w2 hx.1) ?_
  rintro p ⟨js, rfl, h1, h2⟩
  obtain ⟨i, hi, hf⟩ := h2 hx.2
  refine ⟨⟨?_, ⟨i, by simp [hi], hf⟩, fun h => absurd rfl h, fun _ => rfl⟩, rfl, rfl⟩
  intro i hi
  rcases List.mem_append.1 hi with hi | hi
  · simp [Population.reset, Population.empty] at hi
  · exact h1 i hi

theorem good_findMin {o : Opt σ T} (hc : Lasting B L o.comps) (fuel : Nat) (w : World σ T) :
    Good True (findMin fuel o) w (fun r => r.2.comps = o.comps ∧ Lasts B o.comps.goal r.2.pop) := by
  have h := Good.bind (good_first (F := True) hc o.pop w) (f := fun p => do
      callLoggers .start p.state 0 o.comps.loggers
      nextIterations fuel { o with pop := p }) (Q := fun r => r.2.comps = o.comps ∧ Lasts B o.comps.goal r.2.pop)
    fun p w1 hp => Good.bind (good_loggers hc.loggers) fun _ w2 _ =>
      good_nextIterations (o := { o with pop := p }) hc hp.1 fuel w2
  have e : findMin fuel o = ((do
      let start ← World.lift o.comps.creator
      World.emit (.created start)
      append o.comps o.pop.reset start) >>= fun p => do
      callLoggers .start p.state 0 o.comps.loggers
      nextIterations fuel { o with pop := p }) := by
    unfold findMin; simp only [bind_assoc]
  rw [e]; exact h

theorem good_findMinHead {o : Opt σ T} (hc : Lasting B L o.comps) (w : World σ T) :
    Good F (findMinHead o) w (fun r => r.comps = o.comps ∧ Lasts B o.comps.goal r.pop) := by
  have h := Good.bind (good_first (F := F) hc o.pop w) (f := fun p => do
      callLoggers .start p.state 0 o.comps.loggers
      callLoggers .resume p.state 0 o.comps.loggers
      pure { o with pop := p }) (Q := fun r => r.comps = o.comps ∧ Lasts B o.comps.goal r.pop)
    fun p w1 hp => Good.bind (good_loggers hc.loggers) fun _ w2 _ =>
      Good.bind (good_loggers hc.loggers) fun _ w2 _ => Good.pure ⟨rfl, hp.1⟩
  have e : findMinHead o = ((do
      let start ← World.lift o.comps.creator
      World.emit (.created start)
      append o.comps o.pop.reset start) >>= fun p => do
      callLoggers .start p.state 0 o.comps.loggers
      callLoggers .resume p.state 0 o.comps.loggers
      pure { o with pop := p }) := by
    unfold findMinHead; simp only [bind_assoc]
  rw [e]; exact h

theorem good_runTo : ∀ (ks : List (Call σ T)) {o : Opt σ T} (_ : Always (Lasting B L) o.comps ks) (b : Bool) (pt : Point)
    (_ : b = true → Lasts B o.comps.goal o.pop) (_ : InOrder b ks pt) (w : World σ T),
    Good True (runTo o ks pt) w (fun _ => True)
  | [], o, hc, b, pt, hs, ho, w => by
    refine Good.bind (P := fun r => r = ([], o)) (Good.pure rfl) fun r w1 hr => ?_
    subst hr
    cases pt with
    | done => exact Good.pure trivial
    | inFindMin m =>
      refine Good.bind (good_findMinHead hc w1) fun o2 w2 h2 => ?_
      have hc' : Lasting B L o2.comps := by rw [h2.1]; exact hc
      refine Good.bind (good_turns hc' m _ (by rw [h2.1]; exact h2.2) w2) fun s w3 hs => ?_
      exact Good.pure trivial
    | inNextIterations m =>
      refine Good.bind (good_loggers (Lasting.loggers hc)) fun _ w2 _ => ?_
      refine Good.bind (good_turns hc m _ (hs ho) w2) fun s w3 hs => ?_
      exact Good.pure trivial
  | k :: ks, o, hc, b, pt, hs, ho, w => by
    obtain ⟨hc1, hc2⟩ := hc
    have key : ∀ (o1 : Opt σ T) (w1 : World σ T) (r : Ret T), call o k w = .ok ((r, o1), w1) →
        Good True (runTo o1 ks pt) w1 (fun _ => True) → Good True (runTo o (k :: ks) pt) w (fun _ => True) := by
      intro o1 w1 r h1 h2
      unfold runTo at *
      rcases h2 with ⟨o2, w2, h2, -⟩ | ⟨-, h2⟩
      · left
        obtain ⟨⟨rs, o3⟩, w3, h3, h4⟩ := M.bind_eq_ok.1 h2
        refine ⟨o2, w2, M.bind_eq_ok.2 ⟨(r :: rs, o3), w3, ?_, h4⟩, trivial⟩
        exact M.bind_eq_ok.2 ⟨(r, o1), w1, h1, M.bind_eq_ok.2 ⟨(rs, o3), w3, h3, rfl⟩⟩
      · right
        refine ⟨trivial, ?_⟩
        rcases M.bind_eq_error.1 h2 with h3 | ⟨⟨rs, o3⟩, w3, h3, h4⟩
        · exact M.bind_eq_error.2 (.inl (M.bind_eq_error.2 (.inr ⟨(r, o1), w1, h1, M.bind_eq_error.2 (.inl h3)⟩)))
        · refine M.bind_eq_error.2 (.inr ⟨(r :: rs, o3), w3, ?_, h4⟩)
          exact M.bind_eq_ok.2 ⟨(r, o1), w1, h1, M.bind_eq_ok.2 ⟨(rs, o3), w3, h3, rfl⟩⟩
    have keyE : call o k w = .error .fuel → Good True (runTo o (k :: ks) pt) w (fun _ => True) := by
      intro h
      unfold runTo run
      exact .inr ⟨trivial, M.bind_eq_error.2 (.inl (M.bind_eq_error.2 (.inl h)))⟩
    cases k with
    | findMin fuel =>
      rcases good_findMin hc1 fuel w with ⟨⟨r, o1⟩, w1, h1, h2, h3⟩ | ⟨-, h1⟩
      · refine key o1 w1 (some r) (M.bind_eq_ok.2 ⟨(r, o1), w1, h1, rfl⟩) ?_
        have hco : o1.comps = o.comps := h2
        exact good_runTo ks (by rw [hco]; exact hc2) true pt (fun _ => by rw [hco]; exact h3) ho w1
      · exact keyE (M.bind_eq_error.2 (.inl h1))
    | nextIterations fuel =>
      rcases good_nextIterations hc1 (hs ho.1) fuel w with ⟨⟨r, o1⟩, w1, h1, h2, h3⟩ | ⟨-, h1⟩
      · refine key o1 w1 (some r) (M.bind_eq_ok.2 ⟨(r, o1), w1, h1, rfl⟩) ?_
        have hco : o1.comps = o.comps := h2
        exact good_runTo ks (by rw [hco]; exact hc2) b pt (fun _ => by rw [hco]; exact h3) ho.2 w1
      · exact keyE (M.bind_eq_error.2 (.inl h1))
    | setLoggers f => exact key _ w none rfl (good_runTo ks (o := { o with comps := { o.comps with loggers := f } }) hc2 b pt hs ho w)
    | setPairing f => exact key _ w none rfl (good_runTo ks (o := { o with comps := { o.comps with pairing := f } }) hc2 b pt hs ho w)
    | setCross f => exact key _ w none rfl (good_runTo ks (o := { o with comps := { o.comps with cross := f } }) hc2 b pt hs ho w)
    | setMutation f => exact key _ w none rfl (good_runTo ks (o := { o with comps := { o.comps with mutation := f } }) hc2 b pt hs ho w)
    | setSelection f => exact key _ w none rfl (good_runTo ks (o := { o with comps := { o.comps with selections := f } }) hc2 b pt hs ho w)
    | setPreBirth f => exact key _ w none rfl (good_runTo ks (o := { o with comps := { o.comps with preBirths := f } }) hc2 b pt hs ho w)
    | setStopChecker f => exact key _ w none rfl (good_runTo ks (o := { o with comps := { o.comps with stop := f } }) hc2 b pt hs ho w)

theorem total_loop {c : Comps σ T} (hc : Lasting B L c) {m : Nat} (hb : Bounding m c.stop) :
    ∀ (fuel : Nat) (p : Population T), Lasts B c.goal p → p.iteration ≤ m → m < p.iteration + fuel → ∀ (w : World σ T),
      Good False (loop c fuel p) w (fun q => Lasts B c.goal q ∧ q.iteration ≤ m ∧ Returned (c.stop q.state) true)
  | 0, _, _, h0, h, _ => by omega
  | fuel + 1, p, hp, h0, hf, w => by
    refine Good.bind (Good.lift (Q := fun b => Returned (c.stop p.state) b ∧ (m ≤ p.iteration → b = true)) ?_)
      fun b w1 hbt => ?_
    · intro u
      obtain ⟨b, u', h1, -⟩ := hc.stop p.state u
      exact ⟨b, u', h1, ⟨u, u', h1⟩, fun hle => hb p.state u b u' hle h1⟩
    refine Good.bind Good.emit fun _ w2 _ => ?_
    cases b with
    | true => exact Good.pure ⟨hp, h0, hbt.1⟩
    | false =>
      have hlt : ¬ m ≤ p.iteration := fun hle => by simpa using hbt.2 hle
      refine Good.bind (good_step hc p hp w2) fun s1 w3 hs1 => ?_
      exact total_loop hc hb fuel s1 hs1.1 (by omega) (by omega) w3

theorem total_nextIterations {o : Opt σ T} (hc : Lasting B L o.comps) {m : Nat} (hb : Bounding m o.comps.stop) (fuel : Nat)
    (hs : Lasts B o.comps.goal o.pop) (hi : o.pop.iteration ≤ m) (hf : m < o.pop.iteration + fuel) (w : World σ T) :
    Good False (nextIterations fuel o) w (fun r => r.2.comps = o.comps ∧ Lasts B o.comps.goal r.2.pop ∧
      r.2.pop.iteration ≤ m ∧ Returned (o.comps.stop r.2.pop.state) true ∧ r.1 = r.2.pop.best.map Individual.sol) := by
  refine Good.bind (good_loggers hc.loggers) fun _ w1 _ => ?_
  refine Good.bind (total_loop hc hb fuel o.pop hs hi hf w1) fun s w2 hs => ?_
  refine Good.bind (good_loggers hc.loggers) fun _ w3 _ => ?_
  refine Good.pure ⟨rfl, hs.1, hs.2.1, hs.2.2, ?_⟩
  show (match s.best with | none => none | some i => some (i.chromosomes, i.fitness)) = _
  cases s.best <;> rfl

theorem total_findMin {o : Opt σ T} (hc : Lasting B L o.comps) {m : Nat} (hb : Bounding m o.comps.stop) (fuel : Nat)
    (hf : m < fuel) (w : World σ T) :
    Good False (findMin fuel o) w (fun r => r.2.comps = o.comps ∧ Lasts B o.comps.goal r.2.pop ∧ r.2.pop.iteration ≤ m ∧
      Returned (o.comps.stop r.2.pop.state) true ∧ r.1 = r.2.pop.best.map Individual.sol) := by
  have h := Good.bind (good_first (F := False) hc o.pop w) (f := fun p => do
      callLoggers .start p.state 0 o.comps.loggers
      nextIterations fuel { o with pop := p }) (Q := fun r => r.2.comps = o.comps ∧ Lasts B o.comps.goal r.2.pop ∧
        r.2.pop.iteration ≤ m ∧ Returned (o.comps.stop r.2.pop.state) true ∧ r.1 = r.2.pop.best.map Individual.sol)
    fun p w1 hp => Good.bind (good_loggers hc.loggers) fun _ w2 _ =>
      total_nextIterations (o := { o with pop := p }) hc hb fuel hp.1 (by show p.iteration ≤ m; omega)
        (by show m < p.iteration + fuel; omega) w2
  have e : findMin fuel o = ((do
      let start ← World.lift o.comps.creator
      World.emit (.created start)
      append o.comps o.pop.reset start) >>= fun p => do
      callLoggers .start p.state 0 o.comps.loggers
      nextIterations fuel { o with pop := p }) := by
    unfold findMin; simp only [bind_assoc]
  rw [e]; exact h

end Verif.GA
