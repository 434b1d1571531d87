import Verif.Proofs.Lasting
import Verif.Proofs.Checked
import Verif.Proofs.Beside
import Verif.Proofs.GeneticRow

/-!
# Runs of a genetic optimizer that have not ended yet

A run that is out of fuel has made as many turns as it had fuel, and a counter or another build profile does not change this.
-/

namespace Verif.GA

open Verif Spec Stop

variable {σ σ1 σ2 T : Type}

theorem turns_fuel {c : Comps σ T} : ∀ {k : Nat} {p p' : Population T} {w w' : World σ T},
    turns c k p w = .ok (p', w') → loop c k p w = .error .fuel := by
  intro k
  induction k with
  | zero => intro p p' w w' _; rfl
  | succ k ih =>
    intro p p' w w' h
    obtain ⟨s', hs, p1, w1, h1, h2⟩ := turns_succ_ok.1 h
    rw [loop]
    refine M.bind_eq_error.2 (.inr ⟨false, ⟨s', w.trace⟩, World.lift_eq_ok.2 ⟨hs, rfl⟩, ?_⟩)
    exact M.bind_eq_error.2 (.inr ⟨(), _, rfl, M.bind_eq_error.2 (.inr ⟨p1, w1, h1, ih h2⟩)⟩)

/-- For components that last, being out of fuel means that all turns have been made. -/
theorem fuel_turns {B L : T → Prop} {c : Comps σ T} (hc : Lasting B L c) : ∀ {k : Nat} {p : Population T} {w : World σ T},
    Lasts B c.goal p → loop c k p w = .error .fuel → ∃ p' w', turns c k p w = .ok (p', w') := by
  intro k
  induction k with
  | zero => intro p w _ _; exact ⟨p, w, rfl⟩
  | succ k ih =>
    intro p w hp h
    rw [loop] at h
    obtain ⟨b, s', hs, -⟩ := hc.stop p.state w.user
    rcases M.bind_eq_error.1 h with h | ⟨x, w1, h1, h⟩
    · unfold World.lift at h; rw [hs] at h; cases h
    obtain ⟨h2, h3⟩ := World.lift_eq_ok.1 h1
    rcases M.bind_eq_error.1 h with h | ⟨u, w2, h4, h⟩
    · cases h
    obtain ⟨h5, h6⟩ := World.emit_eq_ok.1 h4
    cases x with
    | true => cases h
    | false =>
      have hw2 : w2 = ⟨w1.user, w.trace ++ [.check p.state false]⟩ := by rw [← h5, ← h3, ← h6]
      rcases good_step (F := False) hc p hp w2 with ⟨p1, w3, h7, h8, -⟩ | ⟨h7, -⟩
      swap
      · exact h7.elim
      rcases M.bind_eq_error.1 h with h | ⟨p1', w3', h9, h⟩
      · rw [h7] at h; cases h
      rw [h7] at h9
      cases h9
      obtain ⟨p', w', h10⟩ := ih h8 h
      rw [hw2] at h7
      exact ⟨p', w', turns_succ_ok.2 ⟨_, h2, p1, w3, h7, h10⟩⟩

theorem turns_agree {L : Lens σ GNC} {c : Comps σ T} (hc : StopOwns L c) (hl : Legal c) {s1 s2 : AlgState T → M σ Bool}
    (h : Agree L s1 s2) : ∀ {k : Nat} {p p' : Population T} {w w' : World σ T}, (L.get w.user).changeIter ≤ p.iteration →
      turns { c with stop := s1 } k p w = .ok (p', w') → turns { c with stop := s2 } k p w = .ok (p', w') := by
  intro k
  induction k with
  | zero => intro p p' w w' _ hr; exact hr
  | succ k ih =>
    intro p p' w w' hw hr
    obtain ⟨s', hs, p1, w1, h1, h2⟩ := turns_succ_ok.1 hr
    obtain ⟨e1, e2⟩ := h p.state w.user hw
    have h1 : step c p ⟨s', w.trace ++ [.check p.state false]⟩ = .ok (p1, w1) := h1
    have hk : L.get w1.user = L.get s' := (hc.winv (L.get s')).step p ⟨s', _⟩ p1 w1 rfl h1
    refine turns_succ_ok.2 ⟨s', ?_, p1, w1, h1, ih ?_ h2⟩
    · rw [← hs]; exact e1.symm
    · rw [hk, step_iteration hl h1]
      exact Nat.le_succ_of_le (e2 _ _ hs)

section

variable {D : Mode (World σ1 T)} {R R0 R1 R2 R3 : World σ1 T → World σ2 T → Prop}
  {c1 : Comps σ1 T} {c2 : Comps σ2 T}

theorem CSim.turns (h : CSim D R c1 c2) (hl : LSim D R R .next c1 c2) : ∀ (k : Nat) (p : Population T),
    Sim D R R Eq (turns c1 k p) (turns c2 k p) := by
  intro k
  induction k with
  | zero => intro p; exact .pure rfl
  | succ k ih =>
    intro p
    unfold GA.turns
    rw [recorded_bind _ (Ev.check p.state), recorded_bind _ (Ev.check p.state)]
    refine (h.stop p.state).seq fun b => ?_
    cases b with
    | true => exact .fail _
    | false => exact (h.step hl p).seq fun _ => ih _

/-- The start of `find_min` and `k` turns of its loop. -/
def firstTurns (k : Nat) (c : Comps σ T) : M (World σ T) (Population T) := do
  let p ← begin c
  callLoggers .start p.state 0 c.loggers
  callLoggers .resume p.state 0 c.loggers
  turns c k p

theorem CSim.firstTurns (h : CSim D R c1 c2) (hl : ∀ k, LSim D R R k c1 c2) (k : Nat) :
    Sim D R R Eq (firstTurns k c1) (firstTurns k c2) := by
  unfold GA.firstTurns begin
  exact Sim.seq (h.creator.seq fun _ => (h.quiet _ (by trivial)).seq fun _ => h.append _ _) fun _ =>
    (hl .start _).seq fun _ => (hl .resume _).seq fun _ => h.turns (hl .next) k _

end

theorem firstTurns_ok {k : Nat} {c : Comps σ T} {p' : Population T} {w w' : World σ T} :
    firstTurns k c w = .ok (p', w') ↔ ∃ p w1 w2 w3, begin c w = .ok (p, w1) ∧
      callLoggers .start p.state 0 c.loggers w1 = .ok ((), w2) ∧
      callLoggers .resume p.state 0 c.loggers w2 = .ok ((), w3) ∧ turns c k p w3 = .ok (p', w') := by
  unfold firstTurns
  simp only [M.bind_eq_ok]
  constructor
  · rintro ⟨p, w1, h1, u, w2, h2, u', w3, h3, h⟩
    exact ⟨p, w1, w2, w3, h1, h2, h3, h⟩
  · rintro ⟨p, w1, w2, w3, h1, h2, h3, h⟩
    exact ⟨p, w1, h1, (), w2, h2, (), w3, h3, h⟩

theorem findMin_eq (k : Nat) (o : Opt σ T) : findMin k o = begin o.comps >>= fun p =>
    callLoggers .start p.state 0 o.comps.loggers >>= fun _ => nextIterations k { o with pop := p } := by
  unfold findMin begin
  simp only [bind_assoc]
  rfl

theorem firstTurns_fuel {k : Nat} {o : Opt σ T} {p' : Population T} {w w' : World σ T}
    (h : firstTurns k o.comps w = .ok (p', w')) : findMin k o w = .error .fuel := by
  obtain ⟨p, w1, w2, w3, h1, h2, h3, h4⟩ := firstTurns_ok.1 h
  rw [findMin_eq]
  refine M.bind_eq_error.2 (.inr ⟨p, w1, h1, M.bind_eq_error.2 (.inr ⟨(), w2, h2, ?_⟩)⟩)
  exact M.bind_eq_error.2 (.inr ⟨(), w3, h3, M.bind_eq_error.2 (.inl (turns_fuel h4))⟩)

theorem fuel_firstTurns {B L : T → Prop} {o : Opt σ T} (hc : Lasting B L o.comps) {k : Nat} {w : World σ T}
    (h : findMin k o w = .error .fuel) : ∃ p' w', firstTurns k o.comps w = .ok (p', w') := by
  rcases good_findMinHead (F := False) hc w with ⟨o1, w3, hh, hcomps, hlast⟩ | ⟨h, -⟩
  swap
  · exact h.elim
  obtain ⟨p, w1, w2, h1, h2, h3, rfl⟩ := findMinHead_ok.1 hh
  rw [findMin_eq] at h
  rcases M.bind_eq_error.1 h with h | ⟨q, w4, k1, h⟩
  · rw [h1] at h; cases h
  rw [h1] at k1; cases k1
  rcases M.bind_eq_error.1 h with h | ⟨u, w5, k2, h⟩
  · rw [h2] at h; cases h
  rw [h2] at k2; cases k2
  unfold nextIterations at h
  rcases M.bind_eq_error.1 h with h | ⟨u, w6, k3, h⟩
  · rw [show callLoggers .resume p.state 0 o.comps.loggers w2 = _ from h3] at h; cases h
  rw [show callLoggers .resume p.state 0 o.comps.loggers w2 = _ from h3] at k3; cases k3
  rcases M.bind_eq_error.1 h with h | ⟨q, w7, k4, h⟩
  · obtain ⟨p', w', h5⟩ := fuel_turns hc hlast h
    exact ⟨p', w', firstTurns_ok.2 ⟨p, _, _, _, h1, h2, h3, h5⟩⟩
  · rcases _root_.Verif.PSO.good_loggers (F := False) hc.loggers (k := .finish) (s := q.state) (i := 0) (w := w7) with ⟨u, w8, k5, -⟩ | ⟨hf, -⟩
    · rcases M.bind_eq_error.1 h with h | ⟨u, w9, k6, h⟩
      · rw [k5] at h; cases h
      · cases h
    · exact hf.elim

theorem firstTurns_agree {L : Lens σ GNC} {c : Comps σ T} (hc : StopOwns L c) (hl : Legal c) {s1 s2 : AlgState T → M σ Bool}
    (h : Agree L s1 s2) {k : Nat} {p' : Population T} {w w' : World σ T} (hw : (L.get w.user).changeIter = 0)
    (hr : firstTurns k { c with stop := s1 } w = .ok (p', w')) : firstTurns k { c with stop := s2 } w = .ok (p', w') := by
  obtain ⟨p, w1, w2, w3, h1, h2, h3, h4⟩ := firstTurns_ok.1 hr
  have keep : ∀ k st u (w w' : World σ T), callLoggers k st 0 c.loggers w = .ok (u, w') →
      L.get w'.user = L.get w.user := fun k st u w w' hr => (hc.winv (L.get w.user)).loggers k st w u w' rfl hr
  have hb : begin c w = .ok (p, w1) := h1
  have h5 : L.get w1.user = L.get w.user := by
    unfold begin at hb
    obtain ⟨x, v1, k1, hb⟩ := M.bind_eq_ok.1 hb
    obtain ⟨u, v2, k2, k3⟩ := M.bind_eq_ok.1 hb
    have h := hc.winv (L.get w.user)
    have e1 : L.get v1.user = L.get w.user := h.creator.lift w x v1 rfl k1
    have e2 : L.get v2.user = L.get w.user := by rw [(World.emit_eq_ok.1 k2).1]; exact e1
    exact h.append _ x v2 p w1 e2 k3
  refine firstTurns_ok.2 ⟨p, w1, w2, w3, h1, h2, h3, turns_agree hc hl h ?_ h4⟩
  rw [keep _ _ _ _ _ h3, keep _ _ _ _ _ h2, h5, hw]
  exact Nat.zero_le _

/-- A counter that does not overflow changes nothing. -/
theorem firstTurns_counted (o : Opt σ T) (pr : Profile) {k : Nat} {p' : Population T} {s : σ} {w' : World σ T}
    (h : firstTurns k o.comps ⟨s, []⟩ = .ok (p', w')) (hfit : (goalArgs w'.trace).length < 2 ^ 64) :
    ∃ v', firstTurns k (o.counted pr).comps ⟨(s, Stats.CallCount.new), []⟩ = .ok (p', v') := by
  have hc : CSim (Mode.count Stats.CallCount.new 0) (Counted Stats.CallCount.new 0) o.comps (o.counted pr).comps :=
    beside_csim (counted_rel _ 0) (count_lift _ 0) (count_emit _ 0) o.comps _ _ (goal_counted pr _ 0 o.comps.goal)
  have hl : ∀ k, LSim (Mode.count Stats.CallCount.new 0) (Counted Stats.CallCount.new 0) (Counted Stats.CallCount.new 0) k
      o.comps (o.counted pr).comps := fun k s =>
    loggers_counted (counted_rel _ 0) (counted_log _ 0) (count_lift _ 0) (count_emit _ 0) k s _ _
  obtain ⟨b, v', h1, rfl, -⟩ := (hc.firstTurns hl k).ok ⟨s, []⟩ ⟨(s, Stats.CallCount.new), []⟩ ⟨rfl, rfl, 0, rfl, rfl⟩ _ _ h
    (show lastCount _ + _ < usizeSize + 0 by
      have : lastCount Stats.CallCount.new = 0 := rfl
      have : usizeSize = 2 ^ 64 := rfl
      omega)
  exact ⟨v', h1⟩

end Verif.GA
