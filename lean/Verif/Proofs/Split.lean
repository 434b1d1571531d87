import Verif.Spec.Split
import Verif.Proofs.Beside
import Verif.Proofs.MoreFuel
import Verif.Proofs.GeneticTurns
import Verif.Proofs.SwarmTurns

/-!
# A run in parts
-/

set_option linter.unusedSectionVars false

namespace Verif

open Spec

/-- Two outcomes agree: the same error, or related values and worlds. -/
def PartAgree {W V A B : Type} (R : W → V → Prop) (Q : A → B → Prop) : Except Err (A × W) → Except Err (B × V) → Prop
  | .ok (a, w), .ok (b, v) => Q a b ∧ R w v
  | .error e, .error e' => e = e'
  | _, _ => False

namespace PartAgree

variable {W V U A B C A' B' : Type}

theorem of_sim {R R' : W → V → Prop} {Q : A → B → Prop} {m1 : M W A} {m2 : M V B}
    (h : Sim (Mode.exact W) R R' Q m1 m2) {w : W} {v : V} (hR : R w v) : PartAgree R' Q (m1 w) (m2 v) := by
  cases h1 : m1 w with
  | error e => rw [h.err w v hR e h1 trivial]; rfl
  | ok q =>
    obtain ⟨a, w'⟩ := q
    obtain ⟨b, v', h2, h3, h4⟩ := h.ok w v hR a w' h1 trivial
    rw [h2]
    exact ⟨h3, h4⟩

theorem bind {R R' : W → V → Prop} {Q : A → B → Prop} {Q' : A' → B' → Prop} {m1 : M W A} {m2 : M V B} {f : A → M W A'}
    {g : B → M V B'} {w : W} {v : V} (h : PartAgree R Q (m1 w) (m2 v))
    (hf : ∀ a b w' v', m1 w = .ok (a, w') → m2 v = .ok (b, v') → Q a b → R w' v' → PartAgree R' Q' (f a w') (g b v')) :
    PartAgree R' Q' ((m1 >>= f) w) ((m2 >>= g) v) := by
  rw [M.bind_run, M.bind_run]
  cases h1 : m1 w with
  | error e =>
    cases h2 : m2 v with
    | error e' => rw [h1, h2] at h; exact h
    | ok q => rw [h1, h2] at h; exact h.elim
  | ok q =>
    cases h2 : m2 v with
    | error e' => rw [h1, h2] at h; exact h.elim
    | ok q' => rw [h1, h2] at h; exact hf _ _ _ _ h1 h2 h.1 h.2

theorem trans {R : W → V → Prop} {R' : V → U → Prop} {R'' : W → U → Prop} {Q : A → B → Prop} {Q' : B → C → Prop}
    {Q'' : A → C → Prop} {x : Except Err (A × W)} {y : Except Err (B × V)} {z : Except Err (C × U)}
    (h : PartAgree R Q x y) (h' : PartAgree R' Q' y z) (hR : ∀ w v u, R w v → R' v u → R'' w u)
    (hQ : ∀ a b c, Q a b → Q' b c → Q'' a c) : PartAgree R'' Q'' x z := by
  cases x <;> cases y <;> cases z <;> simp only [PartAgree] at h h' ⊢
  · rw [h, h']
  · exact ⟨hQ _ _ _ h.1 h'.1, hR _ _ _ h.2 h'.2⟩

theorem mono {R R' : W → V → Prop} {Q Q' : A → B → Prop} {x : Except Err (A × W)} {y : Except Err (B × V)}
    (h : PartAgree R Q x y) (hR : ∀ w v, R w v → R' w v) (hQ : ∀ a b, Q a b → Q' a b) : PartAgree R' Q' x y := by
  cases x <;> cases y <;> simp only [PartAgree] at h ⊢
  · exact h
  · exact ⟨hQ _ _ h.1, hR _ _ h.2⟩

theorem fuel {R : W → V → Prop} {Q : A → B → Prop} {x : Except Err (A × W)} {y : Except Err (B × V)}
    (h : PartAgree R Q x y) : x = .error .fuel ↔ y = .error .fuel := by
  cases x <;> cases y <;> simp only [PartAgree] at h
  · subst h; constructor <;> intro h <;> cases h <;> rfl
  · simp

end PartAgree

variable {σ τ T α β : Type}

/-- The same world but for the fields of the loggers, which satisfy `I`; the same has been done. -/
def Beheld (I : τ → Prop) (w v : World (σ × τ) T) : Prop :=
  w.user.1 = v.user.1 ∧ I w.user.2 ∧ I v.user.2 ∧ work w.trace = work v.trace

theorem work_append (a b : List (Ev T)) : work (a ++ b) = work a ++ work b := List.filter_append ..

theorem Beheld.symm {I : τ → Prop} {w v : World (σ × τ) T} (h : Beheld I w v) : Beheld I v w :=
  ⟨h.1.symm, h.2.2.1, h.2.1, h.2.2.2.symm⟩

theorem Beheld.trans {I : τ → Prop} {w v u : World (σ × τ) T} (h : Beheld I w v) (h' : Beheld I v u) : Beheld I w u :=
  ⟨h.1.trans h'.1, h.2.1, h'.2.2.1, h.2.2.2.trans h'.2.2.2⟩

theorem Beheld.left {I : τ → Prop} {w v : World (σ × τ) T} (h : Beheld I w v) : Beheld I w w :=
  ⟨rfl, h.2.1, h.2.1, rfl⟩

theorem Beheld.imp {I J : τ → Prop} {w v : World (σ × τ) T} (h : Beheld I w v) (hI : ∀ t, I t → J t) : Beheld J w v :=
  ⟨h.1, hI _ h.2.1, hI _ h.2.2.1, h.2.2.2⟩

theorem Beheld.emit {I : τ → Prop} {w v : World (σ × τ) T} (h : Beheld I w v) (e : Ev T) :
    Beheld I ⟨w.user, w.trace ++ [e]⟩ ⟨v.user, v.trace ++ [e]⟩ :=
  ⟨h.1, h.2.1, h.2.2.1, by simp only [work_append, h.2.2.2]⟩

theorem Sim.beheld_emit (I : τ → Prop) (e : Ev T) :
    Sim (Mode.exact _) (Beheld I) (Beheld I) Eq (World.emit e : M (World (σ × τ) T) Unit) (World.emit e) where
  back _ _ _ _ _ := trivial
  err w v _ e' hr := by cases hr
  ok w v hR a w' hr _ := by cases hr; exact ⟨(), _, rfl, rfl, hR.emit e⟩

theorem Sim.beheld_lift (I : τ → Prop) (m : M σ β) :
    Sim (Mode.exact _) (Beheld I) (Beheld I) Eq (World.lift ((Lens.fst σ τ).zoom m) : M (World (σ × τ) T) β)
      (World.lift ((Lens.fst σ τ).zoom m)) where
  back _ _ _ _ _ := trivial
  err w v h e hr _ := by
    unfold World.lift at hr ⊢
    rw [zoom_fst_run] at hr ⊢
    rw [← h.1]
    cases h1 : m w.user.1 with
    | error e' => rw [h1] at hr; cases hr; rfl
    | ok p => rw [h1] at hr; cases hr
  ok w v h a w' hr _ := by
    unfold World.lift at hr ⊢
    rw [zoom_fst_run] at hr ⊢
    rw [← h.1]
    cases h1 : m w.user.1 with
    | error e' => rw [h1] at hr; cases hr
    | ok p =>
      rw [h1] at hr
      cases hr
      exact ⟨_, _, rfl, rfl, rfl, h.2.1, h.2.2.1, h.2.2.2⟩

theorem Sim.beheld_pure (I : τ → Prop) (b : β) :
    Sim (Mode.exact _) (Beheld I) (Beheld I) Eq (World.lift (Pure.pure b) : M (World (σ × τ) T) β)
      (World.lift (Pure.pure b)) where
  back _ _ _ _ _ := trivial
  err w v _ e hr := by cases hr
  ok w v hR a w' hr _ := by cases hr; exact ⟨b, _, rfl, rfl, hR⟩

theorem Sim.beheld_recorded (I : τ → Prop) (m : M σ β) (e : β → Ev T) :
    Sim (Mode.exact _) (Beheld I) (Beheld I) Eq (Verif.recorded ((Lens.fst σ τ).zoom m) e)
      (Verif.recorded ((Lens.fst σ τ).zoom m) e) :=
  Sim.recorded (fun _ => .beheld_emit I _) (.beheld_lift I m)

/-- What a callback of all loggers does. -/
theorem callLoggers_everyone (k : LogKind) (s : AlgState T) : ∀ (ls : List (Logger τ T)) (i : Nat) (w : World (σ × τ) T)
    (t' : τ), everyone k s ls w.user.2 = .ok ((), t') →
    ∃ tr, callLoggers k s i (ls.map (Logger.zoom (Lens.snd σ τ))) w = .ok ((), ⟨(w.user.1, t'), tr⟩) ∧
      work tr = work w.trace := by
  intro ls
  induction ls with
  | nil => intro i w t' h; cases h; exact ⟨w.trace, rfl, rfl⟩
  | cons l ls ih =>
    intro i w t' h
    obtain ⟨u, t1, h1, h2⟩ := M.bind_eq_ok.1 h
    obtain ⟨tr, h3, h4⟩ := ih (i + 1) ⟨(w.user.1, t1), w.trace ++ [.log i k s]⟩ t' h2
    refine ⟨tr, ?_, ?_⟩
    · rw [List.map_cons, callLoggers_cons, Logger.zoom_on]
      refine M.bind_eq_ok.2 ⟨(), ⟨(w.user.1, t1), w.trace⟩, ?_, M.bind_eq_ok.2 ⟨(), _, rfl, h3⟩⟩
      refine World.lift_eq_ok.2 ⟨?_, rfl⟩
      rw [zoom_snd_run, h1]
    · rw [h4, work_append]
      simp [work]

/-- A callback of loggers that do not fail. -/
theorem callLoggers_beheld {I J : τ → Prop} {ls : List (Logger τ T)} {k : LogKind} {s : AlgState T}
    (h : ∀ t, I t → ∃ t', everyone k s ls t = .ok ((), t') ∧ J t') (w : World (σ × τ) T) (hw : I w.user.2) :
    ∃ w', callLoggers k s 0 (ls.map (Logger.zoom (Lens.snd σ τ))) w = .ok ((), w') ∧ w'.user.1 = w.user.1 ∧
      J w'.user.2 ∧ work w'.trace = work w.trace := by
  obtain ⟨t', h1, h2⟩ := h _ hw
  obtain ⟨tr, h3, h4⟩ := callLoggers_everyone k s ls 0 w t' h1
  exact ⟨_, h3, rfl, h2, h4⟩

theorem Sim.loggers_beheld {I J : τ → Prop} {ls : List (Logger τ T)} {k : LogKind} {s : AlgState T}
    (h : ∀ t, I t → ∃ t', everyone k s ls t = .ok ((), t') ∧ J t') :
    Sim (Mode.exact _) (Beheld I) (Beheld J) Eq
      (callLoggers k s 0 (ls.map (Logger.zoom (Lens.snd σ τ))) : M (World (σ × τ) T) Unit)
      (callLoggers k s 0 (ls.map (Logger.zoom (Lens.snd σ τ)))) where
  back _ _ _ _ _ := trivial
  err w v hR e hr _ := by
    obtain ⟨w', h1, -⟩ := callLoggers_beheld h w hR.2.1
    rw [h1] at hr; cases hr
  ok w v hR a w' hr _ := by
    obtain ⟨w1, h1, h2, h3, h4⟩ := callLoggers_beheld h w hR.2.1
    obtain ⟨v1, h5, h6, h7, h8⟩ := callLoggers_beheld h v hR.2.2.1
    rw [h1] at hr
    cases hr
    exact ⟨(), v1, h5, rfl, by rw [h2, h6, hR.1], h3, h7, by rw [h4, h8, hR.2.2.2]⟩

theorem forall₂_same {Q : α → α → Prop} {l : List α} (h : ∀ a ∈ l, Q a a) : List.Forall₂ Q l l := by
  induction l with
  | nil => exact .nil
  | cons a l ih => exact .cons (h a (by simp)) (ih fun b hb => h b (by simp [hb]))

namespace GA

variable {ls : List (Logger τ T)} {I0 I1 I2 I3 : τ → Prop}

/-- The components in parts of a run: loggers with fields of their own, and a stop checker without. -/
def inPart (c : Comps σ T) (ls : List (Logger τ T)) (P : AlgState T → Bool) : Comps (σ × τ) T :=
  { c.beside τ with loggers := ls.map (Logger.zoom (Lens.snd σ τ)), stop := stopWhen P }

theorem part_csim (c : Comps σ T) (ls : List (Logger τ T)) (P : AlgState T → Bool) (I : τ → Prop) :
    CSim (Mode.exact _) (Beheld I) (inPart c ls P) (inPart c ls P) where
  quiet e _ := .beheld_emit I e
  goal x := .beheld_recorded I _ _
  stop s := Sim.recorded (fun _ => .beheld_emit I _) (.beheld_pure I _)
  creator := .beheld_lift I _
  pairing _ := .beheld_lift I _
  cross _ := .beheld_lift I _
  mutation _ := .beheld_lift I _
  selections := forall₂_same fun f hf p => by
    obtain ⟨g, -, rfl⟩ := List.mem_map.1 hf; exact .beheld_lift I _
  preBirths := forall₂_same fun f hf p xs => by
    obtain ⟨g, -, rfl⟩ := List.mem_map.1 hf; exact .beheld_lift I _

/-- Two loops with a break in between. -/
def broken (c : Comps σ T) (ls : List (Logger τ T)) (P1 P2 : AlgState T → Bool) (f1 f2 : Nat) (p : Population T) :
    M (World (σ × τ) T) (Population T) := do
  let p ← loop (inPart c ls P1) f1 p
  callLoggers .finish p.state 0 (inPart c ls P1).loggers
  callLoggers .resume p.state 0 (inPart c ls P2).loggers
  loop (inPart c ls P2) f2 p

theorem loop_stop (c : Comps σ T) (ls : List (Logger τ T)) (P : AlgState T → Bool) (f : Nat) (p : Population T)
    (w : World (σ × τ) T) (h : P p.state = true) :
    loop (inPart c ls P) (f + 1) p w = .ok (p, ⟨w.user, w.trace ++ [.check p.state true]⟩) := by
  show (World.lift (pure (P p.state)) >>= fun b => World.emit (.check p.state b) >>= fun _ => if b then _ else _) w = _
  rw [h]
  rfl

theorem loop_go (c : Comps σ T) (ls : List (Logger τ T)) (P : AlgState T → Bool) (f : Nat) (p : Population T)
    (w : World (σ × τ) T) (h : P p.state = false) :
    loop (inPart c ls P) (f + 1) p w = (step (inPart c ls P) p >>= loop (inPart c ls P) f)
      ⟨w.user, w.trace ++ [.check p.state false]⟩ := by
  show (World.lift (pure (P p.state)) >>= fun b => World.emit (.check p.state b) >>= fun _ => if b then _ else _) w = _
  rw [h]
  rfl

theorem beheld_check {I : τ → Prop} {w v : World (σ × τ) T} (h : Beheld I w v) (s s' : AlgState T) (b b' : Bool) :
    Beheld I ⟨w.user, w.trace ++ [.check s b]⟩ ⟨v.user, v.trace ++ [.check s' b']⟩ :=
  ⟨h.1, h.2.1, h.2.2.1, by simp only [work_append, h.2.2.2]; rfl⟩

theorem beheld_check_left {I : τ → Prop} {w v : World (σ × τ) T} (h : Beheld I w v) (s : AlgState T) (b : Bool) :
    Beheld I ⟨w.user, w.trace ++ [.check s b]⟩ v :=
  ⟨h.1, h.2.1, h.2.2.1, by simp only [work_append, h.2.2.2]; simp [work]⟩

/-- The break itself. -/
theorem break_ (h : AllNeverFail ls I0 I1 I2 I3) (c : Comps σ T) (P1 P2 : AlgState T → Bool) (f : Nat)
    (p : Population T) {w v : World (σ × τ) T} (hR : Beheld I2 w v) :
    PartAgree (Beheld I2) Eq ((callLoggers .finish p.state 0 (inPart c ls P1).loggers >>= fun _ =>
      callLoggers .resume p.state 0 (inPart c ls P2).loggers >>= fun _ => loop (inPart c ls P2) f p) w)
      (loop (inPart c ls P2) f p v) := by
  obtain ⟨w1, h1, h2, h3, h4⟩ := callLoggers_beheld (h.finish p.state) w hR.2.1
  obtain ⟨w2, h5, h6, h7, h8⟩ := callLoggers_beheld (h.resume p.state) w1 (h.again _ h3)
  have e : (callLoggers .finish p.state 0 (inPart c ls P1).loggers >>= fun _ =>
      callLoggers .resume p.state 0 (inPart c ls P2).loggers >>= fun _ => loop (inPart c ls P2) f p) w =
      loop (inPart c ls P2) f p w2 := by
    rw [M.bind_run, show callLoggers .finish p.state 0 (inPart c ls P1).loggers w = _ from h1]
    simp only
    rw [M.bind_run, show callLoggers .resume p.state 0 (inPart c ls P2).loggers w1 = _ from h5]
  rw [e]
  exact PartAgree.of_sim ((part_csim c ls P2 I2).loop (fun s => Sim.loggers_beheld (h.next s)) f p)
    ⟨by rw [h6, h2, hR.1], h7, hR.2.2.1, by rw [h8, h4, hR.2.2.2]⟩

theorem broken_stop (c : Comps σ T) (ls : List (Logger τ T)) (P1 P2 : AlgState T → Bool) (f1 f2 : Nat)
    (p : Population T) (w : World (σ × τ) T) (h : P1 p.state = true) :
    broken c ls P1 P2 (f1 + 1) f2 p w = (callLoggers .finish p.state 0 (inPart c ls P1).loggers >>= fun _ =>
      callLoggers .resume p.state 0 (inPart c ls P2).loggers >>= fun _ => loop (inPart c ls P2) f2 p)
      ⟨w.user, w.trace ++ [.check p.state true]⟩ := by
  unfold broken
  rw [M.bind_run, loop_stop c ls P1 f1 p w h]

theorem broken_go (c : Comps σ T) (ls : List (Logger τ T)) (P1 P2 : AlgState T → Bool) (f1 f2 : Nat)
    (p : Population T) (w : World (σ × τ) T) (h : P1 p.state = false) :
    broken c ls P1 P2 (f1 + 1) f2 p w = (step (inPart c ls P2) p >>= broken c ls P1 P2 f1 f2)
      ⟨w.user, w.trace ++ [.check p.state false]⟩ := by
  unfold broken
  rw [M.bind_run, loop_go c ls P1 f1 p w h, ← M.bind_run, M.bind_assoc']
  rfl

/-- If the loop ends then so do the two loops, and alike. -/
theorem broken_of_loop (h : AllNeverFail ls I0 I1 I2 I3) (c : Comps σ T) (P1 P2 : AlgState T → Bool)
    (hP : ∀ s, P2 s = true → P1 s = true) (f2 : Nat) : ∀ (f f1 : Nat) (p : Population T) (w v : World (σ × τ) T),
    Beheld I2 w v → f ≤ f1 → f ≤ f2 → loop (inPart c ls P2) f p v ≠ .error .fuel →
    PartAgree (Beheld I2) Eq (broken c ls P1 P2 f1 f2 p w) (loop (inPart c ls P2) f p v) := by
  intro f
  induction f with
  | zero => intro f1 p w v _ _ _ hf; exact absurd rfl hf
  | succ f ih =>
    intro f1 p w v hR h1 h2 hf
    obtain ⟨f1, rfl⟩ : ∃ k, f1 = k + 1 := ⟨f1 - 1, by omega⟩
    obtain ⟨d, rfl⟩ : ∃ d, f2 = f + 1 + d := ⟨f2 - (f + 1), by omega⟩
    cases hp : P1 p.state with
    | true =>
      rw [broken_stop c ls P1 P2 f1 _ p w hp, ← loop_more (inPart c ls P2) d (f + 1) p v hf]
      exact break_ h c P1 P2 _ p (beheld_check_left hR _ _)
    | false =>
      have hp2 : P2 p.state = false := by
        cases hq : P2 p.state with
        | false => rfl
        | true => rw [hP _ hq] at hp; cases hp
      rw [loop_go c ls P2 f p v hp2] at hf ⊢
      rw [broken_go c ls P1 P2 f1 _ p w hp]
      refine PartAgree.bind (PartAgree.of_sim ((part_csim c ls P2 I2).step (fun s => Sim.loggers_beheld (h.next s)) p)
        (beheld_check hR _ _ _ _)) ?_
      rintro a _ w' v' h3 h4 rfl hR'
      refine ih f1 a w' v' hR' (by omega) (by omega) ?_
      intro he
      rw [M.bind_run, h4] at hf
      exact hf he

/-- If the two loops end then so does the one loop, and alike. -/
theorem loop_of_broken (h : AllNeverFail ls I0 I1 I2 I3) (c : Comps σ T) (P1 P2 : AlgState T → Bool)
    (hP : ∀ s, P2 s = true → P1 s = true) (f2 : Nat) : ∀ (f1 : Nat) (p : Population T) (w v : World (σ × τ) T),
    Beheld I2 w v → broken c ls P1 P2 f1 f2 p w ≠ .error .fuel →
    PartAgree (Beheld I2) Eq (broken c ls P1 P2 f1 f2 p w) (loop (inPart c ls P2) (f1 + f2) p v) := by
  intro f1
  induction f1 with
  | zero => intro p w v _ hf; exact absurd rfl hf
  | succ f1 ih =>
    intro p w v hR hf
    cases hp : P1 p.state with
    | true =>
      rw [broken_stop c ls P1 P2 f1 f2 p w hp] at hf ⊢
      have h1 := break_ h c P1 P2 f2 p (beheld_check_left hR p.state true)
      rw [show f1 + 1 + f2 = f2 + (f1 + 1) by omega, loop_more (inPart c ls P2) (f1 + 1) f2 p v (mt h1.fuel.2 hf)]
      exact h1
    | false =>
      have hp2 : P2 p.state = false := by
        cases hq : P2 p.state with
        | false => rfl
        | true => rw [hP _ hq] at hp; cases hp
      rw [broken_go c ls P1 P2 f1 f2 p w hp] at hf ⊢
      rw [show f1 + 1 + f2 = f1 + f2 + 1 by omega, loop_go c ls P2 (f1 + f2) p v hp2]
      refine PartAgree.bind (PartAgree.of_sim ((part_csim c ls P2 I2).step (fun s => Sim.loggers_beheld (h.next s)) p)
        (beheld_check hR _ _ _ _)) ?_
      rintro a _ w' v' h3 h4 rfl hR'
      refine ih a w' v' hR' ?_
      intro he
      rw [M.bind_run, h3] at hf
      exact hf he

/-- The same value and the same population. -/
def SameAnswer (a b : Option (Solution T) × Opt (σ × τ) T) : Prop := a.1 = b.1 ∧ a.2.pop = b.2.pop

/-- Two calls of `next_iterations`. -/
def twoParts (c : Comps σ T) (ls : List (Logger τ T)) (P1 P2 : AlgState T → Bool) (f1 f2 : Nat) (p : Population T) :
    M (World (σ × τ) T) (Option (Solution T) × Opt (σ × τ) T) :=
  nextIterations f1 ⟨inPart c ls P1, p⟩ >>= fun r => nextIterations f2 ⟨inPart c ls P2, r.2.pop⟩

theorem twoParts_eq (c : Comps σ T) (ls : List (Logger τ T)) (P1 P2 : AlgState T → Bool) (f1 f2 : Nat)
    (p : Population T) : twoParts c ls P1 P2 f1 f2 p =
      callLoggers .resume p.state 0 (inPart c ls P1).loggers >>= fun _ => broken c ls P1 P2 f1 f2 p >>= fun p =>
      callLoggers .finish p.state 0 (inPart c ls P2).loggers >>= fun _ =>
      pure (match p.best with
        | none => none
        | some i => some (i.chromosomes, i.fitness), ⟨inPart c ls P2, p⟩) := by
  unfold twoParts nextIterations broken
  simp only [M.bind_assoc']
  rfl

/-- If `next_iterations` ends then so do the two calls, and alike. -/
theorem twoParts_of_next (h : AllNeverFail ls I0 I1 I2 I3) (c : Comps σ T) (P1 P2 : AlgState T → Bool)
    (hP : ∀ s, P2 s = true → P1 s = true) (f : Nat) (p : Population T) (w v : World (σ × τ) T) (hR : Beheld I1 w v)
    (hf : nextIterations f ⟨inPart c ls P2, p⟩ v ≠ .error .fuel) :
    PartAgree (Beheld I3) SameAnswer (twoParts c ls P1 P2 f f p w) (nextIterations f ⟨inPart c ls P2, p⟩ v) := by
  rw [twoParts_eq]
  unfold nextIterations at hf ⊢
  refine PartAgree.bind (PartAgree.of_sim (Sim.loggers_beheld (h.resume p.state)) hR) ?_
  rintro ⟨⟩ ⟨⟩ w1 v1 _ h2 _ hR1
  rw [M.bind_run, h2] at hf
  have hf1 : loop (inPart c ls P2) f p v1 ≠ .error .fuel := by
    intro he
    simp only at hf
    rw [M.bind_run, he] at hf
    exact hf rfl
  refine PartAgree.bind (broken_of_loop h c P1 P2 hP f f f p w1 v1 hR1 le_rfl le_rfl hf1) ?_
  rintro p1 _ w2 v2 _ _ rfl hR2
  refine PartAgree.bind (PartAgree.of_sim (Sim.loggers_beheld (h.finish p1.state)) hR2) ?_
  rintro ⟨⟩ ⟨⟩ w3 v3 _ _ _ hR3
  exact ⟨⟨rfl, rfl⟩, hR3⟩

/-- If the two calls end then so does one, and alike. -/
theorem next_of_twoParts (h : AllNeverFail ls I0 I1 I2 I3) (c : Comps σ T) (P1 P2 : AlgState T → Bool)
    (hP : ∀ s, P2 s = true → P1 s = true) (f1 f2 : Nat) (p : Population T) (w v : World (σ × τ) T) (hR : Beheld I1 w v)
    (hf : twoParts c ls P1 P2 f1 f2 p w ≠ .error .fuel) :
    PartAgree (Beheld I3) SameAnswer (twoParts c ls P1 P2 f1 f2 p w) (nextIterations (f1 + f2) ⟨inPart c ls P2, p⟩ v) := by
  rw [twoParts_eq] at hf ⊢
  unfold nextIterations
  refine PartAgree.bind (PartAgree.of_sim (Sim.loggers_beheld (h.resume p.state)) hR) ?_
  rintro ⟨⟩ ⟨⟩ w1 v1 h1 _ _ hR1
  rw [M.bind_run, show callLoggers .resume p.state 0 (inPart c ls P1).loggers w = _ from h1] at hf
  have hf1 : broken c ls P1 P2 f1 f2 p w1 ≠ .error .fuel := by
    intro he
    simp only at hf
    rw [M.bind_run, he] at hf
    exact hf rfl
  refine PartAgree.bind (loop_of_broken h c P1 P2 hP f2 f1 p w1 v1 hR1 hf1) ?_
  rintro p1 _ w2 v2 _ _ rfl hR2
  refine PartAgree.bind (PartAgree.of_sim (Sim.loggers_beheld (h.finish p1.state)) hR2) ?_
  rintro ⟨⟩ ⟨⟩ w3 v3 _ _ _ hR3
  exact ⟨⟨rfl, rfl⟩, hR3⟩

/-- `next_iterations` with each of the stop checkers. -/
def chain (c : Comps σ T) (ls : List (Logger τ T)) (f : Nat) : (AlgState T → Bool) → List (AlgState T → Bool) →
    Population T → M (World (σ × τ) T) (Option (Solution T) × Opt (σ × τ) T)
  | P, [], p => nextIterations f ⟨inPart c ls P, p⟩
  | P, Q :: Qs, p => nextIterations f ⟨inPart c ls P, p⟩ >>= fun r => chain c ls f Q Qs r.2.pop

theorem agree_next (h : AllNeverFail ls I0 I1 I2 I3) (c : Comps σ T) (P : AlgState T → Bool) (f : Nat)
    (p : Population T) {w v : World (σ × τ) T} (hR : Beheld I1 w v) :
    PartAgree (Beheld I3) SameAnswer (nextIterations f ⟨inPart c ls P, p⟩ w) (nextIterations f ⟨inPart c ls P, p⟩ v) :=
  (PartAgree.of_sim ((part_csim c ls P I2).nextIterations (fun s => Sim.loggers_beheld (h.resume s))
    (fun s => Sim.loggers_beheld (h.next s)) (fun s => Sim.loggers_beheld (h.finish s)) f p) hR).mono (fun _ _ h => h)
    fun _ _ h => ⟨h.1, h.2.1⟩

theorem sameAnswer_trans {a b c : Option (Solution T) × Opt (σ × τ) T} (h : SameAnswer a b) (h' : SameAnswer b c) :
    SameAnswer a c := ⟨h.1.trans h'.1, h.2.trans h'.2⟩

/-- If one call ends then so do all the parts, and alike. -/
theorem chain_of_next (h : AllNeverFail ls I0 I1 I2 I3) (c : Comps σ T) (f : Nat) (P : AlgState T → Bool) :
    ∀ (Qs : List (AlgState T → Bool)) (Q : AlgState T → Bool), (∀ s, P s = true → Q s = true) →
    (∀ Q ∈ Qs, ∀ s, P s = true → Q s = true) → (Q :: Qs).getLast? = some P →
    ∀ (p : Population T) (w v : World (σ × τ) T), Beheld I1 w v →
    nextIterations f ⟨inPart c ls P, p⟩ v ≠ .error .fuel →
    PartAgree (Beheld I3) SameAnswer (chain c ls f Q Qs p w) (nextIterations f ⟨inPart c ls P, p⟩ v) := by
  intro Qs
  induction Qs with
  | nil =>
    intro Q _ _ hl p w v hR _
    cases hl
    exact agree_next h c _ f p hR
  | cons Q' Qs ih =>
    intro Q hQ hQs hl p w v hR hf
    have h1 := twoParts_of_next h c Q P hQ f p w v hR hf
    have h2 : PartAgree (Beheld I3) SameAnswer (chain c ls f Q (Q' :: Qs) p w) (twoParts c ls Q P f f p w) := by
      have h0 := agree_next h c Q f p hR.left
      refine PartAgree.bind h0 ?_
      rintro r r' w1 w2 h3 h4 - hR1
      rw [h3] at h4
      cases h4
      have hw := hR1.left.imp h.again
      refine ih Q' (hQs Q' (by simp)) (fun Q hQ => hQs Q (by simp [hQ])) (by simpa using hl) r.2.pop w1 w1 hw ?_
      intro he
      refine mt h1.fuel.1 hf ?_
      unfold twoParts
      rw [M.bind_run, h3]
      exact he
    exact h2.trans h1 (fun _ _ _ => Beheld.trans) fun _ _ _ => sameAnswer_trans

/-- If all the parts end then so does one call, and alike. -/
theorem next_of_chain (h : AllNeverFail ls I0 I1 I2 I3) (c : Comps σ T) (f : Nat) (P : AlgState T → Bool) :
    ∀ (Qs : List (AlgState T → Bool)) (Q : AlgState T → Bool), (∀ s, P s = true → Q s = true) →
    (∀ Q ∈ Qs, ∀ s, P s = true → Q s = true) → (Q :: Qs).getLast? = some P →
    ∀ (p : Population T) (w v : World (σ × τ) T), Beheld I1 w v → chain c ls f Q Qs p w ≠ .error .fuel →
    ∃ f', PartAgree (Beheld I3) SameAnswer (chain c ls f Q Qs p w) (nextIterations f' ⟨inPart c ls P, p⟩ v) := by
  intro Qs
  induction Qs with
  | nil =>
    intro Q _ _ hl p w v hR _
    cases hl
    exact ⟨f, agree_next h c _ f p hR⟩
  | cons Q' Qs ih =>
    intro Q hQ hQs hl p w v hR hf
    have h0 := agree_next h c Q f p hR.left
    have h2 : ∃ f', PartAgree (Beheld I3) SameAnswer (chain c ls f Q (Q' :: Qs) p w) (twoParts c ls Q P f f' p w) := by
      cases h3 : nextIterations f ⟨inPart c ls Q, p⟩ w with
      | error e =>
        refine ⟨0, ?_⟩
        unfold chain twoParts
        rw [M.bind_run, M.bind_run, h3]
        rfl
      | ok q =>
        obtain ⟨r, w1⟩ := q
        rw [h3] at h0
        have hw := h0.2.left.imp h.again
        unfold chain at hf ⊢
        rw [M.bind_run, h3] at hf ⊢
        obtain ⟨f', h4⟩ := ih Q' (hQs Q' (by simp)) (fun Q hQ => hQs Q (by simp [hQ])) (by simpa using hl) r.2.pop w1 w1 hw
          hf
        refine ⟨f', ?_⟩
        unfold twoParts
        rw [M.bind_run, h3]
        exact h4
    obtain ⟨f', h2⟩ := h2
    refine ⟨f + f', h2.trans (next_of_twoParts h c Q P hQ f f' p w v hR (mt h2.fuel.2 hf)) (fun _ _ _ => Beheld.trans)
      fun _ _ _ => sameAnswer_trans⟩

/-! ### Histories -/

/-- The last value and the population of a history. -/
def EndsWith (a : List (Ret T) × Opt (σ × τ) T) (b : Option (Solution T) × Opt (σ × τ) T) : Prop :=
  a.1.getLast? = some (some b.1) ∧ a.2.pop = b.2.pop

theorem run_cons' (o : Opt σ T) (k : Call σ T) (ks : List (Call σ T)) :
    run o (k :: ks) = call o k >>= fun q => run q.2 ks >>= fun rs => pure (q.1 :: rs.1, rs.2) := rfl

theorem call_next' (o : Opt σ T) (f : Nat) :
    call o (.nextIterations f) = nextIterations f o >>= fun r => pure (some r.1, r.2) := rfl

theorem call_find' (o : Opt σ T) (f : Nat) : call o (.findMin f) = findMin f o >>= fun r => pure (some r.1, r.2) := rfl

theorem run_next (c : Comps σ T) (ls : List (Logger τ T)) (f : Nat) (P Q : AlgState T → Bool) (p : Population T)
    (rest : List (Call (σ × τ) T)) (w : World (σ × τ) T) :
    run ⟨inPart c ls P, p⟩ (.setStopChecker (stopWhen Q) :: .nextIterations f :: rest) w =
      (nextIterations f ⟨inPart c ls Q, p⟩ >>= fun r => run ⟨inPart c ls Q, r.2.pop⟩ rest >>= fun rs =>
        pure (none :: some r.1 :: rs.1, rs.2)) w := by
  have e : run ⟨inPart c ls P, p⟩ (.setStopChecker (stopWhen Q) :: .nextIterations f :: rest) w =
      (run ⟨inPart c ls Q, p⟩ (.nextIterations f :: rest) >>= fun rs => pure (none :: rs.1, rs.2)) w := rfl
  rw [e, run_cons', call_next']
  simp only [M.bind_assoc', M.bind_run]
  cases h1 : nextIterations f ⟨inPart c ls Q, p⟩ w with
  | error e => rfl
  | ok q =>
    obtain ⟨⟨r, oc, op⟩, w1⟩ := q
    have hc : oc = inPart c ls Q := nextIterations_comps h1
    subst hc
    simp only [M.pure_run, M.bind_run]
    cases run ⟨inPart c ls Q, op⟩ rest w1 with
    | error e => rfl
    | ok q => rfl

theorem run_parts (c : Comps σ T) (ls : List (Logger τ T)) (f : Nat) : ∀ (Qs : List (AlgState T → Bool))
    (P Q : AlgState T → Bool) (p : Population T) (w : World (σ × τ) T),
    PartAgree Eq EndsWith (run ⟨inPart c ls P, p⟩
      ((Q :: Qs).flatMap fun P => [.setStopChecker (stopWhen P), .nextIterations f]) w) (chain c ls f Q Qs p w) := by
  intro Qs
  induction Qs with
  | nil =>
    intro P Q p w
    rw [show ([Q].flatMap fun P => [Call.setStopChecker (stopWhen P), Call.nextIterations f] : List (Call (σ × τ) T)) =
      .setStopChecker (stopWhen Q) :: .nextIterations f :: [] from rfl, run_next, M.bind_run]
    unfold chain
    cases nextIterations f ⟨inPart c ls Q, p⟩ w with
    | error e => rfl
    | ok q => exact ⟨⟨rfl, rfl⟩, rfl⟩
  | cons Q' Qs ih =>
    intro P Q p w
    rw [List.flatMap_cons]
    generalize hr : (Q' :: Qs).flatMap (fun P => [Call.setStopChecker (stopWhen P), Call.nextIterations f]) = rest
    rw [show [Call.setStopChecker (stopWhen Q), Call.nextIterations f] ++ rest =
      .setStopChecker (stopWhen Q) :: .nextIterations f :: rest from rfl, run_next, M.bind_run]
    unfold chain
    rw [M.bind_run]
    cases nextIterations f ⟨inPart c ls Q, p⟩ w with
    | error e => rfl
    | ok q =>
      obtain ⟨r, w1⟩ := q
      have h1 := ih Q Q' r.2.pop w1
      rw [hr] at h1
      simp only
      rw [M.bind_run]
      cases h2 : run ⟨inPart c ls Q, r.2.pop⟩ rest w1 with
      | error e =>
        rw [h2] at h1
        exact h1
      | ok q' =>
        obtain ⟨⟨rs, o'⟩, w2⟩ := q'
        rw [h2] at h1
        cases h3 : chain c ls f Q' Qs r.2.pop w1 with
        | error e => rw [h3] at h1; exact h1.elim
        | ok q'' =>
          rw [h3] at h1
          obtain ⟨⟨h4, h5⟩, h6⟩ := h1
          refine ⟨⟨?_, h5⟩, h6⟩
          simp only at h4
          cases rs with
          | nil => cases h4
          | cons a rs => simpa using h4

/-- `find_min` before the iterations: creation and the loggers' `start`. -/
def opening (c : Comps σ T) (ls : List (Logger τ T)) (P : AlgState T → Bool) : M (World (σ × τ) T) (Population T) := do
  let start ← World.lift (inPart c ls P).creator
  World.emit (.created start)
  let p ← append (inPart c ls P) ⟨[], none, none, 0⟩ start
  callLoggers .start p.state 0 (inPart c ls P).loggers
  pure p

theorem findMin_opening (c : Comps σ T) (ls : List (Logger τ T)) (P P' : AlgState T → Bool) (f : Nat)
    (p : Population T) : findMin f ⟨inPart c ls P, p⟩ = opening c ls P' >>= fun p => nextIterations f ⟨inPart c ls P, p⟩ := by
  unfold findMin opening
  simp only [M.bind_assoc']
  rfl

theorem opening_sim (h : AllNeverFail ls I0 I1 I2 I3) (c : Comps σ T) (P : AlgState T → Bool) :
    Sim (Mode.exact _) (Beheld I0) (Beheld I1) Eq (opening c ls P) (opening c ls P) :=
  (part_csim c ls P I0).creator.seq fun _ => (Sim.beheld_emit I0 _).seq fun _ =>
    ((part_csim c ls P I0).append _ _).seq fun p => (Sim.loggers_beheld (h.start p.state)).seq fun _ => .pure rfl

/-- The history in parts, as its opening and a chain of calls. -/
theorem run_inParts (o : Opt σ T) (ls : List (Logger τ T)) (f : Nat) (P : AlgState T → Bool)
    (Qs : List (AlgState T → Bool)) (P' : AlgState T → Bool) (w : World (σ × τ) T) :
    PartAgree Eq EndsWith (run (o.watched ls) (inParts f P Qs) w)
      ((opening o.comps ls P' >>= fun p => chain o.comps ls f P Qs p) w) := by
  have e : ∀ rest : List (Call (σ × τ) T), run (o.watched ls) ([.setStopChecker (stopWhen P), .findMin f] ++ rest) w =
      (opening o.comps ls P' >>= fun p => run ⟨inPart o.comps ls P, p⟩ (.setStopChecker (stopWhen P) ::
        .nextIterations f :: rest)) w := by
    intro rest
    have e1 : run (o.watched ls) ([.setStopChecker (stopWhen P), .findMin f] ++ rest) w =
        (run ⟨inPart o.comps ls P, o.pop⟩ (.findMin f :: rest) >>= fun rs => pure (none :: rs.1, rs.2)) w := rfl
    rw [e1, run_cons', call_find', findMin_opening o.comps ls P P' f o.pop]
    simp only [M.bind_assoc', M.bind_run]
    cases opening o.comps ls P' w with
    | error e => rfl
    | ok q =>
      obtain ⟨p, w1⟩ := q
      simp only
      rw [run_next, M.bind_run]
      cases h1 : nextIterations f ⟨inPart o.comps ls P, p⟩ w1 with
      | error e => rfl
      | ok q =>
        obtain ⟨⟨r, oc, op⟩, w2⟩ := q
        have hc : oc = inPart o.comps ls P := nextIterations_comps h1
        subst hc
        simp only [M.pure_run, M.bind_run]
        cases run ⟨inPart o.comps ls P, op⟩ rest w2 with
        | error e => rfl
        | ok q => rfl
  unfold inParts
  rw [e, M.bind_run, M.bind_run]
  cases opening o.comps ls P' w with
  | error e => rfl
  | ok q =>
    obtain ⟨p, w1⟩ := q
    exact run_parts o.comps ls f Qs P P p w1

theorem endsAlike_of {I : τ → Prop} {x : Except Err ((List (Ret T) × Opt (σ × τ) T) × World (σ × τ) T)}
    {y : Except Err ((List (Ret T) × Opt (σ × τ) T) × World (σ × τ) T)}
    {x' y' : Except Err ((Option (Solution T) × Opt (σ × τ) T) × World (σ × τ) T)} (hx : PartAgree Eq EndsWith x x')
    (h : PartAgree (Beheld I) SameAnswer x' y') (hy : PartAgree Eq EndsWith y y') : EndsAlike Opt.pop x y := by
  cases x <;> cases x' <;> simp only [PartAgree] at hx
  · cases y' <;> simp only [PartAgree] at h
    cases y <;> simp only [PartAgree] at hy
    subst hx h hy
    rfl
  · cases y' <;> simp only [PartAgree] at h
    cases y <;> simp only [PartAgree] at hy
    obtain ⟨⟨h1, h2⟩, h3⟩ := hx
    obtain ⟨⟨h4, h5⟩, h6⟩ := h
    obtain ⟨⟨h7, h8⟩, h9⟩ := hy
    rw [← h3, ← h9] at h6
    exact ⟨by rw [h1, h7, h4], by rw [h2, h8, h5], h6.1, h6.2.2.2⟩

/-- If the whole run ends then so does the run in parts, and alike. -/
theorem parts_of_whole (h : AllNeverFail ls I0 I1 I2 I3) (o : Opt σ T) (P Q : AlgState T → Bool)
    (Qs : List (AlgState T → Bool)) (hQ : ∀ Q' ∈ Q :: Qs, ∀ s, P s = true → Q' s = true)
    (hl : (Q :: Qs).getLast? = some P) (f : Nat) (w : World (σ × τ) T) (hw : I0 w.user.2)
    (hf : run (o.watched ls) (inParts f P []) w ≠ .error .fuel) :
    EndsAlike Opt.pop (run (o.watched ls) (inParts f Q Qs) w) (run (o.watched ls) (inParts f P []) w) := by
  have h1 := run_inParts o ls f P [] P w
  refine endsAlike_of (I := I3) (run_inParts o ls f Q Qs P w) (PartAgree.bind (PartAgree.of_sim (opening_sim h o.comps P)
    ⟨rfl, hw, hw, rfl⟩) ?_) h1
  rintro p _ w1 v1 h2 h3 rfl hR
  refine chain_of_next h o.comps f P Qs Q (hQ Q (by simp)) (fun Q' hQ' => hQ Q' (by simp [hQ'])) hl p w1 v1 hR ?_
  intro he
  refine hf (h1.fuel.2 ?_)
  rw [M.bind_run, h3]
  exact he

/-- If the run in parts ends then so does the whole run, and alike. -/
theorem whole_of_parts (h : AllNeverFail ls I0 I1 I2 I3) (o : Opt σ T) (P Q : AlgState T → Bool)
    (Qs : List (AlgState T → Bool)) (hQ : ∀ Q' ∈ Q :: Qs, ∀ s, P s = true → Q' s = true)
    (hl : (Q :: Qs).getLast? = some P) (f : Nat) (w : World (σ × τ) T) (hw : I0 w.user.2)
    (hf : run (o.watched ls) (inParts f Q Qs) w ≠ .error .fuel) :
    ∃ f', EndsAlike Opt.pop (run (o.watched ls) (inParts f Q Qs) w) (run (o.watched ls) (inParts f' P []) w) := by
  have h1 := run_inParts o ls f Q Qs P w
  have h0 := PartAgree.of_sim (opening_sim h o.comps P) (w := w) (v := w) ⟨rfl, hw, hw, rfl⟩
  cases h2 : opening o.comps ls P w with
  | error e =>
    refine ⟨0, endsAlike_of (I := I3) h1 ?_ (run_inParts o ls 0 P [] P w)⟩
    rw [M.bind_run, M.bind_run, h2]
    rfl
  | ok q =>
    obtain ⟨p, w1⟩ := q
    rw [h2] at h0
    have hc : chain o.comps ls f Q Qs p w1 ≠ .error .fuel := by
      intro he
      refine hf (h1.fuel.2 ?_)
      rw [M.bind_run, h2]
      exact he
    obtain ⟨f', h3⟩ := next_of_chain h o.comps f P Qs Q (hQ Q (by simp)) (fun Q' hQ' => hQ Q' (by simp [hQ'])) hl p w1 w1
      h0.2 hc
    refine ⟨f', endsAlike_of (I := I3) h1 ?_ (run_inParts o ls f' P [] P w)⟩
    rw [M.bind_run, M.bind_run, h2]
    exact h3

/-! ### Calling `next_iterations` once more -/

theorem watched_csim (c : Comps σ T) (ls : List (Logger τ T)) (I : τ → Prop) :
    CSim (Mode.exact _) (Beheld I) { c.beside τ with loggers := ls.map (Logger.zoom (Lens.snd σ τ)) }
      { c.beside τ with loggers := ls.map (Logger.zoom (Lens.snd σ τ)) } :=
  { part_csim c ls (fun _ => true) I with stop := fun _ => .beheld_recorded I _ _ }

theorem next_again (h : AllNeverFail ls I0 I1 I2 I3) (o : Opt σ T) (hs : AsksAgain o.comps.stop) (f f' : Nat)
    (hf' : 0 < f') {w w' : World (σ × τ) T} (hw : I1 w.user.2) {r : Option (Solution T)} {o' : Opt (σ × τ) T}
    (hr : nextIterations f (o.watched ls) w = .ok ((r, o'), w')) :
    I3 w'.user.2 ∧ ∃ w'', nextIterations f' o' w' = .ok ((r, o'), w'') ∧ w''.user.1 = w'.user.1 ∧
      work w''.trace = work w'.trace := by
  have hc := watched_csim o.comps ls I2
  have h3 : I3 w'.user.2 := by
    have h1 := PartAgree.of_sim (hc.nextIterations (fun s => Sim.loggers_beheld (h.resume s))
      (fun s => Sim.loggers_beheld (h.next s)) (fun s => Sim.loggers_beheld (h.finish s)) f o.pop) (w := w) (v := w)
      ⟨rfl, hw, hw, rfl⟩
    rw [show nextIterations f ⟨{ o.comps.beside τ with loggers := ls.map (Logger.zoom (Lens.snd σ τ)) }, o.pop⟩ w = _
      from hr] at h1
    exact h1.2.2.1
  refine ⟨h3, ?_⟩
  obtain ⟨p, w1, w2, h4, h5, h6, rfl, rfl⟩ := nextIterations_ok.1 hr
  obtain ⟨k, w3, s', -, h7, h8, rfl⟩ := loop_turns h5
  obtain ⟨f', rfl⟩ : ∃ k, f' = k + 1 := ⟨f' - 1, by omega⟩
  -- the last answer of the stop checker
  have hstop : ∃ u', o.comps.stop p.state u' = .ok (true, u') ∧ s'.1 = u' := by
    have h9 : (Lens.fst σ τ).zoom (o.comps.stop p.state) w3.user = .ok (true, s') := h8
    rw [zoom_fst_run] at h9
    cases h10 : o.comps.stop p.state w3.user.1 with
    | error e => rw [h10] at h9; cases h9
    | ok q =>
      obtain ⟨b, u'⟩ := q
      rw [h10] at h9
      cases h9
      exact ⟨u', hs _ _ _ _ h10, rfl⟩
  obtain ⟨u', hu, hu'⟩ := hstop
  have hI2 : I2 s'.2 := by
    have h1 := (hc.loop (fun s => Sim.loggers_beheld (h.next s)) f o.pop).ok w1 w1 ⟨rfl, ?_, ?_, rfl⟩ _ _ h5 trivial
    · obtain ⟨b, v', -, -, hR⟩ := h1
      exact hR.2.1
    all_goals
      obtain ⟨wx, hx1, -, hx2, -⟩ := callLoggers_beheld (h.resume o.pop.state) w hw
      rw [show callLoggers .resume o.pop.state 0 (ls.map (Logger.zoom (Lens.snd σ τ))) w = _ from h4] at hx1
      cases hx1
      exact hx2
  obtain ⟨w4, e1, e2, e3, e4⟩ := callLoggers_beheld (σ := σ) (h.finish p.state)
    ⟨s', w3.trace ++ [.check p.state true]⟩ hI2
  rw [show callLoggers .finish p.state 0 (ls.map (Logger.zoom (Lens.snd σ τ))) _ = _ from h6] at e1
  cases e1
  obtain ⟨w5, e5, e6, e7, e8⟩ := callLoggers_beheld (h.resume p.state) w' (h.again _ h3)
  obtain ⟨w6, e9, e10, -, e11⟩ := callLoggers_beheld (h.finish p.state) ⟨w5.user, w5.trace ++ [.check p.state true]⟩ e7
  refine ⟨w6, nextIterations_ok.2 ⟨p, w5, ⟨w5.user, w5.trace ++ [Ev.check p.state true]⟩, e5, ?_, e9, rfl, rfl⟩, ?_, ?_⟩
  · refine loop_succ_ok.2 ⟨true, w5.user, ?_, .inl ⟨rfl, rfl, rfl⟩⟩
    show (Lens.fst σ τ).zoom (o.comps.stop p.state) w5.user = _
    rw [zoom_fst_run, e6, e2, hu', hu, ← hu', ← e2, ← e6]
  · rw [e10, e6]
  · rw [e11, work_append, e8]
    simp [work]

theorem find_again (h : AllNeverFail ls I0 I1 I2 I3) (o : Opt σ T) (hs : AsksAgain o.comps.stop) (f f' : Nat)
    (hf' : 0 < f') {w w' : World (σ × τ) T} (hw : I0 w.user.2) {r : Option (Solution T)} {o' : Opt (σ × τ) T}
    (hr : findMin f (o.watched ls) w = .ok ((r, o'), w')) :
    I3 w'.user.2 ∧ ∃ w'', nextIterations f' o' w' = .ok ((r, o'), w'') ∧ w''.user.1 = w'.user.1 ∧
      work w''.trace = work w'.trace := by
  have e : findMin f (o.watched ls) = opening o.comps ls (fun _ => true) >>= fun p =>
      nextIterations f (({ o with pop := p } : Opt σ T).watched ls) := by
    unfold findMin opening
    simp only [M.bind_assoc']
    rfl
  rw [e] at hr
  obtain ⟨p, w1, h1, h2⟩ := M.bind_eq_ok.1 hr
  have h3 := PartAgree.of_sim (opening_sim h o.comps fun _ => true) (w := w) (v := w) ⟨rfl, hw, hw, rfl⟩
  rw [h1] at h3
  exact next_again h { o with pop := p } hs f f' hf' h3.2.2.1 h2

end GA

namespace PSO

variable [FloatT α] {ls : List (Logger τ (List α))} {I0 I1 I2 I3 : τ → Prop}

/-- The components in parts of a run: loggers with fields of their own, and a stop checker without. -/
def inPart (c : Comps σ α) (ls : List (Logger τ (List α))) (P : AlgState (List α) → Bool) : Comps (σ × τ) α :=
  { c.beside τ with loggers := ls.map (Logger.zoom (Lens.snd σ τ)), stop := stopWhen P }

theorem part_csim (c : Comps σ α) (ls : List (Logger τ (List α))) (P : AlgState (List α) → Bool) (I : τ → Prop) :
    CSim (Mode.exact _) (Beheld I) (inPart c ls P) (inPart c ls P) where
  quiet e _ := .beheld_emit I e
  goal x := .beheld_recorded I _ _
  stop s := Sim.recorded (fun _ => .beheld_emit I _) (.beheld_pure I _)
  coordInit := .beheld_lift I _
  velInit := .beheld_lift I _
  velCalc _ _ := .beheld_lift I _
  postVel := forall₂_same fun f hf x => by
    obtain ⟨g, -, rfl⟩ := List.mem_map.1 hf; exact .beheld_lift I _
  postMove := forall₂_same fun f hf x => by
    obtain ⟨g, -, rfl⟩ := List.mem_map.1 hf; exact .beheld_lift I _

/-- Two loops with a break in between. -/
def broken (c : Comps σ α) (ls : List (Logger τ (List α))) (P1 P2 : AlgState (List α) → Bool) (f1 f2 : Nat) (p : Swarm α) :
    M (World (σ × τ) (List α)) (Swarm α) := do
  let p ← loop (inPart c ls P1) f1 p
  callLoggers .finish p.state 0 (inPart c ls P1).loggers
  callLoggers .resume p.state 0 (inPart c ls P2).loggers
  loop (inPart c ls P2) f2 p

theorem loop_stop (c : Comps σ α) (ls : List (Logger τ (List α))) (P : AlgState (List α) → Bool) (f : Nat) (p : Swarm α)
    (w : World (σ × τ) (List α)) (h : P p.state = true) :
    loop (inPart c ls P) (f + 1) p w = .ok (p, ⟨w.user, w.trace ++ [.check p.state true]⟩) := by
  show (World.lift (pure (P p.state)) >>= fun b => World.emit (.check p.state b) >>= fun _ => if b then _ else _) w = _
  rw [h]
  rfl

theorem loop_go (c : Comps σ α) (ls : List (Logger τ (List α))) (P : AlgState (List α) → Bool) (f : Nat) (p : Swarm α)
    (w : World (σ × τ) (List α)) (h : P p.state = false) :
    loop (inPart c ls P) (f + 1) p w = (step (inPart c ls P) p >>= loop (inPart c ls P) f)
      ⟨w.user, w.trace ++ [.check p.state false]⟩ := by
  show (World.lift (pure (P p.state)) >>= fun b => World.emit (.check p.state b) >>= fun _ => if b then _ else _) w = _
  rw [h]
  rfl

theorem beheld_check {I : τ → Prop} {w v : World (σ × τ) (List α)} (h : Beheld I w v) (s s' : AlgState (List α)) (b b' : Bool) :
    Beheld I ⟨w.user, w.trace ++ [.check s b]⟩ ⟨v.user, v.trace ++ [.check s' b']⟩ :=
  ⟨h.1, h.2.1, h.2.2.1, by simp only [work_append, h.2.2.2]; rfl⟩

theorem beheld_check_left {I : τ → Prop} {w v : World (σ × τ) (List α)} (h : Beheld I w v) (s : AlgState (List α)) (b : Bool) :
    Beheld I ⟨w.user, w.trace ++ [.check s b]⟩ v :=
  ⟨h.1, h.2.1, h.2.2.1, by simp only [work_append, h.2.2.2]; simp [work]⟩

/-- The break itself. -/
theorem break_ (h : AllNeverFail ls I0 I1 I2 I3) (c : Comps σ α) (P1 P2 : AlgState (List α) → Bool) (f : Nat)
    (p : Swarm α) {w v : World (σ × τ) (List α)} (hR : Beheld I2 w v) :
    PartAgree (Beheld I2) Eq ((callLoggers .finish p.state 0 (inPart c ls P1).loggers >>= fun _ =>
      callLoggers .resume p.state 0 (inPart c ls P2).loggers >>= fun _ => loop (inPart c ls P2) f p) w)
      (loop (inPart c ls P2) f p v) := by
  obtain ⟨w1, h1, h2, h3, h4⟩ := callLoggers_beheld (h.finish p.state) w hR.2.1
  obtain ⟨w2, h5, h6, h7, h8⟩ := callLoggers_beheld (h.resume p.state) w1 (h.again _ h3)
  have e : (callLoggers .finish p.state 0 (inPart c ls P1).loggers >>= fun _ =>
      callLoggers .resume p.state 0 (inPart c ls P2).loggers >>= fun _ => loop (inPart c ls P2) f p) w =
      loop (inPart c ls P2) f p w2 := by
    rw [M.bind_run, show callLoggers .finish p.state 0 (inPart c ls P1).loggers w = _ from h1]
    simp only
    rw [M.bind_run, show callLoggers .resume p.state 0 (inPart c ls P2).loggers w1 = _ from h5]
  rw [e]
  exact PartAgree.of_sim ((part_csim c ls P2 I2).loop (fun s => Sim.loggers_beheld (h.next s)) f p)
    ⟨by rw [h6, h2, hR.1], h7, hR.2.2.1, by rw [h8, h4, hR.2.2.2]⟩

theorem broken_stop (c : Comps σ α) (ls : List (Logger τ (List α))) (P1 P2 : AlgState (List α) → Bool) (f1 f2 : Nat)
    (p : Swarm α) (w : World (σ × τ) (List α)) (h : P1 p.state = true) :
    broken c ls P1 P2 (f1 + 1) f2 p w = (callLoggers .finish p.state 0 (inPart c ls P1).loggers >>= fun _ =>
      callLoggers .resume p.state 0 (inPart c ls P2).loggers >>= fun _ => loop (inPart c ls P2) f2 p)
      ⟨w.user, w.trace ++ [.check p.state true]⟩ := by
  unfold broken
  rw [M.bind_run, loop_stop c ls P1 f1 p w h]

theorem broken_go (c : Comps σ α) (ls : List (Logger τ (List α))) (P1 P2 : AlgState (List α) → Bool) (f1 f2 : Nat)
    (p : Swarm α) (w : World (σ × τ) (List α)) (h : P1 p.state = false) :
    broken c ls P1 P2 (f1 + 1) f2 p w = (step (inPart c ls P2) p >>= broken c ls P1 P2 f1 f2)
      ⟨w.user, w.trace ++ [.check p.state false]⟩ := by
  unfold broken
  rw [M.bind_run, loop_go c ls P1 f1 p w h, ← M.bind_run, M.bind_assoc']
  rfl

/-- If the loop ends then so do the two loops, and alike. -/
theorem broken_of_loop (h : AllNeverFail ls I0 I1 I2 I3) (c : Comps σ α) (P1 P2 : AlgState (List α) → Bool)
    (hP : ∀ s, P2 s = true → P1 s = true) (f2 : Nat) : ∀ (f f1 : Nat) (p : Swarm α) (w v : World (σ × τ) (List α)),
    Beheld I2 w v → f ≤ f1 → f ≤ f2 → loop (inPart c ls P2) f p v ≠ .error .fuel →
    PartAgree (Beheld I2) Eq (broken c ls P1 P2 f1 f2 p w) (loop (inPart c ls P2) f p v) := by
  intro f
  induction f with
  | zero => intro f1 p w v _ _ _ hf; exact absurd rfl hf
  | succ f ih =>
    intro f1 p w v hR h1 h2 hf
    obtain ⟨f1, rfl⟩ : ∃ k, f1 = k + 1 := ⟨f1 - 1, by omega⟩
    obtain ⟨d, rfl⟩ : ∃ d, f2 = f + 1 + d := ⟨f2 - (f + 1), by omega⟩
    cases hp : P1 p.state with
    | true =>
      rw [broken_stop c ls P1 P2 f1 _ p w hp, ← loop_more (inPart c ls P2) d (f + 1) p v hf]
      exact break_ h c P1 P2 _ p (beheld_check_left hR _ _)
    | false =>
      have hp2 : P2 p.state = false := by
        cases hq : P2 p.state with
        | false => rfl
        | true => rw [hP _ hq] at hp; cases hp
      rw [loop_go c ls P2 f p v hp2] at hf ⊢
      rw [broken_go c ls P1 P2 f1 _ p w hp]
      refine PartAgree.bind (PartAgree.of_sim ((part_csim c ls P2 I2).step (fun s => Sim.loggers_beheld (h.next s)) p)
        (beheld_check hR _ _ _ _)) ?_
      rintro a _ w' v' h3 h4 rfl hR'
      refine ih f1 a w' v' hR' (by omega) (by omega) ?_
      intro he
      rw [M.bind_run, h4] at hf
      exact hf he

/-- If the two loops end then so does the one loop, and alike. -/
theorem loop_of_broken (h : AllNeverFail ls I0 I1 I2 I3) (c : Comps σ α) (P1 P2 : AlgState (List α) → Bool)
    (hP : ∀ s, P2 s = true → P1 s = true) (f2 : Nat) : ∀ (f1 : Nat) (p : Swarm α) (w v : World (σ × τ) (List α)),
    Beheld I2 w v → broken c ls P1 P2 f1 f2 p w ≠ .error .fuel →
    PartAgree (Beheld I2) Eq (broken c ls P1 P2 f1 f2 p w) (loop (inPart c ls P2) (f1 + f2) p v) := by
  intro f1
  induction f1 with
  | zero => intro p w v _ hf; exact absurd rfl hf
  | succ f1 ih =>
    intro p w v hR hf
    cases hp : P1 p.state with
    | true =>
      rw [broken_stop c ls P1 P2 f1 f2 p w hp] at hf ⊢
      have h1 := break_ h c P1 P2 f2 p (beheld_check_left hR p.state true)
      rw [show f1 + 1 + f2 = f2 + (f1 + 1) by omega, loop_more (inPart c ls P2) (f1 + 1) f2 p v (mt h1.fuel.2 hf)]
      exact h1
    | false =>
      have hp2 : P2 p.state = false := by
        cases hq : P2 p.state with
        | false => rfl
        | true => rw [hP _ hq] at hp; cases hp
      rw [broken_go c ls P1 P2 f1 f2 p w hp] at hf ⊢
      rw [show f1 + 1 + f2 = f1 + f2 + 1 by omega, loop_go c ls P2 (f1 + f2) p v hp2]
      refine PartAgree.bind (PartAgree.of_sim ((part_csim c ls P2 I2).step (fun s => Sim.loggers_beheld (h.next s)) p)
        (beheld_check hR _ _ _ _)) ?_
      rintro a _ w' v' h3 h4 rfl hR'
      refine ih a w' v' hR' ?_
      intro he
      rw [M.bind_run, h3] at hf
      exact hf he

/-- The same value and the same swarm. -/
def SameAnswer (a b : Option (Solution (List α)) × Opt (σ × τ) α) : Prop := a.1 = b.1 ∧ a.2.swarm = b.2.swarm

/-- Two calls of `next_iterations`. -/
def twoParts (c : Comps σ α) (ls : List (Logger τ (List α))) (P1 P2 : AlgState (List α) → Bool) (f1 f2 : Nat) (p : Swarm α) :
    M (World (σ × τ) (List α)) (Option (Solution (List α)) × Opt (σ × τ) α) :=
  nextIterations f1 ⟨inPart c ls P1, p⟩ >>= fun r => nextIterations f2 ⟨inPart c ls P2, r.2.swarm⟩

theorem twoParts_eq (c : Comps σ α) (ls : List (Logger τ (List α))) (P1 P2 : AlgState (List α) → Bool) (f1 f2 : Nat)
    (p : Swarm α) : twoParts c ls P1 P2 f1 f2 p =
      callLoggers .resume p.state 0 (inPart c ls P1).loggers >>= fun _ => broken c ls P1 P2 f1 f2 p >>= fun p =>
      callLoggers .finish p.state 0 (inPart c ls P2).loggers >>= fun _ =>
      pure (match p.best with
        | none => none
        | some q => some (q.coordinates, q.value), ⟨inPart c ls P2, p⟩) := by
  unfold twoParts nextIterations broken
  simp only [M.bind_assoc']
  rfl

/-- If `next_iterations` ends then so do the two calls, and alike. -/
theorem twoParts_of_next (h : AllNeverFail ls I0 I1 I2 I3) (c : Comps σ α) (P1 P2 : AlgState (List α) → Bool)
    (hP : ∀ s, P2 s = true → P1 s = true) (f : Nat) (p : Swarm α) (w v : World (σ × τ) (List α)) (hR : Beheld I1 w v)
    (hf : nextIterations f ⟨inPart c ls P2, p⟩ v ≠ .error .fuel) :
    PartAgree (Beheld I3) SameAnswer (twoParts c ls P1 P2 f f p w) (nextIterations f ⟨inPart c ls P2, p⟩ v) := by
  rw [twoParts_eq]
  unfold nextIterations at hf ⊢
  refine PartAgree.bind (PartAgree.of_sim (Sim.loggers_beheld (h.resume p.state)) hR) ?_
  rintro ⟨⟩ ⟨⟩ w1 v1 _ h2 _ hR1
  rw [M.bind_run, h2] at hf
  have hf1 : loop (inPart c ls P2) f p v1 ≠ .error .fuel := by
    intro he
    simp only at hf
    rw [M.bind_run, he] at hf
    exact hf rfl
  refine PartAgree.bind (broken_of_loop h c P1 P2 hP f f f p w1 v1 hR1 le_rfl le_rfl hf1) ?_
  rintro p1 _ w2 v2 _ _ rfl hR2
  refine PartAgree.bind (PartAgree.of_sim (Sim.loggers_beheld (h.finish p1.state)) hR2) ?_
  rintro ⟨⟩ ⟨⟩ w3 v3 _ _ _ hR3
  exact ⟨⟨rfl, rfl⟩, hR3⟩

/-- If the two calls end then so does one, and alike. -/
theorem next_of_twoParts (h : AllNeverFail ls I0 I1 I2 I3) (c : Comps σ α) (P1 P2 : AlgState (List α) → Bool)
    (hP : ∀ s, P2 s = true → P1 s = true) (f1 f2 : Nat) (p : Swarm α) (w v : World (σ × τ) (List α)) (hR : Beheld I1 w v)
    (hf : twoParts c ls P1 P2 f1 f2 p w ≠ .error .fuel) :
    PartAgree (Beheld I3) SameAnswer (twoParts c ls P1 P2 f1 f2 p w) (nextIterations (f1 + f2) ⟨inPart c ls P2, p⟩ v) := by
  rw [twoParts_eq] at hf ⊢
  unfold nextIterations
  refine PartAgree.bind (PartAgree.of_sim (Sim.loggers_beheld (h.resume p.state)) hR) ?_
  rintro ⟨⟩ ⟨⟩ w1 v1 h1 _ _ hR1
  rw [M.bind_run, show callLoggers .resume p.state 0 (inPart c ls P1).loggers w = _ from h1] at hf
  have hf1 : broken c ls P1 P2 f1 f2 p w1 ≠ .error .fuel := by
    intro he
    simp only at hf
    rw [M.bind_run, he] at hf
    exact hf rfl
  refine PartAgree.bind (loop_of_broken h c P1 P2 hP f2 f1 p w1 v1 hR1 hf1) ?_
  rintro p1 _ w2 v2 _ _ rfl hR2
  refine PartAgree.bind (PartAgree.of_sim (Sim.loggers_beheld (h.finish p1.state)) hR2) ?_
  rintro ⟨⟩ ⟨⟩ w3 v3 _ _ _ hR3
  exact ⟨⟨rfl, rfl⟩, hR3⟩

/-- `next_iterations` with each of the stop checkers. -/
def chain (c : Comps σ α) (ls : List (Logger τ (List α))) (f : Nat) : (AlgState (List α) → Bool) → List (AlgState (List α) → Bool) →
    Swarm α → M (World (σ × τ) (List α)) (Option (Solution (List α)) × Opt (σ × τ) α)
  | P, [], p => nextIterations f ⟨inPart c ls P, p⟩
  | P, Q :: Qs, p => nextIterations f ⟨inPart c ls P, p⟩ >>= fun r => chain c ls f Q Qs r.2.swarm

theorem agree_next (h : AllNeverFail ls I0 I1 I2 I3) (c : Comps σ α) (P : AlgState (List α) → Bool) (f : Nat)
    (p : Swarm α) {w v : World (σ × τ) (List α)} (hR : Beheld I1 w v) :
    PartAgree (Beheld I3) SameAnswer (nextIterations f ⟨inPart c ls P, p⟩ w) (nextIterations f ⟨inPart c ls P, p⟩ v) :=
  (PartAgree.of_sim ((part_csim c ls P I2).nextIterations (fun s => Sim.loggers_beheld (h.resume s))
    (fun s => Sim.loggers_beheld (h.next s)) (fun s => Sim.loggers_beheld (h.finish s)) f p) hR).mono (fun _ _ h => h)
    fun _ _ h => ⟨h.1, h.2.1⟩

theorem sameAnswer_trans {a b c : Option (Solution (List α)) × Opt (σ × τ) α} (h : SameAnswer a b) (h' : SameAnswer b c) :
    SameAnswer a c := ⟨h.1.trans h'.1, h.2.trans h'.2⟩

/-- If one call ends then so do all the parts, and alike. -/
theorem chain_of_next (h : AllNeverFail ls I0 I1 I2 I3) (c : Comps σ α) (f : Nat) (P : AlgState (List α) → Bool) :
    ∀ (Qs : List (AlgState (List α) → Bool)) (Q : AlgState (List α) → Bool), (∀ s, P s = true → Q s = true) →
    (∀ Q ∈ Qs, ∀ s, P s = true → Q s = true) → (Q :: Qs).getLast? = some P →
    ∀ (p : Swarm α) (w v : World (σ × τ) (List α)), Beheld I1 w v →
    nextIterations f ⟨inPart c ls P, p⟩ v ≠ .error .fuel →
    PartAgree (Beheld I3) SameAnswer (chain c ls f Q Qs p w) (nextIterations f ⟨inPart c ls P, p⟩ v) := by
  intro Qs
  induction Qs with
  | nil =>
    intro Q _ _ hl p w v hR _
    cases hl
    exact agree_next h c _ f p hR
  | cons Q' Qs ih =>
    intro Q hQ hQs hl p w v hR hf
    have h1 := twoParts_of_next h c Q P hQ f p w v hR hf
    have h2 : PartAgree (Beheld I3) SameAnswer (chain c ls f Q (Q' :: Qs) p w) (twoParts c ls Q P f f p w) := by
      have h0 := agree_next h c Q f p hR.left
      refine PartAgree.bind h0 ?_
      rintro r r' w1 w2 h3 h4 - hR1
      rw [h3] at h4
      cases h4
      have hw := hR1.left.imp h.again
      refine ih Q' (hQs Q' (by simp)) (fun Q hQ => hQs Q (by simp [hQ])) (by simpa using hl) r.2.swarm w1 w1 hw ?_
      intro he
      refine mt h1.fuel.1 hf ?_
      unfold twoParts
      rw [M.bind_run, h3]
      exact he
    exact h2.trans h1 (fun _ _ _ => Beheld.trans) fun _ _ _ => sameAnswer_trans

/-- If all the parts end then so does one call, and alike. -/
theorem next_of_chain (h : AllNeverFail ls I0 I1 I2 I3) (c : Comps σ α) (f : Nat) (P : AlgState (List α) → Bool) :
    ∀ (Qs : List (AlgState (List α) → Bool)) (Q : AlgState (List α) → Bool), (∀ s, P s = true → Q s = true) →
    (∀ Q ∈ Qs, ∀ s, P s = true → Q s = true) → (Q :: Qs).getLast? = some P →
    ∀ (p : Swarm α) (w v : World (σ × τ) (List α)), Beheld I1 w v → chain c ls f Q Qs p w ≠ .error .fuel →
    ∃ f', PartAgree (Beheld I3) SameAnswer (chain c ls f Q Qs p w) (nextIterations f' ⟨inPart c ls P, p⟩ v) := by
  intro Qs
  induction Qs with
  | nil =>
    intro Q _ _ hl p w v hR _
    cases hl
    exact ⟨f, agree_next h c _ f p hR⟩
  | cons Q' Qs ih =>
    intro Q hQ hQs hl p w v hR hf
    have h0 := agree_next h c Q f p hR.left
    have h2 : ∃ f', PartAgree (Beheld I3) SameAnswer (chain c ls f Q (Q' :: Qs) p w) (twoParts c ls Q P f f' p w) := by
      cases h3 : nextIterations f ⟨inPart c ls Q, p⟩ w with
      | error e =>
        refine ⟨0, ?_⟩
        unfold chain twoParts
        rw [M.bind_run, M.bind_run, h3]
        rfl
      | ok q =>
        obtain ⟨r, w1⟩ := q
        rw [h3] at h0
        have hw := h0.2.left.imp h.again
        unfold chain at hf ⊢
        rw [M.bind_run, h3] at hf ⊢
        obtain ⟨f', h4⟩ := ih Q' (hQs Q' (by simp)) (fun Q hQ => hQs Q (by simp [hQ])) (by simpa using hl) r.2.swarm w1 w1 hw
          hf
        refine ⟨f', ?_⟩
        unfold twoParts
        rw [M.bind_run, h3]
        exact h4
    obtain ⟨f', h2⟩ := h2
    refine ⟨f + f', h2.trans (next_of_twoParts h c Q P hQ f f' p w v hR (mt h2.fuel.2 hf)) (fun _ _ _ => Beheld.trans)
      fun _ _ _ => sameAnswer_trans⟩

/-! ### Histories -/

/-- The last value and the swarm of a history. -/
def EndsWith (a : List (Ret α) × Opt (σ × τ) α) (b : Option (Solution (List α)) × Opt (σ × τ) α) : Prop :=
  a.1.getLast? = some (some b.1) ∧ a.2.swarm = b.2.swarm

theorem run_cons' (o : Opt σ α) (k : Call σ α) (ks : List (Call σ α)) :
    run o (k :: ks) = call o k >>= fun q => run q.2 ks >>= fun rs => pure (q.1 :: rs.1, rs.2) := rfl

theorem call_next' (o : Opt σ α) (f : Nat) :
    call o (.nextIterations f) = nextIterations f o >>= fun r => pure (some r.1, r.2) := rfl

theorem call_find' (o : Opt σ α) (f : Nat) : call o (.findMin f) = findMin f o >>= fun r => pure (some r.1, r.2) := rfl

theorem run_next (c : Comps σ α) (ls : List (Logger τ (List α))) (f : Nat) (P Q : AlgState (List α) → Bool) (p : Swarm α)
    (rest : List (Call (σ × τ) α)) (w : World (σ × τ) (List α)) :
    run ⟨inPart c ls P, p⟩ (.setStopChecker (stopWhen Q) :: .nextIterations f :: rest) w =
      (nextIterations f ⟨inPart c ls Q, p⟩ >>= fun r => run ⟨inPart c ls Q, r.2.swarm⟩ rest >>= fun rs =>
        pure (none :: some r.1 :: rs.1, rs.2)) w := by
  have e : run ⟨inPart c ls P, p⟩ (.setStopChecker (stopWhen Q) :: .nextIterations f :: rest) w =
      (run ⟨inPart c ls Q, p⟩ (.nextIterations f :: rest) >>= fun rs => pure (none :: rs.1, rs.2)) w := rfl
  rw [e, run_cons', call_next']
  simp only [M.bind_assoc', M.bind_run]
  cases h1 : nextIterations f ⟨inPart c ls Q, p⟩ w with
  | error e => rfl
  | ok q =>
    obtain ⟨⟨r, oc, op⟩, w1⟩ := q
    have hc : oc = inPart c ls Q := nextIterations_comps h1
    subst hc
    simp only [M.pure_run, M.bind_run]
    cases run ⟨inPart c ls Q, op⟩ rest w1 with
    | error e => rfl
    | ok q => rfl

theorem run_parts (c : Comps σ α) (ls : List (Logger τ (List α))) (f : Nat) : ∀ (Qs : List (AlgState (List α) → Bool))
    (P Q : AlgState (List α) → Bool) (p : Swarm α) (w : World (σ × τ) (List α)),
    PartAgree Eq EndsWith (run ⟨inPart c ls P, p⟩
      ((Q :: Qs).flatMap fun P => [.setStopChecker (stopWhen P), .nextIterations f]) w) (chain c ls f Q Qs p w) := by
  intro Qs
  induction Qs with
  | nil =>
    intro P Q p w
    rw [show ([Q].flatMap fun P => [Call.setStopChecker (stopWhen P), Call.nextIterations f] : List (Call (σ × τ) α)) =
      .setStopChecker (stopWhen Q) :: .nextIterations f :: [] from rfl, run_next, M.bind_run]
    unfold chain
    cases nextIterations f ⟨inPart c ls Q, p⟩ w with
    | error e => rfl
    | ok q => exact ⟨⟨rfl, rfl⟩, rfl⟩
  | cons Q' Qs ih =>
    intro P Q p w
    rw [List.flatMap_cons]
    generalize hr : (Q' :: Qs).flatMap (fun P => [Call.setStopChecker (stopWhen P), Call.nextIterations f]) = rest
    rw [show [Call.setStopChecker (stopWhen Q), Call.nextIterations f] ++ rest =
      .setStopChecker (stopWhen Q) :: .nextIterations f :: rest from rfl, run_next, M.bind_run]
    unfold chain
    rw [M.bind_run]
    cases nextIterations f ⟨inPart c ls Q, p⟩ w with
    | error e => rfl
    | ok q =>
      obtain ⟨r, w1⟩ := q
      have h1 := ih Q Q' r.2.swarm w1
      rw [hr] at h1
      simp only
      rw [M.bind_run]
      cases h2 : run ⟨inPart c ls Q, r.2.swarm⟩ rest w1 with
      | error e =>
        rw [h2] at h1
        exact h1
      | ok q' =>
        obtain ⟨⟨rs, o'⟩, w2⟩ := q'
        rw [h2] at h1
        cases h3 : chain c ls f Q' Qs r.2.swarm w1 with
        | error e => rw [h3] at h1; exact h1.elim
        | ok q'' =>
          rw [h3] at h1
          obtain ⟨⟨h4, h5⟩, h6⟩ := h1
          refine ⟨⟨?_, h5⟩, h6⟩
          simp only at h4
          cases rs with
          | nil => cases h4
          | cons a rs => simpa using h4

/-- `find_min` before the iterations: creation and the loggers' `start`. -/
def opening (c : Comps σ α) (ls : List (Logger τ (List α))) (P : AlgState (List α) → Bool) :
    M (World (σ × τ) (List α)) (Swarm α) := do
  let s ← renewSwarm (inPart c ls P) ⟨[], none, none, 0⟩
  callLoggers .start s.state 0 (inPart c ls P).loggers
  pure s

theorem findMin_opening (c : Comps σ α) (ls : List (Logger τ (List α))) (P P' : AlgState (List α) → Bool) (f : Nat)
    (p : Swarm α) : findMin f ⟨inPart c ls P, p⟩ = opening c ls P' >>= fun p => nextIterations f ⟨inPart c ls P, p⟩ := by
  unfold findMin opening
  simp only [M.bind_assoc']
  rfl

theorem opening_sim (h : AllNeverFail ls I0 I1 I2 I3) (c : Comps σ α) (P : AlgState (List α) → Bool) :
    Sim (Mode.exact _) (Beheld I0) (Beheld I1) Eq (opening c ls P) (opening c ls P) :=
  ((part_csim c ls P I0).renewSwarm _).seq fun p => (Sim.loggers_beheld (h.start p.state)).seq fun _ => .pure rfl

/-- The history in parts, as its opening and a chain of calls. -/
theorem run_inParts (o : Opt σ α) (ls : List (Logger τ (List α))) (f : Nat) (P : AlgState (List α) → Bool)
    (Qs : List (AlgState (List α) → Bool)) (P' : AlgState (List α) → Bool) (w : World (σ × τ) (List α)) :
    PartAgree Eq EndsWith (run (o.watched ls) (inParts f P Qs) w)
      ((opening o.comps ls P' >>= fun p => chain o.comps ls f P Qs p) w) := by
  have e : ∀ rest : List (Call (σ × τ) α), run (o.watched ls) ([.setStopChecker (stopWhen P), .findMin f] ++ rest) w =
      (opening o.comps ls P' >>= fun p => run ⟨inPart o.comps ls P, p⟩ (.setStopChecker (stopWhen P) ::
        .nextIterations f :: rest)) w := by
    intro rest
    have e1 : run (o.watched ls) ([.setStopChecker (stopWhen P), .findMin f] ++ rest) w =
        (run ⟨inPart o.comps ls P, o.swarm⟩ (.findMin f :: rest) >>= fun rs => pure (none :: rs.1, rs.2)) w := rfl
    rw [e1, run_cons', call_find', findMin_opening o.comps ls P P' f o.swarm]
    simp only [M.bind_assoc', M.bind_run]
    cases opening o.comps ls P' w with
    | error e => rfl
    | ok q =>
      obtain ⟨p, w1⟩ := q
      simp only
      rw [run_next, M.bind_run]
      cases h1 : nextIterations f ⟨inPart o.comps ls P, p⟩ w1 with
      | error e => rfl
      | ok q =>
        obtain ⟨⟨r, oc, op⟩, w2⟩ := q
        have hc : oc = inPart o.comps ls P := nextIterations_comps h1
        subst hc
        simp only [M.pure_run, M.bind_run]
        cases run ⟨inPart o.comps ls P, op⟩ rest w2 with
        | error e => rfl
        | ok q => rfl
  unfold inParts
  rw [e, M.bind_run, M.bind_run]
  cases opening o.comps ls P' w with
  | error e => rfl
  | ok q =>
    obtain ⟨p, w1⟩ := q
    exact run_parts o.comps ls f Qs P P p w1

theorem endsAlike_of {I : τ → Prop} {x : Except Err ((List (Ret α) × Opt (σ × τ) α) × World (σ × τ) (List α))}
    {y : Except Err ((List (Ret α) × Opt (σ × τ) α) × World (σ × τ) (List α))}
    {x' y' : Except Err ((Option (Solution (List α)) × Opt (σ × τ) α) × World (σ × τ) (List α))} (hx : PartAgree Eq EndsWith x x')
    (h : PartAgree (Beheld I) SameAnswer x' y') (hy : PartAgree Eq EndsWith y y') : EndsAlike Opt.swarm x y := by
  cases x <;> cases x' <;> simp only [PartAgree] at hx
  · cases y' <;> simp only [PartAgree] at h
    cases y <;> simp only [PartAgree] at hy
    subst hx h hy
    rfl
  · cases y' <;> simp only [PartAgree] at h
    cases y <;> simp only [PartAgree] at hy
    obtain ⟨⟨h1, h2⟩, h3⟩ := hx
    obtain ⟨⟨h4, h5⟩, h6⟩ := h
    obtain ⟨⟨h7, h8⟩, h9⟩ := hy
    rw [← h3, ← h9] at h6
    exact ⟨by rw [h1, h7, h4], by rw [h2, h8, h5], h6.1, h6.2.2.2⟩

/-- If the whole run ends then so does the run in parts, and alike. -/
theorem parts_of_whole (h : AllNeverFail ls I0 I1 I2 I3) (o : Opt σ α) (P Q : AlgState (List α) → Bool)
    (Qs : List (AlgState (List α) → Bool)) (hQ : ∀ Q' ∈ Q :: Qs, ∀ s, P s = true → Q' s = true)
    (hl : (Q :: Qs).getLast? = some P) (f : Nat) (w : World (σ × τ) (List α)) (hw : I0 w.user.2)
    (hf : run (o.watched ls) (inParts f P []) w ≠ .error .fuel) :
    EndsAlike Opt.swarm (run (o.watched ls) (inParts f Q Qs) w) (run (o.watched ls) (inParts f P []) w) := by
  have h1 := run_inParts o ls f P [] P w
  refine endsAlike_of (I := I3) (run_inParts o ls f Q Qs P w) (PartAgree.bind (PartAgree.of_sim (opening_sim h o.comps P)
    ⟨rfl, hw, hw, rfl⟩) ?_) h1
  rintro p _ w1 v1 h2 h3 rfl hR
  refine chain_of_next h o.comps f P Qs Q (hQ Q (by simp)) (fun Q' hQ' => hQ Q' (by simp [hQ'])) hl p w1 v1 hR ?_
  intro he
  refine hf (h1.fuel.2 ?_)
  rw [M.bind_run, h3]
  exact he

/-- If the run in parts ends then so does the whole run, and alike. -/
theorem whole_of_parts (h : AllNeverFail ls I0 I1 I2 I3) (o : Opt σ α) (P Q : AlgState (List α) → Bool)
    (Qs : List (AlgState (List α) → Bool)) (hQ : ∀ Q' ∈ Q :: Qs, ∀ s, P s = true → Q' s = true)
    (hl : (Q :: Qs).getLast? = some P) (f : Nat) (w : World (σ × τ) (List α)) (hw : I0 w.user.2)
    (hf : run (o.watched ls) (inParts f Q Qs) w ≠ .error .fuel) :
    ∃ f', EndsAlike Opt.swarm (run (o.watched ls) (inParts f Q Qs) w) (run (o.watched ls) (inParts f' P []) w) := by
  have h1 := run_inParts o ls f Q Qs P w
  have h0 := PartAgree.of_sim (opening_sim h o.comps P) (w := w) (v := w) ⟨rfl, hw, hw, rfl⟩
  cases h2 : opening o.comps ls P w with
  | error e =>
    refine ⟨0, endsAlike_of (I := I3) h1 ?_ (run_inParts o ls 0 P [] P w)⟩
    rw [M.bind_run, M.bind_run, h2]
    rfl
  | ok q =>
    obtain ⟨p, w1⟩ := q
    rw [h2] at h0
    have hc : chain o.comps ls f Q Qs p w1 ≠ .error .fuel := by
      intro he
      refine hf (h1.fuel.2 ?_)
      rw [M.bind_run, h2]
      exact he
    obtain ⟨f', h3⟩ := next_of_chain h o.comps f P Qs Q (hQ Q (by simp)) (fun Q' hQ' => hQ Q' (by simp [hQ'])) hl p w1 w1
      h0.2 hc
    refine ⟨f', endsAlike_of (I := I3) h1 ?_ (run_inParts o ls f' P [] P w)⟩
    rw [M.bind_run, M.bind_run, h2]
    exact h3

/-! ### Calling `next_iterations` once more -/

theorem watched_csim (c : Comps σ α) (ls : List (Logger τ (List α))) (I : τ → Prop) :
    CSim (Mode.exact _) (Beheld I) { c.beside τ with loggers := ls.map (Logger.zoom (Lens.snd σ τ)) }
      { c.beside τ with loggers := ls.map (Logger.zoom (Lens.snd σ τ)) } :=
  { part_csim c ls (fun _ => true) I with stop := fun _ => .beheld_recorded I _ _ }

theorem next_again (h : AllNeverFail ls I0 I1 I2 I3) (o : Opt σ α) (hs : AsksAgain o.comps.stop) (f f' : Nat)
    (hf' : 0 < f') {w w' : World (σ × τ) (List α)} (hw : I1 w.user.2) {r : Option (Solution (List α))} {o' : Opt (σ × τ) α}
    (hr : nextIterations f (o.watched ls) w = .ok ((r, o'), w')) :
    I3 w'.user.2 ∧ ∃ w'', nextIterations f' o' w' = .ok ((r, o'), w'') ∧ w''.user.1 = w'.user.1 ∧
      work w''.trace = work w'.trace := by
  have hc := watched_csim o.comps ls I2
  have h3 : I3 w'.user.2 := by
    have h1 := PartAgree.of_sim (hc.nextIterations (fun s => Sim.loggers_beheld (h.resume s))
      (fun s => Sim.loggers_beheld (h.next s)) (fun s => Sim.loggers_beheld (h.finish s)) f o.swarm) (w := w) (v := w)
      ⟨rfl, hw, hw, rfl⟩
    rw [show nextIterations f ⟨{ o.comps.beside τ with loggers := ls.map (Logger.zoom (Lens.snd σ τ)) }, o.swarm⟩ w = _
      from hr] at h1
    exact h1.2.2.1
  refine ⟨h3, ?_⟩
  obtain ⟨p, w1, w2, h4, h5, h6, rfl, rfl⟩ := nextIterations_ok.1 hr
  obtain ⟨k, w3, s', -, h7, h8, rfl⟩ := loop_turns h5
  obtain ⟨f', rfl⟩ : ∃ k, f' = k + 1 := ⟨f' - 1, by omega⟩
  -- the last answer of the stop checker
  have hstop : ∃ u', o.comps.stop p.state u' = .ok (true, u') ∧ s'.1 = u' := by
    have h9 : (Lens.fst σ τ).zoom (o.comps.stop p.state) w3.user = .ok (true, s') := h8
    rw [zoom_fst_run] at h9
    cases h10 : o.comps.stop p.state w3.user.1 with
    | error e => rw [h10] at h9; cases h9
    | ok q =>
      obtain ⟨b, u'⟩ := q
      rw [h10] at h9
      cases h9
      exact ⟨u', hs _ _ _ _ h10, rfl⟩
  obtain ⟨u', hu, hu'⟩ := hstop
  have hI2 : I2 s'.2 := by
    have h1 := (hc.loop (fun s => Sim.loggers_beheld (h.next s)) f o.swarm).ok w1 w1 ⟨rfl, ?_, ?_, rfl⟩ _ _ h5 trivial
    · obtain ⟨b, v', -, -, hR⟩ := h1
      exact hR.2.1
    all_goals
      obtain ⟨wx, hx1, -, hx2, -⟩ := callLoggers_beheld (h.resume o.swarm.state) w hw
      rw [show callLoggers .resume o.swarm.state 0 (ls.map (Logger.zoom (Lens.snd σ τ))) w = _ from h4] at hx1
      cases hx1
      exact hx2
  obtain ⟨w4, e1, e2, e3, e4⟩ := callLoggers_beheld (σ := σ) (h.finish p.state)
    ⟨s', w3.trace ++ [.check p.state true]⟩ hI2
  rw [show callLoggers .finish p.state 0 (ls.map (Logger.zoom (Lens.snd σ τ))) _ = _ from h6] at e1
  cases e1
  obtain ⟨w5, e5, e6, e7, e8⟩ := callLoggers_beheld (h.resume p.state) w' (h.again _ h3)
  obtain ⟨w6, e9, e10, -, e11⟩ := callLoggers_beheld (h.finish p.state) ⟨w5.user, w5.trace ++ [.check p.state true]⟩ e7
  refine ⟨w6, nextIterations_ok.2 ⟨p, w5, ⟨w5.user, w5.trace ++ [Ev.check p.state true]⟩, e5, ?_, e9, rfl, rfl⟩, ?_, ?_⟩
  · refine loop_succ_ok.2 ⟨true, w5.user, ?_, .inl ⟨rfl, rfl, rfl⟩⟩
    show (Lens.fst σ τ).zoom (o.comps.stop p.state) w5.user = _
    rw [zoom_fst_run, e6, e2, hu', hu, ← hu', ← e2, ← e6]
  · rw [e10, e6]
  · rw [e11, work_append, e8]
    simp [work]

theorem find_again (h : AllNeverFail ls I0 I1 I2 I3) (o : Opt σ α) (hs : AsksAgain o.comps.stop) (f f' : Nat)
    (hf' : 0 < f') {w w' : World (σ × τ) (List α)} (hw : I0 w.user.2) {r : Option (Solution (List α))} {o' : Opt (σ × τ) α}
    (hr : findMin f (o.watched ls) w = .ok ((r, o'), w')) :
    I3 w'.user.2 ∧ ∃ w'', nextIterations f' o' w' = .ok ((r, o'), w'') ∧ w''.user.1 = w'.user.1 ∧
      work w''.trace = work w'.trace := by
  have e : findMin f (o.watched ls) = opening o.comps ls (fun _ => true) >>= fun p =>
      nextIterations f (({ o with swarm := p } : Opt σ α).watched ls) := by
    unfold findMin opening
    simp only [M.bind_assoc']
    rfl
  rw [e] at hr
  obtain ⟨p, w1, h1, h2⟩ := M.bind_eq_ok.1 hr
  have h3 := PartAgree.of_sim (opening_sim h o.comps fun _ => true) (w := w) (v := w) ⟨rfl, hw, hw, rfl⟩
  rw [h1] at h3
  exact next_again h { o with swarm := p } hs f f' hf' h3.2.2.1 h2

end PSO
end Verif
