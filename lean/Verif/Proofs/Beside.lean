import Verif.Spec.Attach
import Verif.Proofs.Sim
import Verif.Props.CallCount

/-!
# An optimizer and the same optimizer with one more object
-/

set_option linter.unusedSectionVars false

namespace Verif

open Spec

variable {σ τ T α β : Type}

theorem zoom_fst_run (m : M σ β) (s : σ × τ) : (Lens.fst σ τ).zoom m s = match m s.1 with
    | .ok (a, t) => .ok (a, (t, s.2))
    | .error e => .error e := rfl

theorem zoom_snd_run (m : M τ β) (s : σ × τ) : (Lens.snd σ τ).zoom m s = match m s.2 with
    | .ok (a, t) => .ok (a, (s.1, t))
    | .error e => .error e := rfl

/-- Relations between a world and a larger one that depend on the common part as they should. -/
structure BesideRel (R : World σ T → World (σ × τ) T → Prop) : Prop where
  user : ∀ w v, R w v → v.user.1 = w.user
  lift : ∀ w v s, R w v → R ⟨s, w.trace⟩ ⟨(s, v.user.2), v.trace⟩
  quiet : ∀ w v e, (∀ x y, e ≠ .goal x y) → (∀ i k s, e ≠ .log i k s) → R w v →
    R ⟨w.user, w.trace ++ [e]⟩ ⟨v.user, v.trace ++ [e]⟩

theorem Sim.beside {D : Mode (World σ T)} {R : World σ T → World (σ × τ) T → Prop} (hR : BesideRel R)
    (hD : ∀ w s, D.P ⟨s, w.trace⟩ → D.P w) (m : M σ β) :
    Sim D R R Eq (World.lift m : M (World σ T) β) (World.lift ((Lens.fst σ τ).zoom m)) where
  back w a w' hr hP := by
    obtain ⟨-, h2⟩ := World.lift_eq_ok.1 hr
    refine hD w w'.user ?_
    rw [← h2]
    exact hP
  err w v h e hr _ := by
    unfold World.lift at hr ⊢
    rw [zoom_fst_run, hR.user w v h]
    cases h1 : m w.user with
    | error e' => rw [h1] at hr; cases hr; rfl
    | ok p => rw [h1] at hr; cases hr
  ok w v h a w' hr _ := by
    obtain ⟨h1, h2⟩ := World.lift_eq_ok.1 hr
    refine ⟨a, ⟨(w'.user, v.user.2), v.trace⟩, World.lift_eq_ok.2 ⟨?_, rfl⟩, rfl, ?_⟩
    · rw [zoom_fst_run, hR.user w v h, h1]
    · have := hR.lift w v w'.user h
      rw [← h2] at this
      exact this

theorem Sim.beside_rev {D : Mode (World (σ × τ) T)} {R : World σ T → World (σ × τ) T → Prop} (hR : BesideRel R)
    (hD : ∀ w s, D.P ⟨s, w.trace⟩ → D.P w) (m : M σ β) :
    Sim D (fun v w => R w v) (fun v w => R w v) Eq (World.lift ((Lens.fst σ τ).zoom m) : M (World (σ × τ) T) β)
      (World.lift m) where
  back w a w' hr hP := by
    obtain ⟨-, h2⟩ := World.lift_eq_ok.1 hr
    refine hD w w'.user ?_
    rw [← h2]
    exact hP
  err v w h e hr _ := by
    unfold World.lift at hr ⊢
    rw [zoom_fst_run, hR.user w v h] at hr
    cases h1 : m w.user with
    | error e' => rw [h1] at hr; cases hr; rfl
    | ok p => rw [h1] at hr; cases hr
  ok v w h a v' hr _ := by
    obtain ⟨h1, h2⟩ := World.lift_eq_ok.1 hr
    rw [zoom_fst_run, hR.user w v h] at h1
    cases h3 : m w.user with
    | error e' => rw [h3] at h1; cases h1
    | ok p =>
      obtain ⟨b, t⟩ := p
      rw [h3] at h1
      obtain ⟨vu, vt⟩ := v'
      simp only [Except.ok.injEq, Prod.mk.injEq] at h1 h2
      obtain ⟨rfl, rfl⟩ := h1
      subst h2
      exact ⟨b, ⟨t, w.trace⟩, World.lift_eq_ok.2 ⟨h3, rfl⟩, rfl, hR.lift w v t h⟩

theorem Sim.quiet {σ1 σ2 : Type} {D : Mode (World σ1 T)} {R : World σ1 T → World σ2 T → Prop} {e : Ev T}
    (hD : ∀ w : World σ1 T, D.P ⟨w.user, w.trace ++ [e]⟩ → D.P w)
    (h : ∀ w v, R w v → R ⟨w.user, w.trace ++ [e]⟩ ⟨v.user, v.trace ++ [e]⟩) :
    Sim D R R Eq (World.emit e : M (World σ1 T) Unit) (World.emit e) where
  back w a w' hr hP := by cases hr; exact hD w hP
  err w v _ e' hr := by cases hr
  ok w v hR a w' hr _ := by cases hr; exact ⟨(), _, rfl, rfl, h w v hR⟩

theorem forall₂_map {f : α → β} {Q : α → β → Prop} (h : ∀ a, Q a (f a)) (l : List α) : List.Forall₂ Q l (l.map f) := by
  induction l with
  | nil => exact .nil
  | cons a l ih => exact .cons (h a) ih

theorem forall₂_map_rev {f : α → β} {Q : β → α → Prop} (h : ∀ a, Q (f a) a) (l : List α) :
    List.Forall₂ Q (l.map f) l := by
  induction l with
  | nil => exact .nil
  | cons a l ih => exact .cons (h a) ih

/-! ## One more logger -/

/-- The larger world has the smaller one as a part; the logger's fields satisfy `I`. -/
def With (I : τ → Prop) (w : World σ T) (v : World (σ × τ) T) : Prop :=
  v.user.1 = w.user ∧ I v.user.2 ∧ withoutLogs v.trace = withoutLogs w.trace

theorem withoutLogs_append (a b : List (Ev T)) : withoutLogs (a ++ b) = withoutLogs a ++ withoutLogs b :=
  List.filter_append ..

theorem with_rel (I : τ → Prop) : BesideRel (With (σ := σ) (T := T) I) where
  user _ _ h := h.1
  lift _ _ _ h := ⟨rfl, h.2⟩
  quiet w v e _ _ h := ⟨h.1, h.2.1, by rw [withoutLogs_append, withoutLogs_append, h.2.2]⟩

theorem With.log {I : τ → Prop} {w : World σ T} {v : World (σ × τ) T} (h : With I w v) (i j : Nat) (k : LogKind)
    (s : AlgState T) : With I ⟨w.user, w.trace ++ [.log i k s]⟩ ⟨v.user, v.trace ++ [.log j k s]⟩ :=
  ⟨h.1, h.2.1, by rw [withoutLogs_append, withoutLogs_append, h.2.2]; rfl⟩

/-- The callback as `callLoggers` runs it. -/
theorem callLoggers_cons {σ : Type} (k : LogKind) (s : AlgState T) (i : Nat) (l : Logger σ T) (ls : List (Logger σ T)) :
    callLoggers k s i (l :: ls) = (do
      World.lift (l.on k s)
      World.emit (.log i k s)
      callLoggers k s (i + 1) ls) := by
  cases k <;> rfl

theorem callLoggers_append {σ : Type} (k : LogKind) (s : AlgState T) : ∀ (ls ls' : List (Logger σ T)) (i : Nat),
    callLoggers k s i (ls ++ ls') = callLoggers k s i ls >>= fun _ => callLoggers k s (i + ls.length) ls' := by
  intro ls
  induction ls with
  | nil => intro ls' i; rfl
  | cons l ls ih =>
    intro ls' i
    rw [List.cons_append, callLoggers_cons, callLoggers_cons, M.bind_assoc']
    congr 1; funext _
    rw [M.bind_assoc']
    congr 1; funext _
    rw [ih, List.length_cons, show i + (ls.length + 1) = i + 1 + ls.length by omega]

theorem loggers_beside (I : τ → Prop) (k : LogKind) (s : AlgState T) : ∀ (ls : List (Logger σ T)) (i j : Nat),
    Sim (Mode.exact _) (With I) (With I) Eq (callLoggers k s i ls)
      (callLoggers k s j (ls.map (Logger.zoom (Lens.fst σ τ)))) := by
  intro ls
  induction ls with
  | nil => intro i j; exact .pure rfl
  | cons l ls ih =>
    intro i j
    rw [List.map_cons, callLoggers_cons, callLoggers_cons, Logger.zoom_on]
    refine (Sim.beside (with_rel I) (fun _ _ _ => trivial) _).seq fun _ => ?_
    refine Sim.seq (R' := With I) ⟨fun _ _ _ _ _ => trivial, fun w v _ e hr => (by cases hr), ?_⟩ fun _ => ih _ _
    intro w v h a w' hr _
    cases hr
    exact ⟨(), _, rfl, rfl, h.log i j k s⟩

/-- The callbacks of the new logger and of the old ones. -/
theorem loggers_attach {I I' : τ → Prop} (l : Logger τ T) (k : LogKind) (s : AlgState T)
    (hl : ∀ t, I t → ∃ t', l.on k s t = .ok ((), t') ∧ I' t') (ls : List (Logger σ T)) (i : Nat) :
    Sim (Mode.exact _) (With I) (With I') Eq (callLoggers k s 0 ls)
      (callLoggers k s 0 ((ls.map (Logger.zoom (Lens.fst σ τ))).take i ++ l.zoom (Lens.snd σ τ) ::
        (ls.map (Logger.zoom (Lens.fst σ τ))).drop i)) := by
  conv in callLoggers k s 0 ls => rw [← List.take_append_drop i ls]
  rw [callLoggers_append, callLoggers_append, ← List.map_take, ← List.map_drop]
  refine (loggers_beside I k s (ls.take i) 0 0).seq fun _ => ?_
  rw [callLoggers_cons, Logger.zoom_on]
  have h1 : Sim (Mode.exact (World σ T)) (With I) (With I') Eq (pure ()) (do
      World.lift ((Lens.snd σ τ).zoom (l.on k s))
      World.emit (.log (0 + ((ls.take i).map (Logger.zoom (Lens.fst σ τ))).length) k s) :
        M (World (σ × τ) T) Unit) := by
    refine ⟨fun _ _ _ _ _ => trivial, fun w v _ e hr => (by cases hr), ?_⟩
    intro w v h a w' hr _
    cases hr
    obtain ⟨t', h2, h3⟩ := hl _ h.2.1
    refine ⟨(), ⟨(v.user.1, t'), v.trace ++ [_]⟩, M.bind_eq_ok.2 ⟨(), ⟨(v.user.1, t'), v.trace⟩, ?_, rfl⟩, rfl,
      h.1, h3, ?_⟩
    · refine World.lift_eq_ok.2 ⟨?_, rfl⟩
      rw [zoom_snd_run, h2]
    · rw [withoutLogs_append, h.2.2]
      simp [withoutLogs]
  have := h1.seq fun _ => loggers_beside I' k s (ls.drop i) (0 + (ls.take i).length)
    (0 + ((ls.take i).map (Logger.zoom (Lens.fst σ τ))).length + 1)
  rw [M.bind_assoc'] at this
  exact this

theorem NeverFails.on {l : Logger τ T} {I0 I1 I2 I3 : τ → Prop} (h : NeverFails l I0 I1 I2 I3) (s : AlgState T) :
    (∀ t, I0 t → ∃ t', l.on .start s t = .ok ((), t') ∧ I1 t') ∧
    (∀ t, I1 t → ∃ t', l.on .resume s t = .ok ((), t') ∧ I2 t') ∧
    (∀ t, I2 t → ∃ t', l.on .next s t = .ok ((), t') ∧ I2 t') ∧
    (∀ t, I2 t → ∃ t', l.on .finish s t = .ok ((), t') ∧ I3 t') :=
  ⟨h.start s, h.resume s, h.next s, h.finish s⟩

/-! ## A counted goal -/

section count

open Stats

/-- The last counter. -/
def lastCount (c : CallCount) : Nat := c.getLast?.getD 0

theorem countUp_snoc (init : List Nat) (m n : Nat) : countUp (init ++ [m]) n = init ++ [m + n] := by
  cases n with
  | zero => simp [countUp]
  | succ n => simp [countUp]

theorem countUp_nil (n : Nat) : countUp [] (n + 1) = [n + 1] := rfl

theorem usizeAdd_lt (p : Profile) {a b : Nat} (h : a + b < usizeSize) : usizeAdd p a b = .ok (a + b) := by
  unfold usizeAdd; rw [if_pos h]

theorem increment_countUp (p : Profile) (c : CallCount) (n : Nat) (h : lastCount c + (n + 1) < usizeSize) :
    CallCount.increment p (countUp c n) = .ok (countUp c (n + 1)) := by
  unfold CallCount.increment
  rcases List.eq_nil_or_concat c with rfl | ⟨init, m, rfl⟩
  · have h' : n + 1 < usizeSize := by
      have : lastCount [] = 0 := rfl
      omega
    cases n with
    | zero =>
      show CallCount.addLast p [] 1 = _
      rw [Props.addLast_nil, Props.addLast_snoc, usizeAdd_lt _ (by omega)]
      rfl
    | succ n =>
      show CallCount.addLast p ([] ++ [n + 1]) 1 = _
      rw [Props.addLast_snoc, usizeAdd_lt _ h']
      rfl
  · rw [List.concat_eq_append] at h ⊢
    have h1 : lastCount (init ++ [m]) = m := by simp [lastCount]
    rw [countUp_snoc, countUp_snoc, Props.addLast_snoc, usizeAdd_lt _ (by omega)]
    rfl

/-- The larger world has the smaller one as a part and the same trace; the counters have gone up from `c` by the goal calls
since there were `n0` in the trace. -/
def Counted (c : CallCount) (n0 : Nat) (w : World σ T) (v : World (σ × CallCount) T) : Prop :=
  v.user.1 = w.user ∧ v.trace = w.trace ∧ ∃ n, (goalArgs w.trace).length = n0 + n ∧ v.user.2 = countUp c n

theorem goalArgs_snoc (tr : List (Ev T)) {e : Ev T} (h : ∀ x y, e ≠ .goal x y) :
    goalArgs (tr ++ [e]) = goalArgs tr := by
  unfold goalArgs
  rw [List.filterMap_append]
  cases e with
  | goal x y => exact absurd rfl (h x y)
  | _ => simp

theorem goalArgs_snoc_goal (tr : List (Ev T)) (x : T) (y : F64) : goalArgs (tr ++ [.goal x y]) = goalArgs tr ++ [x] := by
  unfold goalArgs
  rw [List.filterMap_append]
  rfl

theorem counted_rel (c : CallCount) (n0 : Nat) : BesideRel (Counted (σ := σ) (T := T) c n0) where
  user _ _ h := h.1
  lift _ _ _ h := ⟨rfl, h.2⟩
  quiet w v e he _ h := by
    refine ⟨h.1, by rw [h.2.1], ?_⟩
    simp only
    rw [goalArgs_snoc _ he]
    exact h.2.2

/-- As long as the last counter fits into 64 bits. -/
def Mode.count (c : CallCount) (n0 : Nat) : Mode (World σ T) :=
  ⟨False, fun w => lastCount c + (goalArgs w.trace).length < usizeSize + n0, fun h => h.elim⟩

theorem count_lift (c : CallCount) (n0 : Nat) (w : World σ T) (s : σ) (h : (Mode.count c n0).P ⟨s, w.trace⟩) :
    (Mode.count c n0).P w := h

theorem count_emit (c : CallCount) (n0 : Nat) (w : World σ T) (e : Ev T)
    (h : (Mode.count c n0).P ⟨w.user, w.trace ++ [e]⟩) : (Mode.count (σ := σ) c n0).P w := by
  have h1 : (goalArgs w.trace).length ≤ (goalArgs (w.trace ++ [e])).length := by
    unfold goalArgs
    rw [List.filterMap_append, List.length_append]
    omega
  have h2 : lastCount c + (goalArgs (w.trace ++ [e])).length < usizeSize + n0 := h
  show lastCount c + (goalArgs w.trace).length < usizeSize + n0
  omega

theorem goalCalc_ok {p : Profile} {g : T → M (σ × CallCount) F64} {x : T} {s s' : σ × CallCount} {v : F64} :
    goalCalc p (Lens.snd σ CallCount) g x s = .ok (v, s') ↔
      ∃ c', CallCount.increment p s.2 = .ok c' ∧ g x (s.1, c') = .ok (v, s') := by
  unfold goalCalc
  rw [M.bind_eq_ok]
  constructor
  · rintro ⟨u, s1, h1, h2⟩
    rw [zoom_snd_run] at h1
    cases h3 : CallCount.increment p s.2 with
    | error e => simp [M.bind_run, h3, M.ofExcept, get, getThe, MonadStateOf.get, StateT.get, pure, Except.pure] at h1
    | ok c' =>
      refine ⟨c', rfl, ?_⟩
      have : s1 = (s.1, c') := by
        simp [M.bind_run, h3, M.ofExcept, get, getThe, MonadStateOf.get, StateT.get, pure, Except.pure, set,
          MonadStateOf.set, StateT.set] at h1
        exact h1.symm
      rw [← this]; exact h2
  · rintro ⟨c', h1, h2⟩
    refine ⟨(), (s.1, c'), ?_, h2⟩
    rw [zoom_snd_run]
    simp [M.bind_run, h1, M.ofExcept, get, getThe, MonadStateOf.get, StateT.get, pure, Except.pure, set,
          MonadStateOf.set, StateT.set]

theorem recorded_ok {σ : Type} {m : M σ β} {e : β → Ev T} {w w' : World σ T} {a : β} :
    recorded m e w = .ok (a, w') ↔ ∃ s', m w.user = .ok (a, s') ∧ w' = ⟨s', w.trace ++ [e a]⟩ := by
  unfold recorded
  constructor
  · intro h
    obtain ⟨b, w1, h1, h⟩ := M.bind_eq_ok.1 h
    obtain ⟨u, w2, h2, h⟩ := M.bind_eq_ok.1 h
    obtain ⟨rfl, rfl⟩ := M.pure_eq_ok.1 h
    obtain ⟨h3, h4⟩ := World.lift_eq_ok.1 h1
    obtain ⟨h5, h6⟩ := World.emit_eq_ok.1 h2
    refine ⟨w1.user, h3, ?_⟩
    cases w2
    simp only at h5 h6
    rw [h5, h6, h4]
  · rintro ⟨s', h1, rfl⟩
    refine M.bind_eq_ok.2 ⟨a, ⟨s', w.trace⟩, World.lift_eq_ok.2 ⟨h1, rfl⟩, ?_⟩
    exact M.bind_eq_ok.2 ⟨(), _, rfl, rfl⟩

theorem goal_counted (p : Profile) (c : CallCount) (n0 : Nat) (g : T → M σ F64) (x : T) :
    Sim (Mode.count c n0) (Counted c n0) (Counted c n0) Eq (recorded (g x) (Ev.goal x))
      (recorded (goalCalc p (Lens.snd σ CallCount) (fun x => (Lens.fst σ CallCount).zoom (g x)) x) (Ev.goal x)) where
  back w a w' hr hP := by
    obtain ⟨s', -, rfl⟩ := recorded_ok.1 hr
    exact count_emit c n0 w _ hP
  err w v _ e _ h := h.elim
  ok w v h a w' hr hP := by
    obtain ⟨s', h1, rfl⟩ := recorded_ok.1 hr
    obtain ⟨hu, ht, n, hn, hc⟩ := h
    have hP' : lastCount c + (goalArgs (w.trace ++ [Ev.goal x a])).length < usizeSize + n0 := hP
    rw [goalArgs_snoc_goal, List.length_append, hn, List.length_singleton] at hP'
    refine ⟨a, ⟨(s', countUp c (n + 1)), v.trace ++ [.goal x a]⟩, recorded_ok.2 ⟨_, ?_, rfl⟩, rfl, rfl, by rw [ht],
      n + 1, ?_, rfl⟩
    · refine goalCalc_ok.2 ⟨countUp c (n + 1), by rw [hc]; exact increment_countUp p c n (by omega), ?_⟩
      rw [zoom_fst_run]
      simp only
      rw [hu, h1]
    · simp only
      rw [goalArgs_snoc_goal, List.length_append, hn]
      rfl

/-- The larger world has the smaller one as a part and the same trace. -/
def Sees (w : World σ T) (v : World (σ × τ) T) : Prop := v.user.1 = w.user ∧ v.trace = w.trace

theorem sees_rel : BesideRel (Sees (σ := σ) (τ := τ) (T := T)) where
  user _ _ h := h.1
  lift _ _ _ h := ⟨rfl, h.2⟩
  quiet w v e he _ h := ⟨h.1, by rw [h.2]⟩

theorem goal_counted_rev (p : Profile) (g : T → M σ F64) (x : T) :
    Sim (Mode.returns _) (fun v w => Sees w v) (fun v w => Sees w v) Eq
      (recorded (goalCalc p (Lens.snd σ CallCount) (fun x => (Lens.fst σ CallCount).zoom (g x)) x) (Ev.goal x))
      (recorded (g x) (Ev.goal x)) where
  back _ _ _ _ _ := trivial
  err w v _ e _ h := h.elim
  ok v w h a v' hr _ := by
    obtain ⟨s', h1, rfl⟩ := recorded_ok.1 hr
    obtain ⟨c', -, h2⟩ := goalCalc_ok.1 h1
    rw [zoom_fst_run] at h2
    simp only at h2
    rw [h.1] at h2
    cases h3 : g x w.user with
    | error e => rw [h3] at h2; cases h2
    | ok q =>
      obtain ⟨b, t⟩ := q
      rw [h3] at h2
      cases h2
      exact ⟨a, ⟨t, w.trace ++ [.goal x a]⟩, recorded_ok.2 ⟨t, h3, rfl⟩, rfl, rfl, by rw [h.2]⟩

theorem loggers_counted {D : Mode (World σ T)} {R : World σ T → World (σ × τ) T → Prop} (hR : BesideRel R)
    (hlog : ∀ w v i k s, R w v → R ⟨w.user, w.trace ++ [.log i k s]⟩ ⟨v.user, v.trace ++ [.log i k s]⟩)
    (hD : ∀ w s, D.P ⟨s, w.trace⟩ → D.P w) (hD' : ∀ (w : World σ T) e, D.P ⟨w.user, w.trace ++ [e]⟩ → D.P w)
    (k : LogKind) (s : AlgState T) : ∀ (ls : List (Logger σ T)) (i : Nat),
    Sim D R R Eq (callLoggers k s i ls) (callLoggers k s i (ls.map (Logger.zoom (Lens.fst σ τ)))) := by
  intro ls
  induction ls with
  | nil => intro i; exact .pure rfl
  | cons l ls ih =>
    intro i
    rw [List.map_cons, callLoggers_cons, callLoggers_cons, Logger.zoom_on]
    exact (Sim.beside hR hD _).seq fun _ => (Sim.quiet (fun w => hD' w _) fun w v h => hlog w v i k s h).seq fun _ => ih _

theorem loggers_counted_rev {D : Mode (World (σ × τ) T)} {R : World σ T → World (σ × τ) T → Prop} (hR : BesideRel R)
    (hlog : ∀ w v i k s, R w v → R ⟨w.user, w.trace ++ [.log i k s]⟩ ⟨v.user, v.trace ++ [.log i k s]⟩)
    (hD : ∀ w s, D.P ⟨s, w.trace⟩ → D.P w) (hD' : ∀ (w : World (σ × τ) T) e, D.P ⟨w.user, w.trace ++ [e]⟩ → D.P w)
    (k : LogKind) (s : AlgState T) : ∀ (ls : List (Logger σ T)) (i : Nat),
    Sim D (fun v w => R w v) (fun v w => R w v) Eq (callLoggers k s i (ls.map (Logger.zoom (Lens.fst σ τ))))
      (callLoggers k s i ls) := by
  intro ls
  induction ls with
  | nil => intro i; exact .pure rfl
  | cons l ls ih =>
    intro i
    rw [List.map_cons, callLoggers_cons, callLoggers_cons, Logger.zoom_on]
    exact (Sim.beside_rev hR hD _).seq fun _ => (Sim.quiet (fun w => hD' w _) fun w v h => hlog v w i k s h).seq
      fun _ => ih _

theorem counted_log (c : CallCount) (n0 : Nat) (w : World σ T) (v : World (σ × CallCount) T) (i : Nat) (k : LogKind)
    (s : AlgState T) (h : Counted c n0 w v) :
    Counted c n0 ⟨w.user, w.trace ++ [.log i k s]⟩ ⟨v.user, v.trace ++ [.log i k s]⟩ := by
  refine ⟨h.1, by rw [h.2.1], ?_⟩
  simp only
  rw [goalArgs_snoc _ (fun _ _ h => by cases h)]
  exact h.2.2

end count

namespace GA

theorem beside_csim {D : Mode (World σ T)} {R : World σ T → World (σ × τ) T → Prop} (hR : BesideRel R)
    (hD : ∀ w s, D.P ⟨s, w.trace⟩ → D.P w) (hD' : ∀ (w : World σ T) e, D.P ⟨w.user, w.trace ++ [e]⟩ → D.P w)
    (c : Comps σ T) (g : T → M (σ × τ) F64) (ls : List (Logger (σ × τ) T))
    (hg : ∀ x, Sim D R R Eq (recorded (c.goal x) (Ev.goal x)) (recorded (g x) (Ev.goal x))) :
    CSim D R c { c.beside τ with goal := g, loggers := ls } where
  quiet e he := Sim.quiet (fun w => hD' w e) fun w v h => hR.quiet w v e (by rintro x y rfl; exact he)
    (by rintro i k s rfl; exact he) h
  goal := hg
  stop s := Sim.recorded (fun b => Sim.quiet (fun w => hD' w _) fun w v h => hR.quiet w v _
    (by rintro x y h; cases h) (by rintro i k s h; cases h) h) (Sim.beside hR hD _)
  creator := Sim.beside hR hD _
  pairing _ := Sim.beside hR hD _
  cross _ := Sim.beside hR hD _
  mutation _ := Sim.beside hR hD _
  selections := forall₂_map (fun _ _ => Sim.beside hR hD _) _
  preBirths := forall₂_map (fun _ _ _ => Sim.beside hR hD _) _

theorem beside_csim_rev {D : Mode (World (σ × τ) T)} {R : World σ T → World (σ × τ) T → Prop} (hR : BesideRel R)
    (hD : ∀ w s, D.P ⟨s, w.trace⟩ → D.P w) (hD' : ∀ (w : World (σ × τ) T) e, D.P ⟨w.user, w.trace ++ [e]⟩ → D.P w)
    (c : Comps σ T) (g : T → M (σ × τ) F64) (ls : List (Logger (σ × τ) T))
    (hg : ∀ x, Sim D (fun v w => R w v) (fun v w => R w v) Eq (recorded (g x) (Ev.goal x))
      (recorded (c.goal x) (Ev.goal x))) :
    CSim D (fun v w => R w v) { c.beside τ with goal := g, loggers := ls } c where
  quiet e he := Sim.quiet (fun w => hD' w e) fun w v h => hR.quiet v w e (by rintro x y rfl; exact he)
    (by rintro i k s rfl; exact he) h
  goal := hg
  stop s := Sim.recorded (fun b => Sim.quiet (fun w => hD' w _) fun w v h => hR.quiet v w _
    (by rintro x y h; cases h) (by rintro i k s h; cases h) h) (Sim.beside_rev hR hD _)
  creator := Sim.beside_rev hR hD _
  pairing _ := Sim.beside_rev hR hD _
  cross _ := Sim.beside_rev hR hD _
  mutation _ := Sim.beside_rev hR hD _
  selections := forall₂_map_rev (fun _ _ => Sim.beside_rev hR hD _) _
  preBirths := forall₂_map_rev (fun _ _ _ => Sim.beside_rev hR hD _) _

theorem attach_csim (I : τ → Prop) (o : Opt σ T) (i : Nat) (l : Logger τ T) :
    CSim (Mode.exact _) (With I) o.comps (o.attach i l).comps :=
  beside_csim (with_rel I) (fun _ _ _ => trivial) (fun _ _ _ => trivial) o.comps _ _ fun x =>
    Sim.recorded (fun _ => ⟨fun _ _ _ _ _ => trivial, fun w v _ e hr => (by cases hr), fun w v h a w' hr _ =>
      (by cases hr; exact ⟨(), _, rfl, rfl, h.1, h.2.1, by rw [withoutLogs_append, withoutLogs_append, h.2.2]⟩)⟩)
      (Sim.beside (with_rel I) (fun _ _ _ => trivial) _)

section
variable {l : Logger τ T} {I0 I1 I2 I3 : τ → Prop}

theorem attach_nextIterations (h : NeverFails l I0 I1 I2 I3) (o : Opt σ T) (i fuel : Nat) (p : Population T) :
    Sim (Mode.exact _) (With I1) (With I3) (CSim.SameRun o.comps (o.attach i l).comps)
      (nextIterations fuel ⟨o.comps, p⟩) (nextIterations fuel ⟨(o.attach i l).comps, p⟩) :=
  (attach_csim I2 o i l).nextIterations (fun s => loggers_attach l .resume s (h.on s).2.1 _ i)
    (fun s => loggers_attach l .next s (h.on s).2.2.1 _ i) (fun s => loggers_attach l .finish s (h.on s).2.2.2 _ i) fuel p

theorem attach_findMin (h : NeverFails l I0 I1 I2 I3) (o : Opt σ T) (i fuel : Nat) (p : Population T) :
    Sim (Mode.exact _) (With I0) (With I3) (CSim.SameRun o.comps (o.attach i l).comps)
      (findMin fuel ⟨o.comps, p⟩) (findMin fuel ⟨(o.attach i l).comps, p⟩) :=
  CSim.findMin (attach_csim I0 o i l) (attach_csim I2 o i l) (fun s => loggers_attach l .start s (h.on s).1 _ i)
    (fun s => loggers_attach l .resume s (h.on s).2.1 _ i)
    (fun s => loggers_attach l .next s (h.on s).2.2.1 _ i) (fun s => loggers_attach l .finish s (h.on s).2.2.2 _ i)
    fuel p p

theorem attach_run (h : NeverFails l I0 I1 I2 I3) (o : Opt σ T) (i fuel : Nat) (ks : List RunCall) (p : Population T) :
    Sim (Mode.exact _) (With I0) (With I3) (SameHistory o.comps (o.attach i l).comps)
      (run ⟨o.comps, p⟩ (.findMin fuel :: ks.map runCall))
      (run ⟨(o.attach i l).comps, p⟩ (.findMin fuel :: ks.map runCall)) :=
  run_first_sim (attach_findMin h o i)
    (fun fuel p => (attach_findMin h o i fuel p).mono (fun _ _ hw => ⟨hw.1, (h.again _ hw.2.1).1, hw.2.2⟩)
      (fun _ _ h => h) (fun _ _ h => h))
    (fun fuel p => (attach_nextIterations h o i fuel p).mono (fun _ _ hw => ⟨hw.1, (h.again _ hw.2.1).2, hw.2.2⟩)
      (fun _ _ h => h) (fun _ _ h => h)) fuel ks p

end

section

open Stats

theorem counted_run (o : Opt σ T) (p : Profile) (c : CallCount) (n0 : Nat) (ks : List RunCall) (pop : Population T) :
    Sim (Mode.count c n0) (Counted c n0) (Counted c n0) (SameHistory o.comps (o.counted p).comps)
      (run ⟨o.comps, pop⟩ (ks.map runCall)) (run ⟨(o.counted p).comps, pop⟩ (ks.map runCall)) := by
  have hc : CSim (Mode.count c n0) (Counted c n0) o.comps (o.counted p).comps :=
    beside_csim (counted_rel c n0) (count_lift c n0) (count_emit c n0) o.comps _ _ (goal_counted p c n0 o.comps.goal)
  have hl : ∀ k, LSim (Mode.count c n0) (Counted c n0) (Counted c n0) k o.comps (o.counted p).comps := fun k s =>
    loggers_counted (counted_rel c n0) (counted_log c n0) (count_lift c n0) (count_emit c n0) k s _ _
  exact run_sim (fun fuel q => CSim.findMin hc hc (hl _) (hl _) (hl _) (hl _) fuel q q)
    (fun fuel q => hc.nextIterations (hl _) (hl _) (hl _) fuel q) ks pop

theorem counted_run_rev (o : Opt σ T) (p : Profile) (ks : List RunCall) (pop : Population T) :
    Sim (Mode.returns _) (fun v w => Sees w v) (fun v w => Sees w v) (SameHistory (o.counted p).comps o.comps)
      (run ⟨(o.counted p).comps, pop⟩ (ks.map runCall)) (run ⟨o.comps, pop⟩ (ks.map runCall)) := by
  have hc : CSim (Mode.returns _) (fun v w => Sees w v) (o.counted p).comps o.comps :=
    beside_csim_rev sees_rel (fun _ _ _ => trivial) (fun _ _ _ => trivial) o.comps _ _ (goal_counted_rev p o.comps.goal)
  have hl : ∀ k, LSim (Mode.returns _) (fun v w => Sees w v) (fun v w => Sees w v) k (o.counted p).comps o.comps :=
    fun k s => loggers_counted_rev sees_rel (fun w v i k s h => ⟨h.1, by rw [h.2]⟩) (fun _ _ _ => trivial)
      (fun _ _ _ => trivial) k s _ _
  exact run_sim (fun fuel q => CSim.findMin hc hc (hl _) (hl _) (hl _) (hl _) fuel q q)
    (fun fuel q => hc.nextIterations (hl _) (hl _) (hl _) fuel q) ks pop

end
end GA

namespace PSO

variable [FloatT α]

theorem beside_csim {D : Mode (World σ (List α))} {R : World σ (List α) → World (σ × τ) (List α) → Prop} (hR : BesideRel R)
    (hD : ∀ w s, D.P ⟨s, w.trace⟩ → D.P w) (hD' : ∀ (w : World σ (List α)) e, D.P ⟨w.user, w.trace ++ [e]⟩ → D.P w)
    (c : Comps σ α) (g : List α → M (σ × τ) F64) (ls : List (Logger (σ × τ) (List α)))
    (hg : ∀ x, Sim D R R Eq (recorded (c.goal x) (Ev.goal x)) (recorded (g x) (Ev.goal x))) :
    CSim D R c { c.beside τ with goal := g, loggers := ls } where
  quiet e he := Sim.quiet (fun w => hD' w e) fun w v h => hR.quiet w v e (by rintro x y rfl; exact he)
    (by rintro i k s rfl; exact he) h
  goal := hg
  stop s := Sim.recorded (fun b => Sim.quiet (fun w => hD' w _) fun w v h => hR.quiet w v _
    (by rintro x y h; cases h) (by rintro i k s h; cases h) h) (Sim.beside hR hD _)
  coordInit := Sim.beside hR hD _
  velInit := Sim.beside hR hD _
  velCalc _ _ := Sim.beside hR hD _
  postVel := forall₂_map (fun _ _ => Sim.beside hR hD _) _
  postMove := forall₂_map (fun _ _ => Sim.beside hR hD _) _

theorem beside_csim_rev {D : Mode (World (σ × τ) (List α))} {R : World σ (List α) → World (σ × τ) (List α) → Prop} (hR : BesideRel R)
    (hD : ∀ w s, D.P ⟨s, w.trace⟩ → D.P w) (hD' : ∀ (w : World (σ × τ) (List α)) e, D.P ⟨w.user, w.trace ++ [e]⟩ → D.P w)
    (c : Comps σ α) (g : List α → M (σ × τ) F64) (ls : List (Logger (σ × τ) (List α)))
    (hg : ∀ x, Sim D (fun v w => R w v) (fun v w => R w v) Eq (recorded (g x) (Ev.goal x))
      (recorded (c.goal x) (Ev.goal x))) :
    CSim D (fun v w => R w v) { c.beside τ with goal := g, loggers := ls } c where
  quiet e he := Sim.quiet (fun w => hD' w e) fun w v h => hR.quiet v w e (by rintro x y rfl; exact he)
    (by rintro i k s rfl; exact he) h
  goal := hg
  stop s := Sim.recorded (fun b => Sim.quiet (fun w => hD' w _) fun w v h => hR.quiet v w _
    (by rintro x y h; cases h) (by rintro i k s h; cases h) h) (Sim.beside_rev hR hD _)
  coordInit := Sim.beside_rev hR hD _
  velInit := Sim.beside_rev hR hD _
  velCalc _ _ := Sim.beside_rev hR hD _
  postVel := forall₂_map_rev (fun _ _ => Sim.beside_rev hR hD _) _
  postMove := forall₂_map_rev (fun _ _ => Sim.beside_rev hR hD _) _

theorem attach_csim (I : τ → Prop) (o : Opt σ α) (i : Nat) (l : Logger τ (List α)) :
    CSim (Mode.exact _) (With I) o.comps (o.attach i l).comps :=
  beside_csim (with_rel I) (fun _ _ _ => trivial) (fun _ _ _ => trivial) o.comps _ _ fun x =>
    Sim.recorded (fun _ => ⟨fun _ _ _ _ _ => trivial, fun w v _ e hr => (by cases hr), fun w v h a w' hr _ =>
      (by cases hr; exact ⟨(), _, rfl, rfl, h.1, h.2.1, by rw [withoutLogs_append, withoutLogs_append, h.2.2]⟩)⟩)
      (Sim.beside (with_rel I) (fun _ _ _ => trivial) _)

section
variable {l : Logger τ (List α)} {I0 I1 I2 I3 : τ → Prop}

theorem attach_nextIterations (h : NeverFails l I0 I1 I2 I3) (o : Opt σ α) (i fuel : Nat) (p : Swarm α) :
    Sim (Mode.exact _) (With I1) (With I3) (CSim.SameRun o.comps (o.attach i l).comps)
      (nextIterations fuel ⟨o.comps, p⟩) (nextIterations fuel ⟨(o.attach i l).comps, p⟩) :=
  (attach_csim I2 o i l).nextIterations (fun s => loggers_attach l .resume s (h.on s).2.1 _ i)
    (fun s => loggers_attach l .next s (h.on s).2.2.1 _ i) (fun s => loggers_attach l .finish s (h.on s).2.2.2 _ i) fuel p

theorem attach_findMin (h : NeverFails l I0 I1 I2 I3) (o : Opt σ α) (i fuel : Nat) (p : Swarm α) :
    Sim (Mode.exact _) (With I0) (With I3) (CSim.SameRun o.comps (o.attach i l).comps)
      (findMin fuel ⟨o.comps, p⟩) (findMin fuel ⟨(o.attach i l).comps, p⟩) :=
  CSim.findMin (attach_csim I0 o i l) (attach_csim I2 o i l) (fun s => loggers_attach l .start s (h.on s).1 _ i)
    (fun s => loggers_attach l .resume s (h.on s).2.1 _ i)
    (fun s => loggers_attach l .next s (h.on s).2.2.1 _ i) (fun s => loggers_attach l .finish s (h.on s).2.2.2 _ i)
    fuel p

theorem attach_run (h : NeverFails l I0 I1 I2 I3) (o : Opt σ α) (i fuel : Nat) (ks : List RunCall) (p : Swarm α) :
    Sim (Mode.exact _) (With I0) (With I3) (SameHistory o.comps (o.attach i l).comps)
      (run ⟨o.comps, p⟩ (.findMin fuel :: ks.map runCall))
      (run ⟨(o.attach i l).comps, p⟩ (.findMin fuel :: ks.map runCall)) :=
  run_first_sim (attach_findMin h o i)
    (fun fuel p => (attach_findMin h o i fuel p).mono (fun _ _ hw => ⟨hw.1, (h.again _ hw.2.1).1, hw.2.2⟩)
      (fun _ _ h => h) (fun _ _ h => h))
    (fun fuel p => (attach_nextIterations h o i fuel p).mono (fun _ _ hw => ⟨hw.1, (h.again _ hw.2.1).2, hw.2.2⟩)
      (fun _ _ h => h) (fun _ _ h => h)) fuel ks p

end

section

open Stats

theorem counted_run (o : Opt σ α) (p : Profile) (c : CallCount) (n0 : Nat) (ks : List RunCall) (pop : Swarm α) :
    Sim (Mode.count c n0) (Counted c n0) (Counted c n0) (SameHistory o.comps (o.counted p).comps)
      (run ⟨o.comps, pop⟩ (ks.map runCall)) (run ⟨(o.counted p).comps, pop⟩ (ks.map runCall)) := by
  have hc : CSim (Mode.count c n0) (Counted c n0) o.comps (o.counted p).comps :=
    beside_csim (counted_rel c n0) (count_lift c n0) (count_emit c n0) o.comps _ _ (goal_counted p c n0 o.comps.goal)
  have hl : ∀ k, LSim (Mode.count c n0) (Counted c n0) (Counted c n0) k o.comps (o.counted p).comps := fun k s =>
    loggers_counted (counted_rel c n0) (counted_log c n0) (count_lift c n0) (count_emit c n0) k s _ _
  exact run_sim (fun fuel q => CSim.findMin hc hc (hl _) (hl _) (hl _) (hl _) fuel q)
    (fun fuel q => hc.nextIterations (hl _) (hl _) (hl _) fuel q) ks pop

theorem counted_run_rev (o : Opt σ α) (p : Profile) (ks : List RunCall) (pop : Swarm α) :
    Sim (Mode.returns _) (fun v w => Sees w v) (fun v w => Sees w v) (SameHistory (o.counted p).comps o.comps)
      (run ⟨(o.counted p).comps, pop⟩ (ks.map runCall)) (run ⟨o.comps, pop⟩ (ks.map runCall)) := by
  have hc : CSim (Mode.returns _) (fun v w => Sees w v) (o.counted p).comps o.comps :=
    beside_csim_rev sees_rel (fun _ _ _ => trivial) (fun _ _ _ => trivial) o.comps _ _ (goal_counted_rev p o.comps.goal)
  have hl : ∀ k, LSim (Mode.returns _) (fun v w => Sees w v) (fun v w => Sees w v) k (o.counted p).comps o.comps :=
    fun k s => loggers_counted_rev sees_rel (fun w v i k s h => ⟨h.1, by rw [h.2]⟩) (fun _ _ _ => trivial)
      (fun _ _ _ => trivial) k s _ _
  exact run_sim (fun fuel q => CSim.findMin hc hc (hl _) (hl _) (hl _) (hl _) fuel q)
    (fun fuel q => hc.nextIterations (hl _) (hl _) (hl _) fuel q) ks pop

end
end PSO
end Verif
