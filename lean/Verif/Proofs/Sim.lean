import Verif.Spec.Attach
import Verif.Proofs.Private

/-!
# Simulation between two optimizers that differ in a component
-/

set_option linter.unusedSectionVars false

namespace Verif

open Spec

/-- How closely the second computation has to follow the first one: `P` is a condition on the end of the first
one under which the second one has to return as well; if `errors` holds, it has to fail whenever the first one fails. -/
structure Mode (W : Type) where
  errors : Prop
  P : W → Prop
  total : errors → ∀ w, P w

/-- Both ways, including errors. -/
def Mode.exact (W : Type) : Mode W := ⟨True, fun _ => True, fun _ _ => trivial⟩

/-- If the first one returns then the second one returns. -/
def Mode.returns (W : Type) : Mode W := ⟨False, fun _ => True, fun _ _ => trivial⟩

section

variable {W V α β γ δ : Type}

/-- `m2` follows `m1`: started in related worlds, ends in related worlds with related values. -/
structure Sim (D : Mode W) (R R' : W → V → Prop) (Q : α → β → Prop) (m1 : M W α) (m2 : M V β) : Prop where
  back : ∀ w a w', m1 w = .ok (a, w') → D.P w' → D.P w
  err : ∀ w v, R w v → ∀ e, m1 w = .error e → D.errors → m2 v = .error e
  ok : ∀ w v, R w v → ∀ a w', m1 w = .ok (a, w') → D.P w' → ∃ b v', m2 v = .ok (b, v') ∧ Q a b ∧ R' w' v'

variable {D : Mode W} {R R' R'' : W → V → Prop}

namespace Sim

theorem pure {Q : α → β → Prop} {a : α} {b : β} (h : Q a b) : Sim D R R Q (pure a) (pure b) where
  back := by intro w a' w' hr hP; cases hr; exact hP
  err := by intro w v _ e he; cases he
  ok := by intro w v hR a' w' hr hP; cases hr; exact ⟨b, v, rfl, h, hR⟩

theorem fail {Q : α → β → Prop} (e : Err) : Sim D R R Q (M.fail e) (M.fail e) where
  back := by intro w a' w' hr; cases hr
  err := by intro w v _ e' he _; cases he; rfl
  ok := by intro w v _ a' w' hr; cases hr

theorem bind {Q : α → β → Prop} {Q' : γ → δ → Prop} {m1 : M W α} {m2 : M V β} {f : α → M W γ} {g : β → M V δ}
    (hm : Sim D R R' Q m1 m2)
    (hb : ∀ w a w', m1 w = .ok (a, w') → ∀ c w'', f a w' = .ok (c, w'') → D.P w'' → D.P w')
    (hf : ∀ a b, Q a b → Sim D R' R'' Q' (f a) (g b)) :
    Sim D R R'' Q' (m1 >>= f) (m2 >>= g) where
  back := by
    intro w c w'' hr hP
    obtain ⟨a, w', h1, h2⟩ := M.bind_eq_ok.1 hr
    exact hm.back w a w' h1 (hb w a w' h1 c w'' h2 hP)
  err := by
    intro w v hR e hr hE
    rcases M.bind_eq_error.1 hr with h | ⟨a, w', h1, h2⟩
    · exact M.bind_eq_error.2 (.inl (hm.err w v hR e h hE))
    · obtain ⟨b, v', h3, hQ, hR'⟩ := hm.ok w v hR a w' h1 (D.total hE _)
      exact M.bind_eq_error.2 (.inr ⟨b, v', h3, (hf a b hQ).err w' v' hR' e h2 hE⟩)
  ok := by
    intro w v hR c w'' hr hP
    obtain ⟨a, w', h1, h2⟩ := M.bind_eq_ok.1 hr
    obtain ⟨b, v', h3, hQ, hR'⟩ := hm.ok w v hR a w' h1 (hb w a w' h1 c w'' h2 hP)
    obtain ⟨d, v'', h4, hQ', hR''⟩ := (hf a b hQ).ok w' v' hR' c w'' h2 hP
    exact ⟨d, v'', M.bind_eq_ok.2 ⟨b, v', h3, h4⟩, hQ', hR''⟩

/-- Sequencing with the same value on both sides. -/
theorem seq {Q' : γ → δ → Prop} {m1 : M W α} {m2 : M V α} {f : α → M W γ} {g : α → M V δ}
    (hm : Sim D R R' Eq m1 m2) (hf : ∀ a, Sim D R' R'' Q' (f a) (g a)) : Sim D R R'' Q' (m1 >>= f) (m2 >>= g) :=
  hm.bind (fun _ a w' _ => (hf a).back w') fun a _ h => h ▸ hf a

/-- Computations that only look at their arguments. -/
theorem of_const {m1 : M W α} {m2 : M V α} (h : ∃ x : Except Err α, m1 = M.ofExcept x ∧ m2 = M.ofExcept x) :
    Sim D R R Eq m1 m2 := by
  obtain ⟨x, rfl, rfl⟩ := h
  cases x with
  | error e =>
    constructor
    · intro w a w' hr; cases hr
    · intro w v _ e' he _; cases he; rfl
    · intro w v _ a w' hr; cases hr
  | ok a =>
    constructor
    · intro w a w' hr hP; cases hr; exact hP
    · intro w v _ e' he; cases he
    · intro w v hR a w' hr _
      cases hr
      exact ⟨_, v, rfl, rfl, hR⟩

theorem mapL {f : γ → M W α} {g : γ → M V α} (h : ∀ c, Sim D R R Eq (f c) (g c)) :
    ∀ cs, Sim D R R Eq (M.mapL f cs) (M.mapL g cs) := by
  intro cs
  induction cs with
  | nil => exact .pure rfl
  | cons c cs ih => exact (h c).seq fun _ => ih.seq fun _ => .pure rfl

theorem foldL {f : α → γ → M W α} {g : α → γ → M V α} (h : ∀ a c, Sim D R R Eq (f a c) (g a c)) :
    ∀ cs a, Sim D R R Eq (M.foldL f a cs) (M.foldL g a cs) := by
  intro cs
  induction cs with
  | nil => intro a; exact .pure rfl
  | cons c cs ih => intro a; exact (h a c).seq fun _ => ih _

/-- Hooks: two lists of functions that are related one by one. -/
theorem foldL₂ {β1 β2 : Type} {f : α → β1 → M W α} {g : α → β2 → M V α} {xs : List β1} {ys : List β2}
    (h : List.Forall₂ (fun x y => ∀ a, Sim D R R Eq (f a x) (g a y)) xs ys) :
    ∀ a, Sim D R R Eq (M.foldL f a xs) (M.foldL g a ys) := by
  induction h with
  | nil => intro a; exact .pure rfl
  | cons h1 _ ih => intro a; exact (h1 a).seq fun _ => ih _

theorem index (l : List α) (i : Nat) : Sim D R R Eq (M.index l i) (M.index l i) := by
  refine of_const ⟨match l[i]? with
    | some a => .ok a
    | none => .error .index, ?_, ?_⟩ <;>
  · unfold M.index; cases l[i]? <;> rfl

theorem assert (b : Bool) : Sim D R R Eq (M.assert b) (M.assert b) := by
  refine of_const ⟨if b then .ok () else .error .assert, ?_, ?_⟩ <;> cases b <;> rfl

theorem unwrap (o : Option α) : Sim D R R Eq (M.unwrap o) (M.unwrap o) := by
  refine of_const ⟨match o with
    | some a => .ok a
    | none => .error .unwrap, ?_, ?_⟩ <;> cases o <;> rfl

/-- Weaker ends. -/
theorem mono {Q Q' : α → β → Prop} {m1 : M W α} {m2 : M V β} {R0 R3 : W → V → Prop} (h : Sim D R R' Q m1 m2)
    (h0 : ∀ w v, R0 w v → R w v) (h1 : ∀ w v, R' w v → R3 w v) (h2 : ∀ a b, Q a b → Q' a b) :
    Sim D R0 R3 Q' m1 m2 where
  back := h.back
  err w v hR := h.err w v (h0 w v hR)
  ok w v hR a w' hr hP := by
    obtain ⟨b, v', h3, hQ, hR'⟩ := h.ok w v (h0 w v hR) a w' hr hP
    exact ⟨b, v', h3, h2 _ _ hQ, h1 _ _ hR'⟩

end Sim

theorem M.bind_assoc' (m : M W α) (f : α → M W β) (g : β → M W γ) : (m >>= f) >>= g = m >>= fun a => f a >>= g := by
  funext w
  rw [M.bind_run, M.bind_run, M.bind_run]
  cases m w with
  | error e => rfl
  | ok p => obtain ⟨a, w'⟩ := p; simp only; rw [M.bind_run]

end

section

variable {σ1 σ2 T α β : Type} {D : Mode (World σ1 T)} {R R' R'' : World σ1 T → World σ2 T → Prop}

/-- Run a component and record the result. -/
def recorded {σ : Type} (m : M σ α) (e : α → Ev T) : M (World σ T) α := do
  let a ← World.lift m
  World.emit (e a)
  pure a

theorem recorded_bind {σ : Type} (m : M σ α) (e : α → Ev T) (f : α → M (World σ T) β) :
    (do let a ← World.lift m; World.emit (e a); f a : M (World σ T) β) = recorded m e >>= f := by
  unfold recorded
  funext w
  simp only [M.bind_run, World.lift, World.emit, M.pure_run]
  cases m w.user with
  | error e => rfl
  | ok p => rfl

theorem Sim.recorded {m1 : M σ1 α} {m2 : M σ2 α} {e : α → Ev T}
    (hq : ∀ a, Sim D R R Eq (World.emit (e a) : M (World σ1 T) Unit) (World.emit (e a)))
    (h : Sim D R R Eq (World.lift m1 : M (World σ1 T) α) (World.lift m2)) :
    Sim D R R Eq (Verif.recorded m1 e) (Verif.recorded m2 e) :=
  h.seq fun a => (hq a).seq fun _ => .pure rfl

end

/-! ## Genetic optimizer -/

namespace GA

variable {σ1 σ2 T : Type} {D : Mode (World σ1 T)} {R R0 R1 R2 R3 : World σ1 T → World σ2 T → Prop}
  {c1 : Comps σ1 T} {c2 : Comps σ2 T}

/-- The components other than the loggers behave alike. -/
structure CSim (D : Mode (World σ1 T)) (R : World σ1 T → World σ2 T → Prop) (c1 : Comps σ1 T) (c2 : Comps σ2 T) :
    Prop where
  quiet : ∀ e : Ev T, Quiet e → Sim D R R Eq (World.emit e : M (World σ1 T) Unit) (World.emit e)
  goal : ∀ x, Sim D R R Eq (recorded (c1.goal x) (Ev.goal x)) (recorded (c2.goal x) (Ev.goal x))
  stop : ∀ s, Sim D R R Eq (recorded (c1.stop s) (Ev.check s)) (recorded (c2.stop s) (Ev.check s))
  creator : Sim D R R Eq (World.lift c1.creator : M (World σ1 T) _) (World.lift c2.creator)
  pairing : ∀ p, Sim D R R Eq (World.lift (c1.pairing p) : M (World σ1 T) _) (World.lift (c2.pairing p))
  cross : ∀ xs, Sim D R R Eq (World.lift (c1.cross xs) : M (World σ1 T) _) (World.lift (c2.cross xs))
  mutation : ∀ x, Sim D R R Eq (World.lift (c1.mutation x) : M (World σ1 T) _) (World.lift (c2.mutation x))
  selections : List.Forall₂ (fun f g => ∀ p, Sim D R R Eq (World.lift (f p) : M (World σ1 T) _) (World.lift (g p)))
    c1.selections c2.selections
  preBirths : List.Forall₂ (fun f g => ∀ p xs, Sim D R R Eq (World.lift (f p xs) : M (World σ1 T) _)
    (World.lift (g p xs))) c1.preBirths c2.preBirths

/-- The loggers behave alike in one callback. -/
def LSim (D : Mode (World σ1 T)) (R R' : World σ1 T → World σ2 T → Prop) (k : LogKind) (c1 : Comps σ1 T)
    (c2 : Comps σ2 T) : Prop :=
  ∀ s, Sim D R R' Eq (callLoggers k s 0 c1.loggers) (callLoggers k s 0 c2.loggers)

namespace CSim

theorem append (h : CSim D R c1 c2) (p : Population T) (xs : List T) :
    Sim D R R Eq (append c1 p xs) (append c2 p xs) := by
  refine Sim.foldL (fun p x => ?_) xs p
  unfold push
  rw [recorded_bind _ (Ev.goal x), recorded_bind _ (Ev.goal x)]
  exact (h.goal x).seq fun _ => .pure rfl

theorem preBirth_sim (hq : ∀ e : Ev T, Quiet e → Sim D R R Eq (World.emit e : M (World σ1 T) Unit) (World.emit e))
    {p : Population T} {fs : List (Population T → List T → M σ1 (List T))}
    {gs : List (Population T → List T → M σ2 (List T))}
    (h : List.Forall₂ (fun f g => ∀ p xs, Sim D R R Eq (World.lift (f p xs) : M (World σ1 T) _)
      (World.lift (g p xs))) fs gs) :
    ∀ i xs, Sim D R R Eq (preBirth p i fs xs) (preBirth p i gs xs) := by
  induction h with
  | nil => intro i xs; exact .pure rfl
  | cons h1 _ ih => intro i xs; exact (h1 p xs).seq fun _ => (hq _ (by trivial)).seq fun _ => ih _ _

theorem select_sim (hq : ∀ e : Ev T, Quiet e → Sim D R R Eq (World.emit e : M (World σ1 T) Unit) (World.emit e))
    {fs : List (Population T → M σ1 (Population T))} {gs : List (Population T → M σ2 (Population T))}
    (h : List.Forall₂ (fun f g => ∀ p, Sim D R R Eq (World.lift (f p) : M (World σ1 T) _) (World.lift (g p)))
      fs gs) :
    ∀ i p, Sim D R R Eq (select i fs p) (select i gs p) := by
  induction h with
  | nil => intro i p; exact .pure rfl
  | cons h1 _ ih => intro i p; exact (h1 p).seq fun _ => (hq _ (by trivial)).seq fun _ => ih _ _

theorem updateBestWorst_sim (p : Population T) :
    Sim D R R Eq (p.updateBestWorst : M (World σ1 T) (Population T)) p.updateBestWorst := by
  have hmin : ∀ a b : Individual T, Sim D R R Eq (Population.minCmp a b : M (World σ1 T) Ordering)
      (Population.minCmp a b) := by
    intro a b
    unfold Population.minCmp
    split
    · exact .pure rfl
    split
    · exact .pure rfl
    split
    · exact .pure rfl
    · exact .unwrap _
  have hmax : ∀ a b : Individual T, Sim D R R Eq (Population.maxCmp a b : M (World σ1 T) Ordering)
      (Population.maxCmp a b) := by
    intro a b
    unfold Population.maxCmp
    split
    · exact .pure rfl
    split
    · exact .pure rfl
    split
    · exact .pure rfl
    · exact .unwrap _
  have hml : ∀ (l : List (Individual T)) x, Sim D R R Eq
      (Population.minByLoop Population.minCmp x l : M (World σ1 T) (Individual T))
      (Population.minByLoop Population.minCmp x l) := by
    intro l
    induction l with
    | nil => intro x; exact .pure rfl
    | cons y ys ih =>
      intro x
      unfold Population.minByLoop
      refine (hmin x y).seq fun o => ?_
      cases o <;> exact ih _
  have hxl : ∀ (l : List (Individual T)) x, Sim D R R Eq
      (Population.maxByLoop Population.maxCmp x l : M (World σ1 T) (Individual T))
      (Population.maxByLoop Population.maxCmp x l) := by
    intro l
    induction l with
    | nil => intro x; exact .pure rfl
    | cons y ys ih =>
      intro x
      unfold Population.maxByLoop
      refine (hmax x y).seq fun o => ?_
      cases o <;> exact ih _
  unfold Population.updateBestWorst
  refine Sim.seq (R' := R) ?_ fun _ => Sim.seq (R' := R) ?_ fun _ => .pure rfl
  · unfold Population.minBy
    split
    · exact .pure rfl
    · exact (hml _ _).seq fun _ => .pure rfl
  · unfold Population.maxBy
    split
    · exact .pure rfl
    · exact (hxl _ _).seq fun _ => .pure rfl

theorem step (h : CSim D R c1 c2) (hl : LSim D R R .next c1 c2) (p : Population T) :
    Sim D R R Eq (step c1 p) (step c2 p) := by
  unfold GA.step
  refine Sim.seq (R' := R) ?_ fun ks => ?_
  · refine (h.pairing p).seq fun fam => (h.quiet _ (by trivial)).seq fun _ => ?_
    refine Sim.seq (Sim.mapL (fun f => ?_) fam) fun _ => .pure rfl
    refine (Sim.mapL (fun i => (Sim.index _ _).seq fun _ => .pure rfl) f).seq fun _ => ?_
    exact (h.cross _).seq fun _ => (h.quiet _ (by trivial)).seq fun _ => .pure rfl
  refine Sim.seq (R' := R) ?_ fun ms => ?_
  · exact Sim.mapL (fun x => (h.mutation x).seq fun _ => (h.quiet _ (by trivial)).seq fun _ => .pure rfl) ks
  exact (preBirth_sim h.quiet h.preBirths _ _).seq fun _ => (h.append _ _).seq fun _ =>
    (select_sim h.quiet h.selections _ _).seq fun _ => (updateBestWorst_sim _).seq fun _ =>
    (h.quiet _ (by trivial)).seq fun _ => (hl _).seq fun _ => .pure rfl

theorem loop (h : CSim D R c1 c2) (hl : LSim D R R .next c1 c2) : ∀ (fuel : Nat) (p : Population T),
    Sim D R R Eq (loop c1 fuel p) (loop c2 fuel p) := by
  intro fuel
  induction fuel with
  | zero => intro p; exact .fail _
  | succ fuel ih =>
    intro p
    unfold GA.loop
    rw [recorded_bind _ (Ev.check p.state), recorded_bind _ (Ev.check p.state)]
    refine (h.stop p.state).seq fun b => ?_
    cases b with
    | true => exact .pure rfl
    | false => exact (h.step hl p).seq fun _ => ih _

/-- Related outcomes of a run method: the same value and the same population. -/
def SameRun (c1 : Comps σ1 T) (c2 : Comps σ2 T) (a : Option (Solution T) × Opt σ1 T)
    (b : Option (Solution T) × Opt σ2 T) : Prop :=
  a.1 = b.1 ∧ a.2.pop = b.2.pop ∧ a.2.comps = c1 ∧ b.2.comps = c2

theorem nextIterations (h : CSim D R2 c1 c2) (hres : LSim D R1 R2 .resume c1 c2) (hl : LSim D R2 R2 .next c1 c2)
    (hfin : LSim D R2 R3 .finish c1 c2) (fuel : Nat) (p : Population T) :
    Sim D R1 R3 (SameRun c1 c2) (nextIterations fuel ⟨c1, p⟩) (nextIterations fuel ⟨c2, p⟩) :=
  (hres _).seq fun _ => (h.loop hl fuel p).seq fun _ => (hfin _).seq fun _ => .pure ⟨rfl, rfl, rfl, rfl⟩

theorem findMin (h0 : CSim D R0 c1 c2) (h : CSim D R2 c1 c2) (hst : LSim D R0 R1 .start c1 c2)
    (hres : LSim D R1 R2 .resume c1 c2) (hl : LSim D R2 R2 .next c1 c2)
    (hfin : LSim D R2 R3 .finish c1 c2) (fuel : Nat) (p q : Population T) :
    Sim D R0 R3 (SameRun c1 c2) (findMin fuel ⟨c1, p⟩) (findMin fuel ⟨c2, q⟩) :=
  h0.creator.seq fun _ => (h0.quiet _ (by trivial)).seq fun _ => (h0.append _ _).seq fun _ => (hst _).seq fun _ =>
    h.nextIterations hres hl hfin fuel _

end CSim

/-- Related outcomes of a history: the same values and the same population. -/
def SameHistory (c1 : Comps σ1 T) (c2 : Comps σ2 T) (a : List (Ret T) × Opt σ1 T) (b : List (Ret T) × Opt σ2 T) :
    Prop := a.1 = b.1 ∧ a.2.pop = b.2.pop ∧ a.2.comps = c1 ∧ b.2.comps = c2

/-- Related outcomes of one call. -/
def SameCall (c1 : Comps σ1 T) (c2 : Comps σ2 T) (a : Ret T × Opt σ1 T) (b : Ret T × Opt σ2 T) :
    Prop := a.1 = b.1 ∧ a.2.pop = b.2.pop ∧ a.2.comps = c1 ∧ b.2.comps = c2

theorem run_sim (hf : ∀ fuel p, Sim D R R (CSim.SameRun c1 c2) (findMin fuel ⟨c1, p⟩) (findMin fuel ⟨c2, p⟩))
    (hn : ∀ fuel p, Sim D R R (CSim.SameRun c1 c2) (nextIterations fuel ⟨c1, p⟩) (nextIterations fuel ⟨c2, p⟩)) :
    ∀ (ks : List RunCall) (p : Population T),
      Sim D R R (SameHistory c1 c2) (run ⟨c1, p⟩ (ks.map runCall)) (run ⟨c2, p⟩ (ks.map runCall)) := by
  intro ks
  induction ks with
  | nil => intro p; exact .pure ⟨rfl, rfl, rfl, rfl⟩
  | cons k ks ih =>
    intro p
    have hcall : Sim D R R (SameCall c1 c2) (call ⟨c1, p⟩ (runCall k)) (call ⟨c2, p⟩ (runCall k)) := by
      cases k with
      | findMin fuel =>
        refine (hf fuel p).bind ?_ ?_
        · rintro w ⟨r, o⟩ w' - c w'' h hP; cases h; exact hP
        · rintro ⟨r, o⟩ ⟨r', o'⟩ ⟨rfl, h1, h2, h3⟩; exact .pure ⟨rfl, h1, h2, h3⟩
      | nextIterations fuel =>
        refine (hn fuel p).bind ?_ ?_
        · rintro w ⟨r, o⟩ w' - c w'' h hP; cases h; exact hP
        · rintro ⟨r, o⟩ ⟨r', o'⟩ ⟨rfl, h1, h2, h3⟩; exact .pure ⟨rfl, h1, h2, h3⟩
    have htail : ∀ (r : Ret T) (p1 : Population T), Sim D R R (SameHistory c1 c2)
        (do let (rs, o) ← run ⟨c1, p1⟩ (ks.map runCall); pure (r :: rs, o))
        (do let (rs, o) ← run ⟨c2, p1⟩ (ks.map runCall); pure (r :: rs, o)) := by
      intro r p1
      refine (ih p1).bind ?_ ?_
      · rintro w ⟨rs, o⟩ w' - c w'' h hP; cases h; exact hP
      · rintro ⟨rs, o⟩ ⟨rs', o'⟩ ⟨rfl, h1, h2, h3⟩; exact .pure ⟨rfl, h1, h2, h3⟩
    refine hcall.bind ?_ ?_
    · rintro w ⟨r, o⟩ w' h1 c w'' h hP
      have hc : o.comps = c1 := by
        have := call_comps h1
        cases k <;> exact this
      obtain ⟨oc, op⟩ := o
      cases hc
      exact (htail r op).back w' c w'' h hP
    · rintro ⟨r, ⟨oc, op⟩⟩ ⟨r', ⟨oc', op'⟩⟩ ⟨rfl, h1, h2, h3⟩
      cases h1; cases h2; cases h3
      exact htail r op

/-- A history that begins with `find_min`. -/
theorem run_first_sim {R0 : World σ1 T → World σ2 T → Prop}
    (h0 : ∀ fuel p, Sim D R0 R (CSim.SameRun c1 c2) (findMin fuel ⟨c1, p⟩) (findMin fuel ⟨c2, p⟩))
    (hf : ∀ fuel p, Sim D R R (CSim.SameRun c1 c2) (findMin fuel ⟨c1, p⟩) (findMin fuel ⟨c2, p⟩))
    (hn : ∀ fuel p, Sim D R R (CSim.SameRun c1 c2) (nextIterations fuel ⟨c1, p⟩) (nextIterations fuel ⟨c2, p⟩))
    (fuel : Nat) (ks : List RunCall) (p : Population T) :
    Sim D R0 R (SameHistory c1 c2) (run ⟨c1, p⟩ (.findMin fuel :: ks.map runCall))
      (run ⟨c2, p⟩ (.findMin fuel :: ks.map runCall)) := by
  have hcall : Sim D R0 R (SameCall c1 c2) (call ⟨c1, p⟩ (.findMin fuel)) (call ⟨c2, p⟩ (.findMin fuel)) := by
    refine (h0 fuel p).bind ?_ ?_
    · rintro w ⟨r, o⟩ w' - c w'' h hP; cases h; exact hP
    · rintro ⟨r, o⟩ ⟨r', o'⟩ ⟨rfl, h1, h2, h3⟩; exact .pure ⟨rfl, h1, h2, h3⟩
  have htail : ∀ (r : Ret T) (p1 : Population T), Sim D R R (SameHistory c1 c2)
      (do let (rs, o) ← run ⟨c1, p1⟩ (ks.map runCall); pure (r :: rs, o))
      (do let (rs, o) ← run ⟨c2, p1⟩ (ks.map runCall); pure (r :: rs, o)) := by
    intro r p1
    refine (run_sim hf hn ks p1).bind ?_ ?_
    · rintro w ⟨rs, o⟩ w' - c w'' h hP; cases h; exact hP
    · rintro ⟨rs, o⟩ ⟨rs', o'⟩ ⟨rfl, h1, h2, h3⟩; exact .pure ⟨rfl, h1, h2, h3⟩
  refine hcall.bind ?_ ?_
  · rintro w ⟨r, o⟩ w' h1 c w'' h hP
    have hc : o.comps = c1 := call_comps h1
    obtain ⟨oc, op⟩ := o
    cases hc
    exact (htail r op).back w' c w'' h hP
  · rintro ⟨r, ⟨oc, op⟩⟩ ⟨r', ⟨oc', op'⟩⟩ ⟨rfl, h1, h2, h3⟩
    cases h1; cases h2; cases h3
    exact htail r op

end GA

/-! ## Particle swarm optimizer -/

namespace PSO

open Spec.Swarm

variable {σ1 σ2 α : Type} [FloatT α] {D : Mode (World σ1 (List α))}
  {R R0 R1 R2 R3 : World σ1 (List α) → World σ2 (List α) → Prop} {c1 : Comps σ1 α} {c2 : Comps σ2 α}

/-- The components other than the loggers behave alike. -/
structure CSim (D : Mode (World σ1 (List α))) (R : World σ1 (List α) → World σ2 (List α) → Prop) (c1 : Comps σ1 α)
    (c2 : Comps σ2 α) : Prop where
  quiet : ∀ e : Ev (List α), Quiet e → Sim D R R Eq (World.emit e : M (World σ1 (List α)) Unit) (World.emit e)
  goal : ∀ x, Sim D R R Eq (recorded (c1.goal x) (Ev.goal x)) (recorded (c2.goal x) (Ev.goal x))
  stop : ∀ s, Sim D R R Eq (recorded (c1.stop s) (Ev.check s)) (recorded (c2.stop s) (Ev.check s))
  coordInit : Sim D R R Eq (World.lift c1.coordInit : M (World σ1 (List α)) _) (World.lift c2.coordInit)
  velInit : Sim D R R Eq (World.lift c1.velInit : M (World σ1 (List α)) _) (World.lift c2.velInit)
  velCalc : ∀ s p, Sim D R R Eq (World.lift (c1.velCalc s p) : M (World σ1 (List α)) _) (World.lift (c2.velCalc s p))
  postVel : List.Forall₂ (fun f g => ∀ x, Sim D R R Eq (World.lift (f x) : M (World σ1 (List α)) _)
    (World.lift (g x))) c1.postVel c2.postVel
  postMove : List.Forall₂ (fun f g => ∀ x, Sim D R R Eq (World.lift (f x) : M (World σ1 (List α)) _)
    (World.lift (g x))) c1.postMove c2.postMove

/-- The loggers behave alike in one callback. -/
def LSim (D : Mode (World σ1 (List α))) (R R' : World σ1 (List α) → World σ2 (List α) → Prop) (k : LogKind)
    (c1 : Comps σ1 α) (c2 : Comps σ2 α) : Prop :=
  ∀ s, Sim D R R' Eq (callLoggers k s 0 c1.loggers) (callLoggers k s 0 c2.loggers)

theorem lift_hooks {σ : Type} (hs : List (List α → M σ (List α))) (x : List α) :
    (World.lift (hooks hs x) : M (World σ (List α)) (List α)) = M.foldL (fun x h => World.lift (h x)) x hs := by
  unfold hooks
  induction hs generalizing x with
  | nil => rfl
  | cons h hs ih =>
    funext w
    show (World.lift (h x >>= fun b => M.foldL (fun x h => h x) b hs) : M (World σ (List α)) (List α)) w =
      (World.lift (h x) >>= fun b => M.foldL (fun x h => World.lift (h x)) b hs) w
    rw [M.bind_run]
    unfold World.lift
    rw [M.bind_run]
    cases h1 : h x w.user with
    | error e => rfl
    | ok p =>
      obtain ⟨y, s1⟩ := p
      exact congrFun (ih y) ⟨s1, w.trace⟩

namespace CSim

theorem hooks {fs : List (List α → M σ1 (List α))} {gs : List (List α → M σ2 (List α))}
    (h : List.Forall₂ (fun f g => ∀ x, Sim D R R Eq (World.lift (f x) : M (World σ1 (List α)) _)
      (World.lift (g x))) fs gs) (x : List α) :
    Sim D R R Eq (World.lift (hooks fs x) : M (World σ1 (List α)) _) (World.lift (PSO.hooks gs x)) := by
  rw [lift_hooks, lift_hooks]
  exact Sim.foldL₂ h x

theorem renewSwarm (h : CSim D R c1 c2) (s : Swarm α) : Sim D R R Eq (renewSwarm c1 s) (renewSwarm c2 s) := by
  unfold PSO.renewSwarm
  refine h.coordInit.seq fun _ => (h.quiet _ (by trivial)).seq fun _ =>
    h.velInit.seq fun _ => (Sim.assert _).seq fun _ => ?_
  refine (Sim.mapL (fun _ => (hooks h.postMove _).seq fun _ =>
    (h.quiet _ (by trivial)).seq fun _ => .pure rfl) _).seq fun _ => ?_
  refine (Sim.mapL (fun cs => ?_) _).seq fun _ => .pure rfl
  rw [recorded_bind _ (Ev.goal cs.1), recorded_bind _ (Ev.goal cs.1)]
  exact (h.goal cs.1).seq fun _ => .pure rfl

theorem step (h : CSim D R c1 c2) (hl : LSim D R R .next c1 c2) (s : Swarm α) :
    Sim D R R Eq (step c1 s) (step c2 s) := by
  unfold PSO.step
  refine (Sim.foldL (fun s n => ?_) _ _).seq fun _ => (h.quiet _ (by trivial)).seq fun _ =>
    (hl _).seq fun _ => .pure rfl
  unfold moveParticle
  refine (Sim.index _ _).seq fun _ => (h.velCalc _ _).seq fun _ =>
    (hooks h.postVel _).seq fun _ => (h.quiet _ (by trivial)).seq fun _ =>
    (hooks h.postMove _).seq fun x => (h.quiet _ (by trivial)).seq fun _ => ?_
  rw [recorded_bind _ (Ev.goal x), recorded_bind _ (Ev.goal x)]
  exact (h.goal x).seq fun _ => .pure rfl

theorem loop (h : CSim D R c1 c2) (hl : LSim D R R .next c1 c2) : ∀ (fuel : Nat) (p : Swarm α),
    Sim D R R Eq (loop c1 fuel p) (loop c2 fuel p) := by
  intro fuel
  induction fuel with
  | zero => intro p; exact .fail _
  | succ fuel ih =>
    intro p
    unfold PSO.loop
    rw [recorded_bind _ (Ev.check p.state), recorded_bind _ (Ev.check p.state)]
    refine (h.stop p.state).seq fun b => ?_
    cases b with
    | true => exact .pure rfl
    | false => exact (h.step hl p).seq fun _ => ih _

/-- Related outcomes of a run method: the same value and the same swarm. -/
def SameRun (c1 : Comps σ1 α) (c2 : Comps σ2 α) (a : Option (Solution (List α)) × Opt σ1 α)
    (b : Option (Solution (List α)) × Opt σ2 α) : Prop :=
  a.1 = b.1 ∧ a.2.swarm = b.2.swarm ∧ a.2.comps = c1 ∧ b.2.comps = c2

theorem nextIterations (h : CSim D R2 c1 c2) (hres : LSim D R1 R2 .resume c1 c2) (hl : LSim D R2 R2 .next c1 c2)
    (hfin : LSim D R2 R3 .finish c1 c2) (fuel : Nat) (p : Swarm α) :
    Sim D R1 R3 (SameRun c1 c2) (nextIterations fuel ⟨c1, p⟩) (nextIterations fuel ⟨c2, p⟩) :=
  (hres _).seq fun _ => (h.loop hl fuel p).seq fun _ => (hfin _).seq fun _ => .pure ⟨rfl, rfl, rfl, rfl⟩

theorem findMin (h0 : CSim D R0 c1 c2) (h : CSim D R2 c1 c2) (hst : LSim D R0 R1 .start c1 c2)
    (hres : LSim D R1 R2 .resume c1 c2) (hl : LSim D R2 R2 .next c1 c2)
    (hfin : LSim D R2 R3 .finish c1 c2) (fuel : Nat) (p : Swarm α) :
    Sim D R0 R3 (SameRun c1 c2) (findMin fuel ⟨c1, p⟩) (findMin fuel ⟨c2, p⟩) :=
  (h0.renewSwarm p).seq fun _ => (hst _).seq fun _ => h.nextIterations hres hl hfin fuel _

end CSim

/-- Related outcomes of a history: the same values and the same population. -/
def SameHistory (c1 : Comps σ1 α) (c2 : Comps σ2 α) (a : List (Ret α) × Opt σ1 α) (b : List (Ret α) × Opt σ2 α) :
    Prop := a.1 = b.1 ∧ a.2.swarm = b.2.swarm ∧ a.2.comps = c1 ∧ b.2.comps = c2

/-- Related outcomes of one call. -/
def SameCall (c1 : Comps σ1 α) (c2 : Comps σ2 α) (a : Ret α × Opt σ1 α) (b : Ret α × Opt σ2 α) :
    Prop := a.1 = b.1 ∧ a.2.swarm = b.2.swarm ∧ a.2.comps = c1 ∧ b.2.comps = c2

theorem run_sim (hf : ∀ fuel p, Sim D R R (CSim.SameRun c1 c2) (findMin fuel ⟨c1, p⟩) (findMin fuel ⟨c2, p⟩))
    (hn : ∀ fuel p, Sim D R R (CSim.SameRun c1 c2) (nextIterations fuel ⟨c1, p⟩) (nextIterations fuel ⟨c2, p⟩)) :
    ∀ (ks : List RunCall) (p : Swarm α),
      Sim D R R (SameHistory c1 c2) (run ⟨c1, p⟩ (ks.map runCall)) (run ⟨c2, p⟩ (ks.map runCall)) := by
  intro ks
  induction ks with
  | nil => intro p; exact .pure ⟨rfl, rfl, rfl, rfl⟩
  | cons k ks ih =>
    intro p
    have hcall : Sim D R R (SameCall c1 c2) (call ⟨c1, p⟩ (runCall k)) (call ⟨c2, p⟩ (runCall k)) := by
      cases k with
      | findMin fuel =>
        refine (hf fuel p).bind ?_ ?_
        · rintro w ⟨r, o⟩ w' - c w'' h hP; cases h; exact hP
        · rintro ⟨r, o⟩ ⟨r', o'⟩ ⟨rfl, h1, h2, h3⟩; exact .pure ⟨rfl, h1, h2, h3⟩
      | nextIterations fuel =>
        refine (hn fuel p).bind ?_ ?_
        · rintro w ⟨r, o⟩ w' - c w'' h hP; cases h; exact hP
        · rintro ⟨r, o⟩ ⟨r', o'⟩ ⟨rfl, h1, h2, h3⟩; exact .pure ⟨rfl, h1, h2, h3⟩
    have htail : ∀ (r : Ret α) (p1 : Swarm α), Sim D R R (SameHistory c1 c2)
        (do let (rs, o) ← run ⟨c1, p1⟩ (ks.map runCall); pure (r :: rs, o))
        (do let (rs, o) ← run ⟨c2, p1⟩ (ks.map runCall); pure (r :: rs, o)) := by
      intro r p1
      refine (ih p1).bind ?_ ?_
      · rintro w ⟨rs, o⟩ w' - c w'' h hP; cases h; exact hP
      · rintro ⟨rs, o⟩ ⟨rs', o'⟩ ⟨rfl, h1, h2, h3⟩; exact .pure ⟨rfl, h1, h2, h3⟩
    refine hcall.bind ?_ ?_
    · rintro w ⟨r, o⟩ w' h1 c w'' h hP
      have hc : o.comps = c1 := by
        have := call_comps h1
        cases k <;> exact this
      obtain ⟨oc, op⟩ := o
      cases hc
      exact (htail r op).back w' c w'' h hP
    · rintro ⟨r, ⟨oc, op⟩⟩ ⟨r', ⟨oc', op'⟩⟩ ⟨rfl, h1, h2, h3⟩
      cases h1; cases h2; cases h3
      exact htail r op

/-- A history that begins with `find_min`. -/
theorem run_first_sim {R0 : World σ1 (List α) → World σ2 (List α) → Prop}
    (h0 : ∀ fuel p, Sim D R0 R (CSim.SameRun c1 c2) (findMin fuel ⟨c1, p⟩) (findMin fuel ⟨c2, p⟩))
    (hf : ∀ fuel p, Sim D R R (CSim.SameRun c1 c2) (findMin fuel ⟨c1, p⟩) (findMin fuel ⟨c2, p⟩))
    (hn : ∀ fuel p, Sim D R R (CSim.SameRun c1 c2) (nextIterations fuel ⟨c1, p⟩) (nextIterations fuel ⟨c2, p⟩))
    (fuel : Nat) (ks : List RunCall) (p : Swarm α) :
    Sim D R0 R (SameHistory c1 c2) (run ⟨c1, p⟩ (.findMin fuel :: ks.map runCall))
      (run ⟨c2, p⟩ (.findMin fuel :: ks.map runCall)) := by
  have hcall : Sim D R0 R (SameCall c1 c2) (call ⟨c1, p⟩ (.findMin fuel)) (call ⟨c2, p⟩ (.findMin fuel)) := by
    refine (h0 fuel p).bind ?_ ?_
    · rintro w ⟨r, o⟩ w' - c w'' h hP; cases h; exact hP
    · rintro ⟨r, o⟩ ⟨r', o'⟩ ⟨rfl, h1, h2, h3⟩; exact .pure ⟨rfl, h1, h2, h3⟩
  have htail : ∀ (r : Ret α) (p1 : Swarm α), Sim D R R (SameHistory c1 c2)
      (do let (rs, o) ← run ⟨c1, p1⟩ (ks.map runCall); pure (r :: rs, o))
      (do let (rs, o) ← run ⟨c2, p1⟩ (ks.map runCall); pure (r :: rs, o)) := by
    intro r p1
    refine (run_sim hf hn ks p1).bind ?_ ?_
    · rintro w ⟨rs, o⟩ w' - c w'' h hP; cases h; exact hP
    · rintro ⟨rs, o⟩ ⟨rs', o'⟩ ⟨rfl, h1, h2, h3⟩; exact .pure ⟨rfl, h1, h2, h3⟩
  refine hcall.bind ?_ ?_
  · rintro w ⟨r, o⟩ w' h1 c w'' h hP
    have hc : o.comps = c1 := call_comps h1
    obtain ⟨oc, op⟩ := o
    cases hc
    exact (htail r op).back w' c w'' h hP
  · rintro ⟨r, ⟨oc, op⟩⟩ ⟨r', ⟨oc', op'⟩⟩ ⟨rfl, h1, h2, h3⟩
    cases h1; cases h2; cases h3
    exact htail r op

end PSO
end Verif
