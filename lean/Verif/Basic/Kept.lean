import Verif.Basic.Monad

/-!
# Effects when panics are caught

`M σ` forgets the state of a computation that panics. Rust unwinds: what `self` and the components were changed to before
the panic stays changed, and a caller that catches the panic (`std::panic::catch_unwind`) can go on. `KM ω` keeps the
state.
-/

namespace Verif

/-- State transformers that may panic; the state is kept when they do. -/
def KM (ω : Type) (α : Type) : Type := ω → Except Err α × ω

namespace KM

variable {ω σ α β : Type}

instance : Monad (KM ω) where
  pure a := fun w => (.ok a, w)
  bind m f := fun w => match m w with
    | (.ok a, w') => f a w'
    | (.error e, w') => (.error e, w')

/-- Panic. -/
def fail (e : Err) : KM ω α := fun w => (.error e, w)

/-- `assert!(b)` -/
def assert (b : Bool) : KM ω Unit := if b then pure () else fail .assert

/-- `xs[i]` on a vector: panics when out of bounds. -/
def index (xs : List α) (i : Nat) : KM ω α :=
  match xs[i]? with
  | some a => pure a
  | none => fail .index

/-- Left-to-right evaluation of `f` on every element, collecting the results. -/
def mapL (f : α → KM ω β) : List α → KM ω (List β)
  | [] => pure []
  | a :: as => do
    let b ← f a
    let bs ← mapL f as
    pure (b :: bs)

/-- `for a in as { f(a) }` -/
def forL (f : α → KM ω Unit) : List α → KM ω Unit
  | [] => pure ()
  | a :: as => do
    f a
    forL f as

/-- `for a in as { acc = f(acc, a) }` -/
def foldL (f : β → α → KM ω β) : β → List α → KM ω β
  | b, [] => pure b
  | b, a :: as => do
    let b' ← f b a
    foldL f b' as

/-- The current state. -/
def get : KM ω ω := fun w => (.ok w, w)

/-- Change the state. -/
def modify (g : ω → ω) : KM ω Unit := fun w => (.ok (), g w)

/-- The same computation, its state forgotten when it panics. -/
def toM (m : KM σ α) : M σ α := fun s =>
  match m s with
  | (.ok a, s') => .ok (a, s')
  | (.error e, _) => .error e

/-- A computation that does not change its state before it panics. -/
def ofM (m : M σ α) : KM σ α := fun s =>
  match m s with
  | .ok (a, s') => (.ok a, s')
  | .error e => (.error e, s)

theorem toM_ofM (m : M σ α) : toM (ofM m) = m := by
  funext s
  unfold toM ofM
  rcases m s with e | ⟨a, s'⟩ <;> rfl

theorem pure_run (a : α) (w : ω) : (pure a : KM ω α) w = (.ok a, w) := rfl

theorem bind_run (m : KM ω α) (f : α → KM ω β) (w : ω) :
    (m >>= f) w = match m w with
      | (.ok a, w') => f a w'
      | (.error e, w') => (.error e, w') := rfl

theorem fail_run (e : Err) (w : ω) : (fail e : KM ω α) w = (.error e, w) := rfl

/-- What a computation does from `P`: it returns with `Q` or panics with `E`. -/
def Tri (P : ω → Prop) (m : KM ω α) (Q : α → ω → Prop) (E : ω → Prop) : Prop :=
  ∀ w, P w → (∀ a w', m w = (.ok a, w') → Q a w') ∧ (∀ e w', m w = (.error e, w') → E w')

namespace Tri

variable {P P' : ω → Prop} {Q : α → ω → Prop} {E : ω → Prop} {R : β → ω → Prop}

theorem pure {a : α} (h : ∀ w, P w → Q a w) : Tri P (pure a : KM ω α) Q E := by
  intro w hw
  constructor
  · intro b w' hr; rw [pure_run] at hr; cases hr; exact h w hw
  · intro e w' hr; rw [pure_run] at hr; cases hr

theorem fail {e : Err} (h : ∀ w, P w → E w) : Tri P (KM.fail e : KM ω α) Q E := by
  intro w hw
  constructor
  · intro b w' hr; rw [fail_run] at hr; cases hr
  · intro e w' hr; rw [fail_run] at hr; cases hr; exact h w hw

theorem bind {m : KM ω α} {f : α → KM ω β} (h1 : Tri P m Q E) (h2 : ∀ a, Tri (Q a) (f a) R E) :
    Tri P (m >>= f) R E := by
  intro w hw
  obtain ⟨ha, he⟩ := h1 w hw
  rw [bind_run]
  rcases h : m w with ⟨r, w1⟩
  cases r with
  | ok a => exact h2 a w1 (ha a w1 h)
  | error e =>
    constructor
    · intro b w' hr; cases hr
    · intro e' w' hr; cases hr; exact he e w1 h

theorem imp {E' : ω → Prop} {Q' : α → ω → Prop} {m : KM ω α} (h : Tri P m Q E) (hp : ∀ w, P' w → P w)
    (hq : ∀ a w, Q a w → Q' a w) (he : ∀ w, E w → E' w) : Tri P' m Q' E' := by
  intro w hw
  obtain ⟨h1, h2⟩ := h w (hp w hw)
  exact ⟨fun a w' hr => hq _ _ (h1 a w' hr), fun e w' hr => he _ (h2 e w' hr)⟩

theorem modify {g : ω → ω} {Q : Unit → ω → Prop} (h : ∀ w, P w → Q () (g w)) : Tri P (KM.modify g) Q E := by
  intro w hw
  constructor
  · intro b w' hr; unfold KM.modify at hr; cases hr; exact h w hw
  · intro e w' hr; unfold KM.modify at hr; cases hr

theorem get {Q : ω → ω → Prop} (h : ∀ w, P w → Q w w) : Tri P (KM.get : KM ω ω) Q E := by
  intro w hw
  constructor
  · intro b w' hr; unfold KM.get at hr; cases hr; exact h w hw
  · intro e w' hr; unfold KM.get at hr; cases hr

theorem index {xs : List α} {i : Nat} (h : ∀ w a, P w → xs[i]? = some a → Q a w) (he : ∀ w, P w → E w) :
    Tri P (KM.index xs i : KM ω α) Q E := by
  unfold KM.index
  split
  · rename_i a ha; exact Tri.pure (fun w hw => h w a hw ha)
  · exact Tri.fail he

theorem assert {b : Bool} {Q : Unit → ω → Prop} (h : ∀ w, P w → b = true → Q () w) (he : ∀ w, P w → E w) :
    Tri P (KM.assert b : KM ω Unit) Q E := by
  unfold KM.assert
  split
  · rename_i hb; exact Tri.pure (fun w hw => h w hw hb)
  · exact Tri.fail he

theorem mapL {f : α → KM ω β} {as : List α} {I : List β → ω → Prop} :
    (∀ bs a, a ∈ as → Tri (I bs) (f a) (fun b => I (bs ++ [b])) E) → ∀ bs, (∀ w, P w → I bs w) →
      Tri P (KM.mapL f as) (fun cs => I (bs ++ cs)) E := by
  induction as generalizing P with
  | nil => intro _ bs h; exact Tri.pure (fun w hw => by simpa using h w hw)
  | cons a as ih =>
    intro hf bs h
    refine Tri.bind ((hf bs a (by simp)).imp h (fun _ _ h => h) (fun _ h => h)) fun b => ?_
    refine Tri.bind (ih (fun bs a ha => hf bs a (by simp [ha])) (bs ++ [b]) (fun w hw => hw)) fun cs => ?_
    exact Tri.pure (fun w hw => by simpa using hw)

theorem forL {f : α → KM ω Unit} {as : List α} (h : ∀ a ∈ as, Tri P (f a) (fun _ => P) E) :
    Tri P (KM.forL f as) (fun _ => P) E := by
  induction as with
  | nil => exact Tri.pure (fun w hw => hw)
  | cons a as ih => exact Tri.bind (h a (by simp)) fun _ => ih (fun a ha => h a (by simp [ha]))

/-- An invariant that does not look at the results. -/
theorem mapL_inv {f : α → KM ω β} {as : List α} (h : ∀ a ∈ as, Tri P (f a) (fun _ => P) E) :
    Tri P (KM.mapL f as) (fun _ => P) E :=
  Tri.mapL (I := fun _ => P) (fun _ a ha => h a ha) [] (fun _ hw => hw)

end Tri

/-! Both ways of running agree as long as nothing panics. -/

theorem toM_pure (a : α) : toM (pure a : KM σ α) = pure a := rfl

theorem toM_bind (m : KM σ α) (f : α → KM σ β) : toM (m >>= f) = toM m >>= fun a => toM (f a) := by
  funext s
  rw [M.bind_run]
  unfold toM
  rw [bind_run]
  rcases m s with ⟨r, s'⟩
  cases r <;> rfl

theorem toM_foldL (f : β → α → KM σ β) (as : List α) (b : β) :
    toM (foldL f b as) = M.foldL (fun b a => toM (f b a)) b as := by
  induction as generalizing b with
  | nil => rfl
  | cons a as ih =>
    rw [foldL, M.foldL, toM_bind]
    congr 1
    funext b'
    exact ih b'

end KM

end Verif
