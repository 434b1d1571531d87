import Verif.Proofs.GeneticClosed
import Verif.Proofs.NoFuel

/-!
# Computations that never fail in a particular way
-/

namespace Verif

variable {σ T α β : Type}

/-- `m` never fails with `e`, and its results satisfy `Q`. -/
def M.Safe (e : Err) (m : M σ α) (Q : α → Prop) : Prop :=
  ∀ s, m s ≠ .error e ∧ ∀ a s', m s = .ok (a, s') → Q a

namespace M.Safe

variable {e : Err}

theorem pure {Q : α → Prop} {a : α} (h : Q a) : Safe e (pure a : M σ α) Q := by
  intro s
  refine ⟨(by intro h; cases h), ?_⟩
  intro b s' hb
  obtain ⟨rfl, -⟩ := M.pure_eq_ok.1 hb
  exact h

theorem bind {m : M σ α} {f : α → M σ β} {Q : α → Prop} {Q' : β → Prop} (hm : Safe e m Q)
    (hf : ∀ a, Q a → Safe e (f a) Q') : Safe e (m >>= f) Q' := by
  intro s
  constructor
  · intro h
    rcases M.bind_eq_error.1 h with h | ⟨a, s', ha, h⟩
    · exact (hm s).1 h
    · exact (hf a ((hm s).2 a s' ha) s').1 h
  · intro b s2 h
    obtain ⟨a, s1, h1, h2⟩ := M.bind_eq_ok.1 h
    exact (hf a ((hm s).2 a s1 h1) s1).2 b s2 h2

theorem weaken {m : M σ α} {Q Q' : α → Prop} (hm : Safe e m Q) (h : ∀ a, Q a → Q' a) : Safe e m Q' :=
  fun s => ⟨(hm s).1, fun a s' ha => h a ((hm s).2 a s' ha)⟩

theorem mapL {f : α → M σ β} {Q : β → Prop} {P : α → Prop} (hf : ∀ a, P a → Safe e (f a) Q) :
    ∀ as : List α, (∀ a ∈ as, P a) → Safe e (mapL f as) (fun bs => ∀ b ∈ bs, Q b) := by
  intro as
  induction as with
  | nil => intro _; exact .pure (by simp)
  | cons a as ih =>
    intro h
    refine (hf a (h a (by simp))).bind fun b hb => (ih (fun a ha => h a (by simp [ha]))).bind fun bs hbs => .pure ?_
    intro x hx
    rcases List.mem_cons.1 hx with rfl | hx
    · exact hb
    · exact hbs x hx

theorem foldL {f : β → α → M σ β} {I : β → Prop} {P : α → Prop} (hf : ∀ b a, I b → P a → Safe e (f b a) I) :
    ∀ (as : List α) (b : β), (∀ a ∈ as, P a) → I b → Safe e (foldL f b as) I := by
  intro as
  induction as with
  | nil => intro b _ hb; exact .pure hb
  | cons a as ih =>
    intro b h hb
    exact (hf b a hb (h a (by simp))).bind fun b' hb' => ih b' (fun a ha => h a (by simp [ha])) hb'

theorem assert {b : Bool} (h : b = true) : Safe e (M.assert b : M σ Unit) (fun _ => True) := by
  subst h; exact .pure trivial

theorem index {l : List α} {i : Nat} (he : e ≠ .index) : Safe e (M.index l i : M σ α) (fun a => a ∈ l) := by
  unfold M.index
  cases h : l[i]? with
  | none => intro s; exact ⟨by intro h; cases h; exact he rfl, by intro a s' h; cases h⟩
  | some a => exact .pure (List.mem_of_getElem? h)

theorem lift {m : M σ α} {Q : α → Prop} (h : Safe e m Q) : Safe e (World.lift m : M (World σ T) α) Q := by
  intro w
  constructor
  · intro hw
    unfold World.lift at hw
    cases hm : m w.user with
    | error e' => rw [hm] at hw; simp at hw; subst hw; exact (h _).1 hm
    | ok p => rw [hm] at hw; simp at hw
  · intro a w' hw
    exact (h _).2 a _ (World.lift_eq_ok.1 hw).1

theorem emit (ev : Ev T) : Safe e (World.emit ev : M (World σ T) Unit) (fun _ => True) :=
  fun _ => ⟨(by intro h; cases h), fun _ _ _ => trivial⟩

end M.Safe

/-- No callback of the logger fails with `e`. -/
def Logger.Safe (e : Err) (l : Logger σ T) : Prop :=
  ∀ s, (l.start s).Safe e (fun _ => True) ∧ (l.resume s).Safe e (fun _ => True) ∧
    (l.nextIteration s).Safe e (fun _ => True) ∧ (l.finish s).Safe e (fun _ => True)

theorem safe_callLoggers {e : Err} {k : LogKind} {s : AlgState T} :
    ∀ {ls : List (Logger σ T)} {i : Nat}, (∀ l ∈ ls, l.Safe e) →
      (callLoggers k s i ls).Safe e (fun _ => True) := by
  intro ls
  induction ls with
  | nil => intro i _; exact .pure trivial
  | cons l ls ih =>
    intro i h
    unfold callLoggers
    refine M.Safe.bind (Q := fun _ => True) (M.Safe.lift ?_) fun _ _ => (M.Safe.emit _).bind fun _ _ =>
      ih (fun l hl => h l (by simp [hl]))
    have := h l (by simp) s
    cases k
    · exact this.1
    · exact this.2.1
    · exact this.2.2.1
    · exact this.2.2.2

end Verif

namespace Verif.GA

open Verif Spec

variable {σ T : Type}

/-- All chromosomes a population holds are in `B`. -/
def AllIn (B : T → Prop) (p : Population T) : Prop :=
  (∀ i ∈ p.individuals, B i.chromosomes) ∧ (∀ i, p.best = some i → B i.chromosomes) ∧
    (∀ i, p.worst = some i → B i.chromosomes)

/-- On populations and chromosomes in `B` no component fails with `e`, and they stay in `B`. -/
structure SafeComps (e : Err) (B : T → Prop) (c : Comps σ T) : Prop where
  goal : ∀ x, B x → (c.goal x).Safe e (fun _ => True)
  pairing : ∀ p, AllIn B p → (c.pairing p).Safe e (fun fam => ∀ f ∈ fam, f.length = 2)
  cross : ∀ xs, xs.length = 2 → (∀ x ∈ xs, B x) → (c.cross xs).Safe e (fun ys => ∀ y ∈ ys, B y)
  mutation : ∀ x, B x → (c.mutation x).Safe e B
  preBirths : ∀ f ∈ c.preBirths, ∀ p xs, (∀ x ∈ xs, B x) → (f p xs).Safe e (fun ys => ∀ y ∈ ys, B y)
  selections : ∀ f ∈ c.selections, ∀ p, AllIn B p → (f p).Safe e (AllIn B)
  loggers : ∀ l ∈ c.loggers, l.Safe e

theorem safe_append {e : Err} {B : T → Prop} {c : Comps σ T} (h : SafeComps e B c) (p : Population T) (xs : List T)
    (hp : AllIn B p) (hx : ∀ x ∈ xs, B x) : (append c p xs).Safe e (AllIn B) := by
  refine M.Safe.foldL (P := B) (fun q x hq hx => ?_) xs p hx hp
  refine (M.Safe.lift (h.goal x hx)).bind fun v _ => (M.Safe.emit _).bind fun _ _ => .pure ⟨?_, hq.2⟩
  intro i hi
  rcases List.mem_append.1 hi with hi | hi
  · exact hq.1 i hi
  · rw [List.mem_singleton] at hi; subst hi; exact hx

theorem safe_preBirth {e : Err} {B : T → Prop} {p : Population T} :
    ∀ {fs : List (Population T → List T → M σ (List T))} {i : Nat} {xs : List T},
      (∀ f ∈ fs, ∀ p xs, (∀ x ∈ xs, B x) → (f p xs).Safe e (fun ys => ∀ y ∈ ys, B y)) → (∀ x ∈ xs, B x) →
      (preBirth p i fs xs).Safe e (fun ys => ∀ y ∈ ys, B y) := by
  intro fs
  induction fs with
  | nil => intro i xs _ hx; exact .pure hx
  | cons f fs ih =>
    intro i xs h hx
    exact (M.Safe.lift (h f (by simp) _ _ hx)).bind fun ys hys => (M.Safe.emit _).bind fun _ _ =>
      ih (fun f hf => h f (by simp [hf])) hys

theorem safe_select {e : Err} {B : T → Prop} :
    ∀ {fs : List (Population T → M σ (Population T))} {i : Nat} {p : Population T},
      (∀ f ∈ fs, ∀ p, AllIn B p → (f p).Safe e (AllIn B)) → AllIn B p →
      (select i fs p).Safe e (AllIn B) := by
  intro fs
  induction fs with
  | nil => intro i xs _ hp; exact .pure hp
  | cons f fs ih =>
    intro i xs h hp
    exact (M.Safe.lift (h f (by simp) _ hp)).bind fun q hq => (M.Safe.emit _).bind fun _ _ =>
      ih (fun f hf => h f (by simp [hf])) hq

theorem mapL_two {α β : Type} {σ : Type} {f : α → M σ β} {as : List α} {bs : List β} {s s' : σ}
    (h : M.mapL f as s = .ok (bs, s')) (ha : as.length = 2) : bs.length = 2 := by
  rw [M.mapL_length h, ha]

/-- A turn of the loop does not fail with `e` (other than `index`). -/
theorem safe_step {e : Err} (he : e ≠ .index) {B : T → Prop} {c : Comps σ T} (h : SafeComps e B c)
    (p : Population T) (hp : AllIn B p) : (step c p).Safe e (fun _ => True) := by
  unfold step
  refine M.Safe.bind (Q := fun ks => ∀ y ∈ ks, B y) ?_ fun ks hks => ?_
  · unfold runPairing
    refine (M.Safe.lift (h.pairing p hp)).bind fun fam hfam => (M.Safe.emit _).bind fun _ _ => ?_
    refine M.Safe.bind (M.Safe.mapL (P := fun f => f.length = 2) (Q := fun ys => ∀ y ∈ ys, B y)
      (fun f hf => ?_) fam hfam) fun kids hk => .pure ?_
    · unfold crossFamily
      refine M.Safe.bind (Q := fun xs => xs.length = 2 ∧ ∀ x ∈ xs, B x) ?_ fun xs hxs => ?_
      · have hm := M.Safe.mapL (e := e) (P := fun _ => True) (Q := B) (f := fun i => (do
            let ind ← M.index p.individuals i
            pure ind.chromosomes : M (World σ T) T))
          (fun i _ => (M.Safe.index he).bind fun ind hi => .pure (hp.1 ind hi)) f (fun _ _ => trivial)
        intro s
        exact ⟨(hm s).1, fun a s' ha => ⟨mapL_two ha hf, (hm s).2 a s' ha⟩⟩
      · exact (M.Safe.lift (h.cross xs hxs.1 hxs.2)).bind fun ys hys => (M.Safe.emit _).bind fun _ _ => .pure hys
    · intro y hy
      obtain ⟨k, hk1, hk2⟩ := List.mem_flatten.1 hy
      exact hk k hk1 y hk2
  refine M.Safe.bind (Q := fun ks => ∀ y ∈ ks, B y) ?_ fun ms hms => ?_
  · exact M.Safe.mapL (P := B) (fun x hx => (M.Safe.lift (h.mutation x hx)).bind fun y hy =>
      (M.Safe.emit _).bind fun _ _ => .pure hy) ks hks
  refine (safe_preBirth h.preBirths hms).bind fun born hb => (safe_append h p born hp hb).bind fun p1 hp1 =>
    (safe_select h.selections hp1).bind fun p2 _ => ?_
  refine M.Safe.bind (Q := fun _ => True) ?_ fun _ _ => (M.Safe.emit _).bind fun _ _ =>
    (safe_callLoggers h.loggers).bind fun _ _ => .pure trivial
  intro w
  obtain ⟨p', hr, -⟩ := p2.removeDead.updateBestWorst_run w
  exact ⟨by rw [hr]; simp, fun _ _ _ => trivial⟩

end Verif.GA
