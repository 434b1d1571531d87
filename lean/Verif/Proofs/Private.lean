import Verif.Spec.Private
import Verif.Spec.Trace
import Verif.Spec.Genetic
import Verif.Spec.Swarm
import Verif.Proofs.GeneticInv
import Verif.Proofs.Swarm

/-!
# Invariants of the whole world
-/

set_option linter.unusedSectionVars false

namespace Verif

open Spec

namespace M

variable {σ α β : Type} {J : σ → Prop}

/-- `m` preserves `J` whenever it returns. -/
def Keeps (J : σ → Prop) (m : M σ α) : Prop := ∀ s a s', J s → m s = .ok (a, s') → J s'

theorem Keeps.pure (a : α) : Keeps J (pure a : M σ α) := by
  intro s b s' h hr; rw [← (pure_eq_ok.1 hr).2]; exact h

theorem Keeps.fail (e : Err) : Keeps J (fail e : M σ α) := by
  intro s b s' h hr; cases hr

theorem Keeps.bind {m : M σ α} {f : α → M σ β} (hm : Keeps J m) (hf : ∀ a, Keeps J (f a)) : Keeps J (m >>= f) := by
  intro s b s' h hr
  obtain ⟨a, s1, h1, h2⟩ := bind_eq_ok.1 hr
  exact hf a s1 b s' (hm s a s1 h h1) h2

theorem Keeps.mapL {f : α → M σ β} (hf : ∀ a, Keeps J (f a)) : ∀ as, Keeps J (mapL f as) := by
  intro as
  induction as with
  | nil => exact .pure _
  | cons a as ih => exact (hf a).bind fun _ => ih.bind fun _ => .pure _

theorem Keeps.foldL {f : β → α → M σ β} (hf : ∀ b a, Keeps J (f b a)) : ∀ as b, Keeps J (foldL f b as) := by
  intro as
  induction as with
  | nil => intro b; exact .pure _
  | cons a as ih => intro b; exact (hf b a).bind fun _ => ih _

theorem Keeps.foldL_mem {f : β → α → M σ β} : ∀ (as : List α) (b : β), (∀ a ∈ as, ∀ b, Keeps J (f b a)) →
    Keeps J (M.foldL f b as) := by
  intro as
  induction as with
  | nil => intro b _; exact .pure _
  | cons a as ih => intro b h; exact (h a (by simp) b).bind fun _ => ih _ (fun a ha => h a (by simp [ha]))

theorem Keeps.of_state {m : M σ α} (h : ∀ s a s', m s = .ok (a, s') → s' = s) : Keeps J m := by
  intro s a s' hJ hr; rw [h s a s' hr]; exact hJ

theorem Keeps.index (l : List α) (i : Nat) : Keeps J (index l i : M σ α) :=
  .of_state fun _ _ _ h => (index_eq_ok.1 h).2.symm

theorem Keeps.assert (b : Bool) : Keeps J (assert b : M σ Unit) :=
  .of_state fun _ _ _ h => (assert_eq_ok.1 h).2.symm

end M

namespace Spec

variable {σ τ T α : Type}

/-- Not a call of the goal, the stop checker or a logger. -/
def Quiet : Ev T → Prop
  | .goal .. => False
  | .check .. => False
  | .log .. => False
  | _ => True

end Spec

variable {σ τ T α : Type} {J : World σ T → Prop}

/-- Running `m` preserves `J`. -/
def LiftKeeps (J : World σ T → Prop) (m : M σ α) : Prop :=
  ∀ w a s', J w → m w.user = .ok (a, s') → J ⟨s', w.trace⟩

theorem LiftKeeps.lift {m : M σ α} (h : LiftKeeps J m) : M.Keeps J (World.lift m : M (World σ T) α) := by
  intro w a w' hJ hr
  obtain ⟨h1, h2⟩ := World.lift_eq_ok.1 hr
  have := h w a w'.user hJ h1
  rw [← h2] at this
  exact this

theorem keeps_emit {e : Ev T} (h : ∀ w, J w → J ⟨w.user, w.trace ++ [e]⟩) :
    M.Keeps J (World.emit e : M (World σ T) Unit) := by
  intro w a w' hJ hr
  obtain ⟨h1, h2⟩ := World.emit_eq_ok.1 hr
  have := h w hJ
  rw [← h1, ← h2] at this
  exact this

/-- Run and record. -/
theorem keeps_block {m : M σ α} {e : α → Ev T} {β : Type} {f : α → M (World σ T) β}
    (h : ∀ w a s', J w → m w.user = .ok (a, s') → J ⟨s', w.trace ++ [e a]⟩) (hf : ∀ a, M.Keeps J (f a)) :
    M.Keeps J (do let a ← World.lift m; World.emit (e a); f a : M (World σ T) β) := by
  intro w b w' hJ hr
  obtain ⟨a, w1, h1, hr⟩ := M.bind_eq_ok.1 hr
  obtain ⟨u, w2, h2, hr⟩ := M.bind_eq_ok.1 hr
  obtain ⟨h3, h4⟩ := World.lift_eq_ok.1 h1
  obtain ⟨h5, h6⟩ := World.emit_eq_ok.1 h2
  refine hf a w2 b w' ?_ hr
  have := h w a w1.user hJ h3
  rw [← h4, ← h5, ← h6] at this
  exact this

theorem keeps_callLoggers {k : LogKind} {s : AlgState T} : ∀ (ls : List (Logger σ T)) (i : Nat),
    (∀ j l, ls[j]? = some l → ∀ w s', J w → l.on k s w.user = .ok ((), s') → J ⟨s', w.trace ++ [.log (i + j) k s]⟩) →
    M.Keeps J (callLoggers k s i ls) := by
  intro ls
  induction ls with
  | nil => intro i _; exact .pure _
  | cons l ls ih =>
    intro i h
    unfold callLoggers
    refine keeps_block (e := fun _ => .log i k s) (m := match k with
      | .start => l.start s
      | .resume => l.resume s
      | .next => l.nextIteration s
      | .finish => l.finish s) ?_ (fun _ => ih (i + 1) ?_)
    · intro w a s' hJ hr
      have := h 0 l rfl w s' hJ
      simp only [Nat.add_zero] at this
      apply this
      cases k <;> exact hr
    · intro j l' hl w s' hJ hr
      have := h (j + 1) l' (by simpa using hl) w s' hJ hr
      rw [show i + (j + 1) = i + 1 + j by omega] at this
      exact this

/-! ## Replaying a private component -/

namespace Spec

theorem Consulted.snoc {chk : AlgState T → M τ Bool} {t t1 t' : τ} {l : List (AlgState T × Bool)} {s : AlgState T}
    {b : Bool} (h : Consulted chk t l t1) (h1 : chk s t1 = .ok (b, t')) : Consulted chk t (l ++ [(s, b)]) t' := by
  induction h with
  | nil => exact .cons h1 .nil
  | cons h2 _ ih => exact .cons h2 (ih h1)

theorem Informed.snoc {l : Logger τ T} {t t1 t' : τ} {ks : List (LogKind × AlgState T)} {s : AlgState T}
    {k : LogKind} (h : Informed l t ks t1) (h1 : l.on k s t1 = .ok ((), t')) : Informed l t (ks ++ [(k, s)]) t' := by
  induction h with
  | nil => exact .cons h1 .nil
  | cons h2 _ ih => exact .cons h2 (ih h1)

end Spec

theorem Lens.zoom_eq_ok {L : Lens σ τ} {m : M τ α} {s s' : σ} {a : α} (h : L.zoom m s = .ok (a, s')) :
    m (L.get s) = .ok (a, L.get s') := by
  unfold Lens.zoom at h
  split at h
  · rename_i b t hm
    cases h
    rw [hm, L.get_set]
  · cases h

theorem Logger.zoom_on (L : Lens σ τ) (l : Logger τ T) (k : LogKind) (s : AlgState T) :
    (l.zoom L).on k s = L.zoom (l.on k s) := by
  cases k <;> rfl

/-- The stop checker's fields are what its consultations made of them. -/
def StopJ (L : Lens σ τ) (chk : AlgState T → M τ Bool) (tr0 : List (Ev T)) (t0 : τ) (w : World σ T) : Prop :=
  ∃ ext, w.trace = tr0 ++ ext ∧ Consulted chk t0 (checksOf ext) (L.get w.user)

/-- The logger's fields are what its callbacks made of them. -/
def LogJ (L : Lens σ τ) (l : Logger τ T) (i : Nat) (tr0 : List (Ev T)) (t0 : τ) (w : World σ T) : Prop :=
  ∃ ext, w.trace = tr0 ++ ext ∧ Informed l t0 (callbacksOf i ext) (L.get w.user)

section

variable {L : Lens σ τ} {chk : AlgState T → M τ Bool} {l : Logger τ T} {i : Nat} {tr0 : List (Ev T)} {t0 : τ}

theorem StopJ.other {e : Ev T} (he : checksOf [e] = []) {w : World σ T} (h : StopJ L chk tr0 t0 w) {s' : σ}
    (hs : L.get s' = L.get w.user) : StopJ L chk tr0 t0 ⟨s', w.trace ++ [e]⟩ := by
  obtain ⟨ext, ht, hc⟩ := h
  refine ⟨ext ++ [e], by simp [ht], ?_⟩
  have : checksOf (ext ++ [e]) = checksOf ext := by
    rw [show checksOf (ext ++ [e]) = checksOf ext ++ checksOf [e] from List.filterMap_append, he, List.append_nil]
  rw [this]
  simpa only [hs] using hc

theorem StopJ.lift {w : World σ T} (h : StopJ L chk tr0 t0 w) {s' : σ}
    (hs : L.get s' = L.get w.user) : StopJ L chk tr0 t0 ⟨s', w.trace⟩ := by
  obtain ⟨ext, ht, hc⟩ := h
  exact ⟨ext, ht, by simpa only [hs] using hc⟩

theorem StopJ.check {w : World σ T} (h : StopJ L chk tr0 t0 w) {s : AlgState T} {b : Bool} {s' : σ}
    (hs : L.zoom (chk s) w.user = .ok (b, s')) : StopJ L chk tr0 t0 ⟨s', w.trace ++ [.check s b]⟩ := by
  obtain ⟨ext, ht, hc⟩ := h
  refine ⟨ext ++ [.check s b], by simp [ht], ?_⟩
  have : checksOf (ext ++ [.check s b]) = checksOf ext ++ [(s, b)] := List.filterMap_append
  rw [this]
  exact hc.snoc (Lens.zoom_eq_ok hs)

theorem LogJ.other {e : Ev T} (he : callbacksOf i [e] = []) {w : World σ T} (h : LogJ L l i tr0 t0 w) {s' : σ}
    (hs : L.get s' = L.get w.user) : LogJ L l i tr0 t0 ⟨s', w.trace ++ [e]⟩ := by
  obtain ⟨ext, ht, hc⟩ := h
  refine ⟨ext ++ [e], by simp [ht], ?_⟩
  have : callbacksOf i (ext ++ [e]) = callbacksOf i ext := by
    rw [show callbacksOf i (ext ++ [e]) = callbacksOf i ext ++ callbacksOf i [e] from List.filterMap_append, he,
      List.append_nil]
  rw [this]
  simpa only [hs] using hc

theorem LogJ.lift {w : World σ T} (h : LogJ L l i tr0 t0 w) {s' : σ}
    (hs : L.get s' = L.get w.user) : LogJ L l i tr0 t0 ⟨s', w.trace⟩ := by
  obtain ⟨ext, ht, hc⟩ := h
  exact ⟨ext, ht, by simpa only [hs] using hc⟩

theorem LogJ.log {w : World σ T} (h : LogJ L l i tr0 t0 w) {k : LogKind} {s : AlgState T} {s' : σ}
    (hs : (l.zoom L).on k s w.user = .ok ((), s')) : LogJ L l i tr0 t0 ⟨s', w.trace ++ [.log i k s]⟩ := by
  obtain ⟨ext, ht, hc⟩ := h
  refine ⟨ext ++ [.log i k s], by simp [ht], ?_⟩
  have h1 : callbacksOf i [.log i k s] = [(k, s)] := by simp [callbacksOf]
  have : callbacksOf i (ext ++ [.log i k s]) = callbacksOf i ext ++ [(k, s)] := by
    rw [← h1]; exact List.filterMap_append
  rw [this]
  rw [Logger.zoom_on] at hs
  exact hc.snoc (Lens.zoom_eq_ok hs)

end

/-! ## Genetic optimizer -/

namespace GA

open M (Keeps)

/-- `J` survives everything the optimizer does with its components. -/
structure WInv (J : World σ T → Prop) (c : Comps σ T) : Prop where
  quiet : ∀ e w, Quiet e → J w → J ⟨w.user, w.trace ++ [e]⟩
  goal : ∀ x w v s', J w → c.goal x w.user = .ok (v, s') → J ⟨s', w.trace ++ [.goal x v]⟩
  check : ∀ s w b s', J w → c.stop s w.user = .ok (b, s') → J ⟨s', w.trace ++ [.check s b]⟩
  log : ∀ i l, c.loggers[i]? = some l → ∀ k s w s', J w → l.on k s w.user = .ok ((), s') →
    J ⟨s', w.trace ++ [.log i k s]⟩
  creator : LiftKeeps J c.creator
  pairing : ∀ p, LiftKeeps J (c.pairing p)
  cross : ∀ xs, LiftKeeps J (c.cross xs)
  mutation : ∀ x, LiftKeeps J (c.mutation x)
  selections : ∀ f ∈ c.selections, ∀ p, LiftKeeps J (f p)
  preBirths : ∀ f ∈ c.preBirths, ∀ p xs, LiftKeeps J (f p xs)

namespace WInv

variable {c : Comps σ T}

theorem loggers (h : WInv J c) (k : LogKind) (s : AlgState T) : Keeps J (callLoggers k s 0 c.loggers) :=
  keeps_callLoggers _ _ fun j l hl w s' hJ hr => by
    rw [Nat.zero_add]; exact h.log j l hl k s w s' hJ hr

theorem append (h : WInv J c) (p : Population T) (xs : List T) : Keeps J (append c p xs) :=
  Keeps.foldL (fun _ x => keeps_block (fun w v s' => h.goal x w v s') fun _ => .pure _) xs p

theorem keeps_preBirth {p : Population T} (hq : ∀ e w, Quiet e → J w → J ⟨w.user, w.trace ++ [e]⟩) :
    ∀ (fs : List (Population T → List T → M σ (List T))) (i : Nat) (xs : List T),
      (∀ f ∈ fs, ∀ p xs, LiftKeeps J (f p xs)) → Keeps J (preBirth p i fs xs) := by
  intro fs
  induction fs with
  | nil => intro i xs _; exact .pure _
  | cons f fs ih =>
    intro i xs h
    exact (h f (by simp) p xs).lift.bind fun _ => (keeps_emit fun w => hq _ w (by trivial)).bind fun _ =>
      ih _ _ (fun f hf => h f (by simp [hf]))

theorem keeps_select (hq : ∀ e w, Quiet e → J w → J ⟨w.user, w.trace ++ [e]⟩) :
    ∀ (fs : List (Population T → M σ (Population T))) (i : Nat) (p : Population T),
      (∀ f ∈ fs, ∀ p, LiftKeeps J (f p)) → Keeps J (select i fs p) := by
  intro fs
  induction fs with
  | nil => intro i xs _; exact .pure _
  | cons f fs ih =>
    intro i p h
    exact (h f (by simp) p).lift.bind fun _ => (keeps_emit fun w => hq _ w (by trivial)).bind fun _ =>
      ih _ _ (fun f hf => h f (by simp [hf]))

theorem keeps_updateBestWorst (p : Population T) : Keeps J (p.updateBestWorst : M (World σ T) (Population T)) := by
  have hun : ∀ o : Option Ordering, Keeps J (M.unwrap o : M (World σ T) Ordering) := fun o =>
    Keeps.of_state fun _ _ _ h => (M.unwrap_eq_ok.1 h).2.symm
  have hmin : ∀ a b : Individual T, Keeps J (Population.minCmp a b : M (World σ T) Ordering) := by
    intro a b
    unfold Population.minCmp
    split
    · exact .pure _
    split
    · exact .pure _
    split
    · exact .pure _
    · exact hun _
  have hmax : ∀ a b : Individual T, Keeps J (Population.maxCmp a b : M (World σ T) Ordering) := by
    intro a b
    unfold Population.maxCmp
    split
    · exact .pure _
    split
    · exact .pure _
    split
    · exact .pure _
    · exact hun _
  have hml : ∀ (l : List (Individual T)) x,
      Keeps J (Population.minByLoop Population.minCmp x l : M (World σ T) (Individual T)) := by
    intro l
    induction l with
    | nil => intro x; exact .pure _
    | cons y ys ih =>
      intro x
      unfold Population.minByLoop
      refine (hmin x y).bind fun o => ?_
      cases o <;> exact ih _
  have hxl : ∀ (l : List (Individual T)) x,
      Keeps J (Population.maxByLoop Population.maxCmp x l : M (World σ T) (Individual T)) := by
    intro l
    induction l with
    | nil => intro x; exact .pure _
    | cons y ys ih =>
      intro x
      unfold Population.maxByLoop
      refine (hmax x y).bind fun o => ?_
      cases o <;> exact ih _
  unfold Population.updateBestWorst
  refine Keeps.bind ?_ fun _ => Keeps.bind ?_ fun _ => .pure _
  · unfold Population.minBy
    split
    · exact .pure _
    · exact (hml _ _).bind fun _ => .pure _
  · unfold Population.maxBy
    split
    · exact .pure _
    · exact (hxl _ _).bind fun _ => .pure _

theorem step (h : WInv J c) (p : Population T) : Keeps J (step c p) := by
  unfold GA.step
  refine Keeps.bind ?_ fun ks => ?_
  · refine (h.pairing p).lift.bind fun fam => (keeps_emit fun w => h.quiet _ w (by trivial)).bind fun _ => ?_
    refine Keeps.bind (Keeps.mapL (fun f => ?_) fam) fun _ => .pure _
    refine (Keeps.mapL (fun i => (Keeps.index _ _).bind fun _ => .pure _) f).bind fun _ => ?_
    exact (h.cross _).lift.bind fun _ => (keeps_emit fun w => h.quiet _ w (by trivial)).bind fun _ => .pure _
  refine Keeps.bind ?_ fun ms => ?_
  · exact Keeps.mapL (fun x => (h.mutation x).lift.bind fun _ =>
      (keeps_emit fun w => h.quiet _ w (by trivial)).bind fun _ => .pure _) ks
  exact (keeps_preBirth h.quiet _ _ _ h.preBirths).bind fun _ => (h.append _ _).bind fun _ =>
    (keeps_select h.quiet _ _ _ h.selections).bind fun _ => (keeps_updateBestWorst _).bind fun _ =>
    (keeps_emit fun w => h.quiet _ w (by trivial)).bind fun _ => (h.loggers _ _).bind fun _ => .pure _

theorem loop (h : WInv J c) : ∀ (fuel : Nat) (p : Population T), Keeps J (loop c fuel p) := by
  intro fuel
  induction fuel with
  | zero => intro p; exact .fail _
  | succ fuel ih =>
    intro p
    unfold GA.loop
    refine keeps_block (fun w b s' => h.check p.state w b s') fun b => ?_
    cases b with
    | true => exact .pure _
    | false => exact (h.step p).bind fun _ => ih _

theorem turns (h : WInv J c) : ∀ (n : Nat) (p : Population T), Keeps J (turns c n p) := by
  intro n
  induction n with
  | zero => intro p; exact .pure _
  | succ n ih =>
    intro p
    unfold GA.turns
    refine keeps_block (fun w b s' => h.check p.state w b s') fun b => ?_
    cases b with
    | true => exact .fail _
    | false => exact (h.step p).bind fun _ => ih _

theorem nextIterations {o : Opt σ T} (h : WInv J o.comps) (fuel : Nat) : Keeps J (nextIterations fuel o) := by
  unfold GA.nextIterations
  exact (h.loggers _ _).bind fun _ => (h.loop _ _).bind fun _ => (h.loggers _ _).bind fun _ => .pure _

theorem findMin {o : Opt σ T} (h : WInv J o.comps) (fuel : Nat) : Keeps J (findMin fuel o) := by
  unfold GA.findMin
  exact h.creator.lift.bind fun _ => (keeps_emit fun w => h.quiet _ w (by trivial)).bind fun _ =>
    (h.append _ _).bind fun _ => (h.loggers _ _).bind fun _ => WInv.nextIterations (by exact h) fuel

theorem call {o : Opt σ T} (h : WInv J o.comps) (k : Call σ T) : Keeps J (call o k) := by
  cases k with
  | findMin fuel => exact (h.findMin fuel).bind fun _ => .pure _
  | nextIterations fuel => exact (h.nextIterations fuel).bind fun _ => .pure _
  | _ => exact .pure _

theorem run : ∀ (ks : List (Call σ T)) (o : Opt σ T), Always (WInv J) o.comps ks → Keeps J (run o ks) := by
  intro ks
  induction ks with
  | nil => intro o _; exact .pure _
  | cons k ks ih =>
    intro o h w a w' hJ hr
    obtain ⟨rs, o'⟩ := a
    obtain ⟨r, o1, w1, rs', h1, h2, rfl⟩ := run_cons_ok.1 hr
    exact ih o1 (by rw [call_comps h1]; exact h.2) w1 _ w' (WInv.call h.1 k w _ w1 hJ h1) h2

end WInv

theorem PrivateStop.winv {L : Lens σ τ} {chk : AlgState T → M τ Bool} {c : Comps σ T} (h : PrivateStop L chk c)
    (tr0 : List (Ev T)) (t0 : τ) : WInv (StopJ L chk tr0 t0) c :=
  { quiet := fun e w he hJ => hJ.other (by cases e <;> first | rfl | cases he) rfl
    goal := fun x w v s' hJ hr => hJ.other rfl (h.goal x _ _ _ hr)
    check := fun s w b s' hJ hr => hJ.check (by rw [h.stop_eq] at hr; exact hr)
    log := fun i l hl k s w s' hJ hr => hJ.other rfl (h.loggers l (List.mem_of_getElem? hl) k s _ _ _ hr)
    creator := fun w _ s' hJ hr => hJ.lift (h.operators.creator w.user _ s' hr)
    pairing := fun p w _ s' hJ hr => hJ.lift (h.operators.pairing p w.user _ s' hr)
    cross := fun xs w _ s' hJ hr => hJ.lift (h.operators.cross xs w.user _ s' hr)
    mutation := fun x w _ s' hJ hr => hJ.lift (h.operators.mutation x w.user _ s' hr)
    selections := fun f hf p w _ s' hJ hr => hJ.lift (h.operators.selections f hf p w.user _ s' hr)
    preBirths := fun f hf p xs w _ s' hJ hr => hJ.lift (h.operators.preBirths f hf p xs w.user _ s' hr) }

theorem PrivateLogger.winv {L : Lens σ τ} {l : Logger τ T} {i : Nat} {c : Comps σ T}
    (h : PrivateLogger L l i c) (tr0 : List (Ev T)) (t0 : τ) : WInv (LogJ L l i tr0 t0) c :=
  { quiet := fun e w he hJ => hJ.other (by cases e <;> first | rfl | cases he) rfl
    goal := fun x w v s' hJ hr => hJ.other rfl (h.goal x _ _ _ hr)
    check := fun s w b s' hJ hr => hJ.other rfl (h.stop s _ _ _ hr)
    log := fun j l' hl k s w s' hJ hr => by
      by_cases hj : j = i
      · subst hj
        rw [h.logger_eq] at hl
        cases hl
        exact hJ.log hr
      · exact hJ.other (by simp [callbacksOf, hj]) (h.loggers j l' hj hl k s _ _ _ hr)
    creator := fun w _ s' hJ hr => hJ.lift (h.operators.creator w.user _ s' hr)
    pairing := fun p w _ s' hJ hr => hJ.lift (h.operators.pairing p w.user _ s' hr)
    cross := fun xs w _ s' hJ hr => hJ.lift (h.operators.cross xs w.user _ s' hr)
    mutation := fun x w _ s' hJ hr => hJ.lift (h.operators.mutation x w.user _ s' hr)
    selections := fun f hf p w _ s' hJ hr => hJ.lift (h.operators.selections f hf p w.user _ s' hr)
    preBirths := fun f hf p xs w _ s' hJ hr => hJ.lift (h.operators.preBirths f hf p xs w.user _ s' hr) }

end GA

/-! ## Particle swarm optimizer -/

namespace PSO

open M (Keeps)
open Spec.Swarm

variable [FloatT α] {J : World σ (List α) → Prop}

/-- `J` survives everything the optimizer does with its components. -/
structure WInv (J : World σ (List α) → Prop) (c : Comps σ α) : Prop where
  quiet : ∀ e w, Quiet e → J w → J ⟨w.user, w.trace ++ [e]⟩
  goal : ∀ x w v s', J w → c.goal x w.user = .ok (v, s') → J ⟨s', w.trace ++ [.goal x v]⟩
  check : ∀ s w b s', J w → c.stop s w.user = .ok (b, s') → J ⟨s', w.trace ++ [.check s b]⟩
  log : ∀ i l, c.loggers[i]? = some l → ∀ k s w s', J w → l.on k s w.user = .ok ((), s') →
    J ⟨s', w.trace ++ [.log i k s]⟩
  coordInit : LiftKeeps J c.coordInit
  velInit : LiftKeeps J c.velInit
  velCalc : ∀ s p, LiftKeeps J (c.velCalc s p)
  postVel : ∀ f ∈ c.postVel, ∀ x, LiftKeeps J (f x)
  postMove : ∀ f ∈ c.postMove, ∀ x, LiftKeeps J (f x)

namespace WInv

variable {c : Comps σ α}

theorem loggers (h : WInv J c) (k : LogKind) (s : AlgState (List α)) : Keeps J (callLoggers k s 0 c.loggers) :=
  keeps_callLoggers _ _ fun j l hl w s' hJ hr => by
    rw [Nat.zero_add]; exact h.log j l hl k s w s' hJ hr

theorem keeps_hooks : ∀ (hs : List (List α → M σ (List α))) (x : List α), (∀ f ∈ hs, ∀ x, LiftKeeps J (f x)) →
    LiftKeeps J (hooks hs x) := by
  intro hs
  induction hs with
  | nil => intro x _ w a s' hJ hr; obtain ⟨-, rfl⟩ := M.foldL_nil_ok.1 hr; exact hJ
  | cons f hs ih =>
    intro x h w a s' hJ hr
    obtain ⟨y, s1, h1, h2⟩ := M.foldL_cons_ok.1 hr
    exact ih y (fun f hf => h f (by simp [hf])) ⟨s1, w.trace⟩ a s' (h f (by simp) x w y s1 hJ h1) h2

theorem renewSwarm (h : WInv J c) (s : Swarm α) : Keeps J (renewSwarm c s) := by
  unfold PSO.renewSwarm
  refine h.coordInit.lift.bind fun _ => (keeps_emit fun w => h.quiet _ w (by trivial)).bind fun _ =>
    h.velInit.lift.bind fun _ => (Keeps.assert _).bind fun _ => ?_
  refine (Keeps.mapL (fun _ => (keeps_hooks _ _ h.postMove).lift.bind fun _ =>
    (keeps_emit fun w => h.quiet _ w (by trivial)).bind fun _ => .pure _) _).bind fun _ => ?_
  exact (Keeps.mapL (fun cs => keeps_block (fun w v s' => h.goal cs.1 w v s') fun _ => .pure _) _).bind fun _ =>
    .pure _

theorem step (h : WInv J c) (s : Swarm α) : Keeps J (step c s) := by
  unfold PSO.step
  refine (Keeps.foldL (fun s n => ?_) _ _).bind fun _ => (keeps_emit fun w => h.quiet _ w (by trivial)).bind fun _ =>
    (h.loggers _ _).bind fun _ => .pure _
  unfold moveParticle
  refine (Keeps.index _ _).bind fun _ => (h.velCalc _ _).lift.bind fun _ =>
    (keeps_hooks _ _ h.postVel).lift.bind fun _ => (keeps_emit fun w => h.quiet _ w (by trivial)).bind fun _ =>
    (keeps_hooks _ _ h.postMove).lift.bind fun x => (keeps_emit fun w => h.quiet _ w (by trivial)).bind fun _ => ?_
  exact keeps_block (fun w v s' => h.goal x w v s') fun _ => .pure _

theorem loop (h : WInv J c) : ∀ (fuel : Nat) (s : Swarm α), Keeps J (loop c fuel s) := by
  intro fuel
  induction fuel with
  | zero => intro p; exact .fail _
  | succ fuel ih =>
    intro p
    unfold PSO.loop
    refine keeps_block (fun w b s' => h.check p.state w b s') fun b => ?_
    cases b with
    | true => exact .pure _
    | false => exact (h.step p).bind fun _ => ih _

theorem turns (h : WInv J c) : ∀ (n : Nat) (s : Swarm α), Keeps J (turns c n s) := by
  intro n
  induction n with
  | zero => intro p; exact .pure _
  | succ n ih =>
    intro p
    unfold PSO.turns
    refine keeps_block (fun w b s' => h.check p.state w b s') fun b => ?_
    cases b with
    | true => exact .fail _
    | false => exact (h.step p).bind fun _ => ih _

theorem nextIterations {o : Opt σ α} (h : WInv J o.comps) (fuel : Nat) : Keeps J (nextIterations fuel o) := by
  unfold PSO.nextIterations
  exact (h.loggers _ _).bind fun _ => (h.loop _ _).bind fun _ => (h.loggers _ _).bind fun _ => .pure _

theorem findMin {o : Opt σ α} (h : WInv J o.comps) (fuel : Nat) : Keeps J (findMin fuel o) := by
  unfold PSO.findMin
  exact (h.renewSwarm _).bind fun _ => (h.loggers _ _).bind fun _ =>
    WInv.nextIterations (by exact h) fuel

theorem call {o : Opt σ α} (h : WInv J o.comps) (k : Call σ α) : Keeps J (call o k) := by
  cases k with
  | findMin fuel => exact (h.findMin fuel).bind fun _ => .pure _
  | nextIterations fuel => exact (h.nextIterations fuel).bind fun _ => .pure _
  | _ => exact .pure _

theorem run : ∀ (ks : List (Call σ α)) (o : Opt σ α), Always (WInv J) o.comps ks → Keeps J (run o ks) := by
  intro ks
  induction ks with
  | nil => intro o _; exact .pure _
  | cons k ks ih =>
    intro o h w a w' hJ hr
    obtain ⟨rs, o'⟩ := a
    obtain ⟨r, o1, w1, rs', h1, h2, rfl⟩ := run_cons_ok.1 hr
    exact ih o1 (by rw [call_comps h1]; exact h.2) w1 _ w' (WInv.call h.1 k w _ w1 hJ h1) h2

end WInv

theorem PrivateStop.winv {L : Lens σ τ} {chk : AlgState (List α) → M τ Bool} {c : Comps σ α} (h : PrivateStop L chk c)
    (tr0 : List (Ev (List α))) (t0 : τ) : WInv (StopJ L chk tr0 t0) c :=
  { quiet := fun e w he hJ => hJ.other (by cases e <;> first | rfl | cases he) rfl
    goal := fun x w v s' hJ hr => hJ.other rfl (h.goal x _ _ _ hr)
    check := fun s w b s' hJ hr => hJ.check (by rw [h.stop_eq] at hr; exact hr)
    log := fun i l hl k s w s' hJ hr => hJ.other rfl (h.loggers l (List.mem_of_getElem? hl) k s _ _ _ hr)
    coordInit := fun w _ s' hJ hr => hJ.lift (h.operators.coordInit w.user _ s' hr)
    velInit := fun w _ s' hJ hr => hJ.lift (h.operators.velInit w.user _ s' hr)
    velCalc := fun s p w _ s' hJ hr => hJ.lift (h.operators.velCalc s p w.user _ s' hr)
    postVel := fun f hf x w _ s' hJ hr => hJ.lift (h.operators.postVel f hf x w.user _ s' hr)
    postMove := fun f hf x w _ s' hJ hr => hJ.lift (h.operators.postMove f hf x w.user _ s' hr) }

theorem PrivateLogger.winv {L : Lens σ τ} {l : Logger τ (List α)} {i : Nat} {c : Comps σ α}
    (h : PrivateLogger L l i c) (tr0 : List (Ev (List α))) (t0 : τ) : WInv (LogJ L l i tr0 t0) c :=
  { quiet := fun e w he hJ => hJ.other (by cases e <;> first | rfl | cases he) rfl
    goal := fun x w v s' hJ hr => hJ.other rfl (h.goal x _ _ _ hr)
    check := fun s w b s' hJ hr => hJ.other rfl (h.stop s _ _ _ hr)
    log := fun j l' hl k s w s' hJ hr => by
      by_cases hj : j = i
      · subst hj
        rw [h.logger_eq] at hl
        cases hl
        exact hJ.log hr
      · exact hJ.other (by simp [callbacksOf, hj]) (h.loggers j l' hj hl k s _ _ _ hr)
    coordInit := fun w _ s' hJ hr => hJ.lift (h.operators.coordInit w.user _ s' hr)
    velInit := fun w _ s' hJ hr => hJ.lift (h.operators.velInit w.user _ s' hr)
    velCalc := fun s p w _ s' hJ hr => hJ.lift (h.operators.velCalc s p w.user _ s' hr)
    postVel := fun f hf x w _ s' hJ hr => hJ.lift (h.operators.postVel f hf x w.user _ s' hr)
    postMove := fun f hf x w _ s' hJ hr => hJ.lift (h.operators.postMove f hf x w.user _ s' hr) }

end PSO
end Verif
