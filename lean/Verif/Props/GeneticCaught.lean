import Verif.Proofs.CaughtInv
import Verif.Props.GeneticBox

/-!
# C87: the genetic optimizer when panics are caught

`find_min` and `next_iterations` run user code, which may panic. A caller that catches the panic can go on using the
optimizer. Histories here are lists of public calls, each of which may return or panic, anywhere, any number of times; the
history goes on in the state that the panic left behind.
-/

namespace Verif.Props

open Verif Caught Caught.GA Spec.Caught Spec.Caught.GA

variable {σ T α : Type}

/-! ## Without a panic this is the optimizer of the other theorems -/

theorem ga_call_comps {o o' : Verif.GA.Opt σ T} {k : Verif.GA.Call σ T} {r w w'}
    (h : Verif.GA.call o k w = .ok ((r, o'), w')) : o'.comps = Spec.setComps o.comps k := Verif.GA.call_comps h

theorem forget_after (c : Comps σ T) (k : Call σ T) : (after c k).forget = Spec.setComps c.forget k.forget := by
  cases k <;> rfl

theorem exec_view (c : Comps σ T) (k : Call σ T) (w : St σ T (Population T)) :
    Verif.GA.call ⟨c.forget, w.mem⟩ k.forget ⟨w.user, w.trace⟩ = match exec c k w with
      | (.ok r, w') => .ok ((r, ⟨(after c k).forget, w'.mem⟩), ⟨w'.user, w'.trace⟩)
      | (.error e, _) => .error e := by
  have h := congrFun (view_exec c k w.mem) ⟨w.user, w.trace⟩
  rw [M.bind_run] at h
  unfold view at h
  dsimp only at h
  have hw : (⟨w.user, w.trace, w.mem⟩ : St σ T (Population T)) = w := rfl
  rw [hw] at h
  rcases he : exec c k w with ⟨r, w'⟩
  rw [he] at h
  rcases hc : Verif.GA.call ⟨c.forget, w.mem⟩ k.forget ⟨w.user, w.trace⟩ with e | ⟨⟨r1, o1⟩, w1⟩
  · rw [hc] at h
    cases r with
    | error e' => cases h; rfl
    | ok a => cases h
  · rw [hc] at h
    have hcomps := ga_call_comps hc
    cases r with
    | error e' => cases h
    | ok a =>
      obtain ⟨oc, op⟩ := o1
      cases h
      rw [forget_after]
      dsimp only at hcomps
      rw [hcomps]

/-- C87: one call of the optimizer does exactly what it does in the model without caught panics: if it returns, with the
same result in the same state, and if it panics, with the same panic. -/
theorem C87_call (c : Comps σ T) (k : Call σ T) (w : St σ T (Population T)) :
    (∀ r w', exec c k w = (.ok r, w') → Verif.GA.call ⟨c.forget, w.mem⟩ k.forget ⟨w.user, w.trace⟩ =
      .ok ((r, ⟨(after c k).forget, w'.mem⟩), ⟨w'.user, w'.trace⟩)) ∧
    (∀ e w', exec c k w = (.error e, w') →
      Verif.GA.call ⟨c.forget, w.mem⟩ k.forget ⟨w.user, w.trace⟩ = .error e) := by
  have h := exec_view c k w
  exact ⟨fun r w' he => by rw [he] at h; exact h, fun e w' he => by rw [he] at h; exact h⟩

/-- C87: a history without a panic is a history of the model without caught panics; up to the first panic, too. -/
theorem C87_history (ks : List (Call σ T)) (c : Comps σ T) (w : St σ T (Population T)) :
    (∀ rs, (runCaught c ks w).1 = rs.map .ok → Verif.GA.run ⟨c.forget, w.mem⟩ (ks.map Call.forget) ⟨w.user, w.trace⟩ =
      .ok ((rs, ⟨(runCaught c ks w).2.1.forget, (runCaught c ks w).2.2.mem⟩),
        ⟨(runCaught c ks w).2.2.user, (runCaught c ks w).2.2.trace⟩)) ∧
    (∀ (rs : List (Verif.GA.Ret T)) e rest, (runCaught c ks w).1 = rs.map .ok ++ .error e :: rest →
      Verif.GA.run ⟨c.forget, w.mem⟩ (ks.map Call.forget) ⟨w.user, w.trace⟩ = .error e) := by
  induction ks generalizing c w with
  | nil =>
    constructor
    · intro rs h
      cases rs with
      | nil => rfl
      | cons r rs => cases h
    · intro rs e rest h
      cases rs <;> cases h
  | cons k ks ih =>
    rw [runCaught_cons]
    have hx := C87_call c k w
    rcases he : exec c k w with ⟨r, w'⟩
    obtain ⟨ih1, ih2⟩ := ih (after c k) w'
    dsimp only
    constructor
    · intro rs h
      cases rs with
      | nil => cases h
      | cons r0 rs =>
        rw [List.map_cons, List.cons.injEq] at h
        obtain ⟨rfl, h2⟩ := h
        exact M.bind_eq_ok.2 ⟨_, _, hx.1 _ _ he, M.bind_eq_ok.2 ⟨_, _, ih1 rs h2, rfl⟩⟩
    · intro rs e rest h
      cases rs with
      | nil =>
        rw [List.map_nil, List.nil_append, List.cons.injEq] at h
        obtain ⟨rfl, h2⟩ := h
        exact M.bind_eq_error.2 (.inl (hx.2 _ _ he))
      | cons r0 rs =>
        rw [List.map_cons, List.cons_append, List.cons.injEq] at h
        obtain ⟨rfl, h2⟩ := h
        exact M.bind_eq_error.2 (.inr ⟨_, _, hx.1 _ _ he, M.bind_eq_error.2 (.inl (ih2 rs e rest h2))⟩)

/-- A logger that changes nothing before it panics. -/
def keepLogger (l : Verif.Logger σ T) : Caught.Logger σ T :=
  ⟨fun s => .ofM (l.start s), fun s => .ofM (l.resume s), fun s => .ofM (l.nextIteration s), fun s => .ofM (l.finish s)⟩

/-- Components that change nothing before they panic. -/
def keep (c : Verif.GA.Comps σ T) : Comps σ T where
  goal x := .ofM (c.goal x)
  stop s := .ofM (c.stop s)
  creator := .ofM c.creator
  pairing p := .ofM (c.pairing p)
  cross ps := .ofM (c.cross ps)
  mutation x := .ofM (c.mutation x)
  selections := c.selections.map ofSelection
  preBirths := c.preBirths.map (fun f p xs => .ofM (f p xs))
  loggers := c.loggers.map keepLogger

theorem forget_ofSelection (sel : Population T → M σ (Population T)) : forgetSelection (ofSelection sel) = sel := by
  funext p s
  unfold forgetSelection ofSelection
  dsimp only
  rcases sel p s with e | ⟨p', s'⟩ <;> rfl

/-- Every optimizer of the other theorems is one of these. -/
theorem C87_every (c : Verif.GA.Comps σ T) : (keep c).forget = c := by
  obtain ⟨g, st, cr, pa, x, m, ss, ps, ls⟩ := c
  unfold keep Comps.forget
  simp only [KM.toM_ofM, List.map_map, Verif.GA.Comps.mk.injEq, true_and]
  refine ⟨?_, ?_, ?_⟩
  · refine (List.map_congr_left (g := id) fun s _ => ?_).trans (List.map_id _)
    exact forget_ofSelection s
  · refine (List.map_congr_left (g := id) fun s _ => ?_).trans (List.map_id _)
    funext p xs
    exact KM.toM_ofM _
  · refine (List.map_congr_left (g := id) fun s _ => ?_).trans (List.map_id _)
    show Logger.forget (keepLogger s) = s
    unfold Logger.forget keepLogger
    simp only [KM.toM_ofM]

/-! ## Everything held, shown or returned was evaluated -/

/-- The conditions on the components, with a property `B` of everything that is born. -/
def Bears (g : T → KM σ F64) (B : T → Prop) (c : Comps σ T) : Prop :=
  Legal c ∧ c.goal = g ∧ (∀ xs, Returned c.creator xs → ∀ x ∈ xs, B x) ∧
  (∀ p xs ys (w w' : St σ T (Population T)), preBirth p 0 c.preBirths xs w = (.ok ys, w') → ∀ y ∈ ys, B y)

/-- Everything in the population and in the trace is a goal call on a point in `B`. -/
def Sound (g : T → KM σ F64) (B : T → Prop) (p : Population T) (tr : List (Ev T)) : Prop :=
  Spec.OnlyEvaluated tr ∧ Verif.GA.AllEvaluated p tr ∧ ∀ x v, Ev.goal x v ∈ tr → B x ∧ Returned (g x) v

theorem sound_quiet {g : T → KM σ F64} {B : T → Prop} {p : Population T} {tr : List (Ev T)} {e : Ev T}
    (h : Sound g B p tr) (he : ∀ x v, e ≠ .goal x v) (hs : Spec.ShowsEvaluated tr e) : Sound g B p (tr ++ [e]) := by
  refine ⟨Spec.onlyEvaluated_snoc.2 ⟨h.1, hs⟩, h.2.1.append, fun x v hm => h.2.2 x v ?_⟩
  rcases List.mem_append.1 hm with hm | hm
  · exact hm
  · exact absurd (List.mem_singleton.1 hm).symm (he x v)

theorem shows_silent {tr : List (Ev T)} {e : Ev T} (h : Spec.Silent e) : Spec.ShowsEvaluated tr e := by
  cases e <;> first | trivial | exact absurd h id

theorem inv_sound (g : T → KM σ F64) (B : T → Prop) : Inv (σ := σ) (Bears g B) (fun _ => B) (Sound g B) where
  creator c xs hc hx := hc.2.2.1 xs hx
  preBirth c p xs ys w w' hc h := hc.2.2.2 p xs ys w w' h
  log i k p tr h := sound_quiet h (by simp) h.2.1.state
  check b p tr h := sound_quiet h (by simp) h.2.1.state
  created xs p tr h := sound_quiet h (by simp) trivial
  quiet e p tr he hs _ h := sound_quiet h he (shows_silent hs)
  born c x v p tr hc hb hg h := by
    refine ⟨Spec.onlyEvaluated_snoc.2 ⟨h.1, trivial⟩, ⟨?_, ?_, ?_⟩, ?_⟩
    · intro i hi
      rcases List.mem_append.1 hi with hi | hi
      · exact (h.2.1.1 i hi).append
      · rw [List.mem_singleton.1 hi]
        exact List.mem_append_right _ (by simp [Individual.sol])
    · intro i hi; exact (h.2.1.2.1 i hi).append
    · intro i hi; exact (h.2.1.2.2 i hi).append
    · intro y u hm
      rcases List.mem_append.1 hm with hm | hm
      · exact h.2.2 y u hm
      · cases List.mem_singleton.1 hm
        exact ⟨hb, hc.2.1 ▸ hg⟩
  select c sel s p r s' p' tr hc hm hr h := by
    obtain ⟨h1, h2, h3, h4⟩ := hc.1 sel hm s p r s' p' hr
    refine ⟨h.1, ⟨?_, by rw [h1]; exact h.2.1.2.1, by rw [h2]; exact h.2.1.2.2⟩, h.2.2⟩
    intro j hj
    rcases h4 j hj with h5 | h5 | h5
    · obtain ⟨i, hi, he⟩ := List.mem_map.1 h5
      rw [← he]; exact h.2.1.1 i hi
    · obtain ⟨i, hi, he⟩ := Option.map_eq_some_iff.1 h5
      rw [← he]; exact h.2.1.2.1 i hi
    · obtain ⟨i, hi, he⟩ := Option.map_eq_some_iff.1 h5
      rw [← he]; exact h.2.1.2.2 i hi
  finish p q tr hq h := by
    obtain ⟨q', hr, hi, hit, hup⟩ := Population.updateBestWorst_run p.removeDead ()
    rw [hr] at hq
    cases hq
    have hind : ∀ i ∈ q.individuals, Spec.Evaluated tr i.sol := by
      intro i hm
      rw [hi] at hm
      exact h.2.1.1 i (List.mem_filter.1 hm).1
    have hall : Verif.GA.AllEvaluated q.nextIteration tr := by
      refine ⟨hind, ?_, ?_⟩
      · intro i hb
        by_cases he : q.individuals = []
        · exact h.2.1.2.1 i ((hup.old he).1.symm.trans hb)
        · obtain ⟨x, hx, hmem, -⟩ := hup.best he
          have : x = i := Option.some.inj (hx.symm.trans hb)
          exact this ▸ hind x hmem
      · intro i hb
        by_cases he : q.individuals = []
        · exact h.2.1.2.2 i ((hup.old he).2.symm.trans hb)
        · obtain ⟨x, hx, hmem, -⟩ := hup.worst he
          have : x = i := Option.some.inj (hx.symm.trans hb)
          exact this ▸ hind x hmem
    refine sound_quiet ⟨h.1, hall, h.2.2⟩ (by simp) ⟨?_, hall.state, ?_⟩
    · intro a ha
      obtain ⟨i, hi, rfl⟩ := List.mem_map.1 ha
      exact hall.1 i hi
    · intro a ha
      obtain ⟨i, hi, rfl⟩ := Option.map_eq_some_iff.1 ha
      exact hall.2.2 i hi

theorem sound_reset (g : T → KM σ F64) (B : T → Prop) (p : Population T) (tr : List (Ev T)) (h : Sound g B p tr) :
    Sound g B Population.empty tr :=
  ⟨h.1, ⟨by simp [Population.empty], by simp [Population.empty], by simp [Population.empty]⟩, h.2.2⟩

theorem sound_fresh (g : T → KM σ F64) (B : T → Prop) {w : St σ T (Population T)} (h : Fresh Population.empty w) :
    On (Sound g B) w := by
  unfold On
  rw [h.1, h.2]
  exact ⟨by intro b e a h; simp at h, ⟨by simp [Population.empty], by simp [Population.empty], by simp [Population.empty]⟩,
    by simp⟩

theorem after_goal (c : Comps σ T) (k : Call σ T) : (after c k).goal = c.goal := by cases k <;> rfl

theorem always_bears {g : T → KM σ F64} (ks : List (Call σ T)) : ∀ (c : Comps σ T), c.goal = g → Always Legal c ks →
    Always (Bears g (fun _ => True)) c ks := by
  induction ks with
  | nil => intro c hg hl; exact ⟨hl, hg, by simp, by simp⟩
  | cons k ks ih =>
    intro c hg hl
    exact ⟨⟨hl.1, hg, by simp, by simp⟩, ih _ ((after_goal c k).trans hg) hl.2⟩

/-- C87: after any history, whatever panicked in it, every individual, the best and the worst carry the value that the goal
returned for their point; so did everything that was ever shown to a logger or a stop checker. -/
theorem C87_evaluated (c : Comps σ T) (ks : List (Call σ T)) (w : St σ T (Population T)) (h0 : Fresh ⟨[], none, none, 0⟩ w)
    (hl : Always Legal c ks) (rs : List (Except Err (Verif.GA.Ret T))) (c' : Comps σ T) (w' : St σ T (Population T))
    (hr : runCaught c ks w = (rs, c', w')) :
    Spec.OnlyEvaluated w'.trace ∧ (∀ i ∈ w'.mem.individuals, Spec.Evaluated w'.trace i.sol) ∧
      (∀ i, w'.mem.best = some i → Spec.Evaluated w'.trace i.sol) ∧
      (∀ i, w'.mem.worst = some i → Spec.Evaluated w'.trace i.sol) ∧
      (∀ x v, Ev.goal x v ∈ w'.trace → Returned (c.goal x) v) := by
  have := (inv_sound c.goal (fun _ => True)).run (sound_reset _ _) ks c w (always_bears ks c rfl hl) (sound_fresh _ _ h0)
  rw [hr] at this
  exact ⟨this.1, this.2.1.1, this.2.1.2.1, this.2.1.2.2, fun x v hm => (this.2.2 x v hm).2⟩

/-- C87: what a call returned, before or after any number of panics, was evaluated. -/
theorem C87_returned (c : Comps σ T) (ks : List (Call σ T)) (w : St σ T (Population T)) (h0 : Fresh ⟨[], none, none, 0⟩ w)
    (hl : Always Legal c ks) (rs : List (Except Err (Verif.GA.Ret T))) (c' : Comps σ T) (w' : St σ T (Population T))
    (hr : runCaught c ks w = (rs, c', w')) (a : Solution T) (ha : .ok (some (some a)) ∈ rs) :
    Spec.Evaluated w'.trace a := by
  obtain ⟨p, tr, ext, h1, h2, h3⟩ := (inv_sound c.goal (fun _ => True)).run_ret (sound_reset _ _) ks c w
    (always_bears ks c rfl hl) (sound_fresh _ _ h0) (some a) (by rw [hr]; exact ha)
  rw [hr] at h3
  rw [h3]
  exact (h1.2.1.state a h2.symm).append

/-! ## Everything stays in the intervals -/

variable {f : Fmt}

/-- RandomCreator and the pre-birth interval check are plugged in, with the same intervals. Other pre-birth components
may come before; those after it must only drop children. Everything else is arbitrary. -/
def CaughtBoxed (R : Rng σ) (size : Nat) (ivs : List (Fl f × Fl f)) (c : Comps σ (List (Fl f))) : Prop :=
  Legal c ∧ c.creator.toM = Creation.RandomCreator.create R ⟨size, ivs⟩ ∧
  ∃ pre chk post, c.preBirths = pre ++ chk :: post ∧ (∀ p xs, (chk p xs).toM = Selection.preBirthInterval ivs p xs) ∧
    ∀ g ∈ post, ∀ p xs ys, Returned (g p xs) ys → ∀ y ∈ ys, y ∈ xs

theorem returned_toM {m : KM σ α} {a : α} : Spec.Returned m.toM a ↔ Returned m a := by
  unfold Spec.Returned Returned KM.toM
  constructor
  · rintro ⟨s, s', h⟩
    rcases hm : m s with ⟨r, s1⟩
    rw [hm] at h
    cases r with
    | ok b =>
      simp only [Except.ok.injEq, Prod.mk.injEq] at h
      exact ⟨s, s1, by rw [hm, h.1]⟩
    | error e => cases h
  · rintro ⟨s, s', h⟩
    exact ⟨s, s', by rw [h]⟩

theorem caughtBoxed_bears (R : Rng σ) (size : Nat) (ivs : List (Fl f × Fl f)) (hf : Fmt.Embeds f Fmt.f64)
    (hivs : Spec.FiniteIncreasing ivs) (c : Comps σ (List (Fl f))) (h : CaughtBoxed R size ivs c) :
    Bears c.goal (Spec.InBox ivs) c := by
  obtain ⟨h1, h2, pre, chk, post, h3, h5, h4⟩ := h
  refine ⟨h1, rfl, ?_, ?_⟩
  · intro xs hx
    rw [← returned_toM, h2] at hx
    obtain ⟨s, s', hx⟩ := hx
    obtain ⟨ys, s2, hy, -, hb⟩ := C10_create R hf size ivs hivs s
    rw [hx] at hy; cases hy
    exact hb
  · intro p xs ys w w' hp y hy
    have hv := congrFun (view_preBirth p c.preBirths 0 xs w.mem) ⟨w.user, w.trace⟩
    rw [M.bind_run] at hv
    unfold view at hv
    have hw : (⟨w.user, w.trace, w.mem⟩ : St σ (List (Fl f)) _) = w := rfl
    dsimp only at hv
    rw [hw, hp] at hv
    rcases hm : Verif.GA.preBirth p 0 (c.preBirths.map (fun f p xs => (f p xs).toM)) xs ⟨w.user, w.trace⟩ with e | ⟨ys', w1⟩
    · rw [hm] at hv; cases hv
    rw [hm] at hv
    have hys : ys = ys' := by
      have := congrArg (fun r : Except Err _ => match r with | .ok a => a.1.1 | .error _ => []) hv
      exact this
    subst hys
    obtain ⟨evs, hpre, -⟩ := Verif.GA.preBirth_ok hm
    rw [h3, List.map_append, List.map_cons] at hpre
    obtain ⟨zs, e1, e2, -, hp2⟩ := Verif.GA.preBirths_append hpre
    cases hp2 with
    | cons hk hp3 =>
      have hmem := Verif.GA.preBirths_filter (fun g hg => by
        obtain ⟨g0, hg0, rfl⟩ := List.mem_map.1 hg
        intro p xs ys hret
        exact h4 g0 hg0 p xs ys (returned_toM.1 hret)) hp3 y hy
      obtain ⟨s, s', hk⟩ := hk
      replace hk : (chk p zs).toM s = _ := hk
      rw [h5] at hk
      have hlen : ∀ c ∈ zs, c.length = ivs.length := by
        by_contra hc
        push Not at hc
        rw [C14_wrong_length ivs p zs hc s] at hk
        simp at hk
      have hn : ∀ iv ∈ ivs, iv.1.isNan = false ∧ iv.2.isNan = false := by
        intro iv hiv
        have := Fl.lt_iff.1 (hivs iv hiv).2.2
        exact ⟨this.1, this.2.1⟩
      rw [C14_preBirth ivs hn p zs hlen s] at hk
      cases hk
      simpa using (List.mem_filter.1 hmem).2

theorem always_caughtBoxed (R : Rng σ) (size : Nat) (ivs : List (Fl f × Fl f)) (hf : Fmt.Embeds f Fmt.f64)
    (hivs : Spec.FiniteIncreasing ivs) (g : List (Fl f) → KM σ F64) (ks : List (Call σ (List (Fl f)))) :
    ∀ c : Comps σ (List (Fl f)), c.goal = g → Always (CaughtBoxed R size ivs) c ks → Always (Bears g (Spec.InBox ivs)) c ks := by
  induction ks with
  | nil => rintro c rfl h; exact caughtBoxed_bears R size ivs hf hivs c h
  | cons k ks ih =>
    rintro c rfl h
    exact ⟨caughtBoxed_bears R size ivs hf hivs c h.1, ih _ (after_goal c k) h.2⟩

/-- C87: with `RandomCreator` and the pre-birth interval check no panic lets a point outside the intervals into the
population, to the goal function, to a logger or to a stop checker, or be returned. -/
theorem C87_box (R : Rng σ) (size : Nat) (ivs : List (Fl f × Fl f)) (hf : Fmt.Embeds f Fmt.f64) (hivs : Spec.FiniteIncreasing ivs)
    (c : Comps σ (List (Fl f))) (ks : List (Call σ (List (Fl f)))) (w : St σ (List (Fl f)) (Population (List (Fl f))))
    (h0 : Fresh ⟨[], none, none, 0⟩ w) (hc : Always (CaughtBoxed R size ivs) c ks)
    (rs : List (Except Err (Verif.GA.Ret (List (Fl f))))) (c' : Comps σ (List (Fl f)))
    (w' : St σ (List (Fl f)) (Population (List (Fl f)))) (hr : runCaught c ks w = (rs, c', w')) :
    (∀ i ∈ w'.mem.individuals, Spec.InBox ivs i.chromosomes) ∧ (∀ e ∈ w'.trace, ShowsOnly (Spec.InBox ivs) e) ∧
    (∀ a, .ok (some (some a)) ∈ rs → Spec.InBox ivs a.1) := by
  have hb := always_caughtBoxed R size ivs hf hivs c.goal ks c rfl hc
  have hrun := (inv_sound c.goal (Spec.InBox ivs)).run (sound_reset _ _) ks c w hb (sound_fresh _ _ h0)
  rw [hr] at hrun
  obtain ⟨h1, h2, h3⟩ := hrun
  have key : ∀ before e after, w'.trace = before ++ e :: after → ∀ a, Spec.Evaluated before a → Spec.InBox ivs a.1 := by
    intro before e after hs a ha
    exact (h3 a.1 a.2 (by rw [hs]; exact List.mem_append_left _ ha)).1
  refine ⟨fun i hi => (h3 _ _ (h2.1 i hi)).1, ?_, ?_⟩
  · intro e he
    obtain ⟨before, after, hs⟩ := List.append_of_mem he
    have hsh := h1 before e after hs
    cases e with
    | goal x v => exact (h3 x v he).1
    | generation ags best worst it =>
      exact ⟨fun a ha => key _ _ _ hs a (hsh.1 a ha), fun a ha => key _ _ _ hs a (hsh.2.1 a ha),
        fun a ha => key _ _ _ hs a (hsh.2.2 a ha)⟩
    | log i k s => exact fun a ha => key _ _ _ hs a (hsh a ha)
    | check s b => exact fun a ha => key _ _ _ hs a (hsh a ha)
    | _ => trivial
  · intro a ha
    obtain ⟨p, tr, ext, q1, q2, -⟩ := (inv_sound c.goal (Spec.InBox ivs)).run_ret (sound_reset _ _) ks c w hb
      (sound_fresh _ _ h0) (some a) (by rw [hr]; exact ha)
    exact (q1.2.2 _ _ (q1.2.1.state a q2.symm)).1

/-! ## What a panic leaves behind -/

/-- The selections only kill, and so on for `P`. -/
def Kills (c : Comps σ T) : Prop := ∀ sel ∈ c.selections, OnlyKillsSelection sel

theorem legal_of_kills {c : Comps σ T} (h : Kills c) : Legal c := by
  intro sel hs s p r s' p' hr
  obtain ⟨h1, h2, h3, h4⟩ := h sel hs s p r s' p' hr
  refine ⟨h1, h2, h3, fun j hj => .inl ?_⟩
  clear h1 h2 h3 hr
  generalize p.individuals = l at h4
  generalize p'.individuals = l' at h4 hj
  induction h4 with
  | nil => cases hj
  | cons ha _ ih =>
    rcases List.mem_cons.1 hj with rfl | hj
    · rw [ha.1]; simp
    · rw [List.map_cons]; exact List.mem_cons_of_mem _ (ih hj)

theorem shown_kills {p p' : Population T} (h1 : p'.best = p.best) (h2 : p'.worst = p.worst) (h3 : p'.iteration = p.iteration)
    (h4 : List.Forall₂ (fun i j : Individual T => j.sol = i.sol ∧ (j.alive = true → i.alive = true))
      p.individuals p'.individuals) : shown p' = shown p := by
  have : p'.individuals.map Individual.sol = p.individuals.map Individual.sol := by
    clear h1 h2 h3
    generalize p.individuals = l at h4
    generalize p'.individuals = l' at h4
    induction h4 with
    | nil => rfl
    | cons ha _ ih => rw [List.map_cons, List.map_cons, ha.1, ih]
  unfold shown
  rw [h1, h2, h3, this]

/-- The memory is what the events since `tr0` make of `s0`. -/
def Replayed (tr0 : List (Ev T)) (s0 : Shown T) (p : Population T) (tr : List (Ev T)) : Prop :=
  ∃ evs, tr = tr0 ++ evs ∧ shown p = evs.foldl replay s0

theorem replayed_snoc {tr0 : List (Ev T)} {s0 : Shown T} {p p' : Population T} {tr : List (Ev T)} {e : Ev T}
    (h : Replayed tr0 s0 p tr) (he : shown p' = replay (shown p) e) : Replayed tr0 s0 p' (tr ++ [e]) := by
  obtain ⟨evs, rfl, h2⟩ := h
  refine ⟨evs ++ [e], by rw [List.append_assoc], ?_⟩
  rw [he, List.foldl_append, h2]
  rfl

theorem inv_replayed (tr0 : List (Ev T)) (s0 : Shown T) :
    Inv (σ := σ) Kills (fun _ _ => True) (Replayed tr0 s0) where
  creator := by simp
  preBirth := by simp
  log i k p tr h := replayed_snoc h rfl
  check b p tr h := replayed_snoc h rfl
  created xs p tr h := replayed_snoc h rfl
  quiet e p tr he hs _ h := by
    refine replayed_snoc h ?_
    cases e with
    | goal x v => exact absurd rfl (he x v)
    | generation => exact absurd hs id
    | _ => rfl
  born c x v p tr hc hb hg h := by
    refine replayed_snoc h ?_
    unfold shown replay
    simp [Individual.sol]
  select c sel s p r s' p' tr hc hm hr h := by
    obtain ⟨evs, h1, h2⟩ := h
    obtain ⟨k1, k2, k3, k4⟩ := hc sel hm s p r s' p' hr
    exact ⟨evs, h1, (shown_kills k1 k2 k3 k4).trans h2⟩
  finish p q tr hq h := by
    obtain ⟨evs, rfl, h2⟩ := h
    refine ⟨evs ++ [_], by rw [List.append_assoc], ?_⟩
    rw [List.foldl_append]
    rfl

/-- The generation number is that of the start plus the number of completed generations. -/
def Counted (tr0 : List (Ev T)) (n : Nat) (p : Population T) (tr : List (Ev T)) : Prop :=
  ∃ evs, tr = tr0 ++ evs ∧ p.iteration = n + completed evs

theorem counted_snoc {tr0 : List (Ev T)} {n : Nat} {p p' : Population T} {tr : List (Ev T)} {e : Ev T}
    (h : Counted tr0 n p tr) (he : p'.iteration = p.iteration + completed [e]) : Counted tr0 n p' (tr ++ [e]) := by
  obtain ⟨evs, rfl, h2⟩ := h
  refine ⟨evs ++ [e], by rw [List.append_assoc], ?_⟩
  rw [he, h2]
  unfold completed
  rw [List.filter_append, List.length_append]
  omega

theorem inv_counted (tr0 : List (Ev T)) (n : Nat) : Inv (σ := σ) Legal (fun _ _ => True) (Counted tr0 n) where
  creator := by simp
  preBirth := by simp
  log i k p tr h := counted_snoc h rfl
  check b p tr h := counted_snoc h rfl
  created xs p tr h := counted_snoc h rfl
  quiet e p tr he hs _ h := by
    refine counted_snoc h ?_
    cases e with
    | generation => exact absurd hs id
    | _ => rfl
  born c x v p tr hc hb hg h := counted_snoc h rfl
  select c sel s p r s' p' tr hc hm hr h := by
    obtain ⟨evs, h1, h2⟩ := h
    exact ⟨evs, h1, (hc sel hm s p r s' p' hr).2.2.1.trans h2⟩
  finish p q tr hq h := by
    obtain ⟨q', hr, hi, hit, hup⟩ := Population.updateBestWorst_run p.removeDead ()
    rw [hr] at hq
    cases hq
    refine counted_snoc h ?_
    show q.iteration + 1 = p.iteration + 1
    rw [hit]
    rfl

theorem of_both {α : Type} {m : KM (St σ T (Population T)) α} {w w' : St σ T (Population T)} {r : Except Err α}
    {Q : Population T → List (Ev T) → Prop} {R : α → St σ T (Population T) → Prop}
    (h : (∀ a w', m w = (.ok a, w') → On Q w' ∧ R a w') ∧ (∀ e w', m w = (.error e, w') → On Q w'))
    (hr : m w = (r, w')) : Q w'.mem w'.trace := by
  cases r with
  | ok a => exact (h.1 a w' hr).1
  | error e => exact h.2 e w' hr

/-- C87: what `next_iterations` leaves behind, whether it returns or a component panics, wherever. With selections that only
kill (all of the library do): the individuals, the best, the worst and the generation number are those of the last completed
generation - or those at the beginning of the call, if no generation was completed - and after the individuals come the
children that were evaluated since. -/
theorem C87_left (c : Comps σ T) (hc : Kills c) (fuel : Nat) (w w' : St σ T (Population T))
    (r : Except Err (Option (Solution T))) (hr : nextIterations fuel c w = (r, w')) :
    ∃ evs, w'.trace = w.trace ++ evs ∧ shown w'.mem = evs.foldl replay (shown w.mem) :=
  of_both ((inv_replayed w.trace (shown w.mem)).nextIterations hc fuel w ⟨[], by simp, rfl⟩) hr

/-- C87: the same for `find_min`, which begins with an empty population. -/
theorem C87_left_find_min (c : Comps σ T) (hc : Kills c) (fuel : Nat) (w w' : St σ T (Population T))
    (r : Except Err (Option (Solution T))) (hr : findMin fuel c w = (r, w')) :
    ∃ evs, w'.trace = w.trace ++ evs ∧ shown w'.mem = evs.foldl replay ⟨[], none, none, 0⟩ :=
  of_both ((inv_replayed w.trace ⟨[], none, none, 0⟩).findMin_reset hc fuel w ⟨[], by simp, rfl⟩) hr

/-- C87: with any legal selections an interrupted generation is not counted, a completed one is. -/
theorem C87_count (c : Comps σ T) (hc : Legal c) (fuel : Nat) (w w' : St σ T (Population T))
    (r : Except Err (Option (Solution T))) :
    (nextIterations fuel c w = (r, w') →
      ∃ evs, w'.trace = w.trace ++ evs ∧ w'.mem.iteration = w.mem.iteration + completed evs) ∧
    (findMin fuel c w = (r, w') → ∃ evs, w'.trace = w.trace ++ evs ∧ w'.mem.iteration = completed evs) := by
  constructor
  · intro hr
    exact of_both ((inv_counted w.trace w.mem.iteration).nextIterations hc fuel w ⟨[], by simp, rfl⟩) hr
  · intro hr
    obtain ⟨evs, h1, h2⟩ := of_both ((inv_counted w.trace 0).findMin_reset hc fuel w ⟨[], by simp, rfl⟩) hr
    exact ⟨evs, h1, by rw [h2, Nat.zero_add]⟩

/-- C87: `find_min` does not depend on what a panic (or anything else) left in the optimizer: it does what it does on a new
optimizer with the same components, in the same world. -/
theorem C87_restart (c : Comps σ T) (fuel : Nat) (w : St σ T (Population T)) :
    findMin fuel c w = findMin fuel c { w with mem := ⟨[], none, none, 0⟩ } := rfl

/-- C87: when the creator panics, the old population is gone. -/
theorem C87_creator (c : Comps σ T) (fuel : Nat) (w : St σ T (Population T)) (e : Err) (u : σ)
    (h : c.creator w.user = (.error e, u)) :
    findMin fuel c w = (.error e, ⟨u, w.trace, ⟨[], none, none, 0⟩⟩) := by
  unfold findMin
  rw [KM.bind_run]
  simp only [change, KM.modify]
  rw [KM.bind_run]
  simp only [lift, h]
  rfl

/-! ## The selections of the library -/

theorem onlyKills_ofSelection {sel : Population T → M σ (Population T)}
    (h : ∀ p s p' s', sel p s = .ok (p', s') → Spec.OnlyKills p p') : OnlyKillsSelection (ofSelection sel) := by
  intro s p r s' p' hr
  unfold ofSelection at hr
  dsimp only at hr
  rcases hs : sel p s with e | ⟨q, s1⟩
  · rw [hs] at hr
    cases hr
    refine ⟨rfl, rfl, rfl, ?_⟩
    generalize p.individuals = l
    induction l with
    | nil => exact .nil
    | cons i l ih => exact .cons ⟨rfl, id⟩ ih
  · rw [hs] at hr
    cases hr
    obtain ⟨h1, h2, h3, h4⟩ := h p s _ _ hs
    exact ⟨h1, h2, h3, h4.imp (fun i j ⟨a, b, c⟩ => ⟨by unfold Individual.sol; rw [a, b], c⟩)⟩

theorem checkLoop_kills [FloatT α] (ivs : List (α × α)) (l : List (Individual (List α))) :
    List.Forall₂ (fun i j : Individual (List α) => j.sol = i.sol ∧ (j.alive = true → i.alive = true)) l (checkLoop ivs l).2 := by
  induction l with
  | nil => exact .nil
  | cons i l ih =>
    have hid : ∀ l : List (Individual (List α)),
        List.Forall₂ (fun i j : Individual (List α) => j.sol = i.sol ∧ (j.alive = true → i.alive = true)) l l := by
      intro l
      induction l with
      | nil => exact .nil
      | cons i l ih => exact .cons ⟨rfl, id⟩ ih
    unfold checkLoop
    split
    · refine .cons ?_ ih
      split
      · exact ⟨rfl, fun h => by cases h⟩
      · exact ⟨rfl, id⟩
    · exact hid _

/-- C87: the library's selections only kill, also when they panic half-way. -/
theorem C87_library {f : Fmt} (ivs : List (Fl f × Fl f)) :
    OnlyKillsSelection (checkChromoInterval ivs : KM (σ × Population (List (Fl f))) Unit) ∧
    ∀ sel : Population (List (Fl f)) → M σ (Population (List (Fl f))), LibSelection sel →
      OnlyKillsSelection (ofSelection sel) := by
  refine ⟨?_, fun sel h => onlyKills_ofSelection (fun p s p' s' hr => (C17_one sel h p p' s s' hr).1)⟩
  intro s p r s' p' hr
  unfold checkChromoInterval at hr
  cases hr
  exact ⟨rfl, rfl, rfl, checkLoop_kills ivs _⟩

theorem checkLoop_forget [FloatT α] (ivs : List (α × α)) (l : List (Individual (List α))) (s : σ) :
    (M.mapL (fun (i : Individual (List α)) => do
      M.assert (i.chromosomes.length == ivs.length)
      pure (if Selection.anyBad i.chromosomes ivs then i.kill else i)) l : M σ _) s =
    match checkLoop ivs l with
    | (.ok _, l') => .ok (l', s)
    | (.error e, _) => .error e := by
  induction l with
  | nil => rfl
  | cons i l ih =>
    rw [M.mapL, M.bind_run, M.bind_run]
    unfold checkLoop
    cases hb : i.chromosomes.length == ivs.length
    · rfl
    · simp only [if_true, M.assert] at ih ⊢
      rw [M.pure_run]
      dsimp only
      rw [M.pure_run]
      dsimp only
      rw [M.bind_run, ih]
      rcases checkLoop ivs l with ⟨r, l'⟩
      cases r <;> rfl

/-- C87: without a look at what a panic leaves, the in-place selection is the one of the other theorems. -/
theorem C87_check [FloatT α] (ivs : List (α × α)) :
    forgetSelection (checkChromoInterval ivs : KM (σ × Population (List α)) Unit) = Selection.checkChromoInterval ivs := by
  funext p s
  unfold forgetSelection checkChromoInterval Selection.checkChromoInterval
  dsimp only
  rw [M.bind_run, checkLoop_forget]
  rcases checkLoop ivs p.individuals with ⟨r, l'⟩
  cases r <;> rfl

/-! ## Extremes -/

theorem inv_caught_extremes : Inv (σ := σ) (T := T) (fun _ => True) (fun _ _ => True)
    (fun _ tr => ∀ e ∈ tr, ReportsExtremes e) := by
  have snoc : ∀ (e : Ev T) (tr : List (Ev T)), ReportsExtremes e → (∀ e ∈ tr, ReportsExtremes e) →
      ∀ e' ∈ tr ++ [e], ReportsExtremes e' := by
    intro e tr he h e' he'
    rcases List.mem_append.1 he' with h' | h'
    · exact h e' h'
    · rw [List.mem_singleton] at h'; exact h' ▸ he
  refine ⟨by simp, by simp, ?_, ?_, ?_, ?_, ?_, ?_, ?_⟩
  · intro i k p tr h
    refine snoc _ _ ?_ h
    rintro _ _ _ _ h; cases h
  · intro b p tr h
    refine snoc _ _ ?_ h
    rintro _ _ _ _ h; cases h
  · intro xs p tr h
    refine snoc _ _ ?_ h
    rintro _ _ _ _ h; cases h
  · intro e p tr _ hs _ h
    exact snoc _ _ (reportsExtremes_silent hs) h
  · intro c x v p tr _ _ _ h
    refine snoc _ _ ?_ h
    rintro _ _ _ _ h; cases h
  · intro c sel s p r s' p' tr _ _ _ h
    exact h
  · intro p q tr hq h
    obtain ⟨q', hr, hi, hit, hup⟩ := Population.updateBestWorst_run p.removeDead ()
    rw [hr] at hq
    cases hq
    refine snoc _ _ ?_ h
    rintro ags best worst it h hne
    cases h
    have hne : q.individuals ≠ [] := by
      intro h; apply hne; unfold Verif.GA.agents; rw [show q.nextIteration.individuals = [] from h]; rfl
    obtain ⟨b, hb, hbm, hba⟩ := hup.best hne
    obtain ⟨w, hw, hwm, hwa⟩ := hup.worst hne
    exact ⟨⟨b.sol, by simp [Population.state, hb], isBest_of (p := q.nextIteration) hbm hba⟩,
      ⟨w.sol, by simp [hw], isWorst_of (p := q.nextIteration) hwm hwa⟩⟩

/-- C87: whatever panicked before, a completed generation with survivors reports a best and a worst that are extremal among
all survivors - the children that an interrupted generation left behind included. The components are arbitrary. -/
theorem C87_extremes (c : Comps σ T) (ks : List (Call σ T)) (w : St σ T (Population T)) (h0 : Fresh ⟨[], none, none, 0⟩ w)
    (ags : List (Solution T)) (best worst : Option (Solution T)) (it : Nat)
    (hm : Ev.generation ags best worst it ∈ (runCaught c ks w).2.2.trace) (hne : ags ≠ []) :
    (∃ b, best = some b ∧ IsBest ags b) ∧ (∃ b, worst = some b ∧ IsWorst ags b) :=
  inv_caught_extremes.run (fun _ _ h => h) ks c w (Caught.GA.always_true c ks)
    (by unfold On; rw [h0.2]; simp) _ hm _ _ _ _ rfl hne

/-! ## Concrete histories -/

/-- The demo optimizer with a goal function that panics when the script has just this many numbers left. -/
def caughtDemo (n : Nat) : Comps (List Nat) (List F64) :=
  { keep Demo.opt.comps with
    creator := .ofM (Creation.RandomCreator.create Rng.script ⟨4, Demo.ivs⟩)
    preBirths := [fun p xs => .ofM (Selection.preBirthInterval Demo.ivs p xs)]
    goal := fun x s => if s.length = n then (.error .user, s ++ [7]) else (.ok (TestFunc.paraboloid x), s)
    selections := [ofSelection Selection.killFitnessNaN, checkChromoInterval Demo.ivs, ofSelection (Selection.limitPopulation 4)] }

def caughtWorld : St (List Nat) (List F64) (Population (List F64)) := ⟨Demo.script, [], Population.empty⟩

/-- It meets the hypotheses of `C87_evaluated`, `C87_left` and `C87_box`. -/
example (n : Nat) : Kills (caughtDemo n) ∧ Legal (caughtDemo n) ∧ CaughtBoxed Rng.script 4 Demo.ivs (caughtDemo n) ∧
    Spec.FiniteIncreasing Demo.ivs ∧ Fresh ⟨[], none, none, 0⟩ caughtWorld := by
  have hk : Kills (caughtDemo n) := by
    intro sel hs
    have : sel ∈ [ofSelection Selection.killFitnessNaN, checkChromoInterval Demo.ivs,
      ofSelection (Selection.limitPopulation 4)] := hs
    simp only [List.mem_cons, List.not_mem_nil, or_false] at this
    rcases this with rfl | rfl | rfl
    · exact (C87_library Demo.ivs).2 _ .killFitnessNaN
    · exact (C87_library Demo.ivs).1
    · exact (C87_library Demo.ivs).2 _ (.limitPopulation 4)
  refine ⟨hk, legal_of_kills hk, ⟨legal_of_kills hk, ?_, [], _, [], rfl, ?_, by simp⟩, ?_, rfl, rfl⟩
  · unfold caughtDemo
    rw [KM.toM_ofM]
  · intro p xs; exact KM.toM_ofM _
  · unfold Spec.FiniteIncreasing Demo.ivs
    simp only [List.mem_singleton, forall_eq]
    decide +kernel

def panicked : Except Err α → Bool
  | .error .user => true
  | _ => false

def gaveBest : Except Err (Verif.GA.Ret T) → Bool
  | .ok (some (some _)) => true
  | _ => false

/-- The goal function panics in the second generation of `find_min`; the caller catches the panic and calls
`next_iterations`, which does one more generation and returns a point. -/
example :
    let r1 := runCaught (caughtDemo 1) [.findMin 4] caughtWorld
    let r2 := runCaught (caughtDemo 1) [.findMin 4, .nextIterations 4] caughtWorld
    (r1.1.map panicked == [true] && r1.2.2.mem.iteration == 1 && r1.2.2.mem.individuals.length == 4 &&
      r2.1.map panicked == [true, false] && r2.1.map gaveBest == [false, true] && r2.2.2.mem.iteration == 2) = true := by
  decide +kernel

/-- Integer genes, no randomness: three individuals 3, 1, 2; every generation the first individual alone has a child, itself
plus ten. The selection kills the first individual; the first time it panics after that. -/
def halfKill : Comps Nat Nat where
  goal x := pure (Fl.ofNat x)
  stop s := pure (decide (1 ≤ s.iteration))
  creator := pure [3, 1, 2]
  pairing _ := pure [[0]]
  cross ps := pure (ps.map (· + 10))
  mutation x := pure x
  selections := [fun w => (if w.1 = 0 then .error .user else .ok (), w.1 + 1,
    { w.2 with individuals := match w.2.individuals with | [] => [] | i :: is => i.kill :: is })]
  preBirths := []
  loggers := []

/-- The agents with their alive flags. -/
def flags (p : Population Nat) : List (Nat × Bool) := p.individuals.map (fun i => (i.chromosomes, i.alive))

/-- Who crossed with whom. -/
def parentsOf (tr : List (Ev T)) : List (List T) := tr.filterMap (fun | .crossed ps _ => some ps | _ => none)

/-- C87: the natural expectation that a killed individual never becomes a parent fails when the panic of a selection is
caught: the kills of the interrupted generation stay, and `next_iterations` pairs the dead. -/
theorem C87_dead_parents_witness : Kills halfKill ∧
    (let r := runCaught halfKill [.findMin 2] ⟨0, [], Population.empty⟩
     r.1.map panicked = [true] ∧ flags r.2.2.mem = [(3, false), (1, true), (2, true), (13, true)] ∧
       parentsOf r.2.2.trace = [[3]]) ∧
    (let r := runCaught halfKill [.findMin 2, .nextIterations 2] ⟨0, [], Population.empty⟩
     r.1.map panicked = [true, false] ∧ flags r.2.2.mem = [(1, true), (2, true), (13, true), (13, true)] ∧
       parentsOf r.2.2.trace = [[3], [3]]) := by
  refine ⟨?_, by decide +kernel, by decide +kernel⟩
  intro sel hs s p r s' p' hr
  have hs : sel = _ := List.mem_singleton.1 hs
  subst hs
  simp only [Prod.mk.injEq] at hr
  obtain ⟨-, -, rfl⟩ := hr
  refine ⟨rfl, rfl, rfl, ?_⟩
  have hid : ∀ l : List (Individual Nat),
      List.Forall₂ (fun i j : Individual Nat => j.sol = i.sol ∧ (j.alive = true → i.alive = true)) l l := by
    intro l
    induction l with
    | nil => exact .nil
    | cons i l ih => exact .cons ⟨rfl, id⟩ ih
  cases p.individuals with
  | nil => exact .nil
  | cons i is => exact .cons ⟨rfl, fun h => by cases h⟩ (hid is)

/-- C87: the library's own interval selection does this, too, when a chromosome of the wrong length follows a bad one: the bad
one is dead, the rest has not been looked at, the panic can be caught. -/
theorem C87_interval_witness :
    let p : Population (List F64) := ⟨[⟨[Fl.ofNat 20], Fl.one, true⟩, ⟨[], Fl.one, true⟩, ⟨[Fl.ofNat 30], Fl.one, true⟩],
      none, none, 0⟩
    ((checkChromoInterval Demo.ivs ((), p)).1 matches .error .assert) = true ∧
    (checkChromoInterval Demo.ivs ((), p)).2.2.individuals.map (·.alive) = [false, true, true] := by
  decide +kernel

end Verif.Props
