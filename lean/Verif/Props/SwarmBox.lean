import Verif.Props.SwarmRun
import Verif.Props.GeneticBox
import Verif.Model.Hooks

/-!
# C41: MoveToBoundary confines the swarm
-/

set_option linter.unusedSectionVars false

namespace Verif.Props.Swarm

open Verif Spec Spec.Swarm PSO

variable {σ : Type} {f : Fmt}

/-! ## The hook alone -/

/-- C41: one coordinate. A number inside the interval is kept as it is, a number outside goes to the nearer end, NaN and
the infinities go to the lower end. -/
theorem C41_coordinate (lo hi x : Fl f) (h1 : lo.isFinite = true) (h2 : hi.isFinite = true) (h3 : lo.le hi = true) :
    (InInterval (lo, hi) x → Hooks.clampCoord (lo, hi) x = x) ∧
    (x.isFinite = true → x.lt lo = true → Hooks.clampCoord (lo, hi) x = lo) ∧
    (x.isFinite = true → hi.lt x = true → Hooks.clampCoord (lo, hi) x = hi) ∧
    (x.isFinite = false → Hooks.clampCoord (lo, hi) x = lo) := by
  have n1 := Fl.isNan_of_isFinite h1
  have n2 := Fl.isNan_of_isFinite h2
  have hlo : lo.lt lo = false := by
    rw [← Bool.not_eq_true, Fl.lt_iff]; simp
  have hlh : hi.lt lo = false := (Fl.not_lt n2 n1).2 h3
  simp only [Hooks.clampCoord, FloatT.isFinite, FloatT.lt]
  refine ⟨?_, ?_, ?_, ?_⟩
  · rintro ⟨g1, g2, g3⟩
    have n3 := Fl.isNan_of_isFinite g1
    have e1 : x.lt lo = false := (Fl.not_lt n3 n1).2 g2
    have e2 : hi.lt x = false := (Fl.not_lt n2 n3).2 g3
    simp [g1, e1, e2]
  · intro g1 g2
    simp [g1, g2, hlh]
  · intro g1 g2
    have n3 := Fl.isNan_of_isFinite g1
    have e1 : x.lt lo = false := (Fl.not_lt n3 n1).2 (Fl.le_trans h3 (Fl.le_of_lt g2))
    simp [g1, e1, g2]
  · intro g1
    simp [g1, hlo, hlh]

theorem clamp_in (iv : Fl f × Fl f) (x : Fl f) (h1 : iv.1.isFinite = true) (h2 : iv.2.isFinite = true)
    (h3 : iv.1.le iv.2 = true) : InInterval iv (Hooks.clampCoord iv x) := by
  obtain ⟨lo, hi⟩ := iv
  obtain ⟨a, b, c, d⟩ := C41_coordinate lo hi x h1 h2 h3
  have n1 := Fl.isNan_of_isFinite h1
  have n2 := Fl.isNan_of_isFinite h2
  have ilo : InInterval (lo, hi) lo := ⟨h1, Fl.le_refl n1, h3⟩
  have ihi : InInterval (lo, hi) hi := ⟨h2, h3, Fl.le_refl n2⟩
  cases hx : x.isFinite with
  | false => rw [d hx]; exact ilo
  | true =>
    have n3 := Fl.isNan_of_isFinite hx
    cases e1 : x.lt lo with
    | true => rw [b hx e1]; exact ilo
    | false =>
      cases e2 : hi.lt x with
      | true => rw [c hx e2]; exact ihi
      | false =>
        have : InInterval (lo, hi) x := ⟨hx, (Fl.not_lt n3 n1).1 e1, (Fl.not_lt n2 n3).1 e2⟩
        rw [a this]; exact this

theorem inBox_clamp : ∀ {ivs : List (Fl f × Fl f)} {xs : List (Fl f)}, FiniteIncreasing ivs → xs.length = ivs.length →
    InBox ivs (List.zipWith Hooks.clampCoord ivs xs)
  | [], [], _, _ => .nil
  | [], _ :: _, _, h => by simp at h
  | _ :: _, [], _, h => by simp at h
  | iv :: ivs, x :: xs, hi, hl => by
    obtain ⟨h1, h2, h3⟩ := hi iv (by simp)
    exact .cons (clamp_in iv x h1 h2 (Fl.le_of_lt h3))
      (inBox_clamp (fun iv hiv => hi iv (by simp [hiv])) (by simpa using hl))

/-- C41: the hook panics exactly when the dimensions differ; otherwise every coordinate ends inside its interval, whatever the
coordinates were, and a point inside the box is not touched. -/
theorem C41_hook (ivs : List (Fl f × Fl f)) (xs : List (Fl f)) (s : σ) :
    (xs.length ≠ ivs.length → Hooks.moveToBoundary ivs xs s = .error .assert) ∧
    (xs.length = ivs.length → FiniteIncreasing ivs → ∃ ys, Hooks.moveToBoundary ivs xs s = .ok (ys, s) ∧
      InBox ivs ys ∧ (InBox ivs xs → ys = xs)) := by
  constructor
  · intro h
    unfold Hooks.moveToBoundary
    rw [M.bind_eq_error]; left
    simp [M.assert, h, M.fail]
  · intro h hi
    refine ⟨_, M.bind_eq_ok.2 ⟨(), s, M.assert_eq_ok.2 ⟨by simpa using h, rfl⟩, rfl⟩, inBox_clamp hi h, ?_⟩
    intro hb
    clear h
    induction hb with
    | nil => rfl
    | @cons iv x ivs xs hx _ ih =>
      obtain ⟨h1, h2, h3⟩ := hi iv (by simp)
      rw [List.zipWith_cons_cons, (C41_coordinate iv.1 iv.2 x h1 h2 (Fl.le_of_lt h3)).1 hx,
        ih (fun iv hiv => hi iv (by simp [hiv]))]

/-- NaN, an infinity, a number below, one above and one inside. -/
example : M.okAnd (Hooks.moveToBoundary (σ := Unit) (List.replicate 5 ((Fl.zero : F64), Fl.ofNat 10))
    [Fl.nan, Fl.inf false, Fl.ofInt (-1), Fl.ofNat 11, Fl.ofNat 5] ())
    (fun ys _ => ys == [Fl.zero, Fl.zero, Fl.zero, Fl.ofNat 10, Fl.ofNat 5]) = true := by decide +kernel

/-! ## The swarm -/

section Closed

variable {α : Type} [FloatT α]

theorem always_imp {P Q : Comps σ α → Prop} (h : ∀ c, P c → Q c) :
    ∀ {ks : List (Call σ α)} {c : Comps σ α}, Always P c ks → Always Q c ks := by
  intro ks
  induction ks with
  | nil => intro c hp; exact h c hp
  | cons k ks ih => intro c hp; exact ⟨h c hp.1, ih hp.2⟩

/-- Whatever comes out of the post-move hooks is in `B`. -/
def HooksInto (B : List α → Prop) (c : Comps σ α) : Prop := ∀ x y, Hooked c.postMove x y → B y

/-- An event has nothing outside `B` to show: `ShowsOnly`, and the corrected coordinates. -/
def MovesInto (B : List α → Prop) : Ev (List α) → Prop
  | .moved _ x => B x
  | .goal x _ => B x
  | _ => True

theorem moves_into {B : List α → Prop} {c : Comps σ α} (hc : HooksInto B c) {ns : List Nat} {s s' : PSO.Swarm α}
    {evs : List (Ev (List α))} (h : Moves c ns s evs s') : ∀ e ∈ evs, MovesInto B e := by
  induction h with
  | nil => simp
  | cons _ hm _ ih =>
    obtain ⟨m⟩ := hm
    intro e he
    rcases List.mem_append.1 he with he | he
    · rw [m.events_ok] at he
      simp only [List.mem_cons, List.not_mem_nil, or_false] at he
      rcases he with rfl | rfl | rfl
      · trivial
      · exact hc _ _ m.moved
      · exact hc _ _ m.moved
    · exact ih e he

theorem inv_into (B : List α → Prop) : Inv (σ := σ) (α := α) (HooksInto B)
    (fun _ tr => ∀ e ∈ tr, MovesInto B e) where
  log := by
    intro p tr i k h e he
    rcases List.mem_append.1 he with he | he
    · exact h e he
    · rw [List.mem_singleton] at he; subst he; trivial
  check := by
    intro p tr b h e he
    rcases List.mem_append.1 he with he | he
    · exact h e he
    · rw [List.mem_singleton] at he; subst he; trivial
  begin := by
    rintro c p p' w w' hc h hr e he
    obtain ⟨raws, xs, vs, ps, -, -, -, hxs, hps, -, ht⟩ := begin_ok hr
    have hB : ∀ x ∈ xs, B x := by
      intro x hx
      obtain ⟨n, hn, rfl⟩ := List.getElem_of_mem hx
      exact hc _ _ ((List.forall₂_iff_get.1 hxs).2 n (by rw [hxs.length_eq]; exact hn) hn)
    rw [ht, List.cons_append, List.mem_append, List.mem_cons, List.mem_append, List.mem_map] at he
    rcases he with he | rfl | he | ⟨p, hp, rfl⟩
    · exact h e he
    · trivial
    · obtain ⟨a, b, -, hb, rfl⟩ := mem_zipWith he; exact hB b hb
    · obtain ⟨n, hn, rfl⟩ := List.getElem_of_mem hp
      have := (List.forall₂_iff_get.1 hps).2 n (by rw [hps.length_eq]; exact hn) hn
      simp only [List.get_eq_getElem] at this
      have h2 : ps[n].coordinates = ((xs.zip vs)[n]'(by rw [hps.length_eq]; exact hn)).1 := by
        rw [this.2]; rfl
      show B ps[n].coordinates
      rw [h2]
      exact hB _ (List.of_mem_zip (List.getElem_mem _)).1
  core := by
    rintro c p p' w w' hc h hr e he
    obtain ⟨evs, s1, hmv, -, ht⟩ := core_ok hr
    rw [ht, List.mem_append, List.mem_append, List.mem_singleton] at he
    rcases he with he | he | rfl
    · exact h e he
    · exact moves_into hc hmv e he
    · trivial

theorem into_all (B : List α → Prop) (o o' : Opt σ α) (w w' : World σ (List α)) (ks : List (Call σ α)) (pt : Point)
    (h0 : Fresh o w) (hc : Always (HooksInto B) o.comps ks) (hr : runTo o ks pt w = .ok (o', w')) :
    (∀ p ∈ o'.swarm.particles, B p.coordinates ∧ B p.bestCoords ∧ B p.worstCoords) ∧
    (∀ b, o'.swarm.best = some b → B b.coordinates) ∧ (∀ b, o'.swarm.worst = some b → B b.coordinates) ∧
    (∀ raw x, .moved raw x ∈ w'.trace → B x) ∧ (∀ e ∈ w'.trace, ShowsOnly B e) := by
  have h2 := ((inv_into B).runTo hc hr (by rw [h0.2]; simp)).1
  obtain ⟨hev, hp, hb, hw⟩ := C22_swarm_evaluated o o' w w' ks pt h0 hr
  have key : ∀ a, Evaluated w'.trace a → B a.1 := fun a ha => h2 _ ha
  refine ⟨fun p hpm => ⟨key _ (hp p hpm).1, key _ (hp p hpm).2.1, key _ (hp p hpm).2.2⟩, fun b h => key _ (hb b h),
    fun b h => key _ (hw b h), fun raw x hx => h2 _ hx, ?_⟩
  have key2 : ∀ before e after, w'.trace = before ++ e :: after → ∀ a, Evaluated before a → B a.1 := by
    intro before e after hs a ha
    exact h2 _ (by rw [hs]; exact List.mem_append_left _ ha)
  intro e he
  obtain ⟨before, after, hs⟩ := List.append_of_mem he
  have hsh := hev before e after hs
  cases e with
  | goal x v => exact h2 _ he
  | generation ags best worst it =>
    exact ⟨fun a ha => key2 _ _ _ hs a (hsh.1 a ha), fun a ha => key2 _ _ _ hs a (hsh.2.1 a ha),
      fun a ha => key2 _ _ _ hs a (hsh.2.2 a ha)⟩
  | log i k s => exact fun a ha => key2 _ _ _ hs a (hsh a ha)
  | check s b => exact fun a ha => key2 _ _ _ hs a (hsh a ha)
  | _ => trivial

theorem into_ret (B : List α → Prop) (o o' : Opt σ α) (w w' : World σ (List α)) (ks : List (Call σ α))
    (rs : List (Ret α)) (h0 : Fresh o w) (hc : Always (HooksInto B) o.comps ks)
    (hr : run o ks w = .ok ((rs, o'), w')) (a : Solution (List α)) (ha : some (some a) ∈ rs) : B a.1 := by
  have h1 := C22_swarm_returned o o' w w' ks rs h0 hr a ha
  have hto : runTo o ks .done w = .ok (o', w') := by
    unfold runTo; exact M.bind_eq_ok.2 ⟨_, _, hr, rfl⟩
  exact (into_all B o o' w w' ks .done h0 hc hto).2.2.2.2 _ h1

theorem hooked_append {hs hs' : List (List α → M σ (List α))} {x z : List α} (h : Hooked (hs ++ hs') x z) :
    ∃ y, Hooked hs x y ∧ Hooked hs' y z := by
  induction hs generalizing x with
  | nil => exact ⟨x, .nil, h⟩
  | cons k hs ih =>
    cases h with
    | cons h1 h2 =>
      obtain ⟨y, h3, h4⟩ := ih h2
      exact ⟨y, .cons h1 h3, h4⟩

end Closed

/-- MoveToBoundary is plugged in as the last hook; nothing else is assumed of the components. -/
def BoundaryLast (ivs : List (Fl f × Fl f)) (c : Comps σ (Fl f)) : Prop :=
  ∃ pre, c.postMove = pre ++ [Hooks.moveToBoundary ivs]

theorem boundary_into (ivs : List (Fl f × Fl f)) (hivs : FiniteIncreasing ivs) (c : Comps σ (Fl f))
    (h : BoundaryLast ivs c) : HooksInto (InBox ivs) c := by
  obtain ⟨pre, hp⟩ := h
  intro x y hxy
  rw [hp] at hxy
  obtain ⟨z, -, hz⟩ := hooked_append hxy
  cases hz with
  | cons hk hn =>
    cases hn
    obtain ⟨s, s', hk⟩ := hk
    by_cases hl : z.length = ivs.length
    · obtain ⟨ys, h1, h2, -⟩ := (C41_hook ivs z s).2 hl hivs
      rw [hk] at h1; cases h1; exact h2
    · rw [(C41_hook ivs z s).1 hl] at hk; simp at hk

/-- C41: at every point of every history all coordinates, personal bests and worsts, the best and worst particle are in the
box, every move ended in the box, the goal was only called in the box, and so is everything shown to loggers and
stop checkers. Velocities, the velocity calculator and the initial coordinates are arbitrary. -/
theorem C41_swarm (ivs : List (Fl f × Fl f)) (hivs : FiniteIncreasing ivs) (o o' : Opt σ (Fl f))
    (w w' : World σ (List (Fl f))) (ks : List (Call σ (Fl f))) (pt : Point) (h0 : Fresh o w)
    (hc : Always (BoundaryLast ivs) o.comps ks) (hr : runTo o ks pt w = .ok (o', w')) :
    (∀ p ∈ o'.swarm.particles, InBox ivs p.coordinates ∧ InBox ivs p.bestCoords ∧ InBox ivs p.worstCoords) ∧
    (∀ b, o'.swarm.best = some b → InBox ivs b.coordinates) ∧
    (∀ b, o'.swarm.worst = some b → InBox ivs b.coordinates) ∧
    (∀ raw x, .moved raw x ∈ w'.trace → InBox ivs x) ∧ (∀ e ∈ w'.trace, ShowsOnly (InBox ivs) e) :=
  into_all _ o o' w w' ks pt h0 (always_imp (boundary_into ivs hivs) hc) hr

/-- C41: what `find_min` and `next_iterations` return is in the box. -/
theorem C41_returned (ivs : List (Fl f × Fl f)) (hivs : FiniteIncreasing ivs) (o o' : Opt σ (Fl f))
    (w w' : World σ (List (Fl f))) (ks : List (Call σ (Fl f))) (rs : List (Ret (Fl f))) (h0 : Fresh o w)
    (hc : Always (BoundaryLast ivs) o.comps ks) (hr : run o ks w = .ok ((rs, o'), w'))
    (a : Solution (List (Fl f))) (ha : some (some a) ∈ rs) : InBox ivs a.1 :=
  into_ret _ o o' w w' ks rs h0 (always_imp (boundary_into ivs hivs) hc) hr a ha

/-- The demo optimizer has the hook; its run is `demo_runTo`. -/
example : Always (BoundaryLast SwarmDemo.ivs) SwarmDemo.opt.comps SwarmDemo.calls ∧ FiniteIncreasing SwarmDemo.ivs ∧
    Fresh SwarmDemo.opt SwarmDemo.world := by
  refine ⟨⟨⟨[], rfl⟩, ⟨[], rfl⟩, ⟨[], rfl⟩, ⟨[], rfl⟩⟩, ?_, demo_fresh⟩
  unfold FiniteIncreasing SwarmDemo.ivs
  simp only [List.mem_singleton, forall_eq]
  decide +kernel

end Verif.Props.Swarm
