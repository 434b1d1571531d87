import Verif.Proofs.Recombine
import Verif.Props.GeneticBox
import Verif.Props.CrossBits
import Verif.Props.Mean

/-!
# C96: without mutation a genetic search only recombines what it began with
-/

namespace Verif.Props

open Verif Spec GA

variable {σ : Type} {f : Fmt}

/-- `Q` holds of every individual of the population, of the best and the worst individual it remembers, and of every point at which the
goal was called since the chromosomes were created. -/
def Throughout {T : Type} (Q : T → Prop) (p : Population T) (tr : List (Ev T)) : Prop :=
  (∀ i ∈ p.individuals, Q i.chromosomes) ∧ (∀ i, p.best = some i → Q i.chromosomes) ∧ (∀ i, p.worst = some i → Q i.chromosomes) ∧
  ∀ a ∈ goalsSince tr, Q a.1

theorem breeds_all {T : Type} (C : List T → T → Prop) (o o' : Opt σ T) (w w' : World σ T) (ks : List (Call σ T)) (pt : Point)
    (h0 : Fresh o w) (hc : Always (Breeds C) o.comps ks) (hr : runTo o ks pt w = .ok (o', w')) :
    Throughout (C (lastCreated w'.trace)) o'.pop w'.trace := by
  obtain ⟨⟨⟨h1, h2, h3⟩, h4⟩, -⟩ := (inv_breeds C).runTo hc hr (by rw [h0.1, h0.2]; simp [goalsSince])
  exact ⟨h1, h2, h3, h4⟩

theorem bits_breeds (p : Profile) (R : Rng σ) (c : Comps σ (List (Fl f))) (hc : Recombining (Cross.crossBitwise p R) c) :
    Breeds Inherits c := by
  have one : ∀ a b cs, Returned (Cross.crossBitwise p R [a, b] : M σ (List (Fl f))) cs →
      ∃ d pos, cs = [d] ∧ Splice pos a.bits b.bits d.bits := by
    rintro a b cs ⟨s, s', h⟩
    obtain ⟨d, s2, pos, h2, -, -, h3⟩ := C03_crossBitwise p R a b s
    rw [h] at h2; cases h2
    exact ⟨d, pos, rfl, h3⟩
  have := recombining_breeds (K := fun (xs : List (List (Fl f))) j (g : Fl f) =>
      ∀ i, i < f.w → ∃ h, HasGene xs j h ∧ h.bits.getLsbD i = g.bits.getLsbD i) hc
    (fun a b cs h => by obtain ⟨d, _, rfl, _⟩ := one a b cs h; rfl)
    (fun xs _ x hx => ⟨⟨x, hx, rfl⟩, fun j g hg i _ => ⟨g, ⟨x, hx, hg⟩, rfl⟩⟩)
    (by
      intro xs j a b d ha hb h i hi
      obtain ⟨d', pos, hd, hs⟩ := one a b _ h
      cases hd
      rw [hs i hi]
      split
      · exact hb i hi
      · exact ha i hi)
  exact ⟨this.legal, fun xs hx x hxm => ⟨(this.start xs hx x hxm).1, (this.start xs hx x hxm).2⟩,
    fun xs p evs p' hp g y hy =>
      have h := this.born xs p evs p' (fun i hi => ⟨(hp i hi).1, (hp i hi).2⟩) g y hy
      ⟨h.1, h.2⟩⟩

/-- C96: crossing bitwise without mutation, at every point of every history each bit of each gene of each individual, and of each point
at which the goal was called in this run, is found in the same gene of a chromosome with which the run began. -/
theorem C96_bits (p : Profile) (R : Rng σ) (o o' : Opt σ (List (Fl f))) (w w' : World σ (List (Fl f)))
    (ks : List (Call σ (List (Fl f)))) (pt : Point) (h0 : Fresh o w)
    (hc : Always (Recombining (Cross.crossBitwise p R)) o.comps ks) (hr : runTo o ks pt w = .ok (o', w')) :
    Throughout (Inherits (lastCreated w'.trace)) o'.pop w'.trace :=
  breeds_all _ o o' w w' ks pt h0 (Always.imp (bits_breeds p R) hc) hr

theorem inherits_const {xs : List (List (Fl f))} {x y : List (Fl f)} (hx : ∀ x' ∈ xs, x' = x) (h : Inherits xs y) : y = x := by
  obtain ⟨⟨z, hz, hl⟩, hg⟩ := h
  rw [hx z hz] at hl
  apply List.ext_getElem? 
  intro j
  rcases hy : y[j]? with _ | g
  · rw [eq_comm, List.getElem?_eq_none_iff, hl]; exact List.getElem?_eq_none_iff.1 hy
  · have hj : j < x.length := by rw [hl]; exact (List.getElem?_eq_some_iff.1 hy).1
    rw [List.getElem?_eq_getElem hj]
    congr 1
    have : x[j].bits = g.bits := by
      apply BitVec.eq_of_getLsbD_eq
      intro i hi
      obtain ⟨h, ⟨z', hz', hzj⟩, hb⟩ := hg j g hy i hi
      rw [hx z' hz', List.getElem?_eq_getElem hj] at hzj
      cases hzj
      exact hb
    cases hx' : x[j] with | mk b1 => cases g with | mk b2 => rw [hx'] at this; simpa using this.symm

/-- C96: if all chromosomes with which the run began are the same, crossing bitwise without mutation never calls the goal anywhere else. -/
theorem C96_uniform (p : Profile) (R : Rng σ) (o o' : Opt σ (List (Fl f))) (w w' : World σ (List (Fl f)))
    (ks : List (Call σ (List (Fl f)))) (pt : Point) (h0 : Fresh o w)
    (hc : Always (Recombining (Cross.crossBitwise p R)) o.comps ks) (hr : runTo o ks pt w = .ok (o', w'))
    (x : List (Fl f)) (hx : ∀ x' ∈ lastCreated w'.trace, x' = x) : Throughout (· = x) o'.pop w'.trace := by
  obtain ⟨h1, h2, h3, h4⟩ := C96_bits p R o o' w w' ks pt h0 hc hr
  exact ⟨fun i hi => inherits_const hx (h1 i hi), fun i hi => inherits_const hx (h2 i hi),
    fun i hi => inherits_const hx (h3 i hi), fun a ha => inherits_const hx (h4 a ha)⟩

/-! ## The mean -/

/-- The genes the creator makes are finite, and so are their doubles. -/
def Doublable (c : Comps σ (List (Fl f))) : Prop :=
  ∀ xs, Returned c.creator xs → ∀ x ∈ xs, ∀ g ∈ x, g.isFinite = true ∧ (g.add g).isFinite = true

/-- Between two genes that are found in the place `j` and whose doubles are finite. -/
def Mid (xs : List (List (Fl f))) (j : Nat) (g : Fl f) : Prop :=
  g.isFinite = true ∧ ∃ lo hi, HasGene xs j lo ∧ HasGene xs j hi ∧ lo.le g = true ∧ g.le hi = true ∧
    (lo.isFinite = true ∧ (lo.add lo).isFinite = true) ∧ (hi.isFinite = true ∧ (hi.add hi).isFinite = true)

theorem mid_mean {xs : List (List (Fl f))} {j : Nat} {a b d : Fl f} (ha : Mid xs j a) (hb : Mid xs j b)
    (h : Returned (Cross.crossMean [a, b] : M σ (List (Fl f))) [d]) : Mid xs j d := by
  obtain ⟨fa, lo1, hi1, ml1, mh1, l1, u1, ⟨fl1, dl1⟩, ⟨fh1, dh1⟩⟩ := ha
  obtain ⟨fb, lo2, hi2, ml2, mh2, l2, u2, ⟨fl2, dl2⟩, ⟨fh2, dh2⟩⟩ := hb
  obtain ⟨s, s', h⟩ := h
  have key : ∀ {x y : Fl f}, x.isFinite = true → y.isFinite = true → x.le y = true ∨ y.le x = true := by
    intro x y hx hy
    rw [Fl.le_iff, Fl.le_iff]
    have h1 := Fl.isNan_of_isFinite hx
    have h2 := Fl.isNan_of_isFinite hy
    rcases _root_.le_total x.toInt y.toInt with h | h
    · exact .inl ⟨h1, h2, h⟩
    · exact .inr ⟨h2, h1, h⟩
  obtain ⟨lo, ml, fl, dl, la, lb⟩ : ∃ lo, HasGene xs j lo ∧ lo.isFinite = true ∧ (lo.add lo).isFinite = true ∧
      lo.le a = true ∧ lo.le b = true := by
    rcases key fl1 fl2 with h | h
    · exact ⟨lo1, ml1, fl1, dl1, l1, Fl.le_trans h l2⟩
    · exact ⟨lo2, ml2, fl2, dl2, Fl.le_trans h l1, l2⟩
  obtain ⟨hi, mh, fh, dh, ua, ub⟩ : ∃ hi, HasGene xs j hi ∧ hi.isFinite = true ∧ (hi.add hi).isFinite = true ∧
      a.le hi = true ∧ b.le hi = true := by
    rcases key fh1 fh2 with h | h
    · exact ⟨hi2, mh2, fh2, dh2, Fl.le_trans u1 h, u2⟩
    · exact ⟨hi1, mh1, fh1, dh1, u1, Fl.le_trans u2 h⟩
  have hsum : (a.add b).isFinite = true := by
    have e1 : (lo.toInt : ℝ) ≤ a.toInt := by exact_mod_cast (Fl.le_iff.1 la).2.2
    have e2 : (lo.toInt : ℝ) ≤ b.toInt := by exact_mod_cast (Fl.le_iff.1 lb).2.2
    have e3 : (a.toInt : ℝ) ≤ hi.toInt := by exact_mod_cast (Fl.le_iff.1 ua).2.2
    have e4 : (b.toInt : ℝ) ≤ hi.toInt := by exact_mod_cast (Fl.le_iff.1 ub).2.2
    exact Fl.isFinite_of_between dl dh
      (Fl.Rounds.mono (Fl.add_rounds fl fl) (Fl.add_rounds fa fb) (by linarith))
      (Fl.Rounds.mono (Fl.add_rounds fa fb) (Fl.add_rounds fh fh) (by linarith))
  rcases key fa fb with hab | hab
  · obtain ⟨c, h2, fc, c1, c2⟩ := C07_between a b fa fb hab hsum s
    rw [h] at h2; cases h2
    exact ⟨fc, lo, hi, ml, mh, Fl.le_trans la c1, Fl.le_trans c2 ub, ⟨fl, dl⟩, ⟨fh, dh⟩⟩
  · obtain ⟨c, h2, fc, c1, c2⟩ := C07_between_symm a b fa fb hab hsum s
    rw [h] at h2; cases h2
    exact ⟨fc, lo, hi, ml, mh, Fl.le_trans lb c1, Fl.le_trans c2 ua, ⟨fl, dl⟩, ⟨fh, dh⟩⟩

theorem mean_breeds (c : Comps σ (List (Fl f))) (hc : Recombining Cross.crossMean c ∧ Doublable c) :
    Breeds (Genewise Mid) c := by
  refine recombining_breeds hc.1 ?_ ?_ (fun xs j a b d ha hb h => mid_mean ha hb h)
  · rintro a b cs ⟨s, s', h⟩
    unfold Cross.crossMean at h
    obtain ⟨_, _, -, h⟩ := M.bind_eq_ok.1 h
    cases h
    rfl
  · intro xs hxs x hx
    refine ⟨⟨x, hx, rfl⟩, fun j g hg => ?_⟩
    have hd := hc.2 xs hxs x hx g (List.mem_of_getElem? hg)
    have hle : g.le g = true := Fl.le_iff.2 ⟨Fl.isNan_of_isFinite hd.1, Fl.isNan_of_isFinite hd.1, _root_.le_refl _⟩
    exact ⟨hd.1, g, g, ⟨x, hx, hg⟩, ⟨x, hx, hg⟩, hle, hle, hd, hd⟩

/-- C96: crossing by the mean without mutation, at every point of every history each gene of each individual, and of each point at which
the goal was called in this run, lies between two genes that chromosomes with which the run began have in the same place. -/
theorem C96_mean (o o' : Opt σ (List (Fl f))) (w w' : World σ (List (Fl f)))
    (ks : List (Call σ (List (Fl f)))) (pt : Point) (h0 : Fresh o w)
    (hc : Always (fun c => Recombining Cross.crossMean c ∧ Doublable c) o.comps ks) (hr : runTo o ks pt w = .ok (o', w')) :
    Throughout (Between (lastCreated w'.trace)) o'.pop w'.trace := by
  obtain ⟨h1, h2, h3, h4⟩ := breeds_all _ o o' w w' ks pt h0 (Always.imp mean_breeds hc) hr
  have key : ∀ y, Genewise Mid (lastCreated w'.trace) y → Between (lastCreated w'.trace) y := by
    rintro y ⟨hl, hg⟩
    refine ⟨hl, fun j g hj => ?_⟩
    obtain ⟨fg, lo, hi, ml, mh, l, u, -, -⟩ := hg j g hj
    exact ⟨fg, lo, hi, ml, mh, l, u⟩
  exact ⟨fun i hi => key _ (h1 i hi), fun i hi => key _ (h2 i hi), fun i hi => key _ (h3 i hi), fun a ha => key _ (h4 a ha)⟩

/-! ## The hypotheses are met -/

theorem demo_doublable : Doublable Demo.opt.comps := by
  rintro xs ⟨s, s', h⟩ x hx g hg
  have hivs : FiniteIncreasing Demo.ivs := by
    unfold FiniteIncreasing Demo.ivs
    simp only [List.mem_singleton, forall_eq]
    decide +kernel
  obtain ⟨ys, s2, hy, -, hb⟩ := C10_create Rng.script (Fmt.embeds_refl _) 4 Demo.ivs hivs s
  rw [show Demo.opt.comps.creator = Creation.RandomCreator.create Rng.script ⟨4, Demo.ivs⟩ from rfl] at h
  rw [h] at hy; cases hy
  obtain ⟨j, hj, rfl⟩ := List.getElem_of_mem hg
  obtain ⟨iv, hiv, hin⟩ := forall₂_getElem? (hb x hx) (List.getElem?_eq_getElem hj)
  have hivm := List.mem_of_getElem? hiv
  have hd : ∀ iv ∈ Demo.ivs, iv.1.isFinite = true ∧ (iv.1.add iv.1).isFinite = true ∧
      iv.2.isFinite = true ∧ (iv.2.add iv.2).isFinite = true := by
    unfold Demo.ivs
    simp only [List.mem_singleton, forall_eq]
    decide +kernel
  obtain ⟨d1, d2, d3, d4⟩ := hd iv hivm
  have fg := hin.1
  have e1 : (iv.1.toInt : ℝ) ≤ x[j].toInt := by exact_mod_cast (Fl.le_iff.1 hin.2.1).2.2
  have e2 : (x[j].toInt : ℝ) ≤ iv.2.toInt := by exact_mod_cast (Fl.le_iff.1 hin.2.2).2.2
  exact ⟨fg, Fl.isFinite_of_between d2 d4
    (Fl.Rounds.mono (Fl.add_rounds d1 d1) (Fl.add_rounds fg fg) (by linarith))
    (Fl.Rounds.mono (Fl.add_rounds fg fg) (Fl.add_rounds d3 d3) (by linarith))⟩

theorem demo_recombining : Recombining Cross.crossMean Demo.opt.comps where
  legal := demo_legal
  cross := rfl
  mutation := ⟨Rng.script, Fl.zero, fun x => pure x, by decide +kernel, rfl⟩
  preBirths := by
    intro g hg
    obtain rfl : g = Selection.preBirthInterval Demo.ivs := by simpa [Demo.opt, GA.new] using hg
    exact preBirthInterval_filtering Demo.ivs

/-- The demo optimizer crosses by the mean, mutates with probability 0, and begins between 0 and 10. -/
example : Fresh Demo.opt Demo.world ∧ Always (fun c => Recombining Cross.crossMean c ∧ Doublable c) Demo.opt.comps [.findMin 3] :=
  ⟨demo_fresh, ⟨demo_recombining, demo_doublable⟩, ⟨demo_recombining, demo_doublable⟩⟩

/-- The demo optimizer crossing bitwise, beginning with 1, 2, 5 and 9. -/
def demoBits : Opt (List Nat) (List F64) :=
  { Demo.opt with comps := { Demo.opt.comps with
      creator := pure [[Fl.ofNat 1], [Fl.ofNat 2], [Fl.ofNat 5], [Fl.ofNat 9]]
      cross := Cross.vecCrossAllGenes (Cross.crossBitwise .debug Rng.script) } }

/-- Numbers that make it cut in the middle. -/
def demoBitsWorld : World (List Nat) (List F64) :=
  ⟨[0, 10, 50, 7, 7, 50, 10, 0, 50, 9, 2, 50, 4, 0, 50, 8, 7, 50, 8, 10, 50, 4, 9, 50, 9, 4, 50, 10, 8, 50, 7, 8, 50, 0, 4, 50, 2, 9, 50, 0], []⟩

theorem demoBits_recombining : Recombining (Cross.crossBitwise .debug Rng.script) demoBits.comps := by
  have h1 : demoBits.comps.selections = Demo.opt.comps.selections := rfl
  have h2 : demoBits.comps.cross = Cross.vecCrossAllGenes (Cross.crossBitwise .debug Rng.script) := rfl
  have h3 : demoBits.comps.mutation = Demo.opt.comps.mutation := rfl
  have h4 : demoBits.comps.preBirths = Demo.opt.comps.preBirths := rfl
  generalize demoBits.comps = c at *
  refine ⟨?_, h2, ?_, ?_⟩
  · unfold Legal; rw [h1]; exact demo_legal
  · rw [h3]; exact demo_recombining.mutation
  · rw [h4]; exact demo_recombining.preBirths

example : Fresh demoBits demoBitsWorld ∧ Always (Recombining (Cross.crossBitwise .debug Rng.script)) demoBits.comps [.findMin 3] :=
  ⟨⟨rfl, rfl⟩, ⟨demoBits_recombining, demoBits_recombining⟩⟩

/-- A run of it in which children are born that are no copies of the chromosomes it began with. -/
example : M.okAnd (runTo demoBits [.findMin 3] .done demoBitsWorld) (fun o w =>
    o.pop.iteration == 2 && (goalsSince w.trace).any (fun a => !(lastCreated w.trace).contains a.1)) = true := by decide +kernel

end Verif.Props
