import Verif.Props.StatRecord
import Verif.Props.StatSwarm
import Verif.Props.GeneticExamples
import Verif.Proofs.GeneticFuel

/-!
# C77: the runs of the genetic statistics programs
-/

namespace Verif.Props

open Verif Spec GA Examples Fl Stats Workers StatPrograms
open _root_.Verif.PSO (goalArgs_length goalsOf_append' goalsOf_logBlock)
open _root_.Verif.Props.Swarm (LibStop rowsOf_withoutLogs)

variable {σ τ : Type}

section

variable {R : Rng σ} {size : Nat} {ivs : List (F32 × F32)}

/-- Few families: half of the population, or a tournament for at most half of it. -/
def FewFamilies (R : Rng σ) (size : Nat) (c : Comps σ (List F32)) : Prop :=
  c.pairing = Pairing.randomPairing R ∨ ∃ families rounds, families ≤ (size + 1) / 2 ∧
    c.pairing = Pairing.tournament R (((Pairing.Tournament.new families).withPartners 2).withRounds rounds)

theorem retain_length {β : Type} {keep : β → M σ Bool} : ∀ {xs ys : List β} {s s' : σ},
    Selection.retain keep xs s = .ok (ys, s') → ys.length ≤ xs.length := by
  intro xs
  induction xs with
  | nil => intro ys s s' h; obtain ⟨rfl, -⟩ := M.pure_eq_ok.1 h; exact Nat.le_refl _
  | cons x xs ih =>
    intro ys s s' h
    obtain ⟨b, s1, -, h⟩ := M.bind_eq_ok.1 h
    obtain ⟨r, s2, h2, h⟩ := M.bind_eq_ok.1 h
    obtain ⟨rfl, -⟩ := M.pure_eq_ok.1 h
    have := ih h2
    cases b <;> simp only [List.length_cons, Bool.false_eq_true, if_false, if_true] <;> omega

/-- One child from each family. -/
theorem born_few {c : Comps σ (List F32)} (h : LibProgram R size ivs c) (hfew : FewFamilies R size c)
    {p p' : Population (List F32)} {evs : List (Ev (List F32))} (g : Generation c p evs p') (hne : p.individuals ≠ [])
    (hlen : p.individuals.length ≤ size + 1) : g.born.length ≤ (size + 1) / 2 := by
  have h1 : g.families.length ≤ (size + 1) / 2 := by
    obtain ⟨s, s', hp⟩ := g.pairing_ok
    rcases hfew with hf | ⟨families, rounds, hle, hf⟩
    · obtain ⟨fams, s2, h2, h3, -⟩ := C19_pairs R p hne s
      rw [hf, h2] at hp
      cases hp
      rw [h3]
      exact Nat.div_le_div_right hlen
    · obtain ⟨fams, s2, h2, h3, -⟩ := C20_shape R (((Pairing.Tournament.new families).withPartners 2).withRounds rounds) p hne s
      rw [hf, h2] at hp
      cases hp
      rw [h3]
      exact hle
  have h2 : g.children.flatten.length = g.children.length := by
    obtain ⟨single, -, hcr⟩ := h.cross
    have : ∀ ks ∈ g.children, ks.length = 1 := by
      intro ks hks
      obtain ⟨i, hi, rfl⟩ := List.getElem_of_mem hks
      have hf := List.forall₂_iff_get.1 g.cross_ok
      obtain ⟨s, s', hr⟩ := hf.2 i (by rw [hf.1]; exact hi) hi
      generalize g.parents.get _ = ps at hr
      rw [hcr] at hr
      unfold Cross.vecCrossAllGenes at hr
      obtain ⟨_, _, _, hr⟩ := M.bind_eq_ok.1 hr
      obtain ⟨_, _, _, hr⟩ := M.bind_eq_ok.1 hr
      obtain ⟨_, _, _, hr⟩ := M.bind_eq_ok.1 hr
      obtain ⟨_, _, _, hr⟩ := M.bind_eq_ok.1 hr
      obtain ⟨hr, -⟩ := M.pure_eq_ok.1 hr
      simp only [List.get_eq_getElem] at hr
      rw [← hr]; rfl
    have h3 : ∀ l : List (List (List F32)), (∀ ks ∈ l, ks.length = 1) → l.flatten.length = l.length := by
      intro l
      induction l with
      | nil => intro _; rfl
      | cons a l ih =>
        intro hl
        rw [List.flatten_cons, List.length_append, List.length_cons, ih fun ks hk => hl ks (List.mem_cons_of_mem _ hk),
          hl a List.mem_cons_self]
        omega
    exact h3 _ this
  have h3 : g.born.length ≤ g.mutants.length := by
    have hp := g.preBirth_ok
    rw [h.preBirths] at hp
    generalize g.preEvs = pe at hp
    generalize g.born = b at hp ⊢
    cases hp with
    | cons hk hp =>
      cases hp
      obtain ⟨s, s', hk⟩ := hk
      exact retain_length hk
  rw [← g.mutation_ok.length_eq, h2, ← g.cross_ok.length_eq, ← g.parents_ok.length_eq] at h3
  omega

/-- The population of a run of such a program. -/
def Keeps (size : Nat) (ivs : List (F32 × F32)) (goal : List F32 → M σ F64) (p : Population (List F32)) : Prop :=
  Lasts (InBox ivs) goal p ∧ p.individuals.length ≤ size + 1

theorem keeps_step {c : Comps σ (List F32)} (h : LibProgram R size ivs c) (hlim : Limited size c)
    {p p1 : Population (List F32)} {w w1 : World σ (List F32)} (hp : Keeps size ivs c.goal p) (hr : step c p w = .ok (p1, w1)) :
    Keeps size ivs c.goal p1 ∧ p1.state.best ≠ none := by
  rcases good_step (F := False) (C71_lasting R Fmt.embeds_f32 size ivs c h) p hp.1 w with ⟨q, w2, h1, h2, h3⟩ | ⟨hf, -⟩
  swap
  · exact hf.elim
  rw [hr] at h1
  cases h1
  obtain ⟨w2, h4, -⟩ := step_ok.1 hr
  obtain ⟨evs, gen, -, -⟩ := core_ok h4
  refine ⟨⟨h2, ?_⟩, ?_⟩
  · rw [gen.alive_ok]
    exact (limited_select hlim gen.select_ok).1
  · obtain ⟨b, hb, -⟩ := h2.best (by omega)
    show p1.best.map Individual.sol ≠ none
    rw [hb]
    exact Option.some_ne_none _

theorem created_size {c : Comps σ (List F32)} (h : LibProgram R size ivs c) (xs : List (List F32))
    (hx : Returned c.creator xs) : xs.length = size := by
  obtain ⟨s, s', hx⟩ := hx
  obtain ⟨ys, s2, h1, h2, -⟩ := C10_create R Fmt.embeds_f32 size ivs h.intervals s
  rw [h.creator, h1] at hx
  cases hx
  exact h2

theorem keeps_begin {c : Comps σ (List F32)} (h : LibProgram R size ivs c) {p : Population (List F32)}
    {w w1 : World σ (List F32)} (hr : begin c w = .ok (p, w1)) : Keeps size ivs c.goal p := by
  rcases good_first (F := False) (C71_lasting R Fmt.embeds_f32 size ivs c h) ⟨[], none, none, 0⟩ w with ⟨q, w2, h1, h2, -⟩ | ⟨hf, -⟩
  swap
  · exact hf.elim
  have h1 : begin c w = .ok (q, w2) := h1
  rw [hr] at h1
  cases h1
  obtain ⟨xs, vals, hx, hv, hp, -⟩ := begin_ok hr
  refine ⟨h2, ?_⟩
  rw [hp]
  show (newborn xs vals).length ≤ _
  have := created_size h xs hx
  have := hv.length_eq
  unfold newborn
  rw [List.length_zipWith]
  omega

theorem lib_row {o o' : Opt σ (List F32)} (h : LibProgram R size ivs o.comps) (hlim : Limited size o.comps)
    (hfew : FewFamilies R size o.comps) {fuel : Nat} {r : Option (Solution (List F32))} {w w' : World σ (List F32)}
    (hr : findMin fuel o w = .ok ((r, o'), w')) (h0 : w.trace = []) : ∃ row, rowsOf w'.trace = [row] ∧
      row.length = o'.pop.iteration ∧ (row = [] ∨ row.getLast? = some r) ∧ none ∉ row ∧
      size ≤ (goalsOf w'.trace).length ∧ (goalsOf w'.trace).length ≤ size + (size + 1) / 2 * row.length ∧
      (∀ a ∈ goalsOf w'.trace, Returned (o.comps.goal a.1) a.2) ∧
      ∀ (i : Nat) best, row[i]? = some best → ∃ before ags worst it after,
        w'.trace = before ++ .generation ags best worst it :: after ∧
        (goalsOf before).length ≤ size + (size + 1) / 2 * (i + 1) :=
  findMin_row (J := Keeps size ivs o.comps.goal)
    (fun p evs p' g hJ => born_few h hfew g (by
      obtain ⟨i, hi, -⟩ := hJ.1.finite
      exact List.ne_nil_of_mem hi) hJ.2)
    (fun p p1 w w1 hJ hs => keeps_step h hlim hJ hs) (fun p w w1 hb => keeps_begin h hb) (created_size h)
    (limited_legal hlim) hr h0

theorem mem_goalsOf {T : Type} {tr : List (Ev T)} {a : Solution T} : a ∈ goalsOf tr ↔ Ev.goal a.1 a.2 ∈ tr := by
  unfold goalsOf
  rw [List.mem_filterMap]
  constructor
  · rintro ⟨e, he, h⟩
    cases e <;> simp at h
    obtain rfl := h
    exact he
  · intro h
    exact ⟨_, h, rfl⟩

theorem ga_run_one {T : Type} {o o' : Opt σ T} {fuel : Nat} {r : Option (Solution T)} {w w' : World σ T}
    (h : findMin fuel o w = .ok ((r, o'), w')) : GA.run o [.findMin fuel] w = .ok (([some r], o'), w') := by
  unfold GA.run
  exact M.bind_eq_ok.2 ⟨(some r, o'), w', M.bind_eq_ok.2 ⟨(r, o'), w', h, rfl⟩, M.bind_eq_ok.2 ⟨([], o'), w', rfl, rfl⟩⟩

theorem ga_run_error {T : Type} {o : Opt σ T} {fuel : Nat} {e : Err} {w : World σ T}
    (h : findMin fuel o w = .error e) : GA.run o [.findMin fuel] w = .error e := by
  unfold GA.run
  exact M.bind_eq_error.2 (.inl (M.bind_eq_error.2 (.inl h)))

/-- What a job makes of a run of its optimizer without counter and logger. -/
theorem genetic_job {o o' : Opt σ (List F32)} (p : Profile) {fuel : Nat} {s : σ} {a : Option (Solution (List F32))}
    {w' : World σ (List F32)} (h : findMin fuel o ⟨s, []⟩ = .ok ((a, o'), w')) (h0 : goalsOf w'.trace ≠ [])
    (hfit : (goalsOf w'.trace).length < 2 ^ 64) :
    geneticJob p (pure o) fuel s = .ok ((⟨[a], rowsOf w'.trace⟩, [(goalsOf w'.trace).length]), w'.user) := by
  have hcnt := C52_genetic o o' p [.findMin fuel] ⟨s, []⟩ w' CallCount.new (goalsOf w'.trace).length _ (ga_run_one h)
    (by rw [goalArgs_length]; simp [goalArgs]) (by show 0 + _ < _; omega)
  obtain ⟨t', tr', h2, -, htr⟩ := (C70_genetic (C70_statistics p) (o.counted p) 0 fuel [] ⟨(s, CallCount.new), []⟩ Statistics.new
    trivial).returns _ _ (by
      show gaView (GA.run (o.counted p) [.findMin fuel] ⟨(s, CallCount.new), []⟩) = _
      rw [show GA.run (o.counted p) [.findMin fuel] ⟨(s, CallCount.new), []⟩ = _ from hcnt]; rfl)
  have h2 : gaView (GA.run ((o.counted p).attach 0 (Stats.logger p)) [.findMin fuel]
    ⟨((s, CallCount.new), Statistics.new), []⟩) = _ := h2
  cases h3 : findMin fuel ((o.counted p).attach 0 (Stats.logger p)) ⟨((s, CallCount.new), Statistics.new), []⟩ with
  | error e => rw [ga_run_error h3] at h2; cases h2
  | ok q =>
    obtain ⟨⟨r, o2⟩, w2⟩ := q
    have hrun2 := ga_run_one h3
    rw [hrun2] at h2
    simp only [gaView, Except.ok.injEq, Prod.mk.injEq, List.cons.injEq, Option.some.injEq, and_true] at h2
    obtain ⟨⟨rfl, h4⟩, rfl⟩ := h2
    have hpriv := GA.attach_private (o.counted p) (Nat.zero_le _) (Stats.logger p)
    obtain ⟨k1, k2⟩ := C50_genetic_fresh p (Lens.snd _ _) 0 _ o2 [.findMin fuel] ⟨hpriv, hpriv⟩ _ _ rfl rfl _ hrun2
    rw [← rowsOf_withoutLogs, htr, rowsOf_withoutLogs] at k2
    have hd : t' = ⟨[r], rowsOf w'.trace⟩ := by
      have k1 : t'.results = [r] := k1
      have k2 : t'.convergence = rowsOf w'.trace := k2
      cases t'
      simp only at k1 k2
      rw [k1, k2]
    refine M.bind_eq_ok.2 ⟨o, s, rfl, ?_⟩
    rw [h3]
    simp only [hd]
    congr 3
    show countUp [] _ = _
    unfold countUp
    cases hm : (goalsOf w'.trace).length with
    | zero => exact absurd (List.length_eq_zero_iff.1 hm) h0
    | succ k => rfl

/-- The record of a run of a program put together from the library; `o2` is an optimizer with the same run, that is `o` with or
without overflow checks. -/
theorem genetic_recorded (p : Profile) {o o1 o2 o2' : Opt σ (List F32)} (h : LibProgram R size ivs o.comps)
    (hlim : Limited size o.comps) (hfew : FewFamilies R size o.comps) {fuel : Nat} {s : σ} (h0 : Fresh o ⟨s, []⟩) {m : Nat}
    (hfit : size + (size + 1) / 2 * m < 2 ^ 64) {a : Solution (List F32)} {w' : World σ (List F32)}
    (hr : findMin fuel o ⟨s, []⟩ = .ok ((some a, o1), w')) (hr2 : findMin fuel o2 ⟨s, []⟩ = .ok ((some a, o2'), w'))
    (h1 : 1 ≤ o1.pop.iteration) (hm : o1.pop.iteration ≤ m) :
    ∃ d s', geneticJob p (pure o2) fuel s = .ok (d, s') ∧
      GeneticRecord size ((size + 1) / 2) m ivs (fun x v => Returned (o.comps.goal x) v) d ∧
      d.1.convergence.map List.length = [o1.pop.iteration] ∧ d.1 = ⟨[some a], rowsOf w'.trace⟩ ∧ s' = w'.user := by
  obtain ⟨row, hrow, hlen, hlast, hsome, hlo, hhi, hret, hpre⟩ := lib_row h hlim hfew hr rfl
  have hleg := limited_legal hlim
  have hto : runTo o [.findMin fuel] .done ⟨s, []⟩ = .ok (o1, w') := M.bind_eq_ok.2 ⟨_, _, ga_run_one hr, rfl⟩
  have hbox := (C28_box R size ivs Fmt.embeds_f32 h.intervals o o1 _ w' [.findMin fuel] .done h0 ⟨⟨hleg, h.creator, [], [],
    h.preBirths, fun g hg => absurd hg List.not_mem_nil⟩, ⟨hleg, h.creator, [], [], h.preBirths, fun g hg => absurd hg List.not_mem_nil⟩⟩ hto).2
  have hev := (C22_evaluated o o1 _ w' [.findMin fuel] .done h0 ⟨hleg, hleg⟩ hto).1
  have hpos := h.positive
  have hmul : (size + 1) / 2 * row.length ≤ (size + 1) / 2 * m := Nat.mul_le_mul_left _ (by omega)
  have hjob := genetic_job p hr2 (by intro he; rw [he] at hlo; simp at hlo; omega) (by omega)
  rw [hrow] at hjob
  refine ⟨_, _, hjob, ⟨goalsOf w'.trace, a, row, rfl, by omega, by omega, hlo, hhi, ?_, ?_, ?_⟩, by
    simp only [List.map_cons, List.map_nil, hlen], by rw [hrow], rfl⟩
  · rcases hlast with hl | hl
    · rw [hl] at hlen; simp at hlen; omega
    · exact hl
  · intro b hb
    have hb1 : InBox ivs b.1 := hbox _ (mem_goalsOf.1 hb)
    refine ⟨hb1, hret b hb, ?_⟩
    obtain ⟨s1, s2, h5⟩ := hret b hb
    obtain ⟨v, s3, h6, h7⟩ := h.goal b.1 hb1 s1
    rw [h5] at h6
    cases h6
    exact h7
  · intro i hil
    obtain ⟨before, ags, worst, it, after, h5, h6⟩ := hpre i _ (List.getElem?_eq_getElem hil)
    cases hb : row[i] with
    | none => exact absurd (hb ▸ List.getElem_mem hil) hsome
    | some b =>
      refine ⟨b, rfl, ?_⟩
      have h7 : Evaluated before b := (hev _ _ _ h5).2.1 b hb
      rw [h5, goalsOf_append', List.take_append]
      refine List.mem_append_left _ ?_
      rw [List.take_of_length_le h6]
      exact mem_goalsOf.2 h7

end

theorem made_job {make : M σ (Opt σ (List F32))} {o : Opt σ (List F32)} {s s1 : σ} (h : make s = .ok (o, s1)) (p : Profile)
    (fuel : Nat) : geneticJob p make fuel s = geneticJob p (pure o) fuel s1 := by
  unfold geneticJob
  rw [M.bind_run, h]
  rfl

theorem geneticRecord_mono {size births m : Nat} {ivs : List (F32 × F32)} {V V' : List F32 → F64 → Prop} {d : Data (List F32)}
    (h : GeneticRecord size births m ivs V d) (hV : ∀ x v, V x v → V' x v) : GeneticRecord size births m ivs V' d := by
  obtain ⟨ps, a, row, h1, h2, h3, h4, h5, h6, h7, h8⟩ := h
  exact ⟨ps, a, row, h1, h2, h3, h4, h5, h6, fun b hb => ⟨(h7 b hb).1, hV _ _ (h7 b hb).2.1, (h7 b hb).2.2⟩, h8⟩

theorem any_max (m : Nat) : LibStop (Stop.any [Stop.maxIterations m] : AlgState (List F32) → M σ Bool) ∧
    Bounding m (Stop.any [Stop.maxIterations m] : AlgState (List F32) → M σ Bool) ∧
    ∀ st : AlgState (List F32), Returned (Stop.any [Stop.maxIterations m] st : M σ Bool) true → m ≤ st.iteration := by
  refine ⟨.any _ fun c hc => ?_, ?_, ?_⟩
  · rw [List.mem_singleton.1 hc]
    exact .maxIterations m
  · intro st w b w' hle h
    have e : (Stop.any [Stop.maxIterations m] st : M σ Bool) w = .ok (decide (st.iteration ≥ m), w) := by
      show (if decide (st.iteration ≥ m) then _ else _ : M σ Bool) w = _
      cases decide (st.iteration ≥ m) <;> rfl
    rw [e] at h
    cases h
    exact decide_eq_true hle
  · rintro st ⟨s, s', h⟩
    have e : (Stop.any [Stop.maxIterations m] st : M σ Bool) s = .ok (decide (st.iteration ≥ m), s) := by
      show (if decide (st.iteration ≥ m) then _ else _ : M σ Bool) s = _
      cases decide (st.iteration ≥ m) <;> rfl
    rw [e] at h
    simp only [Except.ok.injEq, Prod.mk.injEq] at h
    exact of_decide_eq_true h.1

/-- C77: genetic-schwefel-statistics.rs; its row has exactly 3000 entries. -/
theorem C77_genetic_schwefel (P : Platform σ) (hP : Platform.Sound P) (fuel : Nat) (hfuel : 3000 < fuel) (s : σ) :
    ∃ r s', StatPrograms.geneticJob P.profile (StatPrograms.geneticSchwefel P) fuel s = .ok (r, s') ∧
      GeneticRecord 100 50 3000 (box (minus 500 1) (plus 500 1) 3) (fun x v => v = @TestFunc.schwefelF64 _ P.libm x) r ∧
      r.1.convergence.map List.length = [3000] := by
  obtain ⟨h1, h2, h3⟩ := any_max (σ := σ) 3000
  have hlib : LibProgram P.rng 100 (box (minus 500 1) (plus 500 1) 3) (geneticMade P
      (TestFunc.goalFromFunction (@TestFunc.schwefelF64 _ P.libm)) (Stop.any [Stop.maxIterations 3000]) 100
      (box (minus 500 1) (plus 500 1) 3) 5 (Fl.ofNat 10) []).comps :=
    example_libProgram hP h1 (by omega) (by decide +kernel) (by decide +kernel) (by decide +kernel) (fun x hx s1 =>
      ⟨_, s1, rfl, (C72_schwefel (.inl rfl) P.libm hP.libm x
        (box_moderate (by omega) (by decide +kernel) (by decide +kernel) hx)).1⟩) _ _ (by simp)
  rcases total_findMin (C71_lasting P.rng Fmt.embeds_f32 100 _ _ hlib) h2 fuel hfuel ⟨s, []⟩
    with ⟨⟨r, o1⟩, w1, k1, k2, k3, k4, k5, k6⟩ | ⟨h, -⟩
  swap
  · exact h.elim
  have hit : o1.pop.iteration = 3000 := Nat.le_antisymm k4 (h3 _ k5)
  obtain ⟨b, hb, -⟩ := k3.best (show o1.pop.iteration ≠ 0 by omega)
  have k6 : r = o1.pop.best.map Individual.sol := k6
  rw [hb] at k6
  subst k6
  have hlim : Limited 100 (geneticMade P
      (TestFunc.goalFromFunction (@TestFunc.schwefelF64 _ P.libm)) (Stop.any [Stop.maxIterations 3000]) 100
      (box (minus 500 1) (plus 500 1) 3) 5 (Fl.ofNat 10) []).comps := rfl
  have hfew : FewFamilies P.rng 100 (geneticMade P
      (TestFunc.goalFromFunction (@TestFunc.schwefelF64 _ P.libm)) (Stop.any [Stop.maxIterations 3000]) 100
      (box (minus 500 1) (plus 500 1) 3) 5 (Fl.ofNat 10) []).comps := .inr ⟨50, 5, by omega, rfl⟩
  obtain ⟨d, s', k7, k8, k9, -⟩ := genetic_recorded P.profile hlib hlim hfew ⟨rfl, rfl⟩ (m := 3000) (by omega) k1 k1
    (by omega) k4
  have hmake : StatPrograms.geneticSchwefel P s = .ok (_, s) :=
    genetic_ok (anyOf_ok (by simp) s) (by omega) (by omega) (by decide +kernel) _ _ _
  refine ⟨d, s', by rw [made_job hmake]; exact k7, geneticRecord_mono k8 fun x v hv => ?_, ?_⟩
  · obtain ⟨s1, s2, hv⟩ := hv
    exact (M.pure_eq_ok.1 hv).1.symm
  · rw [k9, hit]

/-- The optimizer `create_optimizer` of genetic-rosenbrock-statistics.rs ends up with. -/
def rosenbrockMade (P : Platform σ) (stop : AlgState (List F32) → M σ Bool) : Opt σ (List F32) :=
  ⟨⟨TestFunc.rosenbrockF64 P.profile, stop, Creation.RandomCreator.create P.rng ⟨700, box (minus 2 1) (plus 2 1) 3⟩,
    Pairing.randomPairing P.rng, Cross.vecCrossAllGenes (Cross.floatCrossExp P.profile P.rng P.libm.exp2),
    Mutation.vec P.rng (Fl.ofNat 80) (Mutation.bitwise P.rng 3),
    [Selection.killFitnessNaN, Selection.limitPopulation 700],
    [Selection.preBirthInterval (box (minus 2 1) (plus 2 1) 3)], []⟩, ⟨[], none, none, 0⟩⟩

/-- Its stop checker -/
def rosenbrockStops (L : Lens σ Stop.GNC) (t : F64) (p : Profile) : AlgState (List F32) → M σ Bool :=
  Stop.any [Stop.threshold t, fun s => L.zoom (Stop.goalNotChange p s)]

/-- A run that is out of fuel makes a job that is out of fuel, if the counter does not overflow. -/
theorem genetic_fuel (p : Profile) {o : Opt σ (List F32)} {fuel : Nat} {s : σ} {q : Population (List F32)}
    {w' : World σ (List F32)} (h : firstTurns fuel o.comps ⟨s, []⟩ = .ok (q, w')) (hfit : (goalArgs w'.trace).length < 2 ^ 64) :
    geneticJob p (pure o) fuel s = .error .fuel := by
  obtain ⟨v', h1⟩ := firstTurns_counted o p h hfit
  have h2 : findMin fuel (o.counted p) ⟨(s, CallCount.new), []⟩ = .error .fuel := firstTurns_fuel h1
  have h3 := ((C70_genetic (C70_statistics p) (o.counted p) 0 fuel [] ⟨(s, CallCount.new), []⟩ Statistics.new
    trivial).fails .fuel).1 (by
      show gaView (GA.run (o.counted p) [.findMin fuel] ⟨(s, CallCount.new), []⟩) = _
      rw [ga_run_error h2]; rfl)
  have h3 : gaView (GA.run ((o.counted p).attach 0 (Stats.logger p)) [.findMin fuel]
    ⟨((s, CallCount.new), Statistics.new), []⟩) = .error .fuel := h3
  refine M.bind_eq_error.2 (.inr ⟨o, s, rfl, ?_⟩)
  cases h4 : findMin fuel ((o.counted p).attach 0 (Stats.logger p)) ⟨((s, CallCount.new), Statistics.new), []⟩ with
  | ok q => rw [ga_run_one (r := q.1.1) (o' := q.1.2) (w' := q.2) h4] at h3; cases h3
  | error e =>
    rw [ga_run_error h4] at h3
    cases h3
    rfl

theorem firstTurns_goals {R : Rng σ} {size : Nat} {ivs : List (F32 × F32)} {c : Comps σ (List F32)}
    (h : LibProgram R size ivs c) (hlim : Limited size c) (hfew : FewFamilies R size c) {k : Nat} {q : Population (List F32)}
    {w w' : World σ (List F32)} (hr : firstTurns k c w = .ok (q, w')) (h0 : w.trace = []) :
    (goalArgs w'.trace).length ≤ size + (size + 1) / 2 * k := by
  obtain ⟨p, w1, w2, w3, h1, h2, h3, h4⟩ := firstTurns_ok.1 hr
  obtain ⟨ext, ht, -, -, -, hg, -⟩ := turns_row (J := Keeps size ivs c.goal)
    (fun p evs p' g hJ => born_few h hfew g (by
      obtain ⟨i, hi, -⟩ := hJ.1.finite
      exact List.ne_nil_of_mem hi) hJ.2)
    (fun p p1 w w1 hJ hs => keeps_step h hlim hJ hs) h4 (keeps_begin h h1)
  obtain ⟨xs, vals, hx, hv, -, ht1⟩ := begin_ok h1
  have hl := created_size h xs hx
  have hl2 := hv.length_eq
  have hcons : ∀ l : List (Ev (List F32)), goalsOf (.created xs :: l) = goalsOf l := fun l => rfl
  rw [goalArgs_length, ht, callLoggers_trace h3, callLoggers_trace h2, ht1, h0, List.nil_append, List.cons_append,
    List.cons_append, List.cons_append, hcons, goalsOf_append', goalsOf_append', goalsOf_append', goalsOf_logBlock,
    goalsOf_logBlock, goalsOf_goals, List.append_nil, List.append_nil, List.length_append, List.length_zip]
  omega

theorem rosenbrock_make (P : Platform σ) (L : Lens σ Stop.GNC) (s : σ) :
    StatPrograms.geneticRosenbrock P L s = .ok (rosenbrockMade P (rosenbrockStops L (Fl.ofRat false 1 1000000) P.profile),
      L.set (Stop.GNC.new 2000 (Fl.ofRat false 1 10000000)) s) := by
  unfold StatPrograms.geneticRosenbrock Creation.RandomCreator.new
  refine M.bind_eq_ok.2 ⟨⟨700, box (minus 2 1) (plus 2 1) 3⟩, s, ?_, M.bind_eq_ok.2 ⟨(), _, rfl,
    M.bind_eq_ok.2 ⟨_, _, anyOf_ok (by simp) _, rfl⟩⟩⟩
  refine M.bind_eq_ok.2 ⟨(), s, M.assert_eq_ok.2 ⟨by decide, rfl⟩, ?_⟩
  exact M.bind_eq_ok.2 ⟨(), s, M.assert_eq_ok.2 ⟨by decide +kernel, rfl⟩, M.bind_eq_ok.2 ⟨(), s,
    M.assert_eq_ok.2 ⟨by decide +kernel, rfl⟩, rfl⟩⟩

/-- A run of the optimizer of genetic-rosenbrock-statistics.rs has ended and left a faithful record, or has made so many turns. -/
theorem rosenbrock_cases (P : Platform σ) (hP : Platform.Sound P) (L : Lens σ Stop.GNC) (hL : Platform.Leaves L P) (t : F64)
    (fuel : Nat) (hfuel : fuel ≤ 2 ^ 55) (s1 : σ) (hinit : (L.get s1).changeIter = 0) :
    (∃ a o2 w' d, findMin fuel (rosenbrockMade P (rosenbrockStops L t P.profile)) ⟨s1, []⟩ = .ok ((some a, o2), w') ∧
      StatPrograms.geneticJob P.profile (pure (rosenbrockMade P (rosenbrockStops L t P.profile))) fuel s1 = .ok (d, w'.user) ∧
      GeneticRecord 700 350 fuel (box (minus 2 1) (plus 2 1) 3)
        (fun x v => Returned (TestFunc.rosenbrockF64 P.profile x : M σ F64) v) d ∧ d.1 = ⟨[some a], rowsOf w'.trace⟩) ∨
    ∃ q w', firstTurns fuel (rosenbrockMade P (rosenbrockStops L t P.profile)).comps ⟨s1, []⟩ = .ok (q, w') ∧
      (goalArgs w'.trace).length < 2 ^ 64 := by
  have hgnc : HasGNC L (rosenbrockStops L t) := by
    refine .any [fun _ => Stop.threshold t, fun p s => L.zoom (Stop.goalNotChange p s)] ?_
    intro c hc
    simp only [List.mem_cons, List.not_mem_nil, or_false] at hc
    rcases hc with rfl | rfl
    · exact .other _ (fun s => by
        unfold Stop.threshold
        split <;> exact leaves_pure _ _)
    · exact .object
  have hstop : LibStop (rosenbrockStops L t .release) := by
    refine .any _ ?_
    intro c hc
    simp only [List.mem_cons, List.not_mem_nil, or_false] at hc
    rcases hc with rfl | rfl
    · exact .threshold t
    · exact .goalNotChange L
  have hlib : LibProgram P.rng 700 (box (minus 2 1) (plus 2 1) 3) (rosenbrockMade P (rosenbrockStops L t .release)).comps := by
    have h := example_libProgram hP (goal := TestFunc.rosenbrockF64 P.profile) hstop (size := 700) (by omega) (lo := minus 2 1)
      (hi := plus 2 1) (d := 3) (by decide +kernel) (by decide +kernel) (by decide +kernel) (by
        intro x hx s
        obtain ⟨v, s', h1, h2⟩ := C72_rosenbrock (.inl rfl) P.profile x
          (box_moderate (by omega) (by decide +kernel) (by decide +kernel) hx) (by
            intro h0
            have := hx.length_eq
            rw [h0] at this
            simp [box] at this) s
        exact ⟨v, s', h1, h2.1⟩) 5 (Fl.ofNat 80) (ls := []) (by simp)
    exact ⟨h.positive, h.intervals, rfl, .inl rfl, h.cross, h.mutation, rfl, h.selections, hstop, h.loggers, h.goal⟩
  have hlim : Limited 700 (rosenbrockMade P (rosenbrockStops L t .release)).comps := rfl
  have hfew : FewFamilies P.rng 700 (rosenbrockMade P (rosenbrockStops L t .release)).comps := .inl rfl
  have hown : StopOwns L (rosenbrockMade P (rosenbrockStops L t .release)).comps := by
    have h := geneticMade_owns hL (goal := TestFunc.rosenbrockF64 P.profile) (fun x => Spec.Leaves.rosenbrockF64 _ x)
      (rosenbrockStops L t .release) 700 (box (minus 2 1) (plus 2 1) 3) 5 (Fl.ofNat 80) (ls := []) (by simp)
    exact ⟨⟨h.operators.creator, fun p => Spec.Leaves.randomPairing hL.rng p, h.operators.cross, h.operators.mutation,
      h.operators.selections, h.operators.preBirths⟩, h.goal, h.loggers⟩
  have hfirst : ¬ Returned ((rosenbrockStops L t .release ⟨none, 0⟩ : M σ Bool)) true := by
    rintro ⟨s, s', h⟩
    cases h
  have hleg := limited_legal hlim
  have hfit : 700 + 350 * fuel < 2 ^ 64 := by omega
  rcases C71_unbounded P.rng Fmt.embeds_f32 700 _ _ hlib hleg hfirst fuel ⟨s1, []⟩ with ⟨x, v, o1, w', h1, -, -, -, h2⟩ | h1
  · left
    obtain ⟨hag, -⟩ := findMin_agree hown hleg (hasGNC_agree hgnc .release P.profile) fuel ⟨s1, []⟩ hinit
    have hag : seen (findMin fuel (rosenbrockMade P (rosenbrockStops L t .release)) ⟨s1, []⟩) =
      seen (findMin fuel (rosenbrockMade P (rosenbrockStops L t P.profile)) ⟨s1, []⟩) := hag
    rw [h1] at hag
    cases h6 : findMin fuel (rosenbrockMade P (rosenbrockStops L t P.profile)) ⟨s1, []⟩ with
    | error e => rw [h6] at hag; cases hag
    | ok q =>
      obtain ⟨⟨r, o2⟩, w2⟩ := q
      rw [h6] at hag
      simp only [seen, Except.map, Except.ok.injEq, Prod.mk.injEq] at hag
      obtain ⟨⟨rfl, h7⟩, rfl⟩ := hag
      obtain ⟨k, -, -, hk, -, -, hit, -⟩ := findMin_spec hleg h1
      obtain ⟨d, s', k1, k2, -, k3, k4⟩ := genetic_recorded P.profile hlib hlim hfew ⟨rfl, rfl⟩ (m := fuel) hfit h1 h6 h2 (by omega)
      subst k4
      exact ⟨_, _, _, d, rfl, k1, k2, k3⟩
  · right
    obtain ⟨q, w', h3⟩ := fuel_firstTurns (C71_lasting P.rng Fmt.embeds_f32 700 _ _ hlib) h1
    have h4 := firstTurns_goals hlib hlim hfew h3 rfl
    exact ⟨q, w', firstTurns_agree hown hleg (hasGNC_agree hgnc .release P.profile) hinit h3, by omega⟩

/-- C77: genetic-rosenbrock-statistics.rs has no bound on its generations, so a run may go on for ever. After up to `2 ^ 55`
generations it has ended and left a faithful record, or it is still running; it has not panicked. -/
theorem C77_genetic_rosenbrock (P : Platform σ) (hP : Platform.Sound P) (L : Lens σ Stop.GNC) (hL : Platform.Leaves L P)
    (fuel : Nat) (hfuel : fuel ≤ 2 ^ 55) (s : σ) :
    (∃ r s', StatPrograms.geneticJob P.profile (StatPrograms.geneticRosenbrock P L) fuel s = .ok (r, s') ∧
      GeneticRecord 700 350 fuel (box (minus 2 1) (plus 2 1) 3)
        (fun x v => Returned (TestFunc.rosenbrockF64 P.profile x : M σ F64) v) r) ∨
    StatPrograms.geneticJob P.profile (StatPrograms.geneticRosenbrock P L) fuel s = .error .fuel := by
  rw [made_job (rosenbrock_make P L s)]
  rcases rosenbrock_cases P hP L hL (Fl.ofRat false 1 1000000) fuel hfuel (L.set (Stop.GNC.new 2000 (Fl.ofRat false 1 10000000)) s)
    (by rw [L.get_set]; rfl) with ⟨a, o2, w', d, -, h2, h3, -⟩ | ⟨q, w', h1, h2⟩
  · exact .inl ⟨d, _, h2, h3⟩
  · exact .inr (genetic_fuel P.profile h1 h2)

/-- A platform that meets the hypotheses, with overflow checks. -/
example (s) : ∃ r s', StatPrograms.geneticJob .debug (StatPrograms.geneticSchwefel Swarm.demoPlatform) 4000 s = .ok (r, s') ∧
      GeneticRecord 100 50 3000 (box (minus 500 1) (plus 500 1) 3)
        (fun x v => v = @TestFunc.schwefelF64 _ Swarm.demoPlatform.libm x) r ∧
      r.1.convergence.map List.length = [3000] :=
  C77_genetic_schwefel Swarm.demoPlatform Swarm.demo_sound 4000 (by omega) s

/-- A small program of the same form, with four individuals in the plane and two generations: one result, a row of two. -/
example : (match StatPrograms.geneticJob .debug (genetic Swarm.demoPlatform (TestFunc.goalFromFunction TestFunc.paraboloidF64)
      (anyOf [Stop.maxIterations 2]) 4 (box (minus 5 1) (plus 5 1) 2) 2 (Fl.ofNat 10) []) 10
      (([3, 1, 4, 1, 5, 9, 2, 6, 5, 3, 5, 8, 9, 7, 9, 3, 2, 3, 8, 4, 6], []), Stop.GNC.new 0 Fl.zero) with
    | .ok (d, _) => d.1.results.map Option.isSome == [true] && d.1.convergence.map List.length == [2] && d.2.length == 1
    | .error _ => false) = true := by decide +kernel

end Verif.Props
