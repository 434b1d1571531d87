import Verif.Props.StopTerminates
import Verif.Proofs.GeneticStagnate

/-!
# C73, genetic part: `GoalNotChange` ends a genetic run if the selections keep the best
-/

namespace Verif.Props

open Verif Spec Stop

variable {σ T : Type}

/-- C73: with a `GoalNotChange(m, d)` whose `d` is not negative, a genetic optimizer whose selections keep the best individual,
whose creator creates somebody and whose goal is finite on the points in question (those in `B`, which creation, crossing,
mutation and pre-birth do not leave) ends by itself. -/
theorem C73_genetic (pr : Profile) (L : Lens σ GNC) (o : GA.Opt σ T) (B : T → Prop)
    (hc : GA.Consented L (goalNotChange pr) o.comps) (hb : GA.Closed B o.comps)
    (hs : ∀ sel ∈ o.comps.selections, KeepsBest sel) (hne : ¬ Returned o.comps.creator [])
    (hg : ∀ x v, B x → Returned (o.comps.goal x) v → v.isFinite = true)
    (w : World σ T) (hd : (L.get w.user).delta.lt Fl.zero = false) (N : Nat)
    (hN : N = 2 ^ 64 * ((L.get w.user).maxIter + 1) + (L.get w.user).changeIter + 1) (fuel : Nat) (hf : N < fuel) :
    GA.findMin fuel o w = GA.findMin (N + 1) o w ∧
    (GA.NoFuel o.comps → GA.findMin fuel o w ≠ .error .fuel) ∧
    (∀ r o' w', GA.findMin fuel o w = .ok ((r, o'), w') → o'.pop.iteration ≤ N) := by
  subst hN
  refine GA.findMin_stagnates hc (counts_rank_finite hd) (fun _ h => h) hb hs hg hne w _ ?_ rfl trivial fuel _ hf (by omega)
  intro t v i h1 h2 h3 _
  rw [← h1, ← h2, ← h3]
  exact potential_rank_le t v i

/-- C73: if moreover the goal values are between `lo` and `hi` and `d` is positive, a run with a new `GoalNotChange(m, d)`
takes at most `(⌊(hi - lo) / d⌋ + 2) * (m + 1) + 1` generations. -/
theorem C73_genetic_bounded (pr : Profile) (L : Lens σ GNC) (o : GA.Opt σ T) (B : T → Prop)
    (hc : GA.Consented L (goalNotChange pr) o.comps) (hb : GA.Closed B o.comps)
    (hs : ∀ sel ∈ o.comps.selections, KeepsBest sel) (hne : ¬ Returned o.comps.creator []) (lo hi : F64)
    (hlo : lo.isFinite = true) (hhi : hi.isFinite = true)
    (hg : ∀ x v, B x → Returned (o.comps.goal x) v → lo.le v = true ∧ v.le hi = true)
    (m : Nat) (d : F64) (hd : (Fl.zero : F64).lt d = true) (w : World σ T) (hw : L.get w.user = GNC.new m d) (N : Nat)
    (hN : N = (((hi.toInt - lo.toInt) / d.toInt).toNat + 2) * (m + 1) + 1) (fuel : Nat) (hf : N < fuel) :
    GA.findMin fuel o w = GA.findMin (N + 1) o w ∧
    (GA.NoFuel o.comps → GA.findMin fuel o w ≠ .error .fuel) ∧
    (∀ r o' w', GA.findMin fuel o w = .ok ((r, o'), w') → o'.pop.iteration ≤ N) := by
  obtain ⟨-, hd1, hd2⟩ := Fl.lt_iff.1 hd
  rw [Fl.toInt_eq_zero.2 Fl.idx_zero] at hd2
  have hc2 := counts_distance hd1 hd2 lo.toInt
  have hg2 : ∀ x v, B x → Returned (o.comps.goal x) v → (v.isFinite = true ∧ lo.toInt ≤ v.toInt) ∧ v.toInt ≤ hi.toInt := by
    intro x v hx h
    obtain ⟨h1, h2⟩ := hg x v hx h
    exact ⟨⟨Fl.isFinite_of_between hlo hhi h1 h2, (Fl.le_iff.1 h1).2.2⟩, (Fl.le_iff.1 h2).2.2⟩
  have hc3 : Counts d Stop.NotWorse (fun v => (v.isFinite = true ∧ lo.toInt ≤ v.toInt) ∧ v.toInt ≤ hi.toInt)
      (fun o => o.isFinite = true) (fun v o => if differs d o v = true then ((v.toInt - lo.toInt) / d.toInt).toNat + 1
        else ((min o.toInt (v.toInt + d.toInt) - lo.toInt) / d.toInt).toNat) :=
    ⟨fun v h => hc2.old v h.1, fun v v' o h h' => hc2.change v v' o h.1 h'.1, fun v v' o h h' => hc2.calm v v' o h.1 h'.1⟩
  subst hN
  refine GA.findMin_stagnates hc hc3 (fun _ h => h.1.1) hb hs hg2 hne w _ ?_ (by rw [hw]; rfl) ?_ fuel _ hf (by omega)
  · rw [hw]
    rintro t v i rfl h2 h3 ⟨⟨hv, hv1⟩, hv2⟩
    have := potential_distance_le t v i lo.toInt hi.toInt hd2 hv1 hv2
    rw [h2, h3] at this
    exact this
  · rw [hw]
    show (Fl.maxFinite : F64).isFinite = true
    decide +kernel

theorem onlyKills_killFitnessNaN {p p' : Population T} {s s' : σ} (h : Selection.killFitnessNaN p s = .ok (p', s')) :
    OnlyKills p p' := by
  obtain ⟨rfl, -⟩ := M.pure_eq_ok.1 h
  refine ⟨rfl, rfl, rfl, ?_⟩
  simp only
  induction p.individuals with
  | nil => exact .nil
  | cons i is ih =>
    refine .cons ?_ ih
    beta_reduce
    split
    · exact ⟨rfl, rfl, fun h => by cases h⟩
    · exact ⟨rfl, rfl, id⟩

/-! ### A concrete run -/

/-- Generation 1 and 2 halve the best of the first parents, later children are no better; KillFitnessNaN. -/
def calmOpt : GA.Opt (Nat × GNC) F64 :=
  GA.new (fun x => pure x) (fun s => (Lens.snd Nat GNC).zoom (goalNotChange .debug s)) (pure [Fl.ofNat 8, Fl.ofNat 9])
    (fun _ => pure [[0, 1]])
    (fun _ => fun s => .ok ([match s.1 with | 0 => Fl.ofNat 4 | 1 => Fl.ofNat 2 | _ => Fl.ofNat 3], (s.1 + 1, s.2)))
    (fun x => pure x) [Selection.killFitnessNaN] []

theorem calmOpt_consented : GA.Consented (Lens.snd _ _) (goalNotChange .debug) calmOpt.comps :=
  { stop := C73_alone _ _
    goal := fun _ => leaves_pure _ _
    loggers := fun l h => by cases h
    operators :=
      { creator := leaves_pure _ _
        pairing := fun _ => leaves_pure _ _
        cross := fun _ s a s' h => by cases h; rfl
        mutation := fun _ => leaves_pure _ _
        selections := fun f hf p s a s' h => by
          rw [List.mem_singleton.1 hf] at h
          rw [(M.pure_eq_ok.1 h).2]
        preBirths := fun f h => by cases h } }

/-- The hypotheses of C73_genetic and C73_genetic_bounded are met with `m = 2`, `d = 1`, goals in [0, 10]: at most 37
generations; in fact 5. -/
example : GA.Closed (fun x : F64 => (Fl.zero : F64).le x = true ∧ x.le (Fl.ofNat 10) = true) calmOpt.comps ∧
    (∀ sel ∈ calmOpt.comps.selections, KeepsBest sel) ∧ ¬ Returned calmOpt.comps.creator [] ∧
    (∀ x v, ((Fl.zero : F64).le x = true ∧ x.le (Fl.ofNat 10) = true) → Returned (calmOpt.comps.goal x) v →
      (Fl.zero : F64).le v = true ∧ v.le (Fl.ofNat 10) = true) ∧
    (Fl.zero : F64).lt (Fl.one : F64) = true ∧ (Fl.one : F64).lt Fl.zero = false ∧
    ((((Fl.ofNat 10 : F64).toInt - (Fl.zero : F64).toInt) / (Fl.one : F64).toInt).toNat + 2) * (2 + 1) + 1 = 37 ∧
    M.okAnd (GA.findMin 38 calmOpt ⟨(0, GNC.new 2 Fl.one), []⟩) (fun r _ => r.2.pop.iteration == 5) = true := by
  have hin : ∀ x ∈ ([Fl.ofNat 8, Fl.ofNat 9, Fl.ofNat 4, Fl.ofNat 2, Fl.ofNat 3] : List F64),
      (Fl.zero : F64).le x = true ∧ x.le (Fl.ofNat 10) = true := by decide +kernel
  refine ⟨⟨?_, ?_, ?_⟩, ?_, ?_, ?_, by decide +kernel, by decide +kernel, by decide +kernel, by decide +kernel⟩
  · intro sel hs
    rw [List.mem_singleton.1 hs]
    exact legal_of_onlyKills fun p s p' s' h => onlyKills_killFitnessNaN h
  · rintro xs ⟨s, s', h⟩ x hx
    rw [← (M.pure_eq_ok.1 h).1] at hx
    apply hin
    rcases List.mem_cons.1 hx with rfl | hx
    · exact List.mem_cons_self
    · rw [List.mem_singleton.1 hx]
      exact List.mem_cons_of_mem _ List.mem_cons_self
  · rintro p evs p' - g y hy
    have h1 : g.born = g.mutants := by
      have key : ∀ {evs : List (Ev F64)} {xs ys : List F64} {p : Population F64},
          PreBirths (σ := Nat × GNC) p 0 [] xs evs ys → ys = xs := by
        intro evs xs ys p h
        cases h; rfl
      exact key g.preBirth_ok
    have h2 : g.mutants = g.children.flatten := by
      have := g.mutation_ok
      have key : ∀ {xs ys : List F64}, List.Forall₂ (fun x y => Returned (calmOpt.comps.mutation x) y) xs ys → ys = xs := by
        intro xs ys h
        induction h with
        | nil => rfl
        | cons h _ ih =>
          obtain ⟨s, s', h⟩ := h
          rw [ih, (M.pure_eq_ok.1 h).1]
      exact key this
    rw [h1, h2] at hy
    obtain ⟨ks, hks, hyk⟩ := List.mem_flatten.1 hy
    have : ∀ {ps : List (List F64)} {ks : List (List F64)},
        List.Forall₂ (fun ps ks => Returned (calmOpt.comps.cross ps) ks) ps ks → ∀ k ∈ ks, ∀ y ∈ k,
          (Fl.zero : F64).le y = true ∧ y.le (Fl.ofNat 10) = true := by
      intro ps ks h
      induction h with
      | nil => simp
      | cons h _ ih =>
        intro k hk
        rcases List.mem_cons.1 hk with rfl | hk
        · obtain ⟨s, s', h⟩ := h
          cases h
          intro y hy
          apply hin
          rw [List.mem_singleton] at hy
          rw [hy]
          split <;> simp
        · exact ih k hk
    exact this g.cross_ok ks hks y hyk
  · intro sel hs
    rw [List.mem_singleton.1 hs]
    exact C29_killFitnessNaN
  · rintro ⟨s, s', h⟩
    exact absurd (M.pure_eq_ok.1 h).1 (by simp)
  · rintro x v hx ⟨s, s', h⟩
    rw [← (M.pure_eq_ok.1 h).1]; exact hx

/-! ## The selections must keep the best -/

/-- The goal is the number itself, the first population is (a, b). The children of (a, b) are a and c, all other children are
a and b. The selections are KillFitnessNaN and LimitPopulation(2). -/
def flip (a b c : F64) : GA.Opt GNC F64 :=
  GA.new (fun x => pure x) (goalNotChange .debug) (pure [a, b]) (fun _ => pure [[0, 1]])
    (fun ps => pure (if (ps.getD 1 a).lt c then [a, c] else [a, b]))
    (fun x => pure x) [Selection.killFitnessNaN, Selection.limitPopulation 2] []

/-- `m` returns `a` and touches nothing but the trace. -/
def Gives {α : Type} (m : M (World σ T) α) (a : α) : Prop := ∀ w, ∃ w', m w = .ok (a, w') ∧ w'.user = w.user

theorem Gives.bind {α β : Type} {m : M (World σ T) α} {f : α → M (World σ T) β} {a : α} {b : β} (h1 : Gives m a)
    (h2 : Gives (f a) b) : Gives (m >>= f) b := by
  intro w
  obtain ⟨w1, e1, u1⟩ := h1 w
  obtain ⟨w2, e2, u2⟩ := h2 w1
  exact ⟨w2, M.bind_eq_ok.2 ⟨a, w1, e1, e2⟩, u2.trans u1⟩

theorem Gives.lift {α : Type} {m : M σ α} {a : α} (h : ∀ s, m s = .ok (a, s)) :
    Gives (World.lift m : M (World σ T) α) a := fun w => ⟨w, World.lift_eq_ok.2 ⟨h _, rfl⟩, rfl⟩

theorem Gives.emit (e : Ev T) : Gives (World.emit e : M (World σ T) Unit) () := fun _ => ⟨_, rfl, rfl⟩

theorem Gives.pure {α : Type} (a : α) : Gives (Pure.pure a : M (World σ T) α) a := fun w => ⟨w, rfl, rfl⟩

theorem flip_step {a b c : F64} (x y : F64) (hx : (if x.lt c then [a, c] else [a, b]) = [a, y])
    (fa : a.isFinite = true) (fx : x.isFinite = true) (fy : y.isFinite = true)
    (na : a.isNan = false) (ny : y.isNan = false) (haa : a.lt a = false) (hxa : x.lt a = true) (hay : a.lt y = false)
    (hcmp : a.partialCmp y = some .gt)
    (B W : Option (Individual F64)) (i : Nat) (w : World GNC F64) :
    ∃ w', GA.step (flip a b c).comps ⟨[⟨a, a, true⟩, ⟨x, x, true⟩], B, W, i⟩ w =
      .ok (⟨[⟨a, a, true⟩, ⟨y, y, true⟩], some ⟨y, y, true⟩, some ⟨a, a, true⟩, i + 1⟩, w') ∧ w'.user = w.user := by
  revert w
  have lim : ∀ s : GNC, Selection.limitPopulation 2
      (⟨[⟨a, a, true⟩, ⟨x, x, true⟩, ⟨a, a, true⟩, ⟨y, y, true⟩], B, W, i⟩ : Population F64) s =
      .ok (⟨[⟨a, a, false⟩, ⟨x, x, false⟩, ⟨a, a, true⟩, ⟨y, y, true⟩], B, W, i⟩, s) := by
    intro s
    have k1 : Selection.kwStep (σ := GNC) (⟨[⟨a, a, true⟩, ⟨x, x, true⟩, ⟨a, a, true⟩, ⟨y, y, true⟩], B, W, i⟩ : Population F64) 2
        ⟨[0], 0, a⟩ 1 s = .ok (⟨[0, 1], 1, a⟩, s) := by
      show (if x.lt a = true then pure _ else pure _ : M GNC Selection.KW) s = _
      rw [if_pos hxa]; rfl
    have k2 : ∀ n z, [a, x, a, y][n]? = some z → a.lt z = false →
        Selection.kwStep (σ := GNC) (⟨[⟨a, a, true⟩, ⟨x, x, true⟩, ⟨a, a, true⟩, ⟨y, y, true⟩], B, W, i⟩ : Population F64) 2
        ⟨[0, 1], 1, a⟩ n s = .ok (⟨[0, 1], 1, a⟩, s) := by
      intro n z hn hz
      have hi : (M.index [(⟨a, a, true⟩ : Individual F64), ⟨x, x, true⟩, ⟨a, a, true⟩, ⟨y, y, true⟩] n : M GNC _) s =
          .ok (⟨z, z, true⟩, s) := by
        match n, hn with
        | 0, hn => cases hn; rfl
        | 1, hn => cases hn; rfl
        | 2, hn => cases hn; rfl
        | 3, hn => cases hn; rfl
        | n + 4, hn => cases hn
      unfold Selection.kwStep
      rw [M.bind_run]
      simp only
      rw [hi]
      show (if a.lt z = true then _ else pure _ : M GNC Selection.KW) s = _
      rw [if_neg (by rw [hz]; simp)]; rfl
    show (Selection.killWorst (σ := GNC)
      (⟨[⟨a, a, true⟩, ⟨x, x, true⟩, ⟨a, a, true⟩, ⟨y, y, true⟩], B, W, i⟩ : Population F64) 2) s = _
    refine M.bind_eq_ok.2 ⟨⟨a, a, true⟩, s, rfl, M.bind_eq_ok.2 ⟨⟨[0, 1], 1, a⟩, s, ?_, rfl⟩⟩
    refine M.foldL_cons_ok.2 ⟨_, s, k1, M.foldL_cons_ok.2 ⟨_, s, k2 2 a rfl haa, M.foldL_cons_ok.2 ⟨_, s, k2 3 y rfl hay, rfl⟩⟩⟩
  have nan : ∀ s : GNC, Selection.killFitnessNaN
      (⟨[⟨a, a, true⟩, ⟨x, x, true⟩, ⟨a, a, true⟩, ⟨y, y, true⟩], B, W, i⟩ : Population F64) s =
      .ok (⟨[⟨a, a, true⟩, ⟨x, x, true⟩, ⟨a, a, true⟩, ⟨y, y, true⟩], B, W, i⟩, s) := by
    intro s
    unfold Selection.killFitnessNaN
    simp only [List.map_cons, List.map_nil, fa, fx, fy, Bool.not_true, Bool.false_eq_true, ↓reduceIte]
    rfl
  have upd : ∀ w : World GNC F64, Population.updateBestWorst (⟨[⟨a, a, true⟩, ⟨y, y, true⟩], B, W, i⟩ : Population F64) w =
      .ok (⟨[⟨a, a, true⟩, ⟨y, y, true⟩], some ⟨y, y, true⟩, some ⟨a, a, true⟩, i⟩, w) := by
    intro w
    have c1 : (Population.minCmp (⟨a, a, true⟩ : Individual F64) ⟨y, y, true⟩ : M (World GNC F64) Ordering) w = .ok (.gt, w) := by
      unfold Population.minCmp
      simp only [na, ny, Bool.and_self, Bool.false_eq_true, ↓reduceIte, hcmp]
      rfl
    have c2 : (Population.maxCmp (⟨a, a, true⟩ : Individual F64) ⟨y, y, true⟩ : M (World GNC F64) Ordering) w = .ok (.gt, w) := by
      unfold Population.maxCmp
      simp only [na, ny, Bool.and_self, Bool.false_eq_true, ↓reduceIte, hcmp]
      rfl
    have m1 : (Population.minBy Population.minCmp [(⟨a, a, true⟩ : Individual F64), ⟨y, y, true⟩] : M (World GNC F64) _) w =
        .ok (some ⟨y, y, true⟩, w) :=
      M.bind_eq_ok.2 ⟨⟨y, y, true⟩, w, M.bind_eq_ok.2 ⟨.gt, w, c1, rfl⟩, rfl⟩
    have m2 : (Population.maxBy Population.maxCmp [(⟨a, a, true⟩ : Individual F64), ⟨y, y, true⟩] : M (World GNC F64) _) w =
        .ok (some ⟨a, a, true⟩, w) :=
      M.bind_eq_ok.2 ⟨⟨a, a, true⟩, w, M.bind_eq_ok.2 ⟨.gt, w, c2, rfl⟩, rfl⟩
    exact M.bind_eq_ok.2 ⟨_, w, m1, M.bind_eq_ok.2 ⟨_, w, m2, rfl⟩⟩
  have cross : ∀ s : GNC, (flip a b c).comps.cross [a, x] s = .ok ([a, y], s) := by
    intro s
    show (pure (if x.lt c then [a, c] else [a, b]) : M GNC (List F64)) s = _
    rw [hx]; rfl
  unfold GA.step
  refine Gives.bind (a := [a, y]) ?_ (Gives.bind (a := [a, y]) ?_ (Gives.bind (a := [a, y]) ?_ (Gives.bind
    (a := ⟨[⟨a, a, true⟩, ⟨x, x, true⟩, ⟨a, a, true⟩, ⟨y, y, true⟩], B, W, i⟩) ?_ (Gives.bind
    (a := ⟨[⟨a, a, false⟩, ⟨x, x, false⟩, ⟨a, a, true⟩, ⟨y, y, true⟩], B, W, i⟩) ?_ (Gives.bind
    (a := ⟨[⟨a, a, true⟩, ⟨y, y, true⟩], some ⟨y, y, true⟩, some ⟨a, a, true⟩, i⟩) ?_ (Gives.bind (a := ()) (Gives.emit _)
      (Gives.bind (a := ()) (Gives.pure _) (Gives.pure _))))))))
  · refine Gives.bind (a := [[0, 1]]) (Gives.lift fun _ => rfl) (Gives.bind (a := ()) (Gives.emit _)
      (Gives.bind (a := [[a, y]]) ?_ (Gives.pure _)))
    refine Gives.bind (a := [a, y]) ?_ (Gives.bind (a := []) (Gives.pure _) (Gives.pure _))
    exact Gives.bind (a := [a, x]) (fun w => ⟨w, rfl, rfl⟩) (Gives.bind (a := [a, y]) (Gives.lift cross)
      (Gives.bind (a := ()) (Gives.emit _) (Gives.pure _)))
  · exact fun w => ⟨_, rfl, rfl⟩
  · exact Gives.pure _
  · exact fun w => ⟨_, rfl, rfl⟩
  · exact Gives.bind (Gives.lift nan) (Gives.bind (a := ()) (Gives.emit _) (Gives.bind (Gives.lift lim)
      (Gives.bind (a := ()) (Gives.emit _) (Gives.pure _))))
  · exact fun w => ⟨w, upd w, rfl⟩

/-- The same optimizer with a = 3, b = 1, c = 2. -/
def flipOpt : GA.Opt GNC F64 := flip (Fl.ofNat 3) (Fl.ofNat 1) (Fl.ofNat 2)

/-- C73: with LimitPopulation, which does not always keep the best, GoalNotChange may never stop: the best of this optimizer is
1, 2, 1, 2, ... for ever. -/
theorem C73_genetic_witness (m : Nat) (fuel : Nat) : GA.findMin fuel flipOpt ⟨GNC.new m Fl.zero, []⟩ = .error .fuel := by
  have f1 : (Fl.ofNat 3 : F64).isFinite = true ∧ (Fl.ofNat 1 : F64).isFinite = true ∧ (Fl.ofNat 2 : F64).isFinite = true ∧
      (Fl.ofNat 3 : F64).isNan = false ∧ (Fl.ofNat 1 : F64).isNan = false ∧ (Fl.ofNat 2 : F64).isNan = false ∧
      (Fl.ofNat 3 : F64).lt (Fl.ofNat 3) = false ∧ (Fl.ofNat 1 : F64).lt (Fl.ofNat 3) = true ∧
      (Fl.ofNat 2 : F64).lt (Fl.ofNat 3) = true ∧ (Fl.ofNat 3 : F64).lt (Fl.ofNat 1) = false ∧
      (Fl.ofNat 3 : F64).lt (Fl.ofNat 2) = false := by decide +kernel
  have f2 : (Fl.ofNat 3 : F64).partialCmp (Fl.ofNat 1) = some .gt ∧ (Fl.ofNat 3 : F64).partialCmp (Fl.ofNat 2) = some .gt := by
    decide +kernel
  have f3 : (Fl.ofNat 1 : F64).lt (Fl.ofNat 2) = true ∧ (Fl.ofNat 2 : F64).lt (Fl.ofNat 2) = false := by decide +kernel
  have f4 : differs Fl.zero Fl.maxFinite (Fl.ofNat 1) = true ∧ differs Fl.zero Fl.maxFinite (Fl.ofNat 2) = true ∧
      differs Fl.zero (Fl.ofNat 1) (Fl.ofNat 2) = true ∧ differs Fl.zero (Fl.ofNat 2) (Fl.ofNat 1) = true := by decide +kernel
  unfold flipOpt
  generalize (Fl.ofNat 3 : F64) = a at *
  generalize (Fl.ofNat 1 : F64) = b at *
  generalize (Fl.ofNat 2 : F64) = c at *
  obtain ⟨fa, fb, fc, na, nb, nc, haa, hba, hca, hab, hac⟩ := f1
  have sb := flip_step (a := a) (b := b) (c := c) b c (by rw [if_pos f3.1]) fa fb fc na nc haa hba hac f2.2
  have sc := flip_step (a := a) (b := b) (c := c) c b (by rw [if_neg (by rw [f3.2]; simp)]) fa fc fb na nb haa hca hab f2.1
  have key : ∀ fuel (p : Population F64) (w : World GNC F64), w.user.delta = Fl.zero →
      (∃ x, (x = b ∨ x = c) ∧ p.individuals = [⟨a, a, true⟩, ⟨x, x, true⟩] ∧
        ((p.best = none ∧ w.user.oldGoal = Fl.maxFinite) ∨
          (p.best = some ⟨x, x, true⟩ ∧ differs Fl.zero w.user.oldGoal x = true))) →
      GA.loop (flip a b c).comps fuel p w = .error .fuel := by
    intro fuel
    induction fuel with
    | zero => intro p w _ _; rfl
    | succ fuel ih =>
      rintro ⟨inds, B, W, i⟩ w hd ⟨x, hx, hi, hb⟩
      simp only at hi hb
      subst hi
      -- the next generation
      obtain ⟨y, hy, hxy, hstep⟩ : ∃ y, (y = b ∨ y = c) ∧ differs Fl.zero x y = true ∧ differs Fl.zero Fl.maxFinite y = true ∧
          ∀ w, ∃ w', GA.step (flip a b c).comps ⟨[⟨a, a, true⟩, ⟨x, x, true⟩], B, W, i⟩ w =
            .ok (⟨[⟨a, a, true⟩, ⟨y, y, true⟩], some ⟨y, y, true⟩, some ⟨a, a, true⟩, i + 1⟩, w') ∧ w'.user = w.user := by
        rcases hx with rfl | rfl
        · exact ⟨c, .inr rfl, f4.2.2.1, f4.2.1, sb B W i⟩
        · exact ⟨b, .inl rfl, f4.2.2.2, f4.1, sc B W i⟩
      obtain ⟨hmax, hstep⟩ := hstep
      -- the stop checker says no
      obtain ⟨u, hstop, hud, huo⟩ : ∃ u, goalNotChange .debug
          (⟨[⟨a, a, true⟩, ⟨x, x, true⟩], B, W, i⟩ : Population F64).state w.user = .ok (false, u) ∧
          u.delta = Fl.zero ∧ differs Fl.zero u.oldGoal y = true := by
        rcases hb with ⟨rfl, ho⟩ | ⟨rfl, ho⟩
        · exact ⟨w.user, rfl, hd, by rw [ho]; exact hmax⟩
        · refine ⟨{ w.user with oldGoal := x, changeIter := i }, ?_, hd, hxy⟩
          show goalNotChange .debug ⟨some (x, x), i⟩ w.user = _
          have hr : recordStep w.user.delta (w.user.oldGoal, w.user.changeIter) (⟨some (x, x), i⟩ : AlgState F64) = (x, i) := by
            unfold recordStep
            rw [hd]
            unfold differs at ho
            simp only
            rw [if_pos ho]
          rw [goalNotChange_some]
          simp only [hr, usizeSub, Nat.le_refl, ↓reduceIte, Nat.sub_self]
          simp
      obtain ⟨w', h1, h2⟩ := hstep ⟨u, w.trace ++ [.check (⟨[⟨a, a, true⟩, ⟨x, x, true⟩], B, W, i⟩ : Population F64).state false]⟩
      have h3 : GA.loop (flip a b c).comps (fuel + 1) ⟨[⟨a, a, true⟩, ⟨x, x, true⟩], B, W, i⟩ w =
          GA.loop (flip a b c).comps fuel ⟨[⟨a, a, true⟩, ⟨y, y, true⟩], some ⟨y, y, true⟩, some ⟨a, a, true⟩, i + 1⟩ w' := by
        rw [GA.loop, M.bind_run]
        have : (World.lift ((flip a b c).comps.stop (⟨[⟨a, a, true⟩, ⟨x, x, true⟩], B, W, i⟩ : Population F64).state) :
            M (World GNC F64) Bool) w = .ok (false, ⟨u, w.trace⟩) :=
          World.lift_eq_ok.2 ⟨hstop, rfl⟩
        rw [this]
        simp only [Bool.false_eq_true, ↓reduceIte]
        rw [M.bind_run]
        show (GA.step (flip a b c).comps _ >>= _) _ = _
        rw [M.bind_run, h1]
      rw [h3]
      exact ih _ _ (by rw [h2]; exact hud) ⟨y, hy, rfl, .inr ⟨rfl, by rw [h2]; exact huo⟩⟩
  show GA.nextIterations fuel { flip a b c with pop := ⟨[⟨a, a, true⟩, ⟨b, b, true⟩], none, none, 0⟩ }
    ⟨GNC.new m Fl.zero, _⟩ = _
  unfold GA.nextIterations
  rw [M.bind_run]
  simp only
  have hl : ∀ s w, callLoggers LogKind.resume s 0 (flip a b c).comps.loggers w = .ok ((), w) := fun _ _ => rfl
  rw [hl]
  simp only
  rw [M.bind_run, key fuel _ _ rfl ⟨b, .inl rfl, rfl, .inl ⟨rfl, rfl⟩⟩]

example : M.okAnd (GA.turns (flip (Fl.ofNat 3) (Fl.ofNat 1) (Fl.ofNat 2)).comps 4 ⟨[⟨Fl.ofNat 3, Fl.ofNat 3, true⟩, ⟨Fl.ofNat 1, Fl.ofNat 1, true⟩], none, none, 0⟩ ⟨GNC.new 0 Fl.zero, []⟩)
  (fun _ w => w.trace.filterMap (fun | .generation _ best _ _ => best.map (·.2) | _ => none) ==
      [Fl.ofNat 2, Fl.ofNat 1, Fl.ofNat 2, Fl.ofNat 1]) = true := by decide +kernel

end Verif.Props
