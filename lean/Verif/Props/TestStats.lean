import Verif.Props.TestPrograms

/-!
# C85: the tests of the statistics
-/

namespace Verif.Props

open Verif Spec Examples Fl Stats TestPrograms
open _root_.Verif.Props.Swarm (LibStop LibLogger statStops statStops_gnc statStops_lib)

variable {σ T : Type}

theorem ga_call_findMin {o o' : GA.Opt σ T} {fuel : Nat} {r : GA.Ret T} {w w' : World σ T}
    (h : GA.call o (.findMin fuel) w = .ok ((r, o'), w')) : ∃ a, r = some a ∧ GA.findMin fuel o w = .ok ((a, o'), w') := by
  obtain ⟨⟨a, o1⟩, w1, h1, h2⟩ := M.bind_eq_ok.1 h
  obtain ⟨h3, rfl⟩ := M.pure_eq_ok.1 h2
  cases h3
  exact ⟨a, rfl, h1⟩

/-- A number of calls of `find_min` makes as many rows. -/
theorem rows_count {fuel : Nat} : ∀ (n : Nat) {o o' : GA.Opt σ T} {rs : List (GA.Ret T)} {w w' : World σ T},
    0 < o.comps.loggers.length → GA.run o (List.replicate n (.findMin fuel)) w = .ok ((rs, o'), w') →
    ∃ ext, w'.trace = w.trace ++ ext ∧ ∀ rows, (ext.foldl rowStep rows).length = rows.length + n := by
  intro n
  induction n with
  | zero =>
    intro o o' rs w w' _ h
    obtain ⟨h1, rfl⟩ := M.pure_eq_ok.1 h
    exact ⟨[], by simp, fun _ => rfl⟩
  | succ n ih =>
    intro o o' rs w w' hl h
    obtain ⟨r, o1, w1, rs', h1, h2, -⟩ := GA.run_cons_ok.1 h
    obtain ⟨a, -, h3⟩ := ga_call_findMin h1
    obtain ⟨e1, sts, t1, -, hrec⟩ := GA.findMin_record hl h3
    obtain ⟨e2, t2, hrows⟩ := ih (by rw [GA.findMin_comps h3]; exact hl) h2
    have happ : ∀ (l : List (Option (Solution T))) (rows : List (List (Option (Solution T)))),
        (l.foldl appendLast rows).length = rows.length := by
      intro l
      induction l with
      | nil => intro rows; rfl
      | cons b l ih =>
        intro rows
        rw [List.foldl_cons, ih]
        induction rows with
        | nil => rfl
        | cons row rows ih => cases rows with
          | nil => rfl
          | cons row' rows => simp only [appendLast, List.length_cons] at ih ⊢; omega
    refine ⟨e1 ++ e2, by rw [t2, t1, List.append_assoc], fun rows => ?_⟩
    rw [List.foldl_append, hrows, hrec.rows, happ]
    simp
    omega

/-- From histories of `find_min` to `find_min().unwrap()`. -/
theorem findMins_of_run {fuel : Nat} : ∀ (n : Nat) {o : GA.Opt σ (List F32)} {w : World σ (List F32)},
    (∀ k ≤ n, (∃ (as : List (Solution (List F32))) (o' : GA.Opt σ (List F32)) (w' : World σ (List F32)), GA.run o (List.replicate k (.findMin fuel)) w = .ok ((as.map fun a => some (some a), o'), w')) ∨
      GA.run o (List.replicate k (.findMin fuel)) w = .error .arith) →
    (∃ (as : List (Solution (List F32))) (o' : GA.Opt σ (List F32)) (w' : World σ (List F32)), GA.run o (List.replicate n (.findMin fuel)) w = .ok ((as.map fun a => some (some a), o'), w') ∧
      findMins fuel n o w = .ok (as, w')) ∨
    (GA.run o (List.replicate n (.findMin fuel)) w = .error .arith ∧ findMins fuel n o w = .error .arith) := by
  intro n
  induction n with
  | zero =>
    intro o w _
    exact .inl ⟨[], o, w, rfl, rfl⟩
  | succ n ih =>
    intro o w h
    cases hf : GA.findMin fuel o w with
    | error e =>
      have hc : GA.call o (.findMin fuel) w = .error e := M.bind_eq_error.2 (.inl hf)
      have hr : GA.run o (List.replicate (n + 1) (.findMin fuel)) w = .error e := M.bind_eq_error.2 (.inl hc)
      have he : e = .arith := by
        rcases h (n + 1) (Nat.le_refl _) with ⟨as, o', w', h1⟩ | h1
        · rw [hr] at h1; cases h1
        · rw [hr] at h1; cases h1; rfl
      subst he
      exact .inr ⟨hr, M.bind_eq_error.2 (.inl hf)⟩
    | ok q =>
      obtain ⟨⟨r, o1⟩, w1⟩ := q
      have hc : GA.call o (.findMin fuel) w = .ok ((some r, o1), w1) := M.bind_eq_ok.2 ⟨_, _, hf, rfl⟩
      have hr : ∃ a, r = some a := by
        rcases h 1 (by omega) with ⟨as, o', w', h1⟩ | h1
        · obtain ⟨r', o2, w2, rs', k1, k2, k3⟩ := GA.run_cons_ok.1 h1
          rw [hc] at k1
          cases k1
          cases as with
          | nil => cases k3
          | cons a as =>
            simp only [List.map_cons, List.cons.injEq, Option.some.injEq] at k3
            exact ⟨a, k3.1.symm⟩
        · have : GA.run o (List.replicate 1 (.findMin fuel)) w = .ok (([some r], o1), w1) :=
            GA.run_cons_ok.2 ⟨_, _, _, [], hc, rfl, rfl⟩
          rw [this] at h1
          cases h1
      obtain ⟨a, rfl⟩ := hr
      have hstep : ∀ k, ∀ e, GA.run o1 (List.replicate k (.findMin fuel)) w1 = .error e →
          GA.run o (List.replicate (k + 1) (.findMin fuel)) w = .error e := fun k e he =>
        M.bind_eq_error.2 (.inr ⟨_, _, hc, M.bind_eq_error.2 (.inl he)⟩)
      have hn : ∀ k ≤ n, (∃ (as : List (Solution (List F32))) (o' : GA.Opt σ (List F32)) (w' : World σ (List F32)), GA.run o1 (List.replicate k (.findMin fuel)) w1 =
          .ok ((as.map fun a => some (some a), o'), w')) ∨ GA.run o1 (List.replicate k (.findMin fuel)) w1 = .error .arith := by
        intro k hk
        rcases h (k + 1) (by omega) with ⟨as, o', w', h1⟩ | h1
        · obtain ⟨r', o2, w2, rs', k1, k2, k3⟩ := GA.run_cons_ok.1 h1
          rw [hc] at k1
          cases k1
          cases as with
          | nil => cases k3
          | cons b as =>
            simp only [List.map_cons, List.cons.injEq] at k3
            exact .inl ⟨as, o', w', by rw [k3.2]; exact k2⟩
        · right
          rcases M.bind_eq_error.1 h1 with h1 | ⟨p, w2, h1, h2⟩
          · rw [hc] at h1; cases h1
          · rw [hc] at h1
            cases h1
            rcases M.bind_eq_error.1 h2 with h2 | ⟨p, w3, -, h2⟩
            · exact h2
            · cases h2
      rcases ih hn with ⟨as, o', w', h1, h2⟩ | ⟨h1, h2⟩
      · refine .inl ⟨a :: as, o', w', GA.run_cons_ok.2 ⟨_, _, _, _, hc, h1, rfl⟩, ?_⟩
        exact M.bind_eq_ok.2 ⟨_, _, hf, M.bind_eq_ok.2 ⟨a, w1, rfl, M.bind_eq_ok.2 ⟨as, w', h2, rfl⟩⟩⟩
      · refine .inr ⟨hstep _ _ h1, ?_⟩
        exact M.bind_eq_error.2 (.inr ⟨_, _, hf, M.bind_eq_error.2 (.inr ⟨a, w1, rfl, M.bind_eq_error.2 (.inl h2)⟩)⟩)

theorem vecEq_self {x : List F32} (h : ∀ a ∈ x, a.isNan = false) : vecEq x x = true := by
  induction x with
  | nil => rfl
  | cons a x ih =>
    unfold vecEq
    rw [ih fun b hb => h b (List.mem_cons_of_mem _ hb), Bool.and_true]
    have := h a List.mem_cons_self
    unfold Fl.feq
    simp [this]

/-- The assertions hold for a record of the results. -/
theorem statVerdict_ok {as : List (Solution (List F32))} {st : Statistics (List F32)} (h1 : st.results = as.map some)
    (h2 : st.convergence.length = as.length) (h3 : ∀ a ∈ as, (∀ c ∈ a.1, c.isNan = false) ∧ a.2.isNan = false) (s : σ) :
    statVerdict as st s = .ok ((), s) := by
  have hl : st.results.length = as.length := by rw [h1, List.length_map]
  refine M.bind_eq_ok.2 ⟨(), s, M.assert_eq_ok.2 ⟨beq_iff_eq.2 hl, rfl⟩, ?_⟩
  refine M.bind_eq_ok.2 ⟨(), s, M.assert_eq_ok.2 ⟨beq_iff_eq.2 hl, rfl⟩, ?_⟩
  refine M.bind_eq_ok.2 ⟨(), s, M.assert_eq_ok.2 ⟨beq_iff_eq.2 h2, rfl⟩, ?_⟩
  have hstats : ∀ k, k ≤ as.length → M.mapL (fun i => do
      let r ← M.index st.results i
      M.unwrap r) (List.range' (as.length - k) k) s = .ok (as.drop (as.length - k), s) := by
    intro k
    induction k with
    | zero =>
      intro _
      rw [Nat.sub_zero, List.drop_length]
      rfl
    | succ k ih =>
      intro hk
      have hlt : as.length - (k + 1) < as.length := by omega
      have e : as.length - (k + 1) + 1 = as.length - k := by omega
      rw [List.range'_succ, List.drop_eq_getElem_cons hlt, e]
      refine M.mapL_cons_ok.2 ⟨_, _, s, ?_, ih (by omega), rfl⟩
      refine M.bind_eq_ok.2 ⟨some as[as.length - (k + 1)], s, M.index_eq_ok.2 ⟨?_, rfl⟩, rfl⟩
      rw [h1, List.getElem?_map, List.getElem?_eq_getElem hlt]
      rfl
  have h4 := hstats as.length (Nat.le_refl _)
  rw [Nat.sub_self, List.drop_zero, ← List.range_eq_range'] at h4
  refine M.bind_eq_ok.2 ⟨as, s, h4, ?_⟩
  clear h4 hstats hl h1 h2
  induction as with
  | nil => rfl
  | cons a as ih =>
    obtain ⟨k1, k2⟩ := h3 a List.mem_cons_self
    rw [List.zip_cons_cons]
    refine M.foldL_cons_ok.2 ⟨(), s, ?_, ih fun b hb => h3 b (List.mem_cons_of_mem _ hb)⟩
    refine M.bind_eq_ok.2 ⟨(), s, M.assert_eq_ok.2 ⟨vecEq_self k1, rfl⟩, M.assert_eq_ok.2 ⟨?_, rfl⟩⟩
    unfold Fl.feq
    simp [k2]

theorem statStops_compiled (L : Lens σ Stop.GNC) (t : F64) (m : Nat) : Compiled (statStops L t m) := by
  refine .any [fun _ => Stop.threshold t, fun p s => L.zoom (Stop.goalNotChange p s), fun _ => Stop.maxIterations m] ?_
  intro c hc
  simp only [List.mem_cons, List.not_mem_nil, or_false] at hc
  rcases hc with rfl | rfl | rfl
  · exact .other _
  · exact .object _
  · exact .other _

/-- Runs one after the other, without overflow checks. -/
theorem lib_runs {R : Rng σ} {size : Nat} {ivs : List (F32 × F32)} {m fuel : Nat} (hfuel : m < fuel) : ∀ (n : Nat)
    (o : GA.Opt σ (List F32)) (w : World σ (List F32)), LibProgram R size ivs o.comps → Bounding m o.comps.stop →
    ¬ Returned (o.comps.stop ⟨none, 0⟩) true →
    ∃ (as : List (Solution (List F32))) (o' : GA.Opt σ (List F32)) (w' : World σ (List F32)),
      GA.run o (List.replicate n (.findMin fuel)) w = .ok ((as.map fun a => some (some a), o'), w') ∧ as.length = n ∧
      ∀ a ∈ as, InBox ivs a.1 ∧ a.2.isFinite = true := by
  intro n
  induction n with
  | zero => intro o w _ _ _; exact ⟨[], o, w, rfl, rfl, fun _ h => absurd h List.not_mem_nil⟩
  | succ n ih =>
    intro o w h1 h2 h3
    obtain ⟨x, v, o1, w1, e1, e2, -, e4, -⟩ := C71_find_min R Fmt.embeds_f32 size ivs o h1 m h2 h3 fuel hfuel w
    have hc := GA.findMin_comps e1
    obtain ⟨as, o', w', k1, k2, k3⟩ := ih o1 w1 (by rw [hc]; exact h1) (by rw [hc]; exact h2) (by rw [hc]; exact h3)
    refine ⟨(x, v) :: as, o', w', GA.run_cons_ok.2 ⟨_, _, _, _, M.bind_eq_ok.2 ⟨_, _, e1, rfl⟩, k1, rfl⟩, by simp [k2], ?_⟩
    intro a ha
    rcases List.mem_cons.1 ha with rfl | ha
    · exact ⟨e2, e4⟩
    · exact k3 a ha

theorem gaView_ok {r : Except Err ((List (GA.Ret T) × GA.Opt σ T) × World σ T)} {rs : List (GA.Ret T)} {p : Population T}
    {w : World σ T} (h : gaView r = .ok ((rs, p), w)) : ∃ o, r = .ok ((rs, o), w) := by
  cases r with
  | error e => cases h
  | ok q =>
    obtain ⟨⟨rs', o⟩, w'⟩ := q
    simp only [gaView, Except.ok.injEq, Prod.mk.injEq] at h
    obtain ⟨⟨rfl, -⟩, rfl⟩ := h
    exact ⟨o, rfl⟩

theorem gaView_error {r : Except Err ((List (GA.Ret T) × GA.Opt σ T) × World σ T)} {e : Err} :
    gaView r = .error e ↔ r = .error e := by
  cases r with
  | error e' => simp [gaView]
  | ok q => simp [gaView]

/-- A test of the statistics, from what the runs without the logger are. -/
theorem stat_test {o : GA.Opt σ (List F32)} {n fuel : Nat} {ivs : List (F32 × F32)} {s : σ} (p : Profile)
    {make : M σ (GA.Opt σ (List F32))} {s0 : σ} (hmake : make s0 = .ok (o, s)) (hn : n ≠ 0)
    (h : ∀ k ≤ n, (∃ (as : List (Solution (List F32))) (o' : GA.Opt σ (List F32)) (w' : World σ (List F32)),
        GA.run o (List.replicate k (.findMin fuel)) ⟨s, []⟩ = .ok ((as.map fun a => some (some a), o'), w') ∧ as.length = k ∧
        ∀ a ∈ as, InBox ivs a.1 ∧ a.2.isFinite = true) ∨
      GA.run o (List.replicate k (.findMin fuel)) ⟨s, []⟩ = .error .arith) :
    (∃ s', statTest p make n fuel s0 = .ok ((), s')) ∨
    (GA.run o (List.replicate n (.findMin fuel)) ⟨s, []⟩ = .error .arith ∧ statTest p make n fuel s0 = .error .arith) := by
  have hrep : ∀ k, (List.replicate (k + 1) (.findMin fuel) : List (GA.Call σ (List F32))) =
      .findMin fuel :: (List.replicate k (RunCall.findMin fuel)).map GA.runCall := by
    intro k
    rw [List.map_replicate, List.replicate_succ]
    rfl
  have hrep' : ∀ k, (List.replicate (k + 1) (.findMin fuel) : List (GA.Call (σ × Statistics (List F32)) (List F32))) =
      .findMin fuel :: (List.replicate k (RunCall.findMin fuel)).map GA.runCall := by
    intro k
    rw [List.map_replicate, List.replicate_succ]
    rfl
  have hatt : ∀ k ≤ n, (∃ (as : List (Solution (List F32))) (o' : GA.Opt (σ × Statistics (List F32)) (List F32))
      (w' : World (σ × Statistics (List F32)) (List F32)),
        GA.run (o.attach 0 (Stats.logger p)) (List.replicate k (.findMin fuel)) ⟨(s, Statistics.new), []⟩ =
          .ok ((as.map fun a => some (some a), o'), w')) ∨
      GA.run (o.attach 0 (Stats.logger p)) (List.replicate k (.findMin fuel)) ⟨(s, Statistics.new), []⟩ = .error .arith := by
    intro k hk
    cases k with
    | zero => exact .inl ⟨[], _, _, rfl⟩
    | succ k =>
      have h70 := C70_genetic (C70_statistics p) o 0 fuel (List.replicate k (RunCall.findMin fuel)) ⟨s, []⟩ Statistics.new trivial
      rw [← hrep, ← hrep'] at h70
      rcases h (k + 1) hk with ⟨as, o', w', h1, -⟩ | h1
      · obtain ⟨t', tr', h2, -⟩ := h70.returns (as.map fun a => some (some a), o'.pop) w' (by rw [h1]; rfl)
        obtain ⟨o2, h2⟩ := gaView_ok h2
        exact .inl ⟨as, o2, _, h2⟩
      · exact .inr (gaView_error.1 ((h70.fails _).1 (gaView_error.2 h1)))
  have hback : GA.run (o.attach 0 (Stats.logger p)) (List.replicate n (.findMin fuel)) ⟨(s, Statistics.new), []⟩ = .error .arith →
      GA.run o (List.replicate n (.findMin fuel)) ⟨s, []⟩ = .error .arith := by
    intro he
    obtain ⟨k, rfl⟩ := Nat.exists_eq_succ_of_ne_zero hn
    have h70 := C70_genetic (C70_statistics p) o 0 fuel (List.replicate k (RunCall.findMin fuel)) ⟨s, []⟩ Statistics.new trivial
    rw [← hrep, ← hrep'] at h70
    exact gaView_error.1 ((h70.fails _).2 (gaView_error.2 he))
  have htest : statTest p make n fuel s0 =
      match findMins fuel n (o.attach 0 (Stats.logger p)) ⟨(s, Statistics.new), []⟩ with
      | .ok (results, w) => statVerdict results w.user.2 w.user.1
      | .error e => .error e := by
    unfold statTest
    rw [M.bind_run, hmake]
    rfl
  rcases findMins_of_run n hatt with ⟨as, o', w', h1, h2⟩ | ⟨h1, h2⟩
  swap
  · exact .inr ⟨hback h1, by rw [htest, h2]⟩
  have hpriv := GA.attach_private o (Nat.zero_le _) (Stats.logger p)
  have halw : ∀ k, Spec.Always (GA.PrivateLogger (Lens.snd _ _) (Stats.logger p) 0) (o.attach 0 (Stats.logger p)).comps
      (List.replicate k (.findMin fuel)) := by
    intro k
    induction k with
    | zero => exact hpriv
    | succ k ih => exact ⟨hpriv, ih⟩
  obtain ⟨k1, k2⟩ := C50_genetic_fresh p (Lens.snd _ _) 0 _ o' _ (halw n) _ _ rfl rfl _ h1
  obtain ⟨ext, t1, t2⟩ := rows_count n (by simp [GA.Opt.attach]) h1
  obtain ⟨m, rfl⟩ := Nat.exists_eq_succ_of_ne_zero hn
  have hlen : as.length = m + 1 ∧ ∀ a ∈ as, InBox ivs a.1 ∧ a.2.isFinite = true := by
    have h70 := C70_genetic (C70_statistics p) o 0 fuel (List.replicate m (RunCall.findMin fuel)) ⟨s, []⟩ Statistics.new trivial
    rw [← hrep, ← hrep'] at h70
    rcases h (m + 1) (Nat.le_refl _) with ⟨as2, o2, w2, e1, e2, e3⟩ | e1
    · obtain ⟨t', tr', h3, -⟩ := h70.returns (as2.map fun a => some (some a), o2.pop) w2 (by rw [e1]; rfl)
      rw [h1] at h3
      simp only [gaView, Except.ok.injEq, Prod.mk.injEq] at h3
      have : as = as2 := (List.map_injective_iff.2 fun a b hab => by simpa using hab) h3.1.1
      rw [this]
      exact ⟨e2, e3⟩
    · have := (h70.fails _).1 (gaView_error.2 e1)
      rw [h1] at this
      cases this
  refine .inl ⟨w'.user.1, ?_⟩
  rw [htest, h2]
  refine statVerdict_ok ?_ ?_ ?_ w'.user.1
  · have k1 : w'.user.2.results = _ := k1
    rw [k1, List.filterMap_map]
    show as.filterMap (fun a => some (some a)) = _
    exact congrFun List.filterMap_eq_map' as
  · have k2 : w'.user.2.convergence = _ := k2
    rw [k2, t1]
    show (ext.foldl rowStep []).length = _
    rw [t2, hlen.1]
    simp
  · intro a ha
    obtain ⟨b1, b2⟩ := hlen.2 a ha
    refine ⟨fun c hc => ?_, Fl.isNan_of_isFinite b2⟩
    obtain ⟨i, hi, rfl⟩ := List.getElem_of_mem hc
    have := List.forall₂_iff_get.1 b1
    exact Fl.isNan_of_isFinite (this.2 i (by rw [this.1]; exact hi) hi).1

section

variable {P : Platform σ} {L : Lens σ Stop.GNC} {size dims : Nat}

theorem paraboloidOf_ok (hsize : 0 < size) (hd : 0 < dims) (s : σ) :
    paraboloidOf size dims P L s = .ok (geneticMade P (TestFunc.goalFromFunction TestFunc.paraboloidF64)
      (statStops L (Fl.ofRat false 1 1000000) 5000 P.profile) size (box (minus 100 1) (plus 100 1) dims) 2 (Fl.ofNat 15) [],
      L.set (Stop.GNC.new 150 (Fl.ofRat false 1 10000000)) s) :=
  genetic_ok (threeStops_ok L P.profile _ 150 _ 5000 s) hsize hd (by decide +kernel) _ _ _

theorem paraboloidOf_lib (hP : Platform.Sound P) (hsize : 0 < size) (hd' : dims ≤ 2 ^ 20) :
    LibProgram P.rng size (box (minus 100 1) (plus 100 1) dims) (geneticMade P (TestFunc.goalFromFunction TestFunc.paraboloidF64)
      (statStops L (Fl.ofRat false 1 1000000) 5000 .release) size (box (minus 100 1) (plus 100 1) dims) 2 (Fl.ofNat 15) []).comps :=
  example_libProgram hP (goal := TestFunc.goalFromFunction TestFunc.paraboloidF64) (statStops_lib L _ 5000) hsize (by decide +kernel)
    (by decide +kernel) (by decide +kernel)
    (fun x hx s => ⟨_, s, rfl, (C72_paraboloid (.inl rfl) x (box_moderate hd' (by decide +kernel) (by decide +kernel) hx)).1⟩) 2
    (Fl.ofNat 15) (ls := []) (by simp)

end

/-- C85: `genetic_paraboloid_single` in tests/genetic-stat-paraboloid.rs passes on any platform with any random numbers, with or
without overflow checks. The population (800) and the dimension (5) may be any other numbers. -/
theorem C85_stat_single (P : Platform σ) (hP : Platform.Sound P) (L : Lens σ Stop.GNC) (hL : Platform.Leaves L P)
    (size dims : Nat) (hsize : 0 < size) (hd : 0 < dims) (hd' : dims ≤ 2 ^ 20) (fuel : Nat) (hfuel : 5000 < fuel) (s : σ) :
    ∃ s', statTest P.profile (paraboloidOf size dims P L) 1 fuel s = .ok ((), s') := by
  obtain ⟨x, o', w', e1, e2, e3⟩ := genetic_three hP hL (goal := TestFunc.paraboloidF64) hsize (lo := minus 100 1) (hi := plus 100 1)
    (dims := dims) (by decide +kernel) (by decide +kernel) (by decide +kernel) (fun x hx => (C72_paraboloid (.inl rfl) x
      (box_moderate hd' (by decide +kernel) (by decide +kernel) hx)).1) 2 (Fl.ofNat 15) (Fl.ofRat false 1 1000000) (n := 5000)
    (by omega) fuel hfuel (L.set (Stop.GNC.new 150 (Fl.ofRat false 1 10000000)) s) (by rw [L.get_set]; rfl)
  rcases stat_test (ivs := box (minus 100 1) (plus 100 1) dims) P.profile (paraboloidOf_ok (P := P) (L := L) hsize hd s) (n := 1)
    (by omega) (fuel := fuel) (by
      intro k hk
      left
      cases k with
      | zero => exact ⟨[], _, _, rfl, rfl, fun _ h => absurd h List.not_mem_nil⟩
      | succ k =>
        obtain rfl : k = 0 := by omega
        refine ⟨[(x, TestFunc.paraboloidF64 x)], o', w', ga_run_one e1, rfl, ?_⟩
        intro a ha
        rw [List.mem_singleton.1 ha]
        exact ⟨e2, e3⟩) with h | ⟨h, -⟩
  · exact h
  · have : GA.run _ [.findMin fuel] _ = .ok _ := ga_run_one e1
    rw [show (List.replicate 1 (GA.Call.findMin fuel) : List (GA.Call σ (List F32))) = [.findMin fuel] from rfl, this] at h
    cases h

/-- C85: `genetic_paraboloid_two` in the same file, with any number of runs: without overflow checks it passes; with them it passes or
panics because of an overflow in GoalNotChange, which keeps its iteration number from the run before (see C35). -/
theorem C85_stat_two (P : Platform σ) (hP : Platform.Sound P) (L : Lens σ Stop.GNC)
    (size dims : Nat) (hsize : 0 < size) (hd : 0 < dims) (hd' : dims ≤ 2 ^ 20) (runs : Nat) (hruns : runs ≠ 0) (fuel : Nat)
    (hfuel : 5000 < fuel) (s : σ) :
    (∃ s', statTest P.profile (paraboloidOf size dims P L) runs fuel s = .ok ((), s')) ∨
    (P.profile = .debug ∧ statTest P.profile (paraboloidOf size dims P L) runs fuel s = .error .arith) := by
  have hlib := paraboloidOf_lib (L := L) hP hsize hd'
  have hrel := fun k => lib_runs (m := 5000) hfuel k _ ⟨L.set (Stop.GNC.new 150 (Fl.ofRat false 1 10000000)) s, []⟩ hlib
    (C37_bounding 5000 _ (by simp)) (statStops_first L _ (by omega) .release)
  have hmake := paraboloidOf_ok (P := P) (L := L) hsize hd s
  have hdeb := fun k => C74_genetic_any (statStops L (Fl.ofRat false 1 1000000) 5000) (statStops_compiled L _ _)
    (geneticMade P (TestFunc.goalFromFunction TestFunc.paraboloidF64) (statStops L (Fl.ofRat false 1 1000000) 5000 .release) size
      (box (minus 100 1) (plus 100 1) dims) 2 (Fl.ofNat 15) []) (List.replicate k (.findMin fuel))
    ⟨L.set (Stop.GNC.new 150 (Fl.ofRat false 1 10000000)) s, []⟩
  cases hp : P.profile with
  | release =>
    rw [hp] at hmake
    rcases stat_test (ivs := box (minus 100 1) (plus 100 1) dims) .release hmake hruns (fuel := fuel) fun k _ => .inl (hrel k)
      with h | ⟨h, -⟩
    · exact .inl h
    · obtain ⟨as, o', w', h1, -⟩ := hrel runs
      rw [h1] at h
      cases h
  | debug =>
    rw [hp] at hmake
    rcases stat_test (ivs := box (minus 100 1) (plus 100 1) dims) .debug hmake hruns (fuel := fuel) (fun k _ => by
      rcases hdeb k with h | h
      · exact .inr (gaView_error.1 h)
      · obtain ⟨as, o', w', h1, h2⟩ := hrel k
        left
        have h3 : GA.run ((geneticMade P (TestFunc.goalFromFunction TestFunc.paraboloidF64)
          (statStops L (Fl.ofRat false 1 1000000) 5000 .release) size (box (minus 100 1) (plus 100 1) dims) 2 (Fl.ofNat 15)
          []).withStop (statStops L (Fl.ofRat false 1 1000000) 5000 .release)) (List.replicate k (.findMin fuel))
          ⟨L.set (Stop.GNC.new 150 (Fl.ofRat false 1 10000000)) s, []⟩ = _ := h1
        rw [h3] at h
        obtain ⟨o2, h⟩ := gaView_ok h
        exact ⟨as, o2, w', h, h2⟩) with h | ⟨-, h⟩
    · exact .inl h
    · exact .inr ⟨rfl, h⟩

/-! ## A second run that panics -/

/-- Quarters from a list. -/
def quarter {g : Fmt} (lo hi : Fl g) (n : Nat) : Fl g :=
  if lo.le (Fl.ofRat false n 4) && (Fl.ofRat false n 4 : Fl g).lt hi then Fl.ofRat false n 4 else lo

def headOr (s : List Nat × Stop.GNC) : Nat × (List Nat × Stop.GNC) := (s.1.headD 0, s.1.tail, s.2)

def quarterRng : Rng (List Nat × Stop.GNC) where
  nat := fun lo hi s => (if lo ≤ (headOr s).1 ∧ (headOr s).1 < hi then (headOr s).1 else lo, (headOr s).2)
  natIncl := fun lo hi s => (if lo ≤ (headOr s).1 ∧ (headOr s).1 ≤ hi then (headOr s).1 else lo, (headOr s).2)
  fl := fun lo hi s => (quarter lo hi (headOr s).1, (headOr s).2)
  flIncl := fun lo hi s => (quarter lo hi (headOr s).1, (headOr s).2)
  nat_range := by
    intro lo hi s h
    dsimp only
    split
    · assumption
    · exact ⟨Nat.le_refl _, h⟩
  natIncl_range := by
    intro lo hi s h
    dsimp only
    split
    · assumption
    · exact ⟨Nat.le_refl _, h⟩
  fl_range := by
    intro g lo hi s h h1 h2
    unfold quarter
    split
    · rename_i hq
      rw [Bool.and_eq_true] at hq
      exact hq
    · exact ⟨Fl.le_iff.2 ⟨Fl.isNan_of_isFinite h1, Fl.isNan_of_isFinite h1, Int.le_refl _⟩, h⟩
  flIncl_range := by
    intro g lo hi s h h1 h2
    unfold quarter
    split
    · rename_i hq
      rw [Bool.and_eq_true] at hq
      have h3 := Fl.lt_iff.1 hq.2
      exact ⟨hq.1, Fl.le_iff.2 ⟨h3.1, h3.2.1, Int.le_of_lt h3.2.2⟩⟩
    · exact ⟨Fl.le_iff.2 ⟨Fl.isNan_of_isFinite h1, Fl.isNan_of_isFinite h1, Int.le_refl _⟩, h⟩

def quarterPlatform (p : Profile) : Platform (List Nat × Stop.GNC) where
  rng := quarterRng
  profile := p
  libm := ⟨fun _ => Fl.ofRat false 1 (2 ^ 23), fun x _ => x, fun _ => Fl.zero, fun _ => Fl.one⟩
  print := fun _ s => .ok ((), s)
  showGene := fun _ _ => "x"
  showGoal := fun _ _ => "v"

/-- Two points 1.75; after the second generation there is 1.5, after the third 1. Then two points 1.5. -/
def quarterScript : List Nat :=
  [7, 7] ++ [0, 0, 0, 0, 0, 0, 1, 1, 0, 80] ++ [0, 0, 0, 0, 0, 0, 1, 1, 0, 0, 21, 21, 21] ++
  [0, 1, 1, 0, 1, 1, 1, 1, 0, 0, 22, 22, 22] ++ [6, 6] ++ [0, 0, 0, 0, 0, 0, 1, 1, 0, 80]


theorem quarter_sound (p : Profile) : Platform.Sound (quarterPlatform p) :=
  ⟨fun _ s => ⟨(), _, rfl, trivial⟩, fun _ _ => ⟨(by decide +kernel : Within 1 (Fl.zero : F32)),
    (by decide +kernel : Within 1 (Fl.one : F32))⟩⟩

theorem quarter_leaves (p : Profile) : Platform.Leaves (Lens.snd _ _) (quarterPlatform p) :=
  ⟨⟨fun _ _ _ => rfl, fun _ _ _ => rfl, fun _ _ _ => rfl, fun _ _ _ => rfl⟩, fun x s a s' h => by cases h; rfl⟩

/-- C85: the panic happens. The test with two points in one dimension passes with one run; with two runs it panics in the second of
them with overflow checks and passes without. -/
theorem C85_stat_two_witness :
    statTest .debug (paraboloidOf 2 1 (quarterPlatform .debug) (Lens.snd _ _)) 2 6000 (quarterScript, Stop.GNC.new 0 Fl.zero) =
      .error .arith ∧
    M.okAnd (statTest .debug (paraboloidOf 2 1 (quarterPlatform .debug) (Lens.snd _ _)) 1 6000
      (quarterScript, Stop.GNC.new 0 Fl.zero)) (fun _ s => decide (s.2.changeIter = 2)) = true ∧
    ∃ s', statTest .release (paraboloidOf 2 1 (quarterPlatform .release) (Lens.snd _ _)) 2 6000
      (quarterScript, Stop.GNC.new 0 Fl.zero) = .ok ((), s') := by
  refine ⟨?_, by decide +kernel, ?_⟩
  · have h : ∀ r : Except Err (Unit × (List Nat × Stop.GNC)), (match r with | .error .arith => true | _ => false) = true →
        r = .error .arith := by
      intro r hr
      split at hr
      · rfl
      · cases hr
    exact h _ (by decide +kernel)
  · rcases C85_stat_two (quarterPlatform .release) (quarter_sound _) (Lens.snd _ _) 2 1 (by omega) (by omega) (by omega) 2 (by omega)
      6000 (by omega) (quarterScript, Stop.GNC.new 0 Fl.zero) with h | ⟨h, -⟩
    · exact h
    · cases h

/-- A platform that meets the hypotheses of the theorems about the tests. -/
example (s) : ∃ s', statTest .debug (paraboloidOf 800 5 (quarterPlatform .debug) (Lens.snd _ _)) 1 6000 s = .ok ((), s') :=
  C85_stat_single (quarterPlatform .debug) (quarter_sound _) (Lens.snd _ _) (quarter_leaves _) 800 5 (by omega) (by omega) (by omega)
    6000 (by omega) s

end Verif.Props
