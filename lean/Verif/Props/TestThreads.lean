import Verif.Props.TestPrograms
import Verif.Props.StatWhole
import Verif.Props.Rounding

/-!
# C85: the integration test with threads, `optlib/tests/genetic-rosenbrock.rs`
-/

namespace Verif.Fl

variable {f : Fmt}

theorem ratio_ge_iff {x y q p : Fl f} {a b N : Nat} (hx : x.isFinite = true) (hy : y.isFinite = true)
    (ha : x.toInt = a * f.D) (hb : y.toInt = b * f.D) (h0 : 0 < b) (hN : b ≤ N) (hq : 4 * q.toInt = 3 * f.D)
    (hqn : q.isNan = false) (hp : p.lt q = true) (hstep : (3 * f.D - 4 * p.toInt) * N ≤ f.D) :
    q.le (x.div y) = true ↔ 3 * b ≤ 4 * a := by
  have hD : (0 : ℝ) < f.D := by exact_mod_cast f.D_pos
  have hDi : (0 : ℤ) < f.D := by exact_mod_cast f.D_pos
  have hbr : (0 : ℝ) < b := by exact_mod_cast h0
  have hbi : (0 : ℤ) < b := by exact_mod_cast h0
  have hr := div_rounds hx hy (by rw [hb]; positivity)
  have e : (x.toInt : ℝ) * f.D / y.toInt = a * f.D / b := by
    rw [ha, hb]
    push_cast
    field_simp
  rw [e] at hr
  obtain ⟨hpn, -, hpq⟩ := lt_iff.1 hp
  have hqr : (q.toInt : ℝ) = 3 * f.D / 4 := by
    have : (4 * q.toInt : ℝ) = 3 * f.D := by exact_mod_cast hq
    linarith
  constructor
  · intro h
    by_contra hn
    have hn : 4 * (a : ℤ) + 1 ≤ 3 * b := by omega
    have hle : (a : ℝ) * f.D / b ≤ p.toInt := by
      rw [div_le_iff₀ hbr]
      have h1 : (3 * f.D - 4 * p.toInt) * (b : ℤ) ≤ f.D := by
        refine _root_.le_trans (mul_le_mul_of_nonneg_left (by exact_mod_cast hN) ?_) hstep
        omega
      have h2 : (4 * (a : ℤ) + 1) * f.D ≤ 3 * b * f.D := mul_le_mul_of_nonneg_right hn hDi.le
      have h3 : 4 * ((a : ℤ) * f.D) ≤ 4 * (p.toInt * b) := by nlinarith
      have h4 : (a : ℤ) * f.D ≤ p.toInt * b := by omega
      exact_mod_cast h4
    have h1 := le_iff.1 (hr.le hpn hle)
    have h2 := le_iff.1 h
    omega
  · intro h
    refine hr.ge hqn ?_
    rw [hqr, div_le_div_iff₀ (by norm_num) hbr]
    have : (3 * b : ℝ) ≤ 4 * a := by exact_mod_cast h
    nlinarith

theorem toInt_ofNat_f64 {n : Nat} (h : n ≤ 2 ^ 51) : (ofNat n : F64).toInt = n * Fmt.f64.D := by
  have hv := value_ofNat (f := Fmt.f64) (n := n) (Nat.le_trans h (by decide)) (ofNat_finite (by omega) (by decide))
  have hD : (Fmt.f64.D : ℝ) ≠ 0 := by exact_mod_cast Fmt.f64.D_pos.ne'
  unfold Spec.value at hv
  rw [div_eq_iff hD] at hv
  exact_mod_cast hv

/-- A quotient of two whole numbers is rounded to at least 0.75 only if it is at least that. -/
theorem quarter_iff {a b : Nat} (hab : a ≤ b) (hb : 0 < b) (hl : b ≤ 2 ^ 51) :
    (Fl.ofRat false 3 4 : F64).le ((ofNat a).div (ofNat b)) = true ↔ 3 * b ≤ 4 * a :=
  ratio_ge_iff (p := Fl.ofRat false (3 * 2 ^ 51 - 1) (2 ^ 53)) (ofNat_finite (by omega) (by decide))
    (ofNat_finite (by omega) (by decide)) (toInt_ofNat_f64 (by omega)) (toInt_ofNat_f64 hl) hb hl (by decide +kernel)
    (by decide +kernel) (by decide +kernel) (by decide +kernel)

end Verif.Fl

namespace Verif.Props

open Verif Spec Examples Fl Stats Workers StatPrograms TestPrograms
open _root_.Verif.GA (firstTurns firstTurns_fuel findMin)
open _root_.Verif.Props.Swarm (rowsOf_withoutLogs)

variable {σ : Type}

theorem rosenbrockJob_steady (p : Profile) (make : M σ (GA.Opt σ (List F32))) : Steady (rosenbrockJob p make) := by
  intro f d
  unfold rosenbrockJob
  refine (M.Upto.refl _).bind fun o => ?_
  intro s h
  have key := GA.findMin_more (o.attach 0 (Stats.logger p)) f d ⟨(s, Statistics.new), []⟩
  have h1 : GA.findMin f (o.attach 0 (Stats.logger p)) ⟨(s, Statistics.new), []⟩ ≠ .error .fuel := by
    intro he
    simp only [he] at h
    exact h rfl
  simp only [key h1]

theorem test_job {o o' : GA.Opt σ (List F32)} (p : Profile) {fuel : Nat} {s : σ} {a : Option (Solution (List F32))}
    {w' : World σ (List F32)} (h : findMin fuel o ⟨s, []⟩ = .ok ((a, o'), w')) :
    rosenbrockJob p (pure o) fuel s = .ok ((⟨[a], rowsOf w'.trace⟩, []), w'.user) := by
  obtain ⟨t', tr', h2, -, htr⟩ := (C70_genetic (C70_statistics p) o 0 fuel [] ⟨s, []⟩ Statistics.new
    trivial).returns _ _ (by
      show gaView (GA.run o [.findMin fuel] ⟨s, []⟩) = _
      rw [ga_run_one h]; rfl)
  have h2 : gaView (GA.run (o.attach 0 (Stats.logger p)) [.findMin fuel] ⟨(s, Statistics.new), []⟩) = _ := h2
  cases h3 : findMin fuel (o.attach 0 (Stats.logger p)) ⟨(s, Statistics.new), []⟩ with
  | error e => rw [ga_run_error h3] at h2; cases h2
  | ok q =>
    obtain ⟨⟨r, o2⟩, w2⟩ := q
    have hrun2 := ga_run_one h3
    rw [hrun2] at h2
    simp only [gaView, Except.ok.injEq, Prod.mk.injEq, List.cons.injEq, Option.some.injEq, and_true] at h2
    obtain ⟨⟨rfl, h4⟩, rfl⟩ := h2
    have hpriv := GA.attach_private o (Nat.zero_le _) (Stats.logger p)
    obtain ⟨k1, k2⟩ := C50_genetic_fresh p (Lens.snd _ _) 0 _ o2 [.findMin fuel] ⟨hpriv, hpriv⟩ _ _ rfl rfl _ hrun2
    rw [← rowsOf_withoutLogs, htr, rowsOf_withoutLogs] at k2
    have hd : t' = ⟨[r], rowsOf w'.trace⟩ := by
      have k1 : t'.results = [r] := k1
      have k2 : t'.convergence = rowsOf w'.trace := k2
      cases t'
      simp only at k1 k2
      rw [k1, k2]
    refine M.bind_eq_ok.2 ⟨o, s, rfl, ?_⟩
    rw [h3]
    simp only [hd]
    rfl

theorem test_fuel (p : Profile) {o : GA.Opt σ (List F32)} {fuel : Nat} {s : σ} {q : Population (List F32)}
    {w' : World σ (List F32)} (h : firstTurns fuel o.comps ⟨s, []⟩ = .ok (q, w')) :
    rosenbrockJob p (pure o) fuel s = .error .fuel := by
  have h2 : findMin fuel o ⟨s, []⟩ = .error .fuel := firstTurns_fuel h
  have h3 := ((C70_genetic (C70_statistics p) o 0 fuel [] ⟨s, []⟩ Statistics.new trivial).fails .fuel).1 (by
      show gaView (GA.run o [.findMin fuel] ⟨s, []⟩) = _
      rw [ga_run_error h2]; rfl)
  have h3 : gaView (GA.run (o.attach 0 (Stats.logger p)) [.findMin fuel] ⟨(s, Statistics.new), []⟩) = .error .fuel := h3
  refine M.bind_eq_error.2 (.inr ⟨o, s, rfl, ?_⟩)
  cases h4 : findMin fuel (o.attach 0 (Stats.logger p)) ⟨(s, Statistics.new), []⟩ with
  | ok q => rw [ga_run_one (r := q.1.1) (o' := q.1.2) (w' := q.2) h4] at h3; cases h3
  | error e =>
    rw [ga_run_error h4] at h3
    cases h3
    rfl

theorem test_made {make : M σ (GA.Opt σ (List F32))} {o : GA.Opt σ (List F32)} {s s1 : σ} (h : make s = .ok (o, s1)) (p : Profile)
    (fuel : Nat) : rosenbrockJob p make fuel s = rosenbrockJob p (pure o) fuel s1 := by
  unfold rosenbrockJob
  rw [M.bind_run, h]
  rfl

/-- One run in a thread of the test. -/
theorem rosenbrock_job (P : Platform σ) (hP : Platform.Sound P) (L : Lens σ Stop.GNC) (hL : Platform.Leaves L P)
    (fuel : Nat) (hfuel : fuel ≤ 2 ^ 55) (s : σ) :
    (∃ r s', rosenbrockJob P.profile (StatPrograms.geneticRosenbrock P L) fuel s = .ok (r, s') ∧
      RosenbrockRecord P fuel r) ∨
    rosenbrockJob P.profile (StatPrograms.geneticRosenbrock P L) fuel s = .error .fuel := by
  rw [test_made (rosenbrock_make P L s)]
  rcases rosenbrock_cases P hP L hL (Fl.ofRat false 1 1000000) fuel hfuel (L.set (Stop.GNC.new 2000 (Fl.ofRat false 1 10000000)) s)
    (by rw [L.get_set]; rfl) with ⟨a, o2, w', d, h1, -, h3, h4⟩ | ⟨q, w', h1, -⟩
  · refine .inl ⟨_, _, test_job P.profile h1, d.2, ?_, rfl⟩
    rw [← h4]
    exact h3
  · exact .inr (test_fuel P.profile h1)

theorem test_merged {P : Platform σ} {m : Nat} {ds : List (Data (List F32))} {acc : Data (List F32)}
    (h : ∀ d ∈ ds, RosenbrockRecord P m d) (hm : Merged ds acc) : acc.1.results.length = ds.length := by
  rw [hm.1]
  clear hm
  induction ds with
  | nil => rfl
  | cons d ds ih =>
    obtain ⟨k, ⟨ps, a, row, h1, -⟩, -⟩ := h d List.mem_cons_self
    have h2 : d.1.results = [some a] := by rw [congrArg Prod.fst h1]
    rw [List.flatMap_cons, List.length_append, h2, List.length_singleton, ih fun d hd => h d (List.mem_cons_of_mem _ hd),
      List.length_cons]
    omega

/-- C85: `genetic_rosenbrock` in tests/genetic-rosenbrock.rs, if each run ends within `m` generations: it passes exactly if at
least three quarters of the runs have ended near the minimum. -/
theorem C85_genetic_rosenbrock (P : Platform σ) (hP : Platform.Sound P) (L : Lens σ Stop.GNC) (hL : Platform.Leaves L P)
    (cpu : Nat) (h1 : 1 ≤ cpu) (h2 : cpu ≤ 100) (seed : Nat → σ) (m : Nat) (hm : m ≤ 2 ^ 55)
    (hend : ∀ s, rosenbrockJob P.profile (StatPrograms.geneticRosenbrock P L) m s ≠ .error .fuel) :
    Reports 100 cpu (rosenbrockJob P.profile (StatPrograms.geneticRosenbrock P L)) seed (RosenbrockRecord P m)
      (fun runs d => ∀ s : σ, ∃ good, (∀ a, good a = true ↔ Close (List.replicate 3 (plus 1 1)) (List.replicate 3 (plus 1 100)) a.1) ∧
        PassesIff (rosenbrockVerdict d s) (3 * runs ≤ 4 * accepted d.1.results good)) := by
  obtain ⟨k1, k2⟩ := share h1 h2 (by omega)
  refine whole (F := m) (rosenbrockJob_steady _ _) (fun s => by
      rcases rosenbrock_job P hP L hL m hm s with h | h
      · exact h
      · exact absurd h (hend s)) 100 cpu seed fun ds acc hlen hrec hmg s => ?_
  have hl := test_merged hrec hmg
  obtain ⟨good, hgood⟩ := (C59_vec_new (γ := F64) (List.replicate 3 (plus 1 1)) (List.replicate 3 (plus 1 100)) s).1 rfl
  refine ⟨good, fun a => C59_vec _ _ s s good hgood a.1 a.2, ?_⟩
  cases hrate : successRate (γ := F64) acc.1.results good with
  | none =>
    have := (C58_none _ _).1 hrate
    rw [this] at hl
    simp at hl
    omega
  | some rate =>
    obtain ⟨-, hr⟩ := successRate_eq hrate
    have hq := Fl.quarter_iff (a := accepted acc.1.results good) (b := acc.1.results.length) List.countP_le_length (by omega) (by omega)
    rw [← hr, hl] at hq
    have hv : ∀ b, (Fl.ofRat false 3 4 : F64).le rate = b → rosenbrockVerdict acc s = (M.assert b : M σ Unit) s := by
      intro b hb
      unfold rosenbrockVerdict
      generalize (Fl.ofRat false 3 4 : F64) = q at hb ⊢
      rw [M.bind_run, hgood]
      show (M.unwrap (successRate acc.1.results good) >>= _ : M σ Unit) s = _
      rw [hrate]
      show (M.assert (q.le rate) : M σ Unit) s = _
      rw [hb]
    constructor
    · intro h
      exact ⟨s, (hv true (hq.2 h)).trans rfl⟩
    · intro h
      exact (hv false (Bool.eq_false_iff.2 fun h' => h (hq.1 h'))).trans rfl

/-- C85: on a machine with more than 100 processors no run is made and the test always fails. -/
theorem C85_rosenbrock_too_many (job : Nat → M σ (Data (List F32))) (cpu : Nat) (h : 100 < cpu) (seed : Nat → σ) (n : Nat)
    (y : Sys σ (List F32)) (hy : Steps (threads 100 cpu job seed) n .start y) (acc : Data (List F32))
    (hacc : y.main = .finished acc) (s : σ) : rosenbrockVerdict acc s = .error .unwrap := by
  rw [(C78_too_many_processors job 100 cpu h seed n y hy acc hacc .debug [] [] rfl s).1]
  obtain ⟨good, hgood⟩ := (C59_vec_new (γ := F64) (List.replicate 3 (plus 1 1)) (List.replicate 3 (plus 1 100)) s).1 rfl
  exact M.bind_eq_error.2 (.inr ⟨good, s, hgood, rfl⟩)

/-- The runs of the test with the numbers of `onesPlatform` end after one generation. -/
theorem ones_test_end (s) : rosenbrockJob .debug (StatPrograms.geneticRosenbrock onesPlatform (Lens.snd _ _)) 2 s ≠ .error .fuel := by
  rw [test_made (rosenbrock_make _ _ _)]
  have : (match rosenbrockJob .debug (pure (rosenbrockMade onesPlatform (rosenbrockStops (Lens.snd _ _) (Fl.ofRat false 1 1000000) .debug))) 2
      ((), Stop.GNC.new 2000 (Fl.ofRat false 1 10000000)) with
    | .ok _ => true
    | .error _ => false) = true := by decide +kernel
  intro h
  have h : rosenbrockJob .debug (pure (rosenbrockMade onesPlatform (rosenbrockStops (Lens.snd _ _) (Fl.ofRat false 1 1000000) .debug))) 2
      ((), Stop.GNC.new 2000 (Fl.ofRat false 1 10000000)) = .error .fuel := h
  rw [h] at this
  cases this

/-- Three processors: there is an execution of the test to which the theorem applies. -/
example : ∃ n y acc, Steps (threads 100 3 (rosenbrockJob .debug (StatPrograms.geneticRosenbrock onesPlatform (Lens.snd _ _)))
      (fun _ => ((), Stop.GNC.new 0 Fl.zero))) n .start y ∧ y.main = .finished acc ∧ acc.1.results.length = 99 ∧
      ∀ s : Unit × Stop.GNC, ∃ good, (∀ a, good a = true ↔ Close (List.replicate 3 (plus 1 1)) (List.replicate 3 (plus 1 100)) a.1) ∧
        PassesIff (rosenbrockVerdict acc s) (3 * 99 ≤ 4 * accepted acc.1.results good) := by
  have hjob : ∀ s, ∃ r s', rosenbrockJob .debug (StatPrograms.geneticRosenbrock onesPlatform (Lens.snd _ _)) 2 s = .ok (r, s') ∧
      RosenbrockRecord onesPlatform 2 r := by
    intro s
    rcases rosenbrock_job onesPlatform ones_sound (Lens.snd _ _) ones_leaves 2 (by omega) s with h | h
    · exact h
    · exact absurd h (ones_test_end s)
  obtain ⟨n, y, acc, h1, h2, -⟩ := Workers.C76_any_order _ (job_safe (rosenbrockJob_steady .debug _) hjob 100 3
    (fun _ => ((), Stop.GNC.new 0 Fl.zero))).1 [0, 1, 2] (List.Perm.refl _)
  obtain ⟨-, -, h3⟩ := C85_genetic_rosenbrock onesPlatform ones_sound (Lens.snd _ _) ones_leaves 3 (by omega) (by omega) _ 2
    (by omega) ones_test_end n y h1
  obtain ⟨⟨ds, h4, h5, h6⟩, h7⟩ := h3 acc h2
  exact ⟨n, y, acc, h1, h2, (test_merged h5 h6).trans h4, h7⟩

/-- And on a machine with 128 processors: there is an execution, and the test fails. -/
example : ∃ n y acc, Steps (threads 100 128 (rosenbrockJob .debug (StatPrograms.geneticRosenbrock onesPlatform (Lens.snd _ _)))
      (fun _ => ((), Stop.GNC.new 0 Fl.zero))) n .start y ∧ y.main = .finished acc ∧
      rosenbrockVerdict acc () = .error .unwrap := by
  have hjob : ∀ s, ∃ r s', rosenbrockJob .debug (StatPrograms.geneticRosenbrock onesPlatform (Lens.snd _ _)) 2 s = .ok (r, s') ∧
      RosenbrockRecord onesPlatform 2 r := by
    intro s
    rcases rosenbrock_job onesPlatform ones_sound (Lens.snd _ _) ones_leaves 2 (by omega) s with h | h
    · exact h
    · exact absurd h (ones_test_end s)
  obtain ⟨n, y, acc, h1, h2, -⟩ := Workers.C76_any_order _ (job_safe (rosenbrockJob_steady .debug _) hjob 100 128
    (fun _ => ((), Stop.GNC.new 0 Fl.zero))).1 (List.range 128) (List.Perm.refl _)
  refine ⟨n, y, acc, h1, h2, ?_⟩
  rw [(C78_too_many_processors _ 100 128 (by omega) _ n y h1 acc h2 .debug [] [] rfl ((), Stop.GNC.new 0 Fl.zero)).1]
  rfl

end Verif.Props
