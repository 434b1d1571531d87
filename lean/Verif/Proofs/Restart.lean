import Verif.Spec.Restart
import Verif.Proofs.Blind
import Verif.Proofs.Scan
import Verif.Proofs.Estimate
import Verif.Props.Estimate

/-!
# Consecutive runs that only share the random numbers
-/

namespace Verif.Restart

open Verif Spec Estimate

variable {β T : Type} {m : Nat}

/-- `n` runs one after the other; how many of the results are good -/
def hits (a : M (List Nat × Unit) β) (good : β → Bool) : Nat → List Nat × Unit → Option Nat
  | 0, _ => some 0
  | n + 1, s => match a s with
    | .ok (b, s') => (hits a good n s').map ((if good b = true then 1 else 0) + ·)
    | .error _ => none

/-- A function of the number of good results -/
def payHits (h : Nat → ℚ) : Option Nat → ℚ
  | some k => h k
  | none => 0

section

variable {a : M (List Nat × Unit) β} {K : Nat} {good : β → Bool} {p : ℚ}

/-- The chance of a good result -/
def rate (m N : Nat) (a : M (List Nat × Unit) β) (good : β → Bool) : ℚ :=
  mean m N (fun t => pay (fun b _ => if good b = true then 1 else 0) (a (t, ())))

theorem payHits_map (h : Nat → ℚ) (c d : Nat) (x : Option Nat) : payHits (fun k => h (c + k)) (x.map (d + ·)) = payHits (fun k => h (c + d + k)) x := by
  cases x with
  | none => rfl
  | some k => simp only [Option.map_some, payHits, Nat.add_assoc]

theorem hits_mean (hm : 0 < m) (hE : Ends m (fun _ _ => True) K (fun t => a (t, ()))) (hp : rate m K a good = p) (h : Nat → ℚ) :
    ∀ n N c, n * K ≤ N → mean m N (fun t => payHits (fun k => h (c + k)) (hits a good n (t, ()))) = trials p n h c := by
  intro n
  induction n with
  | zero => intro N c _; exact mean_constant hm (h c) N
  | succ n ih =>
    intro N c hN
    rw [Nat.succ_mul] at hN
    have h1 : mean m N (fun t => payHits (fun k => h (c + k)) (hits a good (n + 1) (t, ()))) =
        mean m N (fun t => pay (fun b s => payHits (fun k => h (c + (if good b = true then 1 else 0) + k)) (hits a good n s)) (a (t, ()))) := by
      refine mean_congr fun t ht hl => ?_
      obtain ⟨b, s, h1, -⟩ := ends_returns hE t hl (by omega)
      simp only [hits, h1, pay, payHits_map]
    rw [h1, mean_then hm hE (K' := n * K) (G := fun b s => payHits (fun k => h (c + (if good b = true then 1 else 0) + k)) (hits a good n s))
      (g := fun b => trials p n h (c + (if good b = true then 1 else 0))) (fun b u' _ N' hN' => ih N' _ hN') N (by omega)]
    have h2 : mean m N (fun t => pay (fun b _ => trials p n h (c + (if good b = true then 1 else 0))) (a (t, ()))) =
        mean m N (fun t => (trials p n h (c + 1) - trials p n h c) * pay (fun b _ => if good b = true then 1 else 0) (a (t, ())) +
          trials p n h c * 1) := by
      refine mean_congr fun t ht hl => ?_
      obtain ⟨b, s, h1, -⟩ := ends_returns hE t hl (by omega)
      simp only [h1, pay]
      split <;> simp
    rw [h2, mean_linear, mean_constant hm, mean_longer hm hE (fun b => if good b = true then 1 else 0) N K (by omega) le_rfl]
    show _ * rate m K a good + _ = _
    rw [hp, trials]
    ring

open Classical in
theorem rate_eq (N : Nat) : chance (List.replicate N m) (fun t => ∃ b s', a (t, ()) = .ok (b, s') ∧ good b = true) = rate m N a good := by
  rw [chance_mean]
  refine mean_congr fun t _ _ => ?_
  cases h : a (t, ()) with
  | error e => rw [if_neg (by rintro ⟨b, s', h1, -⟩; cases h1)]; rfl
  | ok r =>
    obtain ⟨b, s'⟩ := r
    simp only [pay]
    congr 1
    exact propext ⟨fun ⟨b', s1, h1, h2⟩ => by cases h1; exact h2, fun h1 => ⟨b, s', rfl, h1⟩⟩

open Classical in
/-- The number of good results has the binomial distribution. -/
theorem hits_binomial (hm : 0 < m) (hE : Ends m (fun _ _ => True) K (fun t => a (t, ()))) {n N N' : Nat} (hN : n * K ≤ N) (hN' : K ≤ N') (k : Nat) :
    chance (List.replicate N m) (fun t => hits a good n (t, ()) = some k) =
      binomial n k (chance (List.replicate N' m) (fun t => ∃ b s', a (t, ()) = .ok (b, s') ∧ good b = true)) := by
  rw [rate_eq, chance_mean]
  have h1 : rate m N' a good = rate m K a good := mean_longer hm hE (fun b => if good b = true then 1 else 0) N' K hN' le_rfl
  have h2 := hits_mean hm hE (good := good) rfl (fun j => if j = k then 1 else 0) n N 0 hN
  rw [h1]
  refine Eq.trans (mean_congr fun t _ _ => ?_) (h2.trans ?_)
  · cases hits a good n (t, ()) with
    | none => rw [if_neg (by simp)]; rfl
    | some j => simp only [payHits, Option.some.injEq, Nat.zero_add]
  rw [trials_eq]
  rcases Nat.lt_or_ge n k with hk | hk
  · rw [binomial, Nat.choose_eq_zero_of_lt hk, Nat.cast_zero, zero_mul, zero_mul]
    refine Finset.sum_eq_zero fun j hj => ?_
    have := Finset.mem_range.1 hj
    rw [if_neg (by omega), mul_zero]
  · rw [Finset.sum_eq_single k]
    · rw [if_pos (by omega), mul_one]
    · intro j _ hj
      rw [if_neg (by omega), mul_zero]
    · intro hk'
      exact absurd (Finset.mem_range.2 (by omega)) hk'

end

/-! ### The optimizers -/

/-- What a call of `find_min` returns -/
def answer {σ ω : Type} : Except Err ((β × ω) × World σ T) → Except Err (β × σ)
  | .ok (r, w) => .ok (r.1, w.user)
  | .error e => .error e

theorem answer_forget {σ ω : Type} {x y : Except Err ((β × ω) × World σ T)} (h : forget x = forget y) : answer x = answer y := by
  cases x with
  | error e =>
    cases y with
    | error e' => cases h; rfl
    | ok r => cases h
  | ok r =>
    cases y with
    | error e' => cases h
    | ok r' =>
      obtain ⟨r, s, tr⟩ := r
      obtain ⟨r', s', tr'⟩ := r'
      cases h
      rfl

theorem answer_tree {ω : Type} {c : List Nat → Except Err ((β × ω) × World (List Nat × Unit) T)}
    (h : Tree m ((Lens.fst (List Nat) Unit).inWorld T) c) : Tree m (Lens.fst (List Nat) Unit) (fun t => answer (c t)) := by
  induction h with
  | ok b w h => exact .ok b.1 w.user fun t => by rw [h]; rfl
  | fail e h => exact .fail e fun t => by rw [h]; rfl
  | draw h ih => exact .draw ih

section

open GA

theorem ga_runs (good : Option (Solution T) → Bool) (fuel : Nat) : ∀ (n : Nat) (o : Opt (List Nat × Unit) T) (s : List Nat × Unit) (tr : List (Ev T)) (k : Nat),
    (∃ rs o' w', run o (List.replicate n (.findMin fuel)) ⟨s, tr⟩ = .ok ((rs, o'), w') ∧ goodAnswers good rs = k) ↔
      hits (fun s => answer (findMin fuel o ⟨s, []⟩)) good n s = some k := by
  intro n
  induction n with
  | zero =>
    intro o s tr k
    constructor
    · rintro ⟨rs, o', w', h1, h2⟩
      cases h1
      exact congrArg some h2
    · intro h
      exact ⟨[], o, _, rfl, Option.some.inj h⟩
  | succ n ih =>
    intro o s tr k
    have hb := answer_forget (blind_findMin o fuel s tr [])
    have hu : ∀ w, run o (List.replicate (n + 1) (.findMin fuel)) w = (match findMin fuel o w with
        | .ok ((r, o'), w') => (match run o' (List.replicate n (.findMin fuel)) w' with
          | .ok ((rs, o''), w'') => .ok ((some r :: rs, o''), w'')
          | .error e => .error e)
        | .error e => .error e) := by
      intro w
      rw [List.replicate_succ, run, M.bind_run, call, M.bind_run]
      cases findMin fuel o w with
      | error e => rfl
      | ok x =>
        obtain ⟨⟨r, o'⟩, w'⟩ := x
        show (run o' _ >>= _) w' = _
        rw [M.bind_run]
        dsimp only
        cases run o' (List.replicate n (.findMin fuel)) w' <;> rfl
    rw [hits, ← hb, hu]
    cases h : findMin fuel o ⟨s, tr⟩ with
    | error e =>
      constructor
      · rintro ⟨rs, o', w', h1, -⟩; cases h1
      · intro h; cases h
    | ok x =>
      obtain ⟨⟨r, o'⟩, s', tr'⟩ := x
      have hc : ∀ s, findMin fuel o' s = findMin fuel o s := by
        intro s
        have := findMin_comps h
        obtain ⟨c, p⟩ := o
        obtain ⟨c', p'⟩ := o'
        cases this
        rfl
      have h1 := fun k => ih o' s' tr' k
      simp only [hc] at h1
      simp only [answer, Option.map_eq_some_iff]
      constructor
      · rintro ⟨rs, o2, w2, h2, h3⟩
        cases h4 : run o' (List.replicate n (.findMin fuel)) ⟨s', tr'⟩ with
        | error e => rw [h4] at h2; cases h2
        | ok y =>
          obtain ⟨⟨rs', o3⟩, w3⟩ := y
          rw [h4] at h2
          cases h2
          refine ⟨_, (h1 _).1 ⟨_, _, _, h4, rfl⟩, ?_⟩
          rw [← h3]
          simp only [goodAnswers, List.countP_cons]
          omega
      · rintro ⟨j, h2, rfl⟩
        obtain ⟨rs, o3, w3, h4, h5⟩ := (h1 j).2 h2
        refine ⟨some r :: rs, o3, w3, by rw [h4], ?_⟩
        rw [← h5]
        simp only [goodAnswers, List.countP_cons]
        omega

end

section

open PSO

variable {α : Type} [FloatT α]

theorem pso_runs (good : Option (Solution (List α)) → Bool) (fuel : Nat) : ∀ (n : Nat) (o : Opt (List Nat × Unit) α) (s : List Nat × Unit)
    (tr : List (Ev (List α))) (k : Nat),
    (∃ rs o' w', run o (List.replicate n (.findMin fuel)) ⟨s, tr⟩ = .ok ((rs, o'), w') ∧ goodAnswers good rs = k) ↔
      hits (fun s => answer (findMin fuel o ⟨s, []⟩)) good n s = some k := by
  intro n
  induction n with
  | zero =>
    intro o s tr k
    constructor
    · rintro ⟨rs, o', w', h1, h2⟩
      cases h1
      exact congrArg some h2
    · intro h
      exact ⟨[], o, _, rfl, Option.some.inj h⟩
  | succ n ih =>
    intro o s tr k
    have hb := answer_forget (blind_findMin o fuel s tr [])
    have hu : ∀ w, run o (List.replicate (n + 1) (.findMin fuel)) w = (match findMin fuel o w with
        | .ok ((r, o'), w') => (match run o' (List.replicate n (.findMin fuel)) w' with
          | .ok ((rs, o''), w'') => .ok ((some r :: rs, o''), w'')
          | .error e => .error e)
        | .error e => .error e) := by
      intro w
      rw [List.replicate_succ, run, M.bind_run, call, M.bind_run]
      cases findMin fuel o w with
      | error e => rfl
      | ok x =>
        obtain ⟨⟨r, o'⟩, w'⟩ := x
        show (run o' _ >>= _) w' = _
        rw [M.bind_run]
        dsimp only
        cases run o' (List.replicate n (.findMin fuel)) w' <;> rfl
    rw [hits, ← hb, hu]
    cases h : findMin fuel o ⟨s, tr⟩ with
    | error e =>
      constructor
      · rintro ⟨rs, o', w', h1, -⟩; cases h1
      · intro h; cases h
    | ok x =>
      obtain ⟨⟨r, o'⟩, s', tr'⟩ := x
      have hc : ∀ s, findMin fuel o' s = findMin fuel o s := by
        intro s
        have := findMin_comps h
        obtain ⟨c, p⟩ := o
        obtain ⟨c', p'⟩ := o'
        cases this
        rfl
      have h1 := fun k => ih o' s' tr' k
      simp only [hc] at h1
      simp only [answer, Option.map_eq_some_iff]
      constructor
      · rintro ⟨rs, o2, w2, h2, h3⟩
        cases h4 : run o' (List.replicate n (.findMin fuel)) ⟨s', tr'⟩ with
        | error e => rw [h4] at h2; cases h2
        | ok y =>
          obtain ⟨⟨rs', o3⟩, w3⟩ := y
          rw [h4] at h2
          cases h2
          refine ⟨_, (h1 _).1 ⟨_, _, _, h4, rfl⟩, ?_⟩
          rw [← h3]
          simp only [goodAnswers, List.countP_cons]
          omega
      · rintro ⟨j, h2, rfl⟩
        obtain ⟨rs, o3, w3, h4, h5⟩ := (h1 j).2 h2
        refine ⟨some r :: rs, o3, w3, by rw [h4], ?_⟩
        rw [← h5]
        simp only [goodAnswers, List.countP_cons]
        omega

end

end Verif.Restart
