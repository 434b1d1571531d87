import Verif.Spec.Estimate
import Verif.Proofs.Finds
import Verif.Props.StatWhole
import Mathlib.Algebra.BigOperators.Field
import Mathlib.Algebra.BigOperators.Intervals
import Mathlib.Tactic.Ring
import Mathlib.Tactic.Linarith
import Mathlib.Data.Nat.Choose.Sum
import Mathlib.Algebra.Module.LinearMap.End

/-!
# Mean values over tapes, and independent trials
-/

namespace Verif.Estimate

open Verif Spec Stats Workers Finds

variable {τ β T : Type} {m : Nat}

/-- The mean value over the tapes of length `N` -/
def mean (m : Nat) : Nat → (List Nat → ℚ) → ℚ
  | 0, F => F []
  | N + 1, F => (∑ k ∈ Finset.range m, mean m N (fun t => F (k :: t))) / m

open Classical in
theorem chance_mean (P : List Nat → Prop) : ∀ N, chance (List.replicate N m) P = mean m N (fun t => if P t then 1 else 0) := by
  intro N
  induction N generalizing P with
  | zero =>
    rw [List.replicate_zero, chance_eq, cnt_nil, mean]
    split <;> simp
  | succ N ih =>
    rw [List.replicate_succ, chance_cons, mean]
    simp only [ih]

theorem mean_congr {F G : List Nat → ℚ} : ∀ {N : Nat}, (∀ t, t.length = N → (∀ k ∈ t, k < m) → F t = G t) → mean m N F = mean m N G := by
  intro N
  induction N generalizing F G with
  | zero => intro h; exact h [] rfl (by simp)
  | succ N ih =>
    intro h
    simp only [mean]
    congr 1
    exact Finset.sum_congr rfl fun k hk => ih fun t ht hl => h _ (by simp [ht]) (by
      intro j hj
      rcases List.mem_cons.1 hj with rfl | hj
      · exact Finset.mem_range.1 hk
      · exact hl j hj)

theorem mean_le {F G : List Nat → ℚ} : ∀ {N : Nat}, (∀ t, F t ≤ G t) → mean m N F ≤ mean m N G := by
  intro N
  induction N generalizing F G with
  | zero => intro h; exact h []
  | succ N ih =>
    intro h
    simp only [mean]
    exact div_le_div_of_nonneg_right (Finset.sum_le_sum fun k _ => ih fun t => h _) (Nat.cast_nonneg _)

theorem mean_constant (hm : 0 < m) (v : ℚ) : ∀ N, mean m N (fun _ => v) = v := by
  intro N
  induction N with
  | zero => rfl
  | succ N ih =>
    simp only [mean, ih]
    exact mean_const hm v

theorem mean_linear (x y : ℚ) (F G : List Nat → ℚ) : ∀ N, mean m N (fun t => x * F t + y * G t) = x * mean m N F + y * mean m N G := by
  intro N
  induction N generalizing F G with
  | zero => rfl
  | succ N ih =>
    simp only [mean, ih, Finset.sum_add_distrib, ← Finset.mul_sum]
    ring

theorem mean_append (F : List Nat → ℚ) (b : Nat) : ∀ a, mean m (a + b) F = mean m a (fun x => mean m b (fun y => F (x ++ y))) := by
  intro a
  induction a generalizing F with
  | zero => rw [Nat.zero_add]; rfl
  | succ a ih =>
    rw [Nat.add_right_comm]
    simp only [mean, ih, List.cons_append]

/-- A function of the result -/
def pay {ρ : Type} (G : β → ρ → ℚ) : Except Err (β × ρ) → ℚ
  | .ok r => G r.1 r.2
  | .error _ => 0

/-- What is left of the tape is as random as the whole tape. -/
theorem mean_then (hm : 0 < m) {I : β → τ → Prop} {K K' : Nat} {c : List Nat → Except Err (β × (List Nat × τ))} (h : Ends m I K c)
    {G : β → List Nat × τ → ℚ} {g : β → ℚ} (hG : ∀ b u, I b u → ∀ N, K' ≤ N → mean m N (fun t => G b (t, u)) = g b) :
    ∀ N, K + K' ≤ N → mean m N (fun t => pay G (c t)) = mean m N (fun t => pay (fun b _ => g b) (c t)) := by
  induction h with
  | done b u h hI =>
    intro N hN
    simp only [h, pay]
    rw [hG b u hI N (by omega), mean_constant hm]
  | @draw K c h ih =>
    intro N hN
    obtain ⟨N, rfl⟩ := Nat.exists_eq_add_of_le' (show 1 ≤ N by omega)
    simp only [mean]
    congr 1
    exact Finset.sum_congr rfl fun k hk => ih k (Finset.mem_range.1 hk) N (by omega)

/-- A longer tape makes no difference. -/
theorem mean_longer (hm : 0 < m) {I : β → τ → Prop} {K : Nat} {c : List Nat → Except Err (β × (List Nat × τ))} (h : Ends m I K c)
    (g : β → ℚ) : ∀ N N', K ≤ N → K ≤ N' → mean m N (fun t => pay (fun b _ => g b) (c t)) =
      mean m N' (fun t => pay (fun b _ => g b) (c t)) := by
  induction h with
  | done b u h hI =>
    intro N N' _ _
    simp only [h, pay, mean_constant hm]
  | @draw K c h ih =>
    intro N N' hN hN'
    obtain ⟨N, rfl⟩ := Nat.exists_eq_add_of_le' (show 1 ≤ N by omega)
    obtain ⟨N', rfl⟩ := Nat.exists_eq_add_of_le' (show 1 ≤ N' by omega)
    simp only [mean]
    congr 1
    exact Finset.sum_congr rfl fun k hk => ih k (Finset.mem_range.1 hk) N N' (by omega) (by omega)

/-- Such a computation returns. -/
theorem ends_returns {I : β → τ → Prop} {K : Nat} {c : List Nat → Except Err (β × (List Nat × τ))} (h : Ends m I K c) :
    ∀ t : List Nat, (∀ k ∈ t, k < m) → K ≤ t.length → ∃ b s, c t = .ok (b, s) ∧ I b s.2 ∧ ∃ used, t = used ++ s.1 ∧ used.length ≤ K := by
  induction h with
  | done b u h hI => exact fun t _ _ => ⟨b, (t, u), h t, hI, [], rfl, Nat.zero_le _⟩
  | @draw K c h ih =>
    intro t ht hl
    cases t with
    | nil => simp at hl
    | cons k t =>
      obtain ⟨b, s, h1, h2, used, h3, h4⟩ := ih k (ht k (by simp)) t (fun j hj => ht j (by simp [hj])) (by simpa using hl)
      exact ⟨b, s, h1, h2, k :: used, by rw [h3]; rfl, by simpa using h4⟩

/-! ### Independent trials -/

/-- The mean value of `h` at the number of successes in `n` trials, added to `c` -/
def trials (p : ℚ) : Nat → (Nat → ℚ) → Nat → ℚ
  | 0, h, c => h c
  | n + 1, h, c => p * trials p n h (c + 1) + (1 - p) * trials p n h c

theorem trials_add (p : ℚ) (b : Nat) (h : Nat → ℚ) : ∀ a c, trials p (a + b) h c = trials p a (trials p b h) c := by
  intro a
  induction a with
  | zero => intro c; rw [Nat.zero_add]; rfl
  | succ a ih => intro c; rw [Nat.add_right_comm]; simp only [trials, ih]

theorem trials_le {p : ℚ} (h0 : 0 ≤ p) (h1 : p ≤ 1) {g h : Nat → ℚ} (hgh : ∀ c, g c ≤ h c) : ∀ n c, trials p n g c ≤ trials p n h c := by
  intro n
  induction n with
  | zero => intro c; exact hgh c
  | succ n ih =>
    intro c
    exact add_le_add (mul_le_mul_of_nonneg_left (ih _) h0) (mul_le_mul_of_nonneg_left (ih _) (by linarith))

theorem trials_mul (p x : ℚ) (h : Nat → ℚ) : ∀ n c, trials p n (fun k => x * h k) c = x * trials p n h c := by
  intro n
  induction n with
  | zero => intro c; rfl
  | succ n ih => intro c; simp only [trials, ih]; ring

/-- The mean value of the number -/
theorem trials_id (p : ℚ) : ∀ n c, trials p n (fun k => (k : ℚ)) c = c + n * p := by
  intro n
  induction n with
  | zero => intro c; simp [trials]
  | succ n ih => intro c; simp only [trials, ih]; push_cast; ring

/-- The mean value of the square of the deviation from `a` -/
theorem trials_square (p a : ℚ) : ∀ n c, trials p n (fun k => ((k : ℚ) - a) ^ 2) c = (c + n * p - a) ^ 2 + n * (p * (1 - p)) := by
  intro n
  induction n with
  | zero => intro c; simp [trials]
  | succ n ih => intro c; simp only [trials, ih]; push_cast; ring

/-- The shift of functions on the natural numbers -/
def shift : Module.End ℚ (Nat → ℚ) where
  toFun h c := h (c + 1)
  map_add' _ _ := rfl
  map_smul' _ _ := rfl

theorem shift_pow (k : Nat) (h : Nat → ℚ) (c : Nat) : (shift ^ k) h c = h (c + k) := by
  induction k generalizing c with
  | zero => rfl
  | succ k ih =>
    rw [pow_succ', Module.End.mul_apply]
    show (shift ^ k) h (c + 1) = _
    rw [ih]
    congr 1
    omega

theorem trials_eq (p : ℚ) (h : Nat → ℚ) (n c : Nat) :
    trials p n h c = ∑ k ∈ Finset.range (n + 1), binomial n k p * h (c + k) := by
  have key : ∀ n, trials p n h = ((p • shift + (1 - p) • (1 : Module.End ℚ (Nat → ℚ))) ^ n) h := by
    intro n
    induction n with
    | zero => rfl
    | succ n ih =>
      rw [pow_succ', Module.End.mul_apply, ← ih]
      rfl
  have hc : Commute (p • shift) ((1 - p) • (1 : Module.End ℚ (Nat → ℚ))) := (Commute.one_right _).smul_right _
  rw [key, hc.add_pow, LinearMap.sum_apply, Finset.sum_apply]
  refine Finset.sum_congr rfl fun k _ => ?_
  rw [smul_pow, smul_pow, one_pow]
  simp only [Algebra.smul_mul_assoc, Algebra.mul_smul_comm, mul_one, LinearMap.smul_apply, Pi.smul_apply, smul_eq_mul]
  rw [Module.End.mul_apply, Module.End.natCast_apply, shift_pow]
  simp only [Pi.smul_apply, nsmul_eq_mul, binomial]
  ring

/-! ### Consecutive runs in a thread -/

/-- The number of good results in `n` consecutive runs -/
def wins (a : M (List Nat × τ) (Data T)) (good : Solution T → Bool) : Nat → List Nat × τ → Nat
  | 0, _ => 0
  | n + 1, s => match a s with
    | .ok (d, s') => accepted d.1.results good + wins a good n s'
    | .error _ => 0

/-- One result -/
def Single (d : Data T) : Prop := ∃ a, d.1.results = [some a]

theorem single_accepted {d : Data T} (h : Single d) (good : Solution T → Bool) :
    accepted d.1.results good = 0 ∨ accepted d.1.results good = 1 := by
  obtain ⟨a, h⟩ := h
  rw [h]
  unfold accepted
  cases hg : good a <;> simp [hg]

section

variable {a : M (List Nat × τ) (Data T)} {K : Nat} {good : Solution T → Bool} {p : ℚ}

/-- The chance of a good result -/
def winRate (m N : Nat) (a : M (List Nat × τ) (Data T)) (good : Solution T → Bool) (u : τ) : ℚ := 
  mean m N (fun t => pay (fun d _ => (accepted d.1.results good : ℚ)) (a (t, u)))

theorem wins_mean (hm : 0 < m) (hE : ∀ u, Ends m (fun d _ => Single d) K (fun t => a (t, u)))
    (hp : ∀ u, winRate m K a good u = p) (h : Nat → ℚ) :
    ∀ n N u c, n * K ≤ N → mean m N (fun t => h (c + wins a good n (t, u))) = trials p n h c := by
  intro n
  induction n with
  | zero => intro N u c _; exact mean_constant hm (h c) N
  | succ n ih =>
    intro N u c hN
    rw [Nat.succ_mul] at hN
    have h1 : mean m N (fun t => h (c + wins a good (n + 1) (t, u))) = 
        mean m N (fun t => pay (fun d s => h (c + accepted d.1.results good + wins a good n s)) (a (t, u))) := by
      refine mean_congr fun t ht hl => ?_
      obtain ⟨d, s, h1, -⟩ := ends_returns (hE u) t hl (by omega)
      simp only [wins, h1, pay, Nat.add_assoc]
    rw [h1, mean_then hm (hE u) (K' := n * K) (G := fun d s => h (c + accepted d.1.results good + wins a good n s))
      (g := fun d => trials p n h (c + accepted d.1.results good)) (fun d u' _ N' hN' => ih N' u' _ hN') N (by omega)]
    have h2 : mean m N (fun t => pay (fun d _ => trials p n h (c + accepted d.1.results good)) (a (t, u))) =
        mean m N (fun t => (trials p n h (c + 1) - trials p n h c) * pay (fun d _ => (accepted d.1.results good : ℚ)) (a (t, u)) +
          trials p n h c * 1) := by
      refine mean_congr fun t ht hl => ?_
      obtain ⟨d, s, h1, h3, -⟩ := ends_returns (hE u) t hl (by omega)
      simp only [h1, pay]
      rcases single_accepted h3 good with h4 | h4 <;> rw [h4] <;> simp
    rw [h2, mean_linear, mean_constant hm, mean_longer hm (hE u) (fun d => (accepted d.1.results good : ℚ)) N K (by omega) le_rfl]
    show _ * winRate m K a good u + _ = _
    rw [hp u, trials]
    ring

theorem pieces_zero (N : Nat) (u : Nat → τ) (x y : List Nat) (hx : x.length = N) : pieces N u (x ++ y) 0 = (x, u 0) := by
  unfold pieces
  rw [Nat.zero_mul, List.drop_zero, ← hx, List.take_left']
  rfl

theorem pieces_succ (N : Nat) (u : Nat → τ) (x y : List Nat) (hx : x.length = N) (i : Nat) :
    pieces N u (x ++ y) (i + 1) = pieces N (fun i => u (i + 1)) y i := by
  unfold pieces
  rw [Nat.succ_mul, Nat.add_comm, ← List.drop_drop, ← hx, List.drop_left']
  rfl

theorem threads_mean (hm : 0 < m) (hE : ∀ u, Ends m (fun d _ => Single d) K (fun t => a (t, u)))
    (hp : ∀ u, winRate m K a good u = p) (h : Nat → ℚ) (R N : Nat) (hN : R * K ≤ N) :
    ∀ cpu (u : Nat → τ) c, mean m (cpu * N) (fun t => h (c + ∑ i ∈ Finset.range cpu, wins a good R (pieces N u t i))) =
      trials p (cpu * R) h c := by
  intro cpu
  induction cpu with
  | zero => intro u c; rw [Nat.zero_mul, Nat.zero_mul]; rfl
  | succ cpu ih =>
    intro u c
    rw [Nat.succ_mul, Nat.add_comm (cpu * N), mean_append, Nat.succ_mul, Nat.add_comm (cpu * R), trials_add]
    rw [← wins_mean hm hE hp _ R N (u 0) c hN]
    refine mean_congr fun x hx _ => ?_
    rw [← ih (fun i => u (i + 1))]
    refine mean_congr fun y _ _ => ?_
    rw [Finset.sum_range_succ', pieces_zero N u x y hx]
    simp only [pieces_succ N u x y hx]
    congr 1
    omega

end

/-! ### The program -/

section

variable {job : Nat → M (List Nat × τ) (Data T)} {F K : Nat} {good : Solution T → Bool}

theorem consecutive_cons {σ : Type} {P : Program σ T} {s s'' : σ} {l : List (Data T)} (h : Consecutive P s l s'') :
    ∀ d ds, l = d :: ds → ∃ s', P.Returns s d s' ∧ Consecutive P s' ds s'' := by
  induction h with
  | nil => intro d ds h; cases h
  | @snoc es s1 e s2 h1 h2 ih =>
    intro d ds hl
    cases es with
    | nil =>
      simp only [List.nil_append, List.cons.injEq] at hl
      obtain ⟨rfl, rfl⟩ := hl
      obtain rfl : s1 = s := by
        generalize hn : ([] : List (Data T)) = l at h1
        cases h1 with
        | nil => rfl
        | snoc _ _ => simp at hn
      exact ⟨_, h2, .nil⟩
    | cons e' es =>
      simp only [List.cons_append, List.cons.injEq] at hl
      obtain ⟨rfl, rfl⟩ := hl
      obtain ⟨s', h3, h4⟩ := ih e' es rfl
      exact ⟨s', h3, .snoc h4 h2⟩

theorem same_run (hs : ∀ f d s, job f s ≠ .error .fuel → job (f + d) s = job f s) {s : List Nat × τ} {r : Data T × (List Nat × τ)}
    (h : job F s = .ok r) {f : Nat} (hf : job f s ≠ .error .fuel) : job f s = .ok r := by
  rcases Nat.le_total f F with hle | hle
  · obtain ⟨d, rfl⟩ := Nat.exists_eq_add_of_le hle
    rw [← hs f d s hf, h]
  · obtain ⟨d, rfl⟩ := Nat.exists_eq_add_of_le hle
    rw [hs F d s (by rw [h]; intro he; cases he), h]

theorem consecutive_wins (hs : ∀ f d s, job f s ≠ .error .fuel → job (f + d) s = job f s) (hok : ∀ s, ∃ r, job F s = .ok r)
    {P : Program (List Nat × τ) T} (hP : P.job = job) : ∀ (ds : List (Data T)) s s', Consecutive P s ds s' →
      (ds.map (fun d => accepted d.1.results good)).sum = wins (job F) good ds.length s := by
  intro ds
  induction ds with
  | nil => intro s s' _; rfl
  | cons d ds ih =>
    intro s s'' h
    obtain ⟨s', ⟨f, h1⟩, h2⟩ := consecutive_cons h d ds rfl
    obtain ⟨r, hr⟩ := hok s
    rw [hP] at h1
    have := same_run hs hr (f := f) (by rw [h1]; intro he; cases he)
    rw [h1] at this
    cases this
    rw [List.map_cons, List.sum_cons, ih s' s'' h2, List.length_cons, wins, hr]

theorem accepted_flatMap {α : Type} (g : α → List (Option (Solution T))) : ∀ l : List α,
    accepted (l.flatMap g) good = (l.map (fun x => accepted (g x) good)).sum := by
  intro l
  induction l with
  | nil => rfl
  | cons x l ih =>
    rw [List.flatMap_cons, List.map_cons, List.sum_cons, ← ih]
    exact List.countP_append

theorem finishes_wins (hs : ∀ f d s, job f s ≠ .error .fuel → job (f + d) s = job f s) (hok : ∀ s, ∃ r, job F s = .ok r)
    {P : Program (List Nat × τ) T} (hP : P.job = job) {acc : Data T} (h : Finishes P acc) :
    accepted acc.1.results good = ∑ i ∈ Finset.range P.cpu, wins (job F) good P.runCount (P.seed i) := by
  obtain ⟨n, y, h1, h2⟩ := h
  obtain ⟨order, hperm, ds, hds, hm⟩ := Props.Workers.C76_merged P n y h1 acc h2
  rw [hm.results, List.flatMap_assoc, accepted_flatMap]
  have h3 : order.map (fun i => accepted ((ds i).flatMap fun d => d.1.results) good) =
      order.map (fun i => wins (job F) good P.runCount (P.seed i)) := by
    refine List.map_congr_left fun i hi => ?_
    obtain ⟨h4, s', h5⟩ := hds i hi
    rw [accepted_flatMap, consecutive_wins hs hok hP (ds i) _ s' h5, h4]
  rw [h3, (hperm.map _).sum_eq]
  rfl

theorem program_safe (hs : ∀ f d s, job f s ≠ .error .fuel → job (f + d) s = job f s) (hok : ∀ s, ∃ r, job F s = .ok r)
    {P : Program (List Nat × τ) T} (hP : P.job = job) : P.Safe := by
  intro s
  obtain ⟨⟨d, s'⟩, hr⟩ := hok s
  refine ⟨⟨d, s', F, by rw [hP]; exact hr⟩, ?_⟩
  rintro ⟨f, e, he, h⟩
  rw [hP] at h
  have := same_run hs hr (f := f) (by rw [h]; intro h2; cases h2; exact he rfl)
  rw [h] at this
  cases this

theorem finishes (hs : ∀ f d s, job f s ≠ .error .fuel → job (f + d) s = job f s) (hok : ∀ s, ∃ r, job F s = .ok r)
    {P : Program (List Nat × τ) T} (hP : P.job = job) : ∃ acc, Finishes P acc := by
  obtain ⟨n, y, acc, h1, h2, -⟩ := Props.Workers.C76_any_order P (program_safe hs hok hP) (List.range P.cpu) (.refl _)
  exact ⟨acc, n, y, h1, h2⟩

theorem counts_iff (hs : ∀ f d s, job f s ≠ .error .fuel → job (f + d) s = job f s) (hok : ∀ s, ∃ r, job F s = .ok r)
    {P : Program (List Nat × τ) T} (hP : P.job = job) (k : Nat) :
    Counts P good k ↔ ∑ i ∈ Finset.range P.cpu, wins (job F) good P.runCount (P.seed i) = k := by
  constructor
  · rintro ⟨⟨acc, h⟩, h1⟩
    rw [← finishes_wins hs hok hP h, h1 acc h]
  · intro h
    exact ⟨finishes hs hok hP, fun acc h1 => (finishes_wins hs hok hP h1).trans h⟩

open Classical in
/-- The chance of success of one run -/
theorem successChance_eq {N : Nat} (hs : ∀ f d s, job f s ≠ .error .fuel → job (f + d) s = job f s) (hok : ∀ s, ∃ r, job F s = .ok r)
    (hE : ∀ u, Ends m (fun d _ => Single d) K (fun t => job F (t, u))) (hN : K ≤ N) (u : τ) :
    successChance m N job u (fun a => good a = true) = winRate m N (job F) good u := by
  unfold successChance winRate
  rw [chance_mean]
  refine mean_congr fun t ht hl => ?_
  obtain ⟨d, s, h1, ⟨a, ha⟩, -⟩ := ends_returns (hE u) t hl (by omega)
  simp only [h1, pay, ha]
  have h2 : Succeeds job (t, u) (fun a => good a = true) ↔ good a = true := by
    constructor
    · rintro ⟨f, d', s', b, h3, h4, h5⟩
      have := same_run hs h1 (f := f) (by rw [h3]; intro he; cases he)
      rw [h3] at this
      cases this
      rw [ha] at h4
      cases h4
      exact h5
    · exact fun h => ⟨F, d, s, a, h1, ha, h⟩
  simp only [h2, accepted]
  cases hg : good a <;> simp [hg]

theorem winRate_range (hm : 0 < m) {a : M (List Nat × τ) (Data T)} (hE : ∀ u, Ends m (fun d _ => Single d) K (fun t => a (t, u))) {N : Nat} (hN : K ≤ N)
    (u : τ) : 0 ≤ winRate m N a good u ∧ winRate m N a good u ≤ 1 := by
  have h1 : ∀ t : List Nat, t.length = N → (∀ k ∈ t, k < m) → ∃ d s, a (t, u) = .ok (d, s) ∧ Single d := by
    intro t ht hl
    obtain ⟨d, s, h1, h2, -⟩ := ends_returns (hE u) t hl (by omega)
    exact ⟨d, s, h1, h2⟩
  constructor
  · rw [← mean_constant hm 0 N]
    refine mean_le fun t => ?_
    unfold pay
    split
    · positivity
    · rfl
  · rw [← mean_constant hm 1 N]
    have : winRate m N a good u = mean m N (fun t => min 1 (pay (fun d _ => (accepted d.1.results good : ℚ)) (a (t, u)))) := by
      refine mean_congr fun t ht hl => ?_
      obtain ⟨d, s, h2, h3⟩ := h1 t ht hl
      simp only [h2, pay]
      rcases single_accepted h3 good with h4 | h4 <;> rw [h4] <;> simp
    rw [this]
    exact mean_le fun t => min_le_left _ _

end

end Verif.Estimate
