import Verif.Spec.Finds
import Verif.Proofs.ChanceFloat
import Verif.Proofs.Shape
import Verif.Model.StopChecker
import Mathlib.Tactic.Positivity
import Mathlib.Algebra.Order.BigOperators.Group.Finset

/-!
# Lower bounds of mean values over the draws
-/

namespace Verif.Finds

open Verif Spec Spec.Swarm PSO

variable {β γ κ ω : Type}

/-- The mean value of `φ` over the draws is at least `r`, and all runs return with a result in `I` after at most `K` draws. `put` puts a tape into
the world. -/
inductive Mean (m : Nat) (put : κ → List Nat → ω) (I : β → κ → Prop) (φ : β → κ → ℚ) : Nat → ℚ → (List Nat → Except Err (β × ω)) → Prop
  | done {K : Nat} {r : ℚ} {c : List Nat → Except Err (β × ω)} (b : β) (u : κ) (h : ∀ t, c t = .ok (b, put u t)) (hI : I b u) (hr : r ≤ φ b u) :
      Mean m put I φ K r c
  | draw {K : Nat} {r : ℚ} {c : List Nat → Except Err (β × ω)} (rs : Nat → ℚ) (h : ∀ k, k < m → Mean m put I φ K (rs k) (fun t => c (k :: t)))
      (hr : r ≤ (∑ k ∈ Finset.range m, rs k) / m) : Mean m put I φ (K + 1) r c

variable {m : Nat} {put : κ → List Nat → ω} {I : β → κ → Prop} {φ : β → κ → ℚ}

theorem Mean.mono {K K' : Nat} {r r' : ℚ} {c : List Nat → Except Err (β × ω)} (h : Mean m put I φ K r c) (hK : K ≤ K') (hr : r' ≤ r) :
    Mean m put I φ K' r' c := by
  induction h generalizing K' r' with
  | done b u h hI hr' => exact .done b u h hI (hr.trans hr')
  | draw rs h hr' ih =>
    obtain ⟨K', rfl⟩ := Nat.exists_eq_add_of_le' (Nat.le_of_lt_succ (Nat.lt_succ_of_le hK))
    rw [← Nat.add_assoc]
    exact .draw rs (fun k hk => ih k hk (by omega) le_rfl) (hr.trans hr')

theorem Mean.imp {J : β → κ → Prop} {ψ : β → κ → ℚ} {K : Nat} {r : ℚ} {c : List Nat → Except Err (β × ω)} (h : Mean m put I φ K r c)
    (hJ : ∀ b u, I b u → J b u) (hψ : ∀ b u, I b u → φ b u ≤ ψ b u) : Mean m put J ψ K r c := by
  induction h with
  | done b u h hI hr => exact .done b u h (hJ b u hI) (hr.trans (hψ b u hI))
  | draw rs h hr ih => exact .draw rs ih hr

theorem mean_const (hm : 0 < m) (v : ℚ) : (∑ _k ∈ Finset.range m, v) / (m : ℚ) = v := by
  have : (m : ℚ) ≠ 0 := by exact_mod_cast hm.ne'
  rw [Finset.sum_const, Finset.card_range, nsmul_eq_mul, mul_comm, mul_div_assoc, div_self this, mul_one]

/-- Whatever the draws are: a lower bound of the value. -/
theorem Mean.const (hm : 0 < m) {J : β → κ → Prop} {ψ : β → κ → ℚ} {v : ℚ} {K : Nat} {r : ℚ} {c : List Nat → Except Err (β × ω)}
    (h : Mean m put I φ K r c) (hψ : ∀ b u, I b u → J b u ∧ v ≤ ψ b u) : Mean m put J ψ K v c := by
  induction h with
  | done b u h hI hr => exact .done b u h (hψ b u hI).1 (hψ b u hI).2
  | draw rs h hr ih => exact .draw (fun _ => v) ih (by rw [mean_const hm])

theorem Mean.bind {J : γ → κ → Prop} {ψ : γ → κ → ℚ} {K K' : Nat} {r : ℚ} {c : List Nat → Except Err (β × ω)} {f : β → M ω γ}
    (h : Mean m put I φ K r c) (hf : ∀ b u, I b u → Mean m put J ψ K' (φ b u) (fun t => f b (put u t))) :
    Mean m put J ψ (K + K') r (fun t => match c t with
      | .ok (b, w) => f b w
      | .error e => .error e) := by
  induction h with
  | @done K r c b u h hI hr =>
    have := (hf b u hI).mono (Nat.le_add_left K' K) hr
    simpa only [h] using this
  | @draw K r c rs h hr ih =>
    rw [Nat.add_right_comm]
    exact .draw rs (fun k hk => ih k hk) hr

/-- For computations of the monad -/
theorem Mean.bindM {J : γ → κ → Prop} {ψ : γ → κ → ℚ} {K K' : Nat} {r : ℚ} {c : M ω β} {f : β → M ω γ} {u0 : κ}
    (h : Mean m put I φ K r (fun t => c (put u0 t))) (hf : ∀ b u, I b u → Mean m put J ψ K' (φ b u) (fun t => f b (put u t))) :
    Mean m put J ψ (K + K') r (fun t => (c >>= f) (put u0 t)) := by
  have := h.bind hf
  have e : (fun t => (c >>= f) (put u0 t)) = (fun t => match c (put u0 t) with
      | .ok (b, w) => f b w
      | .error e => .error e) := by
    funext t
    rw [M.bind_run]
    cases c (put u0 t) <;> rfl
  rw [e]
  exact this

theorem Mean.pure {b : β} {u : κ} {K : Nat} {r : ℚ} (hI : I b u) (hr : r ≤ φ b u) : Mean m put I φ K r (fun t => (pure b : M ω β) (put u t)) :=
  .done b u (fun _ => rfl) hI hr

/-- What a mean value says about tapes of a given length -/
theorem Mean.chance {P : β → κ → Prop} {K : Nat} {r : ℚ} {c : List Nat → Except Err (β × ω)} (hm : 0 < m)
    (h : Mean m put I φ K r c) (hφ : ∀ b u, I b u → φ b u ≤ 1 ∧ (¬ P b u → φ b u ≤ 0)) (L : Nat) (hL : K ≤ L) :
    r ≤ chance (List.replicate L m) (fun t => ∃ b u rest, c t = .ok (b, put u rest) ∧ I b u ∧ P b u) := by
  have hmq : (0 : ℚ) < m := by exact_mod_cast hm
  induction h generalizing L with
  | @done K r c b u h hI hr =>
    refine hr.trans ?_
    by_cases hP : P b u
    · refine (hφ b u hI).1.trans ?_
      rw [chance_congr (Q := fun _ => True) fun t _ => ⟨fun _ => trivial, fun _ => ⟨b, u, t, h t, hI, hP⟩⟩]
      rw [chance_eq, cnt_true, div_self]
      have : (List.replicate L m).prod ≠ 0 := by rw [List.prod_replicate]; positivity
      exact_mod_cast this
    · refine ((hφ b u hI).2 hP).trans ?_
      rw [chance_eq]
      positivity
  | @draw K r c rs h hr ih =>
    obtain ⟨L, rfl⟩ := Nat.exists_eq_add_of_le' (show 1 ≤ L by omega)
    rw [List.replicate_succ, chance_cons]
    refine hr.trans (div_le_div_of_nonneg_right (Finset.sum_le_sum fun k hk => ?_) hmq.le)
    exact ih k (Finset.mem_range.1 hk) L (by omega)

/-! ### Components in the world with the trace -/

variable {τ T α : Type}

/-- The user's world -/
def user (u : τ) (t : List Nat) : List Nat × τ := (t, u)

/-- The world with the trace -/
def world (k : τ × List (Ev T)) (t : List Nat) : World (List Nat × τ) T := ⟨(t, k.1), k.2⟩

theorem mean_of_ends {J : β → τ → Prop} {K : Nat} {c : List Nat → Except Err (β × (List Nat × τ))} (h : Ends m J K c) :
    Mean m (user (τ := τ)) J (fun _ _ => 0) K 0 c := by
  induction h with
  | done b u h hI => exact .done b u h hI le_rfl
  | draw h ih => exact .draw (fun _ => 0) ih (by simp)

theorem Mean.lift {J : β → τ → Prop} {ψ : β → τ → ℚ} {K : Nat} {r : ℚ} {a : M (List Nat × τ) β} {u : τ} (tr : List (Ev T))
    (h : Mean m user J ψ K r (fun t => a (user u t))) :
    Mean m world (fun b k => J b k.1 ∧ k.2 = tr) (fun b k => ψ b k.1) K r (fun t => (World.lift a : M (World (List Nat × τ) T) β) (world (u, tr) t)) := by
  have key : ∀ {K : Nat} {r : ℚ} {c : List Nat → Except Err (β × (List Nat × τ))}, Mean m user J ψ K r c →
      Mean m world (fun b k => J b k.1 ∧ k.2 = tr) (fun b k => ψ b k.1) K r (fun t => (match c t with
        | .ok (b, s') => .ok (b, ⟨s', tr⟩)
        | .error e => .error e : Except Err (β × World (List Nat × τ) T))) := by
    intro K r c h
    induction h with
    | done b u h hI hr => exact .done b (u, tr) (fun t => by simp only [h]; rfl) ⟨hI, rfl⟩ hr
    | draw rs h hr ih => exact .draw rs (fun k hk => ih k hk) hr
  have e : (fun t => (World.lift a : M (World (List Nat × τ) T) β) (world (u, tr) t)) = (fun t => (match a (user u t) with
        | .ok (b, s') => .ok (b, ⟨s', tr⟩)
        | .error e => .error e : Except Err (β × World (List Nat × τ) T))) := by
    funext t
    unfold World.lift
    have eu : (world (T := T) (u, tr) t).user = user u t := rfl
    simp only [eu]
    cases a (user u t) <;> rfl
  rw [e]
  exact key h

/-- A component: whatever is drawn, the result has the promised property and the trace stays. -/
theorem Mean.reads (hm : 0 < m) {K : Nat} {a : M (List Nat × τ) β} {Q : β → Prop} (h : Reads m K a Q) (k : τ × List (Ev T)) (v : ℚ) :
    Mean m world (fun b k' => Q b ∧ k'.2 = k.2) (fun _ _ => v) K v (fun t => (World.lift a : M (World (List Nat × τ) T) β) (world k t)) := by
  obtain ⟨u, tr⟩ := k
  exact (Mean.lift tr (mean_of_ends (h u))).const hm fun b k' hb => ⟨hb, le_rfl⟩

theorem Mean.emit {e : Ev T} {k : τ × List (Ev T)} {J : Unit → τ × List (Ev T) → Prop} {ψ : Unit → τ × List (Ev T) → ℚ} {K : Nat} {r : ℚ}
    (hJ : J () (k.1, k.2 ++ [e])) (hr : r ≤ ψ () (k.1, k.2 ++ [e])) :
    Mean m world J ψ K r (fun t => (World.emit e : M (World (List Nat × τ) T) Unit) (world k t)) :=
  .done () (k.1, k.2 ++ [e]) (fun _ => rfl) hJ hr

/-! ### Draws of points -/

section Points

variable {f : Fmt}

/-- The mean value of a function of a point drawn from the intervals -/
noncomputable def meanPoint (dr : Draws) (m : Nat) : List (Fl f × Fl f) → (List (Fl f) → ℚ) → ℚ
  | [], g => g []
  | iv :: ivs, g => (∑ k ∈ Finset.range m, meanPoint dr m ivs (fun ys => g (dr.closedVal iv.1 iv.2 k :: ys))) / m

open Classical in
theorem meanPoint_region (dr : Draws) (hm : 0 < m) (A : List (Fl f) → Prop) (v : ℚ) : ∀ ivs : List (Fl f × Fl f),
    meanPoint dr m ivs (fun ys => if A ys then 1 else v) = regionShare dr m ivs A + (1 - regionShare dr m ivs A) * v := by
  intro ivs
  have hmq : (m : ℚ) ≠ 0 := by exact_mod_cast hm.ne'
  induction ivs generalizing A with
  | nil =>
    unfold meanPoint regionShare
    rw [List.length_nil, List.replicate_zero, chance_eq, cnt_nil]
    have : pointOf dr ([] : List (Fl f × Fl f)) [] = [] := rfl
    rw [this]
    by_cases h : A [] <;> simp [h]
  | cons iv ivs ih =>
    unfold meanPoint
    have e : regionShare dr m (iv :: ivs) A = (∑ k ∈ Finset.range m, regionShare dr m ivs (fun ys => A (dr.closedVal iv.1 iv.2 k :: ys))) / m := by
      unfold regionShare
      rw [List.length_cons, List.replicate_succ, chance_cons]
      rfl
    rw [e, Finset.sum_congr rfl fun k _ => ih (fun ys => A (dr.closedVal iv.1 iv.2 k :: ys)), Finset.sum_add_distrib, ← Finset.sum_mul,
      Finset.sum_sub_distrib, Finset.sum_const, Finset.card_range, nsmul_eq_mul]
    field_simp

theorem mean_points (dr : Draws) : ∀ (ivs : List (Fl f × Fl f)), (∀ iv ∈ ivs, (iv.1.le iv.2 && iv.1.isFinite && iv.2.isFinite) = true) →
    ∀ (g : List (Fl f) → ℚ) (u : τ), Mean m user (fun ys _ => ys.length = ivs.length) (fun ys _ => g ys) ivs.length (meanPoint dr m ivs g)
      (fun t => M.mapL (fun iv => (dr.beside τ).uniformFlIncl iv.1 iv.2) ivs (user u t)) := by
  intro ivs
  induction ivs with
  | nil =>
    intro _ g u
    exact .done [] u (fun _ => rfl) rfl le_rfl
  | cons iv ivs ih =>
    intro h g u
    refine .draw (fun k => meanPoint dr m ivs (fun ys => g (dr.closedVal iv.1 iv.2 k :: ys))) (fun k hk => ?_) le_rfl
    have h1 : ∀ t, (dr.beside τ).uniformFlIncl iv.1 iv.2 (user u (k :: t)) = .ok (dr.closedVal iv.1 iv.2 k, user u t) := by
      intro t
      unfold Rng.uniformFlIncl
      rw [if_pos (h iv (by simp)), M.ofState_eq_ok]
      rfl
    have h2 := Mean.bindM (f := fun ys => (Pure.pure (dr.closedVal iv.1 iv.2 k :: ys) : M (List Nat × τ) _))
      (J := fun ys _ => ys.length = (iv :: ivs).length) (ψ := fun ys _ => g ys) (K' := 0)
      (ih (fun iv h' => h iv (by simp [h'])) (fun ys => g (dr.closedVal iv.1 iv.2 k :: ys)) u)
      (fun ys u' hys => Mean.pure (by simp [hys]) le_rfl)
    rw [Nat.add_zero] at h2
    have e : (fun t => M.mapL (fun iv => (dr.beside τ).uniformFlIncl iv.1 iv.2) (iv :: ivs) (user u (k :: t))) =
        (fun t => (M.mapL (fun iv => (dr.beside τ).uniformFlIncl iv.1 iv.2) ivs >>= fun ys =>
          (Pure.pure (dr.closedVal iv.1 iv.2 k :: ys) : M (List Nat × τ) _)) (user u t)) := by
      funext t
      show ((dr.beside τ).uniformFlIncl iv.1 iv.2 >>= fun b => _) (user u (k :: t)) = _
      rw [M.bind_run, h1]
    rw [e]
    exact h2

open Classical in
/-- RandomTeleport: the chance to get into the region -/
theorem mean_teleport (dr : Draws) (hm : 0 < m) (tp : Hooks.Teleport f)
    (ht : ∀ iv ∈ tp.intervals, (iv.1.le iv.2 && iv.1.isFinite && iv.2.isFinite) = true) (A : List (Fl f) → Prop) (xs : List (Fl f))
    (hx : xs.length = tp.intervals.length) (v : ℚ) (hv : v ≤ 1) (u : τ) :
    Mean m user (fun ys _ => ys.length = tp.intervals.length) (fun ys _ => if A ys then 1 else v) (1 + tp.intervals.length)
      (v + share m (fun k => (dr.openVal (Fl.zero : F32) Fl.one k).lt tp.probability = true) * regionShare dr m tp.intervals A * (1 - v))
      (fun t => Hooks.teleport (dr.beside τ) tp xs (user u t)) := by
  have hmq : (m : ℚ) ≠ 0 := by exact_mod_cast hm.ne'
  set q := regionShare dr m tp.intervals A with hq
  set go : Nat → Prop := fun k => (dr.openVal (Fl.zero : F32) Fl.one k).lt tp.probability = true with hgo
  have hrun : ∀ k t, Hooks.teleport (dr.beside τ) tp xs (user u (k :: t)) =
      if go k then M.mapL (fun iv => (dr.beside τ).uniformFlIncl iv.1 iv.2) tp.intervals (user u t) else .ok (xs, user u t) := by
    intro k t
    unfold Hooks.teleport
    rw [M.bind_run]
    have ha : M.assert (xs.length == tp.intervals.length) (user u (k :: t)) = .ok ((), user u (k :: t)) :=
      M.assert_eq_ok.2 ⟨by simpa using hx, rfl⟩
    rw [ha]
    show (do
      let rnd ← (dr.beside τ).uniformFl (Fl.zero : F32) (Fl.one : F32)
      if rnd.lt tp.probability then M.mapL (fun iv => (dr.beside τ).uniformFlIncl iv.1 iv.2) tp.intervals else pure xs : M (List Nat × τ) _)
        (user u (k :: t)) = _
    rw [M.bind_run]
    have h1 : (dr.beside τ).uniformFl (Fl.zero : F32) (Fl.one : F32) (user u (k :: t)) = .ok (dr.openVal (Fl.zero : F32) Fl.one k, user u t) := by
      unfold Rng.uniformFl
      rw [if_pos (by decide +kernel), M.ofState_eq_ok]
      rfl
    rw [h1]
    simp only [hgo]
    split <;> rfl
  rw [Nat.add_comm]
  refine .draw (fun k => if go k then q + (1 - q) * v else v) (fun k _ => ?_) ?_
  · simp only [hrun]
    by_cases hg : go k
    · simp only [hg, if_true]
      rw [hq, ← meanPoint_region dr hm A v]
      exact mean_points dr tp.intervals ht _ u
    · simp only [hg, if_false]
      refine .done xs u (fun _ => rfl) hx ?_
      split
      · exact hv
      · exact le_rfl
  · have hs : share m go = (∑ k ∈ Finset.range m, if go k then (1 : ℚ) else 0) / m := by
      rw [share_eq, Finset.card_filter]
      push_cast
      rfl
    have e : ∀ k, (if go k then q + (1 - q) * v else v) = v + (if go k then (1 : ℚ) else 0) * (q * (1 - v)) := by
      intro k
      split <;> ring
    rw [Finset.sum_congr rfl fun k _ => e k, Finset.sum_add_distrib, ← Finset.sum_mul, add_div, mean_const hm, hs]
    refine le_of_eq ?_
    ring

end Points

/-! ### The swarm -/

section Swarm

variable {f : Fmt} {d n K : Nat} {tp : Hooks.Teleport f} {A : List (Fl f) → Prop} {G : List (Fl f) → F64 → Prop}

theorem ends_of_mean {J : β → τ → Prop} {ψ : β → τ → ℚ} {K : Nat} {r : ℚ} {c : List Nat → Except Err (β × (List Nat × τ))}
    (h : Mean m (user (τ := τ)) J ψ K r c) : Ends m J K c := by
  induction h with
  | done b u h hI _ => exact .done b u h hI
  | draw rs h _ ih => exact .draw ih

theorem Reads.bind {K K' : Nat} {a : M (List Nat × τ) β} {g : β → M (List Nat × τ) γ} {P : β → Prop} {Q : γ → Prop} (h : Reads m K a P)
    (hg : ∀ b, P b → Reads m K' (g b) Q) : Reads m (K + K') (a >>= g) Q := by
  intro u
  exact ends_of_mean (Mean.bindM (put := user) (mean_of_ends (h u)) fun b u' hb => mean_of_ends (hg b hb u'))

theorem Reads.mono {K K' : Nat} {a : M (List Nat × τ) β} {P Q : β → Prop} (h : Reads m K a P) (hK : K ≤ K') (hPQ : ∀ b, P b → Q b) :
    Reads m K' a Q := by
  intro u
  exact ends_of_mean (((mean_of_ends (h u)).mono hK le_rfl).imp (J := fun b _ => Q b) (ψ := fun _ _ => 0) (fun b u hb => hPQ b hb) fun _ _ _ => le_rfl)

theorem Reads.pure {K : Nat} {b : β} {P : β → Prop} (h : P b) : Reads m K (Pure.pure b : M (List Nat × τ) β) P :=
  fun u => .done b u (fun _ => rfl) h

theorem Reads.hooks {P : List α → Prop} : ∀ (hs : List (List α → M (List Nat × τ) (List α))),
    (∀ h ∈ hs, ∀ x, P x → Reads m K (h x) P) → ∀ x, P x → Reads m (K * hs.length) (hooks hs x) P
  | [], _, _, hx => Reads.pure hx
  | h :: hs, hh, x, hx => by
    rw [List.length_cons, Nat.mul_succ, Nat.add_comm]
    exact Reads.bind (hh h (by simp) x hx) fun y hy => Reads.hooks hs (fun h hm => hh h (by simp [hm])) y hy

theorem hooks_append (as bs : List (List α → M (List Nat × τ) (List α))) (x : List α) :
    hooks (as ++ bs) x = (hooks as x >>= fun y => hooks bs y) := by
  induction as generalizing x with
  | nil => rfl
  | cons a as ih =>
    funext s
    show (a x >>= fun y => hooks (as ++ bs) y) s = ((a x >>= fun y => hooks as y) >>= fun y => hooks bs y) s
    simp only [ih, bind_assoc]

theorem chance_range (ns : List Nat) (P : List Nat → Prop) : 0 ≤ chance ns P ∧ chance ns P ≤ 1 := by
  classical
  unfold chance
  constructor
  · positivity
  · refine div_le_one_of_le₀ ?_ (by positivity)
    exact_mod_cast List.countP_le_length

theorem chance_mono {ns : List Nat} {P Q : List Nat → Prop} (h : ∀ t, P t → Q t) : chance ns P ≤ chance ns Q := by
  classical
  unfold chance
  refine div_le_div_of_nonneg_right ?_ (Nat.cast_nonneg _)
  exact_mod_cast List.countP_mono_left fun t _ ht => by simpa using h t (by simpa using ht)

theorem hitShare_range (dr : Draws) (m : Nat) (tp : Hooks.Teleport f) (A : List (Fl f) → Prop) : 0 ≤ hitShare dr m tp A ∧ hitShare dr m tp A ≤ 1 := by
  unfold hitShare share regionShare
  exact ⟨mul_nonneg (chance_range _ _).1 (chance_range _ _).1,
    mul_le_one₀ (chance_range _ _).2 (chance_range _ _).1 (chance_range _ _).2⟩

/-- The number of draws of all hooks -/
def hooksDraws (K d len : Nat) : Nat := K * len + (1 + d + K * len)

open Classical in
theorem mean_hooks {dr : Draws} (hm : 0 < m) {c : Comps (List Nat × τ) (Fl f)} (hc : Teleporting dr d n m K tp A G c) (x : List (Fl f))
    (hx : x.length = d) (v : ℚ) (hv : v ≤ 1) (u : τ) :
    Mean m user (fun y _ => y.length = d) (fun y _ => if A y then 1 else v) (hooksDraws K d c.postMove.length)
      (v + hitShare dr m tp A * (1 - v)) (fun t => hooks c.postMove x (user u t)) := by
  obtain ⟨before, after, e, h1, h2⟩ := hc.postMove
  have hlen : before.length ≤ c.postMove.length ∧ after.length ≤ c.postMove.length := by
    rw [e, List.length_append, List.length_cons]; omega
  have hb := mean_of_ends (Reads.hooks before (fun h hh x hx => h1 h hh x hx) x hx u)
  have := Mean.bindM (put := user) (f := fun y => hooks (Hooks.teleport (dr.beside τ) tp :: after) y)
    (φ := fun _ _ => v + hitShare dr m tp A * (1 - v)) (J := fun y _ => y.length = d) (ψ := fun y _ => if A y then 1 else v)
    (K' := 1 + d + K * after.length)
    (hb.const hm (J := fun y _ => y.length = d) fun y u' hy => ⟨hy, le_rfl⟩) (fun y u' hy => ?_)
  · rw [← hooks_append, ← e] at this
    refine this.mono ?_ le_rfl
    unfold hooksDraws
    have i1 : K * before.length ≤ K * c.postMove.length := Nat.mul_le_mul_left _ hlen.1
    have i2 : K * after.length ≤ K * c.postMove.length := Nat.mul_le_mul_left _ hlen.2
    omega
  · have ht := mean_teleport (τ := τ) dr hm tp hc.intervals A y (by rw [hc.dimension]; exact hy) v hv u'
    rw [hc.dimension] at ht
    refine Mean.bindM (put := user) ht fun z u'' hz => ?_
    have hk := mean_of_ends (Reads.hooks (m := m) (K := K) (P := fun y => y.length = d ∧ (A z → A y)) after (fun h hh x hx => ?_) z ⟨hz, id⟩ u'')
    · refine hk.const hm fun w _ hw => ⟨hw.1, ?_⟩
      by_cases hA : A z
      · simp [hA, hw.2 hA]
      · simp only [hA, if_false]
        split
        · exact hv
        · exact le_rfl
    · exact Reads.mono (h2 h hh x hx.1) le_rfl fun y hy => ⟨hy.1, fun hz => hy.2 (hx.2 hz)⟩

theorem goalsSince_snoc {T : Type} (tr : List (Ev T)) (e : Ev T) : goalsSince (tr ++ [e]) = (match e with
    | .created _ => []
    | .goal x v => goalsSince tr ++ [(x, v)]
    | _ => goalsSince tr) := by
  unfold goalsSince
  rw [List.foldl_append]
  cases e <;> rfl

theorem Hit.snoc {T : Type} {A : T → Prop} {G : T → F64 → Prop} {tr : List (Ev T)} (h : Hit A G tr) {e : Ev T} (he : ∀ xs, e ≠ .created xs) :
    Hit A G (tr ++ [e]) := by
  obtain ⟨x, v, h1, h2⟩ := h
  refine ⟨x, v, ?_, h2⟩
  rw [goalsSince_snoc]
  cases e with
  | created xs => exact absurd rfl (he xs)
  | goal y w => exact List.mem_append_left _ h1
  | _ => exact h1

theorem Hit.goal {T : Type} {A : T → Prop} {G : T → F64 → Prop} {tr : List (Ev T)} {x : T} {v : F64} (hA : A x) (hG : G x v) :
    Hit A G (tr ++ [.goal x v]) := ⟨x, v, by rw [goalsSince_snoc]; simp, hA, hG⟩

open Classical in
/-- 1 if a point of the region has been evaluated, `v` otherwise -/
noncomputable def worth (A : List (Fl f) → Prop) (G : List (Fl f) → F64 → Prop) (v : ℚ) (k : τ × List (Ev (List (Fl f)))) : ℚ :=
  if Hit A G k.2 then 1 else v

theorem worth_le {v : ℚ} (hv : v ≤ 1) {k k' : τ × List (Ev (List (Fl f)))} (h : Hit A G k.2 → Hit A G k'.2) : worth A G v k ≤ worth A G v k' := by
  unfold worth
  by_cases h1 : Hit A G k.2
  · simp [h1, h h1]
  · simp only [h1, if_false]
    split
    · exact hv
    · exact le_rfl

theorem worth_one {v : ℚ} {k : τ × List (Ev (List (Fl f)))} (h : Hit A G k.2) : worth A G v k = 1 := by
  unfold worth; simp [h]

theorem worth_le_one {v : ℚ} (hv : v ≤ 1) (k : τ × List (Ev (List (Fl f)))) : worth A G v k ≤ 1 := by
  unfold worth
  split
  · exact le_rfl
  · exact hv

theorem worth_step (c v : ℚ) (k : τ × List (Ev (List (Fl f)))) :
    worth A G (v + c * (1 - v)) k = worth A G v k + c * (1 - worth A G v k) := by
  unfold worth
  split <;> ring

/-- The number of draws of the move of a particle -/
def moveDraws (K d lv lm : Nat) : Nat := K + (K * lv + (hooksDraws K d lm + K))

open Classical in
theorem mean_move {dr : Draws} (hm : 0 < m) {c : Comps (List Nat × τ) (Fl f)} (hc : Teleporting dr d n m K tp A G c) (s : PSO.Swarm (Fl f))
    (hs : Shaped d n s) (i : Nat) (hi : i < n) (v : ℚ) (hv : v ≤ 1) (k : τ × List (Ev (List (Fl f)))) :
    Mean m world (fun s' _ => Shaped d n s' ∧ s'.iteration = s.iteration) (fun _ k' => worth A G v k')
      (moveDraws K d c.postVel.length c.postMove.length) (worth A G (v + hitShare dr m tp A * (1 - v)) k)
      (fun t => moveParticle c s i (world k t)) := by
  have hi' : i < s.particles.length := by rw [hs.count]; exact hi
  have hidx : ∀ t, M.index s.particles i (world k t) = .ok (s.particles[i], world k t) := fun t =>
    M.index_eq_ok.2 ⟨List.getElem?_eq_getElem hi', rfl⟩
  have hp : s.particles[i] ∈ s.particles := List.getElem_mem _
  generalize s.particles[i] = p at hidx hp
  have hd := hs.particles p hp
  have hstart : (fun t => moveParticle c s i (world k t)) = (fun t => (do
      let raw ← World.lift (c.velCalc s p)
      let v ← World.lift (hooks c.postVel raw)
      World.emit (.velocity raw v)
      let p := p.setVelocity v
      let raw := List.zipWith FloatT.add p.coordinates p.velocity
      let x ← World.lift (hooks c.postMove raw)
      World.emit (.moved raw x)
      let value ← World.lift (c.goal x)
      World.emit (.goal x value)
      pure { s with particles := s.particles.set i (p.moveTo x value) } : M (World (List Nat × τ) (List (Fl f))) _) (world k t)) := by
    funext t
    unfold moveParticle
    rw [M.bind_run, hidx]
  rw [hstart, worth_step]
  set w := worth A G v k with hw
  have hw1 : w ≤ 1 := worth_le_one hv k
  unfold moveDraws
  refine Mean.bindM (Mean.reads hm (hc.velCalc s hs p hp) k _) fun raw k1 h1 => ?_
  refine Mean.bindM (Mean.reads hm (Reads.hooks c.postVel hc.postVel raw h1.1) k1 _) fun vel k2 h2 => ?_
  have hz : (List.zipWith FloatT.add p.coordinates vel).length = d := by
    rw [List.length_zipWith, hd.coordinates, h2.1, Nat.min_self]
  rw [show hooksDraws K d c.postMove.length + K = 0 + (hooksDraws K d c.postMove.length + K) by omega]
  refine Mean.bindM (φ := fun _ _ => w + hitShare dr m tp A * (1 - w)) (I := fun _ k' => k'.2 = k2.2 ++ [.velocity raw vel])
    (Mean.emit rfl le_rfl) fun _ k3 h3 => ?_
  refine Mean.bindM (Mean.lift k3.2 (mean_hooks hm hc _ hz w hw1 k3.1)) fun x k4 h4 => ?_
  rw [show K = 0 + (K + 0) by omega]
  refine Mean.bindM (φ := fun _ _ => if A x then 1 else w)
    (I := fun _ k' => k'.2 = k4.2 ++ [.moved (List.zipWith FloatT.add p.coordinates vel) x]) (Mean.emit rfl le_rfl) fun _ k5 h5 => ?_
  refine Mean.bindM (Mean.reads hm (hc.goal x h4.1) k5 _) fun val k6 h6 => ?_
  have hfin : ∀ k7 : τ × List (Ev (List (Fl f))), k7.2 = k6.2 ++ [.goal x val] → (if A x then 1 else w) ≤ worth A G v k7 := by
    intro k7 h7
    by_cases hA : A x
    · rw [if_pos hA, worth_one (by rw [h7]; exact Hit.goal hA h6.1)]
    · rw [if_neg hA]
      refine worth_le hv fun hit => ?_
      rw [h7, h6.2, h5, h4.2, h3, h2.2, h1.2]
      exact Hit.snoc (Hit.snoc (Hit.snoc hit (by simp)) (by simp)) (by simp)
  have hshape : Shaped d n { s with particles := s.particles.set i ((p.setVelocity vel).moveTo x val) } := by
    refine ⟨by simp [hs.count], ?_, hs.hasBest, hs.best, hs.hasWorst, hs.worst⟩
    intro q hq
    rcases List.mem_or_eq_of_mem_set hq with hq | rfl
    · exact hs.particles q hq
    · exact ofDim_moveTo hd h2.1 h4.1
  rw [show (0 : Nat) = 0 + 0 by omega]
  refine Mean.bindM (φ := fun _ k' => worth A G v k') (I := fun _ k' => k'.2 = k6.2 ++ [.goal x val]) (Mean.emit rfl (hfin _ rfl)) fun _ k7 h7 => ?_
  exact Mean.pure ⟨hshape, rfl⟩ le_rfl

/-- The chance to have got into the region after `j` attempts with the chance `c`, if it was `v` otherwise -/
def gain (c v : ℚ) (j : Nat) : ℚ := 1 - (1 - c) ^ j * (1 - v)

theorem gain_zero (c v : ℚ) : gain c v 0 = v := by unfold gain; ring

theorem gain_succ (c v : ℚ) (j : Nat) : gain c v (j + 1) = gain c v j + c * (1 - gain c v j) := by unfold gain; ring

theorem gain_add (c v : ℚ) (i j : Nat) : gain c (gain c v i) j = gain c v (j + i) := by unfold gain; ring

theorem gain_le {c v : ℚ} (hc : c ≤ 1) (hv : v ≤ 1) (j : Nat) : gain c v j ≤ 1 := by
  unfold gain
  have : 0 ≤ (1 - c) ^ j * (1 - v) := mul_nonneg (pow_nonneg (by linarith) _) (by linarith)
  linarith

theorem mean_moves {dr : Draws} (hm : 0 < m) {c : Comps (List Nat × τ) (Fl f)} (hc : Teleporting dr d n m K tp A G c) (it : Nat) :
    ∀ (is : List Nat) (s : PSO.Swarm (Fl f)), Shaped d n s → s.iteration = it → (∀ i ∈ is, i < n) → ∀ (v : ℚ), v ≤ 1 →
      ∀ k : τ × List (Ev (List (Fl f))), Mean m world (fun s' _ => Shaped d n s' ∧ s'.iteration = it) (fun _ k' => worth A G v k')
        (moveDraws K d c.postVel.length c.postMove.length * is.length) (worth A G (gain (hitShare dr m tp A) v is.length) k)
        (fun t => M.foldL (moveParticle c) s is (world k t))
  | [], s, hs, hit, _, v, _, k => by
    rw [List.length_nil, gain_zero]
    exact Mean.pure ⟨hs, hit⟩ le_rfl
  | i :: is, s, hs, hit, hi, v, hv, k => by
    rw [List.length_cons, gain_succ, Nat.mul_succ, Nat.add_comm]
    refine Mean.bindM (mean_move hm hc s hs i (hi i (by simp)) (gain (hitShare dr m tp A) v is.length)
      (gain_le (hitShare_range dr m tp A).2 hv _) k) fun s' k' hs' => ?_
    exact mean_moves hm hc it is s' hs'.1 (hs'.2.trans hit) (fun j hj => hi j (by simp [hj])) v hv k'

theorem mean_loggers {dr : Draws} (hm : 0 < m) {kind : LogKind} {st : AlgState (List (Fl f))} (v : ℚ) :
    ∀ (ls : List (Logger (List Nat × τ) (List (Fl f)))),
    (∀ l ∈ ls, ∀ s, Reads m K (l.start s) (fun _ => True) ∧ Reads m K (l.resume s) (fun _ => True) ∧
      Reads m K (l.nextIteration s) (fun _ => True) ∧ Reads m K (l.finish s) (fun _ => True)) → ∀ (i : Nat) (k : τ × List (Ev (List (Fl f)))),
    Mean m world (fun _ k' => Hit A G k.2 → Hit A G k'.2) (fun _ _ => v) (K * ls.length) v (fun t => callLoggers kind st i ls (world k t))
  | [], _, _, _ => Mean.pure id le_rfl
  | l :: ls, h, i, k => by
    obtain ⟨h1, h2, h3, h4⟩ := h l (by simp) st
    have hl : Reads m K (match kind with
      | .start => l.start st
      | .resume => l.resume st
      | .next => l.nextIteration st
      | .finish => l.finish st) (fun _ => True) := by
      cases kind
      · exact h1
      · exact h2
      · exact h3
      · exact h4
    rw [List.length_cons, Nat.mul_succ, show K * ls.length + K = K + (0 + K * ls.length) by omega]
    refine Mean.bindM (Mean.reads hm hl k v) fun _ k1 hk1 => ?_
    refine Mean.bindM (φ := fun _ _ => v) (I := fun _ k' => k'.2 = k1.2 ++ [.log i kind st]) (Mean.emit rfl le_rfl) fun _ k2 hk2 => ?_
    refine (mean_loggers (dr := dr) hm v ls (fun l hl => h l (by simp [hl])) (i + 1) k2).imp (fun _ k3 h3 hit => h3 ?_) fun _ _ _ => le_rfl
    rw [hk2, hk1.2]
    exact Hit.snoc hit (by simp)

/-- The number of draws of one iteration -/
def stepDraws (K d n lv lm ll : Nat) : Nat := moveDraws K d lv lm * n + K * ll

theorem mean_step {dr : Draws} (hm : 0 < m) {c : Comps (List Nat × τ) (Fl f)} (hc : Teleporting dr d n m K tp A G c)
    (s : PSO.Swarm (Fl f)) (hs : Shaped d n s) (v : ℚ) (hv : v ≤ 1) (k : τ × List (Ev (List (Fl f)))) :
    Mean m world (fun s' _ => Shaped d n s' ∧ s'.iteration = s.iteration + 1) (fun _ k' => worth A G v k')
      (stepDraws K d n c.postVel.length c.postMove.length c.loggers.length) (worth A G (gain (hitShare dr m tp A) v n) k)
      (fun t => step c s (world k t)) := by
  have h1 := mean_moves hm hc s.iteration (List.range s.particles.length) s hs rfl (fun i hi => by
    rw [List.mem_range, hs.count] at hi; exact hi) v hv k
  rw [List.length_range, hs.count] at h1
  unfold stepDraws
  rw [show K * c.loggers.length = 0 + (K * c.loggers.length + 0) by omega]
  have e : step c s = (M.foldL (moveParticle c) s (List.range n) >>= fun s => do
    let s := s.updateBest.updateWorst.nextIteration
    World.emit (.generation (agents s) s.state.best (s.worst.map Particle.sol) s.iteration)
    callLoggers .next s.state 0 c.loggers
    pure s) := by
    unfold step
    rw [hs.count]
  rw [e]
  refine Mean.bindM h1 fun s1 k1 hs1 => ?_
  refine Mean.bindM (φ := fun _ _ => worth A G v k1) (I := fun _ k' => Hit A G k1.2 → Hit A G k'.2)
    (Mean.emit (fun h => Hit.snoc h (by simp)) le_rfl) fun _ k2 hk2 => ?_
  refine Mean.bindM (mean_loggers (dr := dr) (A := A) (G := G) hm _ c.loggers hc.loggers 0 k2) fun _ k3 hk3 => ?_
  have h2 := shaped_updateWorst (shaped_updateBest hs1.1)
  refine Mean.pure ⟨⟨h2.count, h2.particles, h2.hasBest, h2.best, h2.hasWorst, h2.worst⟩, ?_⟩ (worth_le hv fun h => hk3 (hk2 h))
  show s1.updateBest.updateWorst.iteration + 1 = s.iteration + 1
  rw [updateWorst_iteration, updateBest_iteration, hs1.2]

theorem mean_loop {dr : Draws} (hm : 0 < m) {c : Comps (List Nat × τ) (Fl f)} (hc : Teleporting dr d n m K tp A G c) {last : Nat}
    (hst : c.stop = Stop.maxIterations last) (v : ℚ) (hv : v ≤ 1) :
    ∀ (j fuel : Nat) (s : PSO.Swarm (Fl f)), Shaped d n s → s.iteration + j = last → j < fuel → ∀ (k : τ × List (Ev (List (Fl f)))),
      Mean m world (fun s' _ => Shaped d n s' ∧ s'.iteration = last) (fun _ k' => worth A G v k')
        (stepDraws K d n c.postVel.length c.postMove.length c.loggers.length * j) (worth A G (gain (hitShare dr m tp A) v (n * j)) k)
        (fun t => loop c fuel s (world k t))
  | j, 0, _, _, _, h, _ => by omega
  | j, fuel + 1, s, hs, hj, hf, k => by
    have hb : ∀ t, (World.lift (c.stop s.state) : M (World (List Nat × τ) (List (Fl f))) Bool) (world k t) =
        .ok (decide (last ≤ s.iteration), world k t) := by
      intro t
      rw [hst]
      rfl
    have e : (fun t => loop c (fuel + 1) s (world k t)) = (fun t => (World.emit (.check s.state (decide (last ≤ s.iteration))) >>= fun _ =>
        if decide (last ≤ s.iteration) then pure s else step c s >>= fun s => loop c fuel s : M (World (List Nat × τ) (List (Fl f))) _)
          (world k t)) := by
      funext t
      show ((World.lift (c.stop s.state) : M (World (List Nat × τ) (List (Fl f))) Bool) >>= fun b => _) (world k t) = _
      rw [M.bind_run, hb]
    rw [e]
    have hchk : ∀ r, Mean m (world (τ := τ) (T := List (Fl f))) (fun _ k' => Hit A G k.2 → Hit A G k'.2) (fun _ _ => r) 0 r (fun t =>
        (World.emit (.check s.state (decide (last ≤ s.iteration))) : M (World (List Nat × τ) (List (Fl f))) Unit) (world k t)) :=
      fun r => Mean.emit (fun h => Hit.snoc h (by simp)) le_rfl
    cases j with
    | zero =>
      rw [Nat.mul_zero, Nat.mul_zero, gain_zero, show (0 : Nat) = 0 + 0 by omega]
      refine Mean.bindM (hchk _) fun _ k1 hk1 => ?_
      rw [if_pos (by simp; omega)]
      exact Mean.pure ⟨hs, by omega⟩ (worth_le hv hk1)
    | succ j =>
      rw [Nat.mul_succ n, Nat.add_comm (n * j) n, ← gain_add]
      refine Mean.mono (K := 0 + (stepDraws K d n c.postVel.length c.postMove.length c.loggers.length +
        stepDraws K d n c.postVel.length c.postMove.length c.loggers.length * j)) ?_ (by rw [Nat.mul_succ]; omega) le_rfl
      have hg : gain (hitShare dr m tp A) v (n * j) ≤ 1 := gain_le (hitShare_range dr m tp A).2 hv _
      refine Mean.bindM (hchk _) fun _ k1 hk1 => ?_
      rw [if_neg (by simp; omega)]
      refine Mean.bindM ((mean_step hm hc s hs _ hg k1).mono le_rfl (worth_le (gain_le (hitShare_range dr m tp A).2 hg _) hk1))
        fun s1 k2 hs1 => ?_
      exact mean_loop hm hc hst v hv j fuel s1 hs1.1 (by omega) (by omega) k2

open Classical in
theorem mean_starts {dr : Draws} (hm : 0 < m) {c : Comps (List Nat × τ) (Fl f)} (hc : Teleporting dr d n m K tp A G c) (v : ℚ) (hv : v ≤ 1) :
    ∀ (xs : List (List (Fl f))), (∀ x ∈ xs, x.length = d) → ∀ (k : τ × List (Ev (List (Fl f)))),
      Mean m world (fun ys _ => Vectors d xs.length ys) (fun ys _ => if ∃ y ∈ ys, A y then 1 else v)
        (hooksDraws K d c.postMove.length * xs.length) (gain (hitShare dr m tp A) v xs.length)
        (fun t => (M.mapL (fun raw => do
          let x ← World.lift (hooks c.postMove raw)
          World.emit (.moved raw x)
          pure x) xs : M (World (List Nat × τ) (List (Fl f))) _) (world k t))
  | [], _, k => by
    rw [List.length_nil, gain_zero]
    exact Mean.pure ⟨rfl, by simp⟩ (by simp)
  | x :: xs, hx, k => by
    have hg : gain (hitShare dr m tp A) v xs.length ≤ 1 := gain_le (hitShare_range dr m tp A).2 hv _
    rw [List.length_cons, gain_succ]
    refine Mean.mono (K := (hooksDraws K d c.postMove.length + (0 + 0)) + (hooksDraws K d c.postMove.length * xs.length + 0)) ?_
      (by rw [Nat.mul_succ]; omega) le_rfl
    refine Mean.bindM (I := fun (y : List (Fl f)) _ => y.length = d) (φ := fun (y : List (Fl f)) _ => if A y then 1 else gain (hitShare dr m tp A) v xs.length) ?_ fun y k1 hy => ?_
    · refine Mean.bindM ((Mean.lift k.2 (mean_hooks hm hc x (hx x (by simp)) _ hg k.1))) fun y k1 hy => ?_
      refine Mean.bindM (φ := fun _ _ => if A y then 1 else gain (hitShare dr m tp A) v xs.length) (I := fun _ _ => True)
        (Mean.emit trivial le_rfl) fun _ k2 _ => ?_
      exact Mean.pure hy.1 le_rfl
    · have ih := mean_starts hm hc v hv xs (fun x h => hx x (by simp [h])) k1
      by_cases hA : A y
      · rw [if_pos hA]
        refine Mean.bindM (ih.const hm (J := fun ys _ => Vectors d xs.length ys) (ψ := fun _ _ => 1) fun ys _ h => ⟨h, le_rfl⟩) fun ys k2 hys => ?_
        refine Mean.pure ⟨by simp [hys.1], ?_⟩ ?_
        · intro z hz
          rcases List.mem_cons.1 hz with rfl | hz
          · exact hy
          · exact hys.2 z hz
        · rw [if_pos ⟨y, by simp, hA⟩]
      · rw [if_neg hA]
        refine Mean.bindM ih fun ys k2 hys => ?_
        refine Mean.pure ⟨by simp [hys.1], ?_⟩ ?_
        · intro z hz
          rcases List.mem_cons.1 hz with rfl | hz
          · exact hy
          · exact hys.2 z hz
        · have : (∃ z ∈ y :: ys, A z) ↔ ∃ z ∈ ys, A z := by simp [hA]
          simp only [this]
          exact le_rfl

theorem mean_goals {dr : Draws} (hm : 0 < m) {c : Comps (List Nat × τ) (Fl f)} (hc : Teleporting dr d n m K tp A G c) (r : ℚ) :
    ∀ (xs : List (List (Fl f) × List (Fl f))), (∀ x ∈ xs, x.1.length = d ∧ x.2.length = d) → ∀ (k : τ × List (Ev (List (Fl f)))),
      Mean m world (fun ps k' => ps.length = xs.length ∧ (∀ p ∈ ps, OfDim d p) ∧ ((Hit A G k.2 ∨ ∃ x ∈ xs, A x.1) → Hit A G k'.2))
        (fun _ _ => r) (K * xs.length) r
        (fun t => (M.mapL (fun (cs : List (Fl f) × List (Fl f)) => do
          let v ← World.lift (c.goal cs.1)
          World.emit (.goal cs.1 v)
          pure (Particle.new cs.1 cs.2 v)) xs : M (World (List Nat × τ) (List (Fl f))) _) (world k t))
  | [], _, k => Mean.pure ⟨rfl, by simp, by simp⟩ le_rfl
  | x :: xs, hx, k => by
    have hx1 := hx x (by simp)
    rw [List.length_cons]
    refine Mean.mono (K := (K + (0 + 0)) + (K * xs.length + 0)) ?_ (by rw [Nat.mul_succ]; omega) le_rfl
    refine Mean.bindM (I := fun p k' => OfDim d p ∧ ((Hit A G k.2 ∨ A x.1) → Hit A G k'.2)) (φ := fun _ _ => r) ?_ fun p k1 hp => ?_
    · refine Mean.bindM (Mean.reads hm (hc.goal x.1 hx1.1) k r) fun v k1 hv => ?_
      refine Mean.bindM (φ := fun _ _ => r) (I := fun _ k' => k'.2 = k1.2 ++ [.goal x.1 v]) (Mean.emit rfl le_rfl) fun _ k2 h2 => ?_
      refine Mean.pure ⟨⟨hx1.1, hx1.2, hx1.1, hx1.1⟩, fun h => ?_⟩ le_rfl
      rw [h2, hv.2]
      rcases h with h | h
      · exact Hit.snoc h (by simp)
      · exact Hit.goal h hv.1
    · refine Mean.bindM (mean_goals hm hc r xs (fun x h => hx x (by simp [h])) k1) fun ps k2 hps => ?_
      refine Mean.pure ⟨by simp [hps.1], ?_, ?_⟩ le_rfl
      · intro q hq
        rcases List.mem_cons.1 hq with rfl | hq
        · exact hp.1
        · exact hps.2.1 q hq
      · rintro (h | ⟨z, hz, hA⟩)
        · exact hps.2.2 (.inl (hp.2 (.inl h)))
        · rcases List.mem_cons.1 hz with rfl | hz
          · exact hps.2.2 (.inl (hp.2 (.inr hA)))
          · exact hps.2.2 (.inr ⟨z, hz, hA⟩)

/-- The number of draws of the initialization -/
def renewDraws (K d n lm : Nat) : Nat := K + (K + (hooksDraws K d lm * n + K * n))

theorem mean_renew {dr : Draws} (hm : 0 < m) {c : Comps (List Nat × τ) (Fl f)} (hc : Teleporting dr d n m K tp A G c) (s : PSO.Swarm (Fl f))
    (v : ℚ) (hv : v ≤ 1) (k : τ × List (Ev (List (Fl f)))) :
    Mean m world (fun s' _ => Shaped d n s' ∧ s'.iteration = 0) (fun _ k' => worth A G v k') (renewDraws K d n c.postMove.length)
      (gain (hitShare dr m tp A) v n) (fun t => renewSwarm c s (world k t)) := by
  unfold renewDraws
  refine Mean.bindM (Mean.reads hm hc.coordInit k _) fun xs k1 hxs => ?_
  refine Mean.mono (K := 0 + (K + (hooksDraws K d c.postMove.length * n + K * n))) ?_ (by omega) le_rfl
  refine Mean.bindM (φ := fun _ _ => gain (hitShare dr m tp A) v n) (I := fun _ _ => True) (Mean.emit trivial le_rfl) fun _ k2 _ => ?_
  refine Mean.bindM (Mean.reads hm hc.velInit k2 _) fun vs k3 hvs => ?_
  refine Mean.mono (K := 0 + (hooksDraws K d c.postMove.length * n + K * n)) ?_ (by omega) le_rfl
  refine Mean.bindM (φ := fun _ _ => gain (hitShare dr m tp A) v n) (I := fun _ _ => True) (.done () k3 (fun t =>
    M.assert_eq_ok.2 ⟨by simp [hxs.1.1, hvs.1.1], rfl⟩) trivial le_rfl) fun _ k4 _ => ?_
  have h1 := mean_starts hm hc v hv xs hxs.1.2 k4
  rw [hxs.1.1] at h1
  refine Mean.bindM h1 fun ys k5 hys => ?_
  have hz : (ys.zip vs).length = n := by rw [List.length_zip, hys.1, hvs.1.1, Nat.min_self]
  rw [show K * n = K * (ys.zip vs).length + 0 by rw [hz]; rfl]
  refine Mean.bindM (mean_goals hm hc _ (ys.zip vs) (fun x hx => ⟨hys.2 _ (List.of_mem_zip hx).1, hvs.1.2 _ (List.of_mem_zip hx).2⟩) k5)
    fun ps k6 hps => ?_
  have hlen : ps.length = n := by rw [hps.1, hz]
  refine Mean.pure ⟨⟨hlen, hps.2.1, fun h => findBest_ne (by show ps.length ≠ 0; omega), fun b hb => hps.2.1 b (findBest_mem' hb),
    fun h => findWorst_ne (by show ps.length ≠ 0; omega), fun b hb => hps.2.1 b (findWorst_mem' hb)⟩, rfl⟩ ?_
  split
  · next h =>
    obtain ⟨y, hy, hA⟩ := h
    rw [worth_one (hps.2.2 (.inr ?_))]
    obtain ⟨i, hi, rfl⟩ := List.mem_iff_getElem.1 hy
    refine ⟨(ys.zip vs)[i]'(by rw [hz, ← hys.1]; exact hi), List.getElem_mem _, ?_⟩
    rw [List.getElem_zip]
    exact hA
  · unfold worth
    split
    · exact hv
    · exact le_rfl

/-- The number of draws of a whole run -/
def runDraws (K d n lv lm ll last : Nat) : Nat := renewDraws K d n lm + (K * ll + (K * ll + (stepDraws K d n lv lm ll * last + K * ll)))

theorem mean_findMin {dr : Draws} (hm : 0 < m) {o : Opt (List Nat × τ) (Fl f)} (hc : Teleporting dr d n m K tp A G o.comps) {last : Nat}
    (hst : o.comps.stop = Stop.maxIterations last) {fuel : Nat} (hf : last < fuel) (k : τ × List (Ev (List (Fl f)))) :
    Mean m world (fun r _ => r.2.swarm.iteration = last) (fun _ k' => worth A G 0 k')
      (runDraws K d n o.comps.postVel.length o.comps.postMove.length o.comps.loggers.length last)
      (gain (hitShare dr m tp A) 0 (n * (last + 1))) (fun t => findMin fuel o (world k t)) := by
  have hc1 := (hitShare_range dr m tp A).2
  have hg : gain (hitShare dr m tp A) 0 (n * last) ≤ 1 := gain_le hc1 (by norm_num) _
  unfold runDraws
  rw [Nat.mul_succ, Nat.add_comm (n * last) n, ← gain_add]
  refine Mean.bindM (mean_renew hm hc o.swarm _ hg k) fun s k1 hs => ?_
  refine Mean.bindM (mean_loggers (dr := dr) (A := A) (G := G) hm _ o.comps.loggers hc.loggers 0 k1) fun _ k2 hk2 => ?_
  refine Mean.bindM (mean_loggers (dr := dr) (A := A) (G := G) hm _ o.comps.loggers hc.loggers 0 k2) fun _ k3 hk3 => ?_
  refine Mean.bindM ((mean_loop hm hc hst 0 (by norm_num) last fuel s hs.1 (by omega) hf k3).mono le_rfl
    (worth_le hg fun h => hk3 (hk2 h))) fun s1 k4 hs1 => ?_
  rw [show K * o.comps.loggers.length = K * o.comps.loggers.length + 0 by rfl]
  refine Mean.bindM (mean_loggers (dr := dr) (A := A) (G := G) hm _ o.comps.loggers hc.loggers 0 k4) fun _ k5 hk5 => ?_
  exact Mean.pure hs1.2 (worth_le (by norm_num) hk5)

theorem chance_findMin {dr : Draws} (hm : 0 < m) {o : Opt (List Nat × τ) (Fl f)} (hc : Teleporting dr d n m K tp A G o.comps) {last : Nat}
    (hst : o.comps.stop = Stop.maxIterations last) {fuel : Nat} (hf : last < fuel) (u : τ) (tr : List (Ev (List (Fl f)))) (L : Nat)
    (hL : runDraws K d n o.comps.postVel.length o.comps.postMove.length o.comps.loggers.length last ≤ L) :
    1 - (1 - hitShare dr m tp A) ^ (n * (last + 1)) ≤
      chance (List.replicate L m) (fun t => ∃ r w', findMin fuel o ⟨(t, u), tr⟩ = .ok (r, w') ∧ Hit A G w'.trace) := by
  have h := (mean_findMin hm hc hst hf (u, tr)).chance (P := fun _ k' => Hit A G k'.2) hm (fun b k' _ => ⟨worth_le_one (by norm_num) _, fun hn => by
    unfold worth; rw [if_neg hn]⟩) L hL
  unfold gain at h
  rw [show (1 : ℚ) - (1 - hitShare dr m tp A) ^ (n * (last + 1)) * (1 - 0) = 1 - (1 - hitShare dr m tp A) ^ (n * (last + 1)) by ring] at h
  refine h.trans (chance_mono fun t ht => ?_)
  obtain ⟨b, k', rest, h1, -, h2⟩ := ht
  exact ⟨b, _, h1, h2⟩

end Swarm

end Verif.Finds
