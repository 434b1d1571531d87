import Verif.Spec.Mutating
import Verif.Proofs.Finds
import Verif.Proofs.Lasting
import Verif.Proofs.Caught
import Verif.Props.GeneticProgram

/-!
# How likely a mutation has led into a region
-/

namespace Verif.Finds

open Verif Spec Spec.Swarm GA
open _root_.Verif.PSO (Good good_loggers)

variable {β γ κ ω τ T : Type} {m b : Nat} {q : ℚ} {A B L : T → Prop}

section

variable {put : κ → List Nat → ω} {I : β → κ → Prop} {φ : β → κ → ℚ}

/-- The same without a bound on the number of draws that is known in advance -/
def MeanE (m : Nat) (put : κ → List Nat → ω) (I : β → κ → Prop) (φ : β → κ → ℚ) (r : ℚ) (c : List Nat → Except Err (β × ω)) : Prop :=
  ∃ K, Mean m put I φ K r c

theorem MeanE.bind {J : γ → κ → Prop} {ψ : γ → κ → ℚ} {r : ℚ} {c : List Nat → Except Err (β × ω)} {f : β → M ω γ}
    (h : MeanE m put I φ r c) (hf : ∀ b u, I b u → MeanE m put J ψ (φ b u) (fun t => f b (put u t))) :
    MeanE m put J ψ r (fun t => match c t with
      | .ok (b, w) => f b w
      | .error e => .error e) := by
  obtain ⟨K, h⟩ := h
  induction h with
  | @done K r c b u h hI hr =>
    obtain ⟨K', h'⟩ := hf b u hI
    refine ⟨K', ?_⟩
    have := h'.mono le_rfl hr
    simpa only [h] using this
  | @draw K r c rs h hr ih =>
    choose! K' h' using ih
    exact ⟨(Finset.range m).sup K' + 1, .draw rs (fun k hk => (h' k hk).mono (Finset.le_sup (f := K') (Finset.mem_range.2 hk)) le_rfl) hr⟩

theorem MeanE.bindM {J : γ → κ → Prop} {ψ : γ → κ → ℚ} {r : ℚ} {c : M ω β} {f : β → M ω γ} {u0 : κ}
    (h : MeanE m put I φ r (fun t => c (put u0 t))) (hf : ∀ b u, I b u → MeanE m put J ψ (φ b u) (fun t => f b (put u t))) :
    MeanE m put J ψ r (fun t => (c >>= f) (put u0 t)) := by
  have := h.bind hf
  have e : (fun t => (c >>= f) (put u0 t)) = (fun t => match c (put u0 t) with
      | .ok (b, w) => f b w
      | .error e => .error e) := by
    funext t
    rw [M.bind_run]
    cases c (put u0 t) <;> rfl
  rw [e]
  exact this

theorem MeanE.pure {b : β} {u : κ} {r : ℚ} (hI : I b u) (hr : r ≤ φ b u) : MeanE m put I φ r (fun t => (pure b : M ω β) (put u t)) :=
  ⟨0, Mean.pure hI hr⟩

theorem Mean.and {J : β → Prop} {K : Nat} {r : ℚ} {c : List Nat → Except Err (β × ω)} (h : Mean m put I φ K r c)
    (hJ : ∀ t b w, c t = .ok (b, w) → J b) : Mean m put (fun b u => I b u ∧ J b) φ K r c := by
  induction h with
  | done b u h hI hr => exact .done b u h ⟨hI, hJ [] b _ (h [])⟩ hr
  | draw rs h hr ih => exact .draw rs (fun k hk => ih k hk fun t b w e => hJ (k :: t) b w e) hr

theorem MeanE.and {J : β → Prop} {r : ℚ} {c : List Nat → Except Err (β × ω)} (h : MeanE m put I φ r c)
    (hJ : ∀ t b w, c t = .ok (b, w) → J b) : MeanE m put (fun b u => I b u ∧ J b) φ r c := by
  obtain ⟨K, h⟩ := h
  exact ⟨K, h.and hJ⟩

theorem MeanE.imp {J : β → κ → Prop} {ψ : β → κ → ℚ} {r : ℚ} {c : List Nat → Except Err (β × ω)} (h : MeanE m put I φ r c)
    (hJ : ∀ b u, I b u → J b u) (hψ : ∀ b u, I b u → φ b u ≤ ψ b u) : MeanE m put J ψ r c := by
  obtain ⟨K, h⟩ := h
  exact ⟨K, h.imp hJ hψ⟩

theorem MeanE.mono {r r' : ℚ} {c : List Nat → Except Err (β × ω)} (h : MeanE m put I φ r c) (hr : r' ≤ r) : MeanE m put I φ r' c := by
  obtain ⟨K, h⟩ := h
  exact ⟨K, h.mono le_rfl hr⟩

theorem MeanE.const (hm : 0 < m) {J : β → κ → Prop} {ψ : β → κ → ℚ} {v : ℚ} {r : ℚ} {c : List Nat → Except Err (β × ω)}
    (h : MeanE m put I φ r c) (hψ : ∀ b u, I b u → J b u ∧ v ≤ ψ b u) : MeanE m put J ψ v c := by
  obtain ⟨K, h⟩ := h
  exact ⟨K, h.const hm hψ⟩

end

theorem MeanE.emit {e : Ev T} {k : τ × List (Ev T)} {J : Unit → τ × List (Ev T) → Prop} {ψ : Unit → τ × List (Ev T) → ℚ} {r : ℚ}
    (hJ : J () (k.1, k.2 ++ [e])) (hr : r ≤ ψ () (k.1, k.2 ++ [e])) :
    MeanE m world J ψ r (fun t => (World.emit e : M (World (List Nat × τ) T) Unit) (world k t)) := ⟨0, Mean.emit hJ hr⟩

/-- A component -/
theorem MeanE.draw (hm : 0 < m) {a : M (List Nat × τ) β} {Q : β → Prop} (h : Draw m a Q) (k : τ × List (Ev T)) (v : ℚ) :
    MeanE m world (fun b k' => Q b ∧ k'.2 = k.2) (fun _ _ => v) v (fun t => (World.lift a : M (World (List Nat × τ) T) β) (world k t)) := by
  obtain ⟨u, tr⟩ := k
  obtain ⟨K, h⟩ := h u
  exact ⟨K, (Mean.lift tr (mean_of_ends h)).const hm fun b k' hb => ⟨hb, le_rfl⟩⟩

/-- A component of which more is known -/
theorem MeanE.works (hm : 0 < m) {a : M (List Nat × τ) β} {Q P : β → Prop} (h : Draw m a Q) (hw : Works a P) (k : τ × List (Ev T)) (v : ℚ) :
    MeanE m world (fun b k' => Q b ∧ P b ∧ Returned a b ∧ k'.2 = k.2) (fun _ _ => v) v
      (fun t => (World.lift a : M (World (List Nat × τ) T) β) (world k t)) := by
  refine ((MeanE.draw hm h k v).and (J := fun b => P b ∧ Returned a b) fun t b w e => ?_).imp (fun b u h => ⟨h.1.1, h.2.1, h.2.2, h.1.2⟩) fun _ _ _ => le_rfl
  obtain ⟨h1, -⟩ := World.lift_eq_ok.1 e
  obtain ⟨b', s', h2, h3⟩ := hw (world (T := T) k t).user
  rw [h1] at h2
  cases h2
  exact ⟨h3, _, _, h1⟩

open Classical in
theorem mean_of_chance (hm : 0 < m) {I : β → τ → Prop} {K : Nat} {c : List Nat → Except Err (β × (List Nat × τ))} (h : Ends m I K c) (P : β → Prop) (v : ℚ) :
    Mean m user I (fun b _ => if P b then 1 else v) K
      (v + chance (List.replicate K m) (fun t => ∃ y s', c t = .ok (y, s') ∧ P y) * (1 - v)) c := by
  have hmq : (m : ℚ) ≠ 0 := by exact_mod_cast hm.ne'
  induction h with
  | @done K c b u h hI =>
    refine .done b u h hI ?_
    rw [chance_congr (Q := fun _ => P b) fun t _ => ⟨by
      rintro ⟨y, s', h1, h2⟩
      rw [h t] at h1
      cases h1
      exact h2, fun hP => ⟨b, _, h t, hP⟩⟩]
    by_cases hP : P b
    · simp only [hP, if_true]
      rw [chance_eq, cnt_true, div_self]
      · linarith
      · have : (List.replicate K m).prod ≠ 0 := by rw [List.prod_replicate]; positivity
        exact_mod_cast this
    · simp only [hP, if_false]
      rw [chance_eq, cnt_false]
      simp
  | @draw K c h ih =>
    refine .draw (fun k => v + chance (List.replicate K m) (fun t => ∃ y s', c (k :: t) = .ok (y, s') ∧ P y) * (1 - v)) ih ?_
    rw [List.replicate_succ, chance_cons, Finset.sum_add_distrib, ← Finset.sum_mul, add_div, mean_const hm]
    refine le_of_eq ?_
    ring

/-! ### What has been evaluated -/

open Classical in
/-- 1 if a point of the region has been evaluated, `v` otherwise -/
noncomputable def value (A : T → Prop) (G : T → F64 → Prop) (v : ℚ) (k : τ × List (Ev T)) : ℚ := if Hit A G k.2 then 1 else v

variable {G : T → F64 → Prop}

theorem value_le {v : ℚ} (hv : v ≤ 1) {k k' : τ × List (Ev T)} (h : Hit A G k.2 → Hit A G k'.2) : value A G v k ≤ value A G v k' := by
  unfold value
  by_cases h1 : Hit A G k.2
  · simp [h1, h h1]
  · simp only [h1, if_false]
    split
    · exact hv
    · exact le_rfl

theorem value_le_one {v : ℚ} (hv : v ≤ 1) (k : τ × List (Ev T)) : value A G v k ≤ 1 := by
  unfold value
  split
  · exact le_rfl
  · exact hv

theorem value_gain (c v : ℚ) (n : Nat) (k : τ × List (Ev T)) : value A G (gain c v n) k = gain c (value A G v k) n := by
  unfold value gain
  split <;> ring

theorem gain_mono {c v : ℚ} (hc0 : 0 ≤ c) (hc : c ≤ 1) (hv : v ≤ 1) {i j : Nat} (h : i ≤ j) : gain c v i ≤ gain c v j := by
  unfold gain
  have : (1 - c) ^ j ≤ (1 - c) ^ i := pow_le_pow_of_le_one (by linarith) (by linarith) h
  have := mul_le_mul_of_nonneg_right this (show 0 ≤ 1 - v by linarith)
  linarith

/-! ### One generation -/

/-- What has been evaluated stays evaluated. -/
abbrev Keeps (A : T → Prop) (G : T → F64 → Prop) (k k' : τ × List (Ev T)) : Prop := Hit A G k.2 → Hit A G k'.2

theorem mean_family (hm : 0 < m) {c : Comps (List Nat × τ) T} (hc : Mutating m b q A B L c) (p : Population T) (hp : ∀ i ∈ p.individuals, B i.chromosomes)
    (fam : List Nat) (hf : fam.length = 2 ∧ ∀ i ∈ fam, i < p.individuals.length) (r : ℚ) (k : τ × List (Ev T)) :
    MeanE m world (fun ys k' => (ys ≠ [] ∧ ∀ y ∈ ys, L y) ∧ Keeps A G k k') (fun _ _ => r) r (fun t => crossFamily c p fam (world k t)) := by
  have hpar : ∃ xs : List T, xs.length = 2 ∧ (∀ x ∈ xs, B x) ∧ ∀ w : World (List Nat × τ) T, M.mapL (fun i => do
      let ind ← M.index p.individuals i
      pure ind.chromosomes) fam w = .ok (xs, w) := by
    obtain ⟨h2, hi⟩ := hf
    match fam, h2 with
    | [i, j], _ =>
      have hi1 := hi i (by simp)
      have hj1 := hi j (by simp)
      refine ⟨[p.individuals[i].chromosomes, p.individuals[j].chromosomes], rfl, ?_, fun w => ?_⟩
      · intro x hx
        simp only [List.mem_cons, List.not_mem_nil, or_false] at hx
        rcases hx with rfl | rfl
        · exact hp _ (List.getElem_mem _)
        · exact hp _ (List.getElem_mem _)
      · have hx : ∀ (i : Nat) (hi : i < p.individuals.length), (do
            let ind ← M.index p.individuals i
            pure ind.chromosomes : M (World (List Nat × τ) T) T) w = .ok (p.individuals[i].chromosomes, w) := fun i hi =>
          M.bind_eq_ok.2 ⟨p.individuals[i], w, M.index_eq_ok.2 ⟨List.getElem?_eq_getElem hi, rfl⟩, rfl⟩
        exact M.mapL_cons_ok.2 ⟨_, _, w, hx i hi1, M.mapL_cons_ok.2 ⟨_, _, w, hx j hj1, rfl, rfl⟩, rfl⟩
  obtain ⟨xs, hx2, hxB, hxs⟩ := hpar
  unfold crossFamily
  refine MeanE.bindM (I := fun ys k' => ys = xs ∧ k' = k) (φ := fun _ _ => r) ⟨0, .done xs k (fun t => hxs _) ⟨rfl, rfl⟩ le_rfl⟩ fun ys k1 h1 => ?_
  obtain ⟨rfl, rfl⟩ := h1
  refine MeanE.bindM (MeanE.works hm (hc.cross _ hx2 hxB) (hc.lasting.cross _ hx2 hxB) _ r) fun zs k2 h2 => ?_
  refine MeanE.bindM (φ := fun _ _ => r) (I := fun _ k' => k'.2 = k2.2 ++ [.crossed ys zs]) (MeanE.emit rfl le_rfl) fun _ k3 h3 => ?_
  refine MeanE.pure ⟨⟨h2.1, h2.2.1⟩, fun h => ?_⟩ le_rfl
  rw [h3, h2.2.2.2]
  exact Hit.snoc h (by simp)

theorem mean_families (hm : 0 < m) {c : Comps (List Nat × τ) T} (hc : Mutating m b q A B L c) (p : Population T) (hp : ∀ i ∈ p.individuals, B i.chromosomes)
    (r : ℚ) : ∀ (fams : List (List Nat)), (∀ fam ∈ fams, fam.length = 2 ∧ ∀ i ∈ fam, i < p.individuals.length) → ∀ (k : τ × List (Ev T)),
    MeanE m world (fun yss k' => (fams.length ≤ yss.flatten.length ∧ ∀ y ∈ yss.flatten, L y) ∧ Keeps A G k k') (fun _ _ => r) r
      (fun t => M.mapL (crossFamily c p) fams (world k t))
  | [], _, k => MeanE.pure ⟨⟨by simp, by simp⟩, id⟩ le_rfl
  | fam :: fams, h, k => by
    refine MeanE.bindM (mean_family (G := G) hm hc p hp fam (h fam (by simp)) r k) fun ys k1 h1 => ?_
    refine MeanE.bindM (mean_families hm hc p hp r fams (fun fam hf => h fam (by simp [hf])) k1) fun yss k2 h2 => ?_
    refine MeanE.pure ⟨⟨?_, ?_⟩, fun hh => h2.2 (h1.2 hh)⟩ le_rfl
    · have h3 := List.length_pos_iff.2 h1.1.1
      have h4 := h2.1.1
      rw [List.flatten_cons, List.length_append, List.length_cons]
      omega
    · intro y hy
      rw [List.flatten_cons] at hy
      rcases List.mem_append.1 hy with hy | hy
      · exact h1.1.2 y hy
      · exact h2.1.2 y hy

theorem mean_children (hm : 0 < m) {c : Comps (List Nat × τ) T} (hc : Mutating m b q A B L c) (p : Population T) (hne : p.individuals ≠ [])
    (hp : ∀ i ∈ p.individuals, B i.chromosomes) (r : ℚ) (k : τ × List (Ev T)) :
    MeanE m world (fun ys k' => (b ≤ ys.length ∧ ∀ y ∈ ys, L y) ∧ Keeps A G k k') (fun _ _ => r) r (fun t => runPairing c p (world k t)) := by
  unfold runPairing
  refine MeanE.bindM (MeanE.works hm (hc.pairing p hne) (hc.lasting.pairing p hne) k r) fun fams k1 h1 => ?_
  refine MeanE.bindM (φ := fun _ _ => r) (I := fun _ k' => k'.2 = k1.2 ++ [.paired (agents p) fams]) (MeanE.emit rfl le_rfl) fun _ k2 h2 => ?_
  refine MeanE.bindM (mean_families (G := G) hm hc p hp r fams h1.2.1 k2) fun yss k3 h3 => ?_
  refine MeanE.pure ⟨⟨h1.1.trans h3.1.1, h3.1.2⟩, fun h => h3.2 ?_⟩ le_rfl
  rw [h2, h1.2.2.2]
  exact Hit.snoc h (by simp)

open Classical in
theorem mean_mutate (hm : 0 < m) {c : Comps (List Nat × τ) T} (hc : Mutating m b q A B L c) (hq : q ≤ 1) (v : ℚ) (hv : v ≤ 1) :
    ∀ (xs : List T), (∀ x ∈ xs, L x) → ∀ (k : τ × List (Ev T)),
      MeanE m world (fun ys k' => (∀ y ∈ ys, L y) ∧ Keeps A G k k') (fun ys _ => if ∃ y ∈ ys, A y then 1 else v) (gain q v xs.length)
        (fun t => mutate c xs (world k t))
  | [], _, k => by
    rw [List.length_nil, gain_zero]
    exact MeanE.pure ⟨by simp, id⟩ (by simp)
  | x :: xs, hx, k => by
    have hg : gain q v xs.length ≤ 1 := gain_le hq hv _
    rw [List.length_cons, gain_succ]
    have hfirst : MeanE m world (fun y k' => L y ∧ Keeps A G k k') (fun y _ => if A y then 1 else gain q v xs.length)
        (gain q v xs.length + q * (1 - gain q v xs.length)) (fun t => (do
          let y ← World.lift (c.mutation x)
          World.emit (.mutated x y)
          pure y : M (World (List Nat × τ) T) T) (world k t)) := by
      obtain ⟨u, tr⟩ := k
      obtain ⟨K, h1, h2⟩ := hc.mutation x (hx x (by simp)) u
      have h3 := Mean.lift tr (mean_of_chance hm h1 A (gain q v xs.length))
      have h3 : MeanE m world _ _ _ _ := ⟨K, h3⟩
      refine MeanE.bindM ((MeanE.mono h3 ?_).and (J := L) fun t y w e => ?_) fun y k1 h4 => ?_
      · exact add_le_add le_rfl (mul_le_mul_of_nonneg_right h2 (by linarith))
      · obtain ⟨h5, -⟩ := World.lift_eq_ok.1 e
        obtain ⟨y', s', h6, h7⟩ := hc.lasting.mutation x (hx x (by simp)) (world (T := T) (u, tr) t).user
        rw [h5] at h6
        cases h6
        exact h7
      · refine MeanE.bindM (φ := fun _ _ => if A y then 1 else gain q v xs.length) (I := fun _ k' => k'.2 = k1.2 ++ [.mutated x y])
          (MeanE.emit rfl le_rfl) fun _ k2 h5 => ?_
        refine MeanE.pure ⟨h4.2, fun h => ?_⟩ le_rfl
        rw [h5, h4.1.2]
        exact Hit.snoc h (by simp)
    refine MeanE.bindM hfirst fun y k1 hy => ?_
    have ih := mean_mutate hm hc hq v hv xs (fun x h => hx x (by simp [h])) k1
    have hmem : ∀ ys : List T, (∀ y ∈ ys, L y) → ∀ z ∈ y :: ys, L z := by
      intro ys hys z hz
      rcases List.mem_cons.1 hz with rfl | hz
      · exact hy.1
      · exact hys z hz
    by_cases hA : A y
    · rw [if_pos hA]
      refine MeanE.bindM (ih.const hm (J := fun ys k' => (∀ y ∈ ys, L y) ∧ Keeps A G k1 k') (ψ := fun _ _ => 1) fun ys _ h => ⟨h, le_rfl⟩) fun ys k2 hys => ?_
      refine MeanE.pure ⟨hmem ys hys.1, fun h => hys.2 (hy.2 h)⟩ ?_
      rw [if_pos ⟨y, by simp, hA⟩]
    · rw [if_neg hA]
      refine MeanE.bindM ih fun ys k2 hys => ?_
      refine MeanE.pure ⟨hmem ys hys.1, fun h => hys.2 (hy.2 h)⟩ ?_
      have : (∃ z ∈ y :: ys, A z) ↔ ∃ z ∈ ys, A z := by simp [hA]
      simp only [this]
      exact le_rfl

theorem mean_preBirth (hm : 0 < m) (p : Population T) (r : ℚ) : ∀ (fs : List (Population T → List T → M (List Nat × τ) (List T))),
    (∀ f ∈ fs, ∀ p xs, (∀ x ∈ xs, L x) → Draw m (f p xs) (fun ys => (∀ y ∈ ys, L y) ∧ ∀ x ∈ xs, A x → x ∈ ys)) →
    ∀ (i : Nat) (xs : List T), (∀ x ∈ xs, L x) → ∀ (k : τ × List (Ev T)),
    MeanE m world (fun ys k' => (∀ x ∈ xs, A x → x ∈ ys) ∧ Keeps A G k k') (fun _ _ => r) r (fun t => preBirth p i fs xs (world k t))
  | [], _, i, xs, _, k => MeanE.pure ⟨fun _ h _ => h, id⟩ le_rfl
  | f :: fs, hf, i, xs, hx, k => by
    unfold preBirth
    refine MeanE.bindM (MeanE.draw hm (hf f (by simp) p xs hx) k r) fun ys k1 h1 => ?_
    refine MeanE.bindM (φ := fun _ _ => r) (I := fun _ k' => k'.2 = k1.2 ++ [.preBorn i xs ys]) (MeanE.emit rfl le_rfl) fun _ k2 h2 => ?_
    refine (mean_preBirth hm p r fs (fun f h => hf f (by simp [h])) (i + 1) ys h1.1.1 k2).imp (fun zs k3 h3 =>
      ⟨fun x hx hA => h3.1 x (h1.1.2 x hx hA) hA, fun h => h3.2 ?_⟩) fun _ _ _ => le_rfl
    rw [h2, h1.2]
    exact Hit.snoc h (by simp)

theorem mean_append (hm : 0 < m) {c : Comps (List Nat × τ) T} (hc : Mutating m b q A B L c) (r : ℚ) :
    ∀ (xs : List T), (∀ x ∈ xs, B x) → ∀ (p : Population T) (k : τ × List (Ev T)),
    MeanE m world (fun p' k' => (∃ js, p' = { p with individuals := p.individuals ++ js } ∧ ∀ i ∈ js, B i.chromosomes) ∧
        ((Hit A (fun x v => Returned (c.goal x) v) k.2 ∨ ∃ x ∈ xs, A x) → Hit A (fun x v => Returned (c.goal x) v) k'.2)) (fun _ _ => r) r
      (fun t => append c p xs (world k t))
  | [], _, p, k => MeanE.pure ⟨⟨[], by simp, by simp⟩, by simp⟩ le_rfl
  | x :: xs, hx, p, k => by
    have hx1 := hx x (by simp)
    refine MeanE.bindM (c := push c p x) (f := fun p => append c p xs) (φ := fun _ _ => r) (I := fun p' k' => (∃ v, p' = { p with individuals := p.individuals ++ [⟨x, v, true⟩] }) ∧
      ((Hit A (fun x v => Returned (c.goal x) v) k.2 ∨ A x) → Hit A (fun x v => Returned (c.goal x) v) k'.2)) ?_ fun p1 k1 h1 => ?_
    · unfold push
      refine MeanE.bindM (MeanE.works hm (hc.goal x hx1) (hc.lasting.goal x hx1) k r) fun v k1 h1 => ?_
      refine MeanE.bindM (φ := fun _ _ => r) (I := fun _ k' => k'.2 = k1.2 ++ [.goal x v]) (MeanE.emit rfl le_rfl) fun _ k2 h2 => ?_
      refine MeanE.pure ⟨⟨v, rfl⟩, fun h => ?_⟩ le_rfl
      rw [h2, h1.2.2.2]
      rcases h with h | h
      · exact Hit.snoc h (by simp)
      · exact Hit.goal h h1.2.2.1
    · obtain ⟨⟨v, rfl⟩, h1⟩ := h1
      refine (mean_append hm hc r xs (fun x h => hx x (by simp [h])) _ k1).imp (fun p2 k2 h2 => ?_) fun _ _ _ => le_rfl
      obtain ⟨⟨js, rfl, h3⟩, h2⟩ := h2
      refine ⟨⟨⟨x, v, true⟩ :: js, by simp, ?_⟩, ?_⟩
      · intro i hi
        rcases List.mem_cons.1 hi with rfl | hi
        · exact hx1
        · exact h3 i hi
      · rintro (h | ⟨z, hz, hA⟩)
        · exact h2 (.inl (h1 (.inl h)))
        · rcases List.mem_cons.1 hz with rfl | hz
          · exact h2 (.inl (h1 (.inr hA)))
          · exact h2 (.inr ⟨z, hz, hA⟩)

theorem mean_select (hm : 0 < m) (r : ℚ) : ∀ (fs : List (Population T → M (List Nat × τ) (Population T))),
    (∀ f ∈ fs, ∀ p, (∀ i ∈ p.individuals, B i.chromosomes) → Draw m (f p) (fun p' => OnlyKills p p')) →
    ∀ (i : Nat) (p : Population T), (∀ i ∈ p.individuals, B i.chromosomes) → ∀ (k : τ × List (Ev T)),
    MeanE m world (fun _ k' => Keeps A G k k') (fun _ _ => r) r (fun t => select i fs p (world k t))
  | [], _, i, p, _, k => MeanE.pure id le_rfl
  | f :: fs, hf, i, p, hp, k => by
    unfold select
    refine MeanE.bindM (MeanE.draw hm (hf f (by simp) p hp) k r) fun p1 k1 h1 => ?_
    refine MeanE.bindM (φ := fun _ _ => r) (I := fun _ k' => k'.2 = k1.2 ++ [.selected i (flagged p) (flagged p1)]) (MeanE.emit rfl le_rfl) fun _ k2 h2 => ?_
    refine (mean_select hm r fs (fun f h => hf f (by simp [h])) (i + 1) p1 (fun j hj => ?_) k2).imp (fun zs k3 h3 h => h3 ?_) fun _ _ _ => le_rfl
    · obtain ⟨i, hi, h3, -⟩ := Props.onlyKills_mem h1.1 hj
      rw [h3]
      exact hp i hi
    · rw [h2, h1.2]
      exact Hit.snoc h (by simp)

theorem mean_callLoggers (hm : 0 < m) {kind : LogKind} {st : AlgState T} (v : ℚ) :
    ∀ (ls : List (Logger (List Nat × τ) T)),
    (∀ l ∈ ls, ∀ s, Draw m (l.start s) (fun _ => True) ∧ Draw m (l.resume s) (fun _ => True) ∧
      Draw m (l.nextIteration s) (fun _ => True) ∧ Draw m (l.finish s) (fun _ => True)) → ∀ (i : Nat) (k : τ × List (Ev T)),
    MeanE m world (fun _ k' => Keeps A G k k') (fun _ _ => v) v (fun t => callLoggers kind st i ls (world k t))
  | [], _, _, _ => MeanE.pure id le_rfl
  | l :: ls, h, i, k => by
    obtain ⟨h1, h2, h3, h4⟩ := h l (by simp) st
    have hl : Draw m (match kind with
      | .start => l.start st
      | .resume => l.resume st
      | .next => l.nextIteration st
      | .finish => l.finish st) (fun _ => True) := by
      cases kind
      · exact h1
      · exact h2
      · exact h3
      · exact h4
    refine MeanE.bindM (MeanE.draw hm hl k v) fun _ k1 hk1 => ?_
    refine MeanE.bindM (φ := fun _ _ => v) (I := fun _ k' => k'.2 = k1.2 ++ [.log i kind st]) (MeanE.emit rfl le_rfl) fun _ k2 hk2 => ?_
    refine (mean_callLoggers hm v ls (fun l hl => h l (by simp [hl])) (i + 1) k2).imp (fun _ k3 h3 hit => h3 ?_) fun _ _ _ => le_rfl
    rw [hk2, hk1.2]
    exact Hit.snoc hit (by simp)

/-- The values of the goal -/
abbrev Answers (c : Comps (List Nat × τ) T) : T → F64 → Prop := fun x v => Returned (c.goal x) v

open Classical in
theorem mean_generation (hm : 0 < m) {c : Comps (List Nat × τ) T} (hc : Mutating m b q A B L c) (hq0 : 0 ≤ q) (hq : q ≤ 1) (v : ℚ) (hv : v ≤ 1)
    (p : Population T) (hp : Lasts B c.goal p) (k : τ × List (Ev T)) :
    MeanE m world (fun p' _ => Lasts B c.goal p' ∧ p'.iteration = p.iteration + 1) (fun _ k' => value A (Answers c) v k')
      (value A (Answers c) (gain q v b) k) (fun t => step c p (world k t)) := by
  have hstep := fun w => good_step (F := False) hc.lasting p hp w
  refine (MeanE.and (I := fun _ _ => True) (J := fun p' => Lasts B c.goal p' ∧ p'.iteration = p.iteration + 1) ?_ fun t p' w e => ?_).imp (fun _ _ h => h.2) fun _ _ _ => le_rfl
  swap
  · rcases hstep (world k t) with ⟨p2, w2, h1, h2⟩ | ⟨h, -⟩
    · rw [e] at h1
      cases h1
      exact h2
    · exact h.elim
  obtain ⟨i0, hi0, hf0⟩ := hp.finite
  have hne : p.individuals ≠ [] := by rintro h; rw [h] at hi0; simp at hi0
  have hpB : ∀ i ∈ p.individuals, B i.chromosomes := fun i hi => (hp.all i hi).2.1
  set G := Answers c with hG
  rw [value_gain]
  set w := value A G v k with hw
  have hw1 : w ≤ 1 := value_le_one hv k
  unfold step
  refine MeanE.bindM (mean_children (G := G) hm hc p hne hpB _ k) fun ks k1 h1 => ?_
  refine MeanE.bindM ((mean_mutate (G := G) hm hc hq w hw1 ks h1.1.2 k1).mono (gain_mono hq0 hq hw1 h1.1.1)) fun ms k2 h2 => ?_
  have hborn : MeanE m world (fun ys k' => ((∀ x ∈ ms, A x → x ∈ ys) ∧ Keeps A G k2 k') ∧ ∀ y ∈ ys, B y)
      (fun _ _ => if ∃ y ∈ ms, A y then 1 else w) (if ∃ y ∈ ms, A y then 1 else w) (fun t => preBirth p 0 c.preBirths ms (world k2 t)) := by
    refine (mean_preBirth (G := G) hm p _ c.preBirths hc.preBirths 0 ms h2.1 k2).and fun t ys w' e => ?_
    obtain ⟨ys', s', h3, h4⟩ := hc.lasting.preBirths p ms h2.1 (world (T := T) k2 t).user
    obtain ⟨tr, h5⟩ := preBirth_run p c.preBirths 0 ms ys' _ s' h3
    rw [e] at h5
    cases h5
    exact h4
  refine MeanE.bindM hborn fun born k3 h3 => ?_
  refine MeanE.bindM (mean_append hm hc _ born h3.2 p k3) fun p1 k4 h4 => ?_
  obtain ⟨⟨js, rfl, hjs⟩, h4⟩ := h4
  have hB1 : ∀ i ∈ ({ p with individuals := p.individuals ++ js } : Population T).individuals, B i.chromosomes := by
    intro i hi
    rcases List.mem_append.1 hi with hi | hi
    · exact hpB i hi
    · exact hjs i hi
  refine MeanE.bindM (mean_select (G := G) (A := A) hm _ c.selections hc.selections 0 _ hB1 k4) fun p2 k5 h5 => ?_
  obtain ⟨p3, h6⟩ := _root_.Verif.Caught.GA.updateBestWorst_any p2.removeDead
  refine MeanE.bindM (I := fun p' k' => p' = p3 ∧ k' = k5) (φ := fun _ _ => if ∃ y ∈ ms, A y then 1 else w) ⟨0, .done p3 k5 (fun t => h6 _ _) ⟨rfl, rfl⟩ le_rfl⟩ fun p4 k6 h7 => ?_
  obtain ⟨rfl, rfl⟩ := h7
  refine MeanE.bindM (φ := fun _ _ => if ∃ y ∈ ms, A y then 1 else w) (I := fun _ k' => Keeps A G k6 k') (MeanE.emit (fun h => Hit.snoc h (by simp)) le_rfl) fun _ k7 h7 => ?_
  refine MeanE.bindM (mean_callLoggers (G := G) (A := A) hm _ c.loggers hc.loggers 0 k7) fun _ k8 h8 => ?_
  refine MeanE.pure trivial ?_
  split
  · next h =>
    obtain ⟨y, hy, hA⟩ := h
    have : Hit A G k8.2 := h8 (h7 (h5 (h4 (.inr ⟨y, h3.1.1 y hy hA, hA⟩))))
    unfold value
    rw [if_pos this]
  · exact value_le hv fun h => h8 (h7 (h5 (h4 (.inl (h3.1.2 (h2.2 (h1.2 h)))))))

theorem mean_generations (hm : 0 < m) {c : Comps (List Nat × τ) T} (hc : Mutating m b q A B L c) (hq0 : 0 ≤ q) (hq : q ≤ 1) {last : Nat}
    (hst : c.stop = Stop.maxIterations last) (v : ℚ) (hv : v ≤ 1) :
    ∀ (j fuel : Nat) (p : Population T), Lasts B c.goal p → p.iteration + j = last → j < fuel → ∀ (k : τ × List (Ev T)),
      MeanE m world (fun p' _ => p'.iteration = last) (fun _ k' => value A (Answers c) v k')
        (value A (Answers c) (gain q v (b * j)) k) (fun t => loop c fuel p (world k t))
  | j, 0, _, _, _, h, _ => by omega
  | j, fuel + 1, p, hp, hj, hf, k => by
    have hb : ∀ t, (World.lift (c.stop p.state) : M (World (List Nat × τ) T) Bool) (world k t) =
        .ok (decide (last ≤ p.iteration), world k t) := by
      intro t
      rw [hst]
      rfl
    have e : (fun t => loop c (fuel + 1) p (world k t)) = (fun t => (World.emit (.check p.state (decide (last ≤ p.iteration))) >>= fun _ =>
        if decide (last ≤ p.iteration) then pure p else step c p >>= fun p => loop c fuel p : M (World (List Nat × τ) T) _)
          (world k t)) := by
      funext t
      show ((World.lift (c.stop p.state) : M (World (List Nat × τ) T) Bool) >>= fun b => _) (world k t) = _
      rw [M.bind_run, hb]
    rw [e]
    have hchk : ∀ r, MeanE m (world (τ := τ) (T := T)) (fun _ k' => Keeps A (Answers c) k k') (fun _ _ => r) r (fun t =>
        (World.emit (.check p.state (decide (last ≤ p.iteration))) : M (World (List Nat × τ) T) Unit) (world k t)) :=
      fun r => MeanE.emit (fun h => Hit.snoc h (by simp)) le_rfl
    cases j with
    | zero =>
      rw [Nat.mul_zero, gain_zero]
      refine MeanE.bindM (hchk _) fun _ k1 hk1 => ?_
      rw [if_pos (by simp; omega)]
      exact MeanE.pure (by omega) (value_le hv hk1)
    | succ j =>
      rw [Nat.mul_succ b, Nat.add_comm (b * j) b, ← gain_add]
      have hg : gain q v (b * j) ≤ 1 := gain_le hq hv _
      refine MeanE.bindM (hchk _) fun _ k1 hk1 => ?_
      rw [if_neg (by simp; omega)]
      refine MeanE.bindM ((mean_generation hm hc hq0 hq _ hg p hp k1).mono (value_le (gain_le hq hg _) hk1)) fun p1 k2 hp1 => ?_
      exact mean_generations hm hc hq0 hq hst v hv j fuel p1 hp1.1 (by omega) (by omega) k2

theorem mean_findMinGA (hm : 0 < m) {o : Opt (List Nat × τ) T} (hc : Mutating m b q A B L o.comps) (hq0 : 0 ≤ q) (hq : q ≤ 1) {last : Nat}
    (hst : o.comps.stop = Stop.maxIterations last) {fuel : Nat} (hf : last < fuel) (k : τ × List (Ev T)) :
    MeanE m world (fun r _ => r.2.pop.iteration = last) (fun _ k' => value A (Answers o.comps) 0 k') (gain q 0 (b * last))
      (fun t => findMin fuel o (world k t)) := by
  have hg : gain q 0 (b * last) ≤ 1 := gain_le hq (by norm_num) _
  have e : findMin fuel o = ((do
      let start ← World.lift o.comps.creator
      World.emit (.created start)
      append o.comps o.pop.reset start) >>= fun p => do
      callLoggers .start p.state 0 o.comps.loggers
      nextIterations fuel { o with pop := p }) := by
    unfold findMin; simp only [bind_assoc]
  rw [e]
  have hfirst : MeanE m world (fun (p : Population T) (_ : τ × List (Ev T)) => True ∧ Lasts B o.comps.goal p ∧ p.iteration = 0) (fun _ _ => gain q 0 (b * last)) (gain q 0 (b * last))
      (fun t => (do
        let start ← World.lift o.comps.creator
        World.emit (.created start)
        append o.comps o.pop.reset start : M (World (List Nat × τ) T) _) (world k t)) := by
    refine MeanE.and (J := fun p => Lasts B o.comps.goal p ∧ p.iteration = 0) ?_ fun t p w e => ?_
    · refine MeanE.bindM (MeanE.works hm hc.creator hc.lasting.creator k _) fun xs k1 h1 => ?_
      refine MeanE.bindM (φ := fun _ _ => gain q 0 (b * last)) (I := fun _ _ => True) (MeanE.emit trivial le_rfl) fun _ k2 h2 => ?_
      exact (mean_append hm hc _ xs h1.2.1.1 _ k2).imp (fun _ _ _ => trivial) fun _ _ _ => le_rfl
    · rcases good_first (F := False) hc.lasting o.pop (world k t) with ⟨p2, w2, h1, h2⟩ | ⟨h, -⟩
      · rw [e] at h1
        cases h1
        exact ⟨h2.1, h2.2.1⟩
      · exact h.elim
  refine MeanE.bindM hfirst fun p k1 hp => ?_
  refine MeanE.bindM (mean_callLoggers (A := A) (G := Answers o.comps) hm _ o.comps.loggers hc.loggers 0 k1) fun _ k2 hk2 => ?_
  refine MeanE.bindM (mean_callLoggers (A := A) (G := Answers o.comps) hm _ o.comps.loggers hc.loggers 0 k2) fun _ k3 hk3 => ?_
  refine MeanE.bindM ((mean_generations hm hc hq0 hq hst 0 (by norm_num) last fuel p hp.2.1 (by omega) hf k3).mono ?_) fun p1 k4 hp1 => ?_
  · unfold value
    split
    · exact hg
    · exact le_rfl
  refine MeanE.bindM (mean_callLoggers (A := A) (G := Answers o.comps) hm _ o.comps.loggers hc.loggers 0 k4) fun _ k5 hk5 => ?_
  exact MeanE.pure hp1 (value_le (by norm_num) hk5)

theorem chance_findMinGA (hm : 0 < m) {o : Opt (List Nat × τ) T} (hc : Mutating m b q A B L o.comps) (hq0 : 0 ≤ q) (hq : q ≤ 1) {last : Nat}
    (hst : o.comps.stop = Stop.maxIterations last) {fuel : Nat} (hf : last < fuel) (u : τ) (tr : List (Ev T)) :
    ∃ K, ∀ N, K ≤ N → 1 - (1 - q) ^ (b * last) ≤ chance (List.replicate N m) (fun t => ∃ r o' w',
      findMin fuel o ⟨(t, u), tr⟩ = .ok ((r, o'), w') ∧ o'.pop.iteration = last ∧ Hit A (Answers o.comps) w'.trace) := by
  obtain ⟨K, h⟩ := mean_findMinGA hm hc hq0 hq hst hf (u, tr)
  refine ⟨K, fun N hN => ?_⟩
  have h := h.chance (P := fun _ k' => Hit A (Answers o.comps) k'.2) hm (fun b k' _ => ⟨value_le_one (by norm_num) _, fun hn => by
    unfold value; rw [if_neg hn]⟩) N hN
  unfold gain at h
  rw [show (1 : ℚ) - (1 - q) ^ (b * last) * (1 - 0) = 1 - (1 - q) ^ (b * last) by ring] at h
  refine h.trans (chance_mono fun t ht => ?_)
  obtain ⟨b, k', rest, h1, h3, h2⟩ := ht
  exact ⟨b.1, b.2, _, h1, h3, h2⟩

end Verif.Finds
