import Verif.Spec.Stop
import Verif.IEEE.Lemmas
import Verif.IEEE.More

/-!
# Proofs about stop checkers
-/

namespace Verif

open Spec Stop

variable {σ T : Type}

/-! ## GoalNotChange -/

theorem goalNotChange_some (p : Profile) (x : T) (g : F64) (it : Nat) (t : GNC) :
    goalNotChange p ⟨some (x, g), it⟩ t =
      let r := recordStep t.delta (t.oldGoal, t.changeIter) (⟨some (x, g), it⟩ : AlgState T)
      match usizeSub p it r.2 with
      | .ok e => .ok (decide (t.maxIter < e), ⟨t.maxIter, t.delta, r.1, r.2⟩)
      | .error e => .error e := by
  have h : goalNotChange p ⟨some (x, g), it⟩ t =
      let c := if t.delta.lt (g.sub t.oldGoal).abs then { t with oldGoal := g, changeIter := it } else t
      (M.ofExcept (usizeSub p it c.changeIter) >>= fun e => pure (decide (c.maxIter < e)) : M GNC Bool) c := rfl
  rw [h]
  obtain ⟨m, d, g0, k⟩ := t
  by_cases hd : d.lt (g.sub g0).abs = true
  · simp only [recordStep, hd, ↓reduceIte, M.bind_run, M.ofExcept]
    cases usizeSub p it it <;> rfl
  · have hd : d.lt (g.sub g0).abs = false := by simpa using hd
    simp only [recordStep, hd, Bool.false_eq_true, ↓reduceIte, M.bind_run, M.ofExcept]
    cases usizeSub p it k <;> rfl

theorem recordStep_le (d : F64) (r : F64 × Nat) (s : AlgState T) (h : r.2 ≤ s.iteration) :
    (recordStep d r s).2 ≤ s.iteration := by
  unfold recordStep
  split
  · exact h
  · split
    · exact Nat.le_refl _
    · exact h

theorem goalNotChange_eq (p : Profile) (s : AlgState T) (t : GNC) (h : t.changeIter ≤ s.iteration) :
    let r := recordStep t.delta (t.oldGoal, t.changeIter) s
    goalNotChange p s t = .ok (s.best.isSome && decide (r.2 + t.maxIter < s.iteration), ⟨t.maxIter, t.delta, r.1, r.2⟩) := by
  have hr := recordStep_le t.delta (t.oldGoal, t.changeIter) s h
  obtain ⟨best, it⟩ := s
  cases best with
  | none => rfl
  | some sol =>
    obtain ⟨x, g⟩ := sol
    have hr : (recordStep t.delta (t.oldGoal, t.changeIter) (⟨some (x, g), it⟩ : AlgState T)).2 ≤ it := hr
    simp only [goalNotChange_some, usizeSub, hr, ↓reduceIte, Option.isSome_some, Bool.true_and]
    rw [show decide (t.maxIter < it - (recordStep t.delta (t.oldGoal, t.changeIter) (⟨some (x, g), it⟩ : AlgState T)).2) =
      decide ((recordStep t.delta (t.oldGoal, t.changeIter) (⟨some (x, g), it⟩ : AlgState T)).2 + t.maxIter < it) from
      decide_eq_decide.2 (by omega)]

/-- Never fails if the iterations are in order. -/
theorem goalNotChange_total (p : Profile) : ∀ (ss : List (AlgState T)) (t : GNC),
    (ss.map AlgState.iteration).Pairwise (· ≤ ·) → (∀ s ∈ ss, t.changeIter ≤ s.iteration) →
    ∃ l t', l.map Prod.fst = ss ∧ Consulted (goalNotChange p) t l t' := by
  intro ss
  induction ss with
  | nil => intro t _ _; exact ⟨[], t, rfl, .nil⟩
  | cons s ss ih =>
    intro t hp hle
    have h1 := goalNotChange_eq p s t (hle s (by simp))
    obtain ⟨hp1, hp2⟩ := List.pairwise_cons.1 hp
    obtain ⟨l, t', hl, hc⟩ := ih ⟨t.maxIter, t.delta, _, _⟩ hp2 (fun s' hs' =>
      Nat.le_trans (recordStep_le t.delta (t.oldGoal, t.changeIter) s (hle s (by simp))) (hp1 _ (List.mem_map_of_mem hs')))
    exact ⟨_ :: l, t', by simp [hl], .cons h1 hc⟩

theorem goalNotChange_answers (p : Profile) {l : List (AlgState T × Bool)} {t t' : GNC}
    (hc : Consulted (goalNotChange p) t l t')
    (hp : (l.map (fun a => a.1.iteration)).Pairwise (· ≤ ·)) (hle : ∀ a ∈ l, t.changeIter ≤ a.1.iteration) :
    (∀ i s b, l[i]? = some (s, b) →
      let r := ((l.map Prod.fst).take (i + 1)).foldl (recordStep t.delta) (t.oldGoal, t.changeIter)
      r.2 ≤ s.iteration ∧ (b = true ↔ s.best.isSome = true ∧ r.2 + t.maxIter < s.iteration)) ∧
    t' = ⟨t.maxIter, t.delta, ((l.map Prod.fst).foldl (recordStep t.delta) (t.oldGoal, t.changeIter)).1,
      ((l.map Prod.fst).foldl (recordStep t.delta) (t.oldGoal, t.changeIter)).2⟩ := by
  induction hc with
  | nil => exact ⟨by simp, rfl⟩
  | @cons t t1 t' s b l h1 hc ih =>
    have hs := hle (s, b) (by simp)
    have h2 := goalNotChange_eq p s t hs
    rw [h1] at h2
    cases h2
    obtain ⟨hp1, hp2⟩ := List.pairwise_cons.1 (by exact hp)
    have hr := recordStep_le t.delta (t.oldGoal, t.changeIter) s hs
    obtain ⟨ih1, ih2⟩ := ih (by simpa using hp2) (fun a ha =>
      Nat.le_trans hr (hp1 _ (List.mem_map_of_mem ha)))
    refine ⟨?_, ih2⟩
    intro i s' b' hi
    cases i with
    | zero =>
      simp only [List.getElem?_cons_zero, Option.some.injEq, Prod.mk.injEq] at hi
      obtain ⟨rfl, rfl⟩ := hi
      refine ⟨by simpa using hr, by simp⟩
    | succ i => exact ih1 i s' b' (by simpa using hi)

theorem stagnation_of_consulted (p : Profile) {m : Nat} {d : F64} {l : List (AlgState T × Bool)} {t' : GNC}
    (hc : Consulted (goalNotChange p) (GNC.new m d) l t')
    (hp : (l.map (fun a => a.1.iteration)).Pairwise (· ≤ ·)) : Stagnation m d l :=
  (goalNotChange_answers p hc hp (fun _ _ => Nat.zero_le _)).1

/-! ## Constant goals -/

theorem abs_sub_self (g : F64) (d : F64) (hd : d.lt Fl.zero = false) : d.lt (g.sub g).abs = false := by
  by_cases hn : (g.sub g).isNan = true
  · unfold Fl.lt
    rw [Fl.isNan_abs, hn]
    simp
  by_cases hdn : d.isNan = true
  · unfold Fl.lt; rw [hdn]; simp
  have hdn : d.isNan = false := by simpa using hdn
  have hfin : g.isFinite = true := by
    by_contra hf
    apply hn
    unfold Fl.sub Fl.add
    rw [Fl.isNan_neg, Fl.isInf_neg, Fl.sgn_neg]
    by_cases hg : g.isNan = true
    · simp only [hg]; simpa using Fl.isNan_nan
    · have : g.isInf = true := by
        have hg : g.isNan = false := by simpa using hg
        have := (Fl.not_isNan_iff).1 hg
        have h2 := (Fl.not_isFinite_iff).1 (by simpa using hf)
        exact Fl.isInf_iff.2 (by omega)
      simp only [hg, this]
      cases g.sgn <;> simp [Fl.isNan_nan]
  have hr := Fl.sub_rounds hfin hfin
  have h0 : (g.sub g).toInt = 0 := by
    have := hr.2
    simp only [sub_self, Fmt.rnd_zero] at this
    exact_mod_cast this
  rw [Fl.not_lt hdn (by rw [Fl.isNan_abs]; exact hr.1)]
  rw [Fl.not_lt hdn Fl.isNan_zero] at hd
  rw [Fl.le_iff] at hd ⊢
  refine ⟨by rw [Fl.isNan_abs]; exact hr.1, hdn, ?_⟩
  have hz : (Fl.zero : F64).toInt = 0 := Fl.toInt_eq_zero.2 Fl.idx_zero
  rw [Fl.toInt_abs, h0]
  have := hd.2.2
  rw [hz] at this
  simpa using this

/-- While the goal stays at `g`, the record changes at most at the first look. -/
theorem recorded_const {d g : F64} (hd : d.lt Fl.zero = false) : ∀ (l : List (AlgState T)) (r : F64 × Nat),
    (∀ s ∈ l, ∃ x, s.best = some (x, g)) → ∀ (s0 : AlgState T), (∃ x, s0.best = some (x, g)) →
    l.foldl (recordStep d) (recordStep d r s0) = recordStep d r s0 := by
  intro l
  induction l with
  | nil => intros; rfl
  | cons s l ih =>
    intro r hl s0 h0
    obtain ⟨x, hx⟩ := hl s (by simp)
    have : recordStep d (recordStep d r s0) s = recordStep d r s0 := by
      obtain ⟨x0, hx0⟩ := h0
      by_cases hq : d.lt (g.sub r.1).abs = true
      · have e : recordStep d r s0 = (g, s0.iteration) := by unfold recordStep; rw [hx0]; simp [hq]
        rw [e]
        unfold recordStep
        rw [hx]
        simp [abs_sub_self g d hd]
      · have e : recordStep d r s0 = r := by unfold recordStep; rw [hx0]; simp [hq]
        rw [e]
        unfold recordStep
        rw [hx]
        simp [hq]
    rw [List.foldl_cons, this]
    exact ih r (fun s hs => hl s (by simp [hs])) s0 h0

end Verif
