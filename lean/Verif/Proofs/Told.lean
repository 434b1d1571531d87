import Verif.Proofs.Record
import Verif.Proofs.Private

/-!
# What a logger is told in a history
-/

set_option linter.unusedSectionVars false

namespace Verif

open Spec

variable {σ τ T α : Type}

namespace Spec

/-- The states of the iterations a logger was told of. -/
def nextsOf (cs : List (LogKind × AlgState T)) : List (AlgState T) :=
  cs.filterMap (fun | (.next, s) => some s | _ => none)

/-- The states of the ends of runs a logger was told of. -/
def endsOf (cs : List (LogKind × AlgState T)) : List (AlgState T) :=
  cs.filterMap (fun | (.finish, s) => some s | _ => none)

/-- The beginnings and ends of runs a logger was told of. -/
def marksOf (cs : List (LogKind × AlgState T)) : List LogKind :=
  cs.filterMap (fun | (.resume, _) => some .resume | (.finish, _) => some .finish | _ => none)

theorem marksOf_append (a b : List (LogKind × AlgState T)) : marksOf (a ++ b) = marksOf a ++ marksOf b :=
  List.filterMap_append ..

theorem nextsOf_append (a b : List (LogKind × AlgState T)) : nextsOf (a ++ b) = nextsOf a ++ nextsOf b :=
  List.filterMap_append ..

theorem endsOf_append (a b : List (LogKind × AlgState T)) : endsOf (a ++ b) = endsOf a ++ endsOf b :=
  List.filterMap_append ..

theorem finishesOf_append (i : Nat) (a b : List (Ev T)) : finishesOf i (a ++ b) = finishesOf i a ++ finishesOf i b :=
  List.filterMap_append ..

theorem finishesOf_eq (i : Nat) (tr : List (Ev T)) : finishesOf i tr = endsOf (callbacksOf i tr) := by
  unfold finishesOf endsOf callbacksOf
  rw [List.filterMap_filterMap]
  congr 1
  funext e
  cases e with
  | log j k s => by_cases h : j = i <;> cases k <;> simp [h]
  | _ => rfl

theorem Informed.append {l : Logger τ T} {t t1 t' : τ} {a b : List (LogKind × AlgState T)} (h : Informed l t a t1)
    (h' : Informed l t1 b t') : Informed l t (a ++ b) t' := by
  induction h with
  | nil => exact h'
  | cons h1 _ ih => exact .cons h1 (ih h')

end Spec

theorem nextsOf_map (sts : List (AlgState T)) : nextsOf (sts.map (fun st => (LogKind.next, st))) = sts := by
  unfold nextsOf
  rw [List.filterMap_map]
  exact List.filterMap_some

theorem endsOf_map (sts : List (AlgState T)) : endsOf (sts.map (fun st => (LogKind.next, st))) = [] := by
  unfold endsOf
  rw [List.filterMap_map]
  exact filterMap_nil_of fun _ _ => rfl

theorem CallRecord.nexts {i : Nat} {fresh : Bool} {ext : List (Ev T)} {sts : List (AlgState T)} {final : AlgState T}
    (h : CallRecord i fresh ext sts final) : nextsOf (callbacksOf i ext) = iterationsOf ext := by
  obtain ⟨s0, ht⟩ := h.told
  rw [ht, h.iters]
  cases fresh <;> simp only [nextsOf_append, nextsOf_map] <;> simp [nextsOf]

theorem CallRecord.finishes {i : Nat} {fresh : Bool} {ext : List (Ev T)} {sts : List (AlgState T)} {final : AlgState T}
    (h : CallRecord i fresh ext sts final) : finishesOf i ext = [final] := by
  obtain ⟨s0, ht⟩ := h.told
  rw [finishesOf_eq, ht]
  cases fresh <;> simp only [endsOf_append, endsOf_map] <;> simp [endsOf]

theorem marksOf_map (sts : List (AlgState T)) : marksOf (sts.map (fun st => (LogKind.next, st))) = [] := by
  unfold marksOf
  rw [List.filterMap_map]
  exact filterMap_nil_of fun _ _ => rfl

theorem CallRecord.marks {i : Nat} {fresh : Bool} {ext : List (Ev T)} {sts : List (AlgState T)} {final : AlgState T}
    (h : CallRecord i fresh ext sts final) : marksOf (callbacksOf i ext) = [.resume, .finish] := by
  obtain ⟨s0, ht⟩ := h.told
  rw [ht]
  cases fresh <;> simp only [marksOf_append, marksOf_map] <;> simp [marksOf]

namespace GA

theorem history_told {l : Logger τ T} (L : Lens σ τ) (i : Nat) (o o' : Opt σ T) (ks : List (Call σ T))
    (hp : Spec.Always (PrivateLogger L l i) o.comps ks) (w w' : World σ T)
    (rs : List (Ret T)) (hr : run o ks w = .ok ((rs, o'), w')) :
    ∃ ext, w'.trace = w.trace ++ ext ∧ Informed l (L.get w.user) (callbacksOf i ext) (L.get w'.user) ∧
      nextsOf (callbacksOf i ext) = iterationsOf ext ∧
      (finishesOf i ext).map AlgState.best = rs.filterMap id ∧
      marksOf (callbacksOf i ext) = (List.replicate (rs.filterMap id).length [.resume, .finish]).flatten := by
  induction ks generalizing o w rs with
  | nil =>
    obtain ⟨h, rfl⟩ := M.pure_eq_ok.1 hr
    cases h
    exact ⟨[], by simp, .nil, rfl, rfl, rfl⟩
  | cons k ks ih =>
    obtain ⟨r, o1, w1, rs', h1, h2, rfl⟩ := run_cons_ok.1 hr
    have hi : i < o.comps.loggers.length := by
      have := hp.1.logger_eq
      by_contra hc
      rw [List.getElem?_eq_none (by omega)] at this
      cases this
    obtain ⟨ext2, ht2, hinf2, hn2, hf2, hm2⟩ := ih o1 (by rw [call_comps h1]; exact hp.2) w1 rs' h2
    have key : ∃ ext, w1.trace = w.trace ++ ext ∧ Informed l (L.get w.user) (callbacksOf i ext) (L.get w1.user) ∧
        nextsOf (callbacksOf i ext) = iterationsOf ext ∧
        (finishesOf i ext).map AlgState.best = [r].filterMap id ∧
        marksOf (callbacksOf i ext) = (List.replicate ([r].filterMap id).length [.resume, .finish]).flatten := by
      obtain ⟨ext0, ht0, hinf⟩ := (hp.1.winv w.trace (L.get w.user)).call k w _ w1 ⟨[], by simp, .nil⟩ h1
      cases k with
      | findMin fuel =>
        obtain ⟨⟨r1, o2⟩, w2, h3, h4⟩ := M.bind_eq_ok.1 h1
        obtain ⟨h5, rfl⟩ := M.pure_eq_ok.1 h4
        cases h5
        obtain ⟨ext, sts, ht, hrb, hcr⟩ := findMin_record hi h3
        obtain rfl : ext0 = ext := List.append_cancel_left (ht0.symm.trans ht)
        refine ⟨ext0, ht, hinf, hcr.nexts, ?_, hcr.marks⟩
        rw [hcr.finishes, hrb]
        rfl
      | nextIterations fuel =>
        obtain ⟨⟨r1, o2⟩, w2, h3, h4⟩ := M.bind_eq_ok.1 h1
        obtain ⟨h5, rfl⟩ := M.pure_eq_ok.1 h4
        cases h5
        obtain ⟨ext, sts, ht, hrb, hcr⟩ := nextIterations_record hi h3
        obtain rfl : ext0 = ext := List.append_cancel_left (ht0.symm.trans ht)
        refine ⟨ext0, ht, hinf, hcr.nexts, ?_, hcr.marks⟩
        rw [hcr.finishes, hrb]
        rfl
      | _ =>
        obtain ⟨h5, rfl⟩ := M.pure_eq_ok.1 h1
        cases h5
        exact ⟨[], by simp, .nil, rfl, rfl, rfl⟩
    obtain ⟨ext1, ht1, hinf1, hn1, hf1, hm1⟩ := key
    refine ⟨ext1 ++ ext2, by rw [ht2, ht1, List.append_assoc], ?_, ?_, ?_, ?_⟩
    · rw [callbacksOf_append]; exact hinf1.append hinf2
    · rw [callbacksOf_append, nextsOf_append, iterationsOf_append, hn1, hn2]
    · rw [finishesOf_append, List.map_append, hf1, hf2, ← List.filterMap_append]
      rfl
    · rw [callbacksOf_append, marksOf_append, hm1, hm2, ← List.flatten_append, List.replicate_append_replicate,
        ← List.length_append, ← List.filterMap_append]
      rfl

end GA

namespace PSO

variable [FloatT α]

theorem history_told {l : Logger τ (List α)} (L : Lens σ τ) (i : Nat) (o o' : Opt σ α) (ks : List (Call σ α))
    (hp : Spec.Swarm.Always (PrivateLogger L l i) o.comps ks) (w w' : World σ (List α))
    (rs : List (Ret α)) (hr : run o ks w = .ok ((rs, o'), w')) :
    ∃ ext, w'.trace = w.trace ++ ext ∧ Informed l (L.get w.user) (callbacksOf i ext) (L.get w'.user) ∧
      nextsOf (callbacksOf i ext) = iterationsOf ext ∧
      (finishesOf i ext).map AlgState.best = rs.filterMap id ∧
      marksOf (callbacksOf i ext) = (List.replicate (rs.filterMap id).length [.resume, .finish]).flatten := by
  induction ks generalizing o w rs with
  | nil =>
    obtain ⟨h, rfl⟩ := M.pure_eq_ok.1 hr
    cases h
    exact ⟨[], by simp, .nil, rfl, rfl, rfl⟩
  | cons k ks ih =>
    obtain ⟨r, o1, w1, rs', h1, h2, rfl⟩ := run_cons_ok.1 hr
    have hi : i < o.comps.loggers.length := by
      have := hp.1.logger_eq
      by_contra hc
      rw [List.getElem?_eq_none (by omega)] at this
      cases this
    obtain ⟨ext2, ht2, hinf2, hn2, hf2, hm2⟩ := ih o1 (by rw [call_comps h1]; exact hp.2) w1 rs' h2
    have key : ∃ ext, w1.trace = w.trace ++ ext ∧ Informed l (L.get w.user) (callbacksOf i ext) (L.get w1.user) ∧
        nextsOf (callbacksOf i ext) = iterationsOf ext ∧
        (finishesOf i ext).map AlgState.best = [r].filterMap id ∧
        marksOf (callbacksOf i ext) = (List.replicate ([r].filterMap id).length [.resume, .finish]).flatten := by
      obtain ⟨ext0, ht0, hinf⟩ := (hp.1.winv w.trace (L.get w.user)).call k w _ w1 ⟨[], by simp, .nil⟩ h1
      cases k with
      | findMin fuel =>
        obtain ⟨⟨r1, o2⟩, w2, h3, h4⟩ := M.bind_eq_ok.1 h1
        obtain ⟨h5, rfl⟩ := M.pure_eq_ok.1 h4
        cases h5
        obtain ⟨ext, sts, ht, hrb, hcr⟩ := findMin_record hi h3
        obtain rfl : ext0 = ext := List.append_cancel_left (ht0.symm.trans ht)
        refine ⟨ext0, ht, hinf, hcr.nexts, ?_, hcr.marks⟩
        rw [hcr.finishes, hrb]
        rfl
      | nextIterations fuel =>
        obtain ⟨⟨r1, o2⟩, w2, h3, h4⟩ := M.bind_eq_ok.1 h1
        obtain ⟨h5, rfl⟩ := M.pure_eq_ok.1 h4
        cases h5
        obtain ⟨ext, sts, ht, hrb, hcr⟩ := nextIterations_record hi h3
        obtain rfl : ext0 = ext := List.append_cancel_left (ht0.symm.trans ht)
        refine ⟨ext0, ht, hinf, hcr.nexts, ?_, hcr.marks⟩
        rw [hcr.finishes, hrb]
        rfl
      | _ =>
        obtain ⟨h5, rfl⟩ := M.pure_eq_ok.1 h1
        cases h5
        exact ⟨[], by simp, .nil, rfl, rfl, rfl⟩
    obtain ⟨ext1, ht1, hinf1, hn1, hf1, hm1⟩ := key
    refine ⟨ext1 ++ ext2, by rw [ht2, ht1, List.append_assoc], ?_, ?_, ?_, ?_⟩
    · rw [callbacksOf_append]; exact hinf1.append hinf2
    · rw [callbacksOf_append, nextsOf_append, iterationsOf_append, hn1, hn2]
    · rw [finishesOf_append, List.map_append, hf1, hf2, ← List.filterMap_append]
      rfl
    · rw [callbacksOf_append, marksOf_append, hm1, hm2, ← List.flatten_append, List.replicate_append_replicate,
        ← List.length_append, ← List.filterMap_append]
      rfl

end PSO
end Verif
