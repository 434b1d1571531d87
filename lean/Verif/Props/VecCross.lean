import Verif.Model.Cross

/-!
# C06: `VecCrossAllGenes`
-/

namespace Verif.Props

open Verif Cross

variable {σ : Type}

theorem vecCrossLoop_eq {G : Type} (single : List G → M σ (List G)) (p1 p2 : List G) :
    ∀ (n k : Nat), k + n = p1.length → p1.length ≤ p2.length → ∀ (child : List G),
      vecCrossLoop single p1 p2 (List.range' k n) child = (do
        let parts ← M.mapL (fun (g : G × G) => single [g.1, g.2]) ((p1.drop k).zip (p2.drop k))
        pure (child ++ parts.flatten)) := by
  intro n
  induction n with
  | zero =>
    intro k hk _ child
    have h1 : p1.drop k = [] := List.drop_eq_nil_of_le (by omega)
    rw [h1]
    funext s
    simp only [List.range'_zero, vecCrossLoop, List.zip_nil_left, M.mapL]
    rw [M.bind_run, M.pure_run, M.pure_run]
    simp only [List.flatten_nil, List.append_nil]
    rfl
  | succ n ih =>
    intro k hk h2 child
    have hk1 : k < p1.length := by omega
    have hk2 : k < p2.length := by omega
    rw [List.range'_succ, List.drop_eq_getElem_cons hk1, List.drop_eq_getElem_cons hk2]
    simp only [vecCrossLoop, List.zip_cons_cons, M.mapL]
    funext s
    have e1 : (M.index p1 k : M σ G) s = .ok (p1[k], s) := by
      rw [M.index_eq_ok]; exact ⟨List.getElem?_eq_getElem hk1, rfl⟩
    have e2 : (M.index p2 k : M σ G) s = .ok (p2[k], s) := by
      rw [M.index_eq_ok]; exact ⟨List.getElem?_eq_getElem hk2, rfl⟩
    rw [M.bind_run, e1]
    simp only
    rw [M.bind_run, e2]
    simp only
    rw [M.bind_run, M.bind_run, M.bind_run]
    cases h : single [p1[k], p2[k]] s with
    | error e => rfl
    | ok r =>
      obtain ⟨a, s1⟩ := r
      simp only
      rw [ih (k + 1) (by omega) h2, M.bind_run, M.bind_run]
      cases h3 : M.mapL (fun (g : G × G) => single [g.1, g.2])
          ((p1.drop (k + 1)).zip (p2.drop (k + 1))) s1 with
      | error e => rfl
      | ok r =>
        obtain ⟨b, s2⟩ := r
        simp only [M.pure_run, List.flatten_cons, List.append_assoc]

/-- C06: on two parents where the second is at least as long as the first, `VecCrossAllGenes` *is* the program
"run the single-gene cross on each pair of genes in order, concatenate what it returns into one child". -/
theorem C06_vecCross {G : Type} (single : List G → M σ (List G)) (p1 p2 : List G)
    (h : p1.length ≤ p2.length) :
    vecCrossAllGenes single [p1, p2] = (do
      let parts ← M.mapL (fun (g : G × G) => single [g.1, g.2]) (p1.zip p2)
      pure [parts.flatten]) := by
  funext s
  unfold vecCrossAllGenes
  have e1 : (M.index [p1, p2] 0 : M σ (List G)) s = .ok (p1, s) := rfl
  have e2 : (M.index [p1, p2] 1 : M σ (List G)) s = .ok (p2, s) := rfl
  rw [M.bind_run]
  show (M.index [p1, p2] 0 >>= _ : M σ _) s = _
  rw [M.bind_run, e1]; simp only
  rw [M.bind_run, e2]; simp only
  rw [List.range_eq_range', vecCrossLoop_eq single p1 p2 p1.length 0 (by omega) h, M.bind_run,
    M.bind_run, M.bind_run]
  simp only [List.drop_zero, List.nil_append]
  cases h3 : M.mapL (fun (g : G × G) => single [g.1, g.2]) (p1.zip p2) s with
  | error e => rfl
  | ok r => rfl

/-- C06: if the single-gene cross returns one gene per call, the only child has as many genes as the first parent,
and each of them is a result of the single cross on the two parent genes at that place. -/
theorem C06_length {G : Type} (single : List G → M σ (List G)) (p1 p2 : List G)
    (hs : ∀ a b s cs s', single [a, b] s = .ok (cs, s') → cs.length = 1)
    (h : p1.length ≤ p2.length) (cs : List (List G)) (s s' : σ)
    (hr : vecCrossAllGenes single [p1, p2] s = .ok (cs, s')) :
    ∃ child, cs = [child] ∧ child.length = p1.length ∧
      List.Forall₂ (fun (g : G × G) c => ∃ s1 s2, single [g.1, g.2] s1 = .ok ([c], s2))
        (p1.zip p2) child := by
  rw [C06_vecCross single p1 p2 h] at hr
  obtain ⟨parts, s1, h1, h2⟩ := M.bind_eq_ok.1 hr
  rw [M.pure_eq_ok] at h2
  refine ⟨parts.flatten, h2.1.symm, ?_⟩
  have hf : List.Forall₂ (fun (g : G × G) (c : List G) =>
      c.length = 1 ∧ ∃ s1 s2, single [g.1, g.2] s1 = .ok (c, s2)) (p1.zip p2) parts :=
    M.mapL_forall₂ (fun g _ s b s' hb => ⟨hs _ _ _ _ _ hb, s, s', hb⟩) h1
  have key : ∀ (gs : List (G × G)) (parts : List (List G)),
      List.Forall₂ (fun (g : G × G) (c : List G) =>
        c.length = 1 ∧ ∃ s1 s2, single [g.1, g.2] s1 = .ok (c, s2)) gs parts →
      parts.flatten.length = gs.length ∧
      List.Forall₂ (fun (g : G × G) c => ∃ s1 s2, single [g.1, g.2] s1 = .ok ([c], s2))
        gs parts.flatten := by
    intro gs parts hh
    induction hh with
    | nil => exact ⟨rfl, .nil⟩
    | @cons g c gs parts h1 _ ih =>
      obtain ⟨hl, s1, s2, h1⟩ := h1
      obtain ⟨x, rfl⟩ := List.length_eq_one_iff.1 hl
      refine ⟨by simp [ih.1, Nat.add_comm], ?_⟩
      exact .cons ⟨s1, s2, h1⟩ ih.2
  obtain ⟨k1, k2⟩ := key _ _ hf
  refine ⟨?_, k2⟩
  rw [k1, List.length_zip]; omega

/-- C06: any other number of parents panics. -/
theorem C06_wrong_arity {G : Type} (single : List G → M σ (List G)) (ps : List (List G))
    (h : ps.length ≠ 2) (s : σ) : vecCrossAllGenes single ps s = .error .assert := by
  unfold vecCrossAllGenes
  rw [M.bind_eq_error]; left
  simp [M.assert, h, M.fail]

/-- C06: if the second parent is shorter, `VecCrossAllGenes` never returns (it panics on the index, unless
the single cross panics before). -/
theorem C06_short_second {G : Type} (single : List G → M σ (List G)) (p1 p2 : List G)
    (h : p2.length < p1.length) (s : σ) (r : List (List G) × σ) :
    vecCrossAllGenes single [p1, p2] s ≠ .ok r := by
  intro hr
  unfold vecCrossAllGenes at hr
  obtain ⟨_, s0, h0, hr⟩ := M.bind_eq_ok.1 hr
  obtain ⟨q1, s1, h1, hr⟩ := M.bind_eq_ok.1 hr
  obtain ⟨q2, s2, h2, hr⟩ := M.bind_eq_ok.1 hr
  obtain ⟨c, s3, h3, hr⟩ := M.bind_eq_ok.1 hr
  have e1 : q1 = p1 := by have := (M.index_eq_ok.1 h1).1; simpa using this.symm
  have e2 : q2 = p2 := by have := (M.index_eq_ok.1 h2).1; simpa using this.symm
  subst e1 e2
  have key : ∀ (n k : Nat), k + n = q1.length → k ≤ q2.length → ∀ child s c s',
      vecCrossLoop single q1 q2 (List.range' k n) child s ≠ .ok (c, s') := by
    intro n
    induction n with
    | zero => intro k hk hk2; omega
    | succ n ih =>
      intro k hk hk2 child s c s' hh
      rw [List.range'_succ, vecCrossLoop] at hh
      obtain ⟨g1, s1, h1, hh⟩ := M.bind_eq_ok.1 hh
      obtain ⟨g2, s2, h2, hh⟩ := M.bind_eq_ok.1 hh
      obtain ⟨nw, s3, h3, hh⟩ := M.bind_eq_ok.1 hh
      have : k < q2.length := (List.getElem?_eq_some_iff.1 (M.index_eq_ok.1 h2).1).1
      exact ih (k + 1) (by omega) (by omega) _ _ _ _ hh
  rw [List.range_eq_range'] at h3
  exact key _ 0 (by omega) (by omega) _ _ _ _ h3

/-- A concrete run: two parents of three genes, crossed bit by bit. -/
example : ∃ c, vecCrossAllGenes (crossBitwise .debug Rng.script)
    [[(Fl.one : F32), Fl.one, Fl.zero], [Fl.zero, Fl.nan, Fl.one]] [3, 25, 27] = .ok ([c], []) ∧
    c.length = 3 ∧ c ≠ [Fl.one, Fl.one, Fl.zero] := ⟨_, rfl, by decide +kernel⟩

end Verif.Props
