import Verif.Props.ChanceFloat
import Verif.Props.IntCreation

/-!
# C103: how likely random integer genes are
-/

namespace Verif.Props

open Verif Spec IntGenes

/-- Evenly spread numbers: the share of those up to `c`, with or without `c` itself. -/
theorem even_share {m : Nat} (hm : 0 < m) {δ lo hi c : ℚ} (hlt : lo < hi) {v : Nat → ℚ} (he : Even m δ lo hi v) (h0 : lo ≤ c) (h1 : c ≤ hi)
    {Q : Nat → Prop} (hQ : ∀ k, k < m → v k < c → Q k) (hQ' : ∀ k, k < m → Q k → v k ≤ c) :
    (c - lo) / (hi - lo) - δ ≤ share m Q ∧ share m Q ≤ (c - lo) / (hi - lo) + δ + 1 / m := by
  classical
  have hmq : (0 : ℚ) < m := by exact_mod_cast hm
  have hl : 0 < hi - lo := by linarith
  constructor
  · refine (he.share hm hlt h0 h1).1.trans ?_
    rw [share_eq, share_eq]
    refine div_le_div_of_nonneg_right ?_ hmq.le
    refine Nat.cast_le.2 (Finset.card_le_card fun k hk => ?_)
    rw [Finset.mem_filter, Finset.mem_range] at hk ⊢
    exact ⟨hk.1, hQ k hk.1 hk.2⟩
  · set p := (c - lo) / (hi - lo) with hp
    have hp0 : 0 ≤ p := div_nonneg (by linarith) hl.le
    have hc : c = lo + (hi - lo) * p := by rw [hp]; field_simp; ring
    have hδ : 0 ≤ δ := by
      have := (abs_nonneg _).trans (he 0 hm)
      by_contra h
      have := mul_neg_of_neg_of_pos (not_le.1 h) hl
      linarith
    rw [share_eq, div_le_iff₀ hmq]
    have hsub : (Finset.range m).filter Q ⊆ Finset.range (⌊(p + δ) * m⌋₊ + 1) := by
      intro k hk
      rw [Finset.mem_filter, Finset.mem_range] at hk
      rw [Finset.mem_range, Nat.lt_succ_iff, Nat.le_floor_iff (by positivity), ← div_le_iff₀ hmq]
      have h2 := (abs_le.1 (he k hk.1)).1
      have h3 := hQ' k hk.1 hk.2
      rw [hc] at h3
      by_contra h
      have h4 : (hi - lo) * (p + δ) < (hi - lo) * (k / m) := mul_lt_mul_of_pos_left (not_le.1 h) hl
      linarith
    have := Finset.card_le_card hsub
    rw [Finset.card_range] at this
    have h2 : (⌊(p + δ) * m⌋₊ : ℚ) ≤ (p + δ) * m := Nat.floor_le (by positivity)
    have h3 : ((((Finset.range m).filter Q).card : Nat) : ℚ) ≤ (⌊(p + δ) * m⌋₊ : ℚ) + 1 := by exact_mod_cast this
    rw [add_mul _ (1 / (m : ℚ)), one_div, inv_mul_cancel₀ hmq.ne']
    linarith

theorem share_sub {m : Nat} (hm : 0 < m) {P Q : Nat → Prop} (h : ∀ k, k < m → P k → Q k) :
    share m (fun k => Q k ∧ ¬ P k) = share m Q - share m P := by
  classical
  rw [share_eq, share_eq, share_eq, ← sub_div]
  congr 1
  have hd : (Finset.range m).filter (fun k => Q k ∧ ¬ P k) = (Finset.range m).filter Q \ (Finset.range m).filter P := by
    ext k
    simp only [Finset.mem_filter, Finset.mem_sdiff, Finset.mem_range]
    tauto
  have hs : (Finset.range m).filter P ⊆ (Finset.range m).filter Q := by
    intro k hk
    rw [Finset.mem_filter, Finset.mem_range] at hk ⊢
    exact ⟨hk.1, h k hk.1 hk.2⟩
  rw [hd, Finset.card_sdiff_of_subset hs, Nat.cast_sub (Finset.card_le_card hs)]

theorem share_congr {m : Nat} {P Q : Nat → Prop} (h : ∀ k, k < m → (P k ↔ Q k)) : share m P = share m Q := by
  unfold share
  refine chance_congr fun t ht => ?_
  cases ht with
  | cons hk _ => exact h _ hk

theorem share_none {m : Nat} {P : Nat → Prop} (h : ∀ k, k < m → ¬ P k) : share m P = 0 := by
  classical
  rw [share_eq, Finset.filter_false_of_mem fun k hk => h k (Finset.mem_range.1 hk)]
  simp

theorem share_all {m : Nat} (hm : 0 < m) {P : Nat → Prop} (h : ∀ k, k < m → P k) : share m P = 1 := by
  classical
  rw [share_eq, Finset.filter_true_of_mem fun k hk => h k (Finset.mem_range.1 hk), Finset.card_range, div_self]
  exact_mod_cast hm.ne'

/-- The gene that the draw with the number `k` gives: its fractional part is cut off. -/
def intGeneOf (d : Draws) (iv : Int × Int) (k : Nat) : Int := truncate (d.closedVal (toF64 iv.1) (toF64 iv.2) k)

/-- An interval of a creator of integer genes: increasing, in the range of the type, and not beyond `2 ^ 53` (as in C80) -/
abbrev IntInterval (T : IntTy) (iv : Int × Int) : Prop :=
  T.min ≤ iv.1 ∧ iv.1 < iv.2 ∧ iv.2 ≤ T.max ∧ iv.1.natAbs ≤ 2 ^ 53 ∧ iv.2.natAbs ≤ 2 ^ 53

theorem intDraw_facts (T : IntTy) {iv : Int × Int} (h : IntInterval T iv) :
    ((toF64 iv.1).le (toF64 iv.2) && (toF64 iv.1).isFinite && (toF64 iv.2).isFinite) = true ∧
    ∀ x : F64, (toF64 iv.1).le x = true → x.le (toF64 iv.2) = true →
      T.fromF64 x = some (truncate x) ∧ iv.1 * Fmt.f64.D ≤ x.toInt ∧ x.toInt ≤ iv.2 * Fmt.f64.D := by
  obtain ⟨h1, h2, h3, h4, h5⟩ := h
  obtain ⟨e1, f1⟩ := toF64_exact h4
  obtain ⟨e2, f2⟩ := toF64_exact h5
  have hD : (0 : Int) < Fmt.f64.D := by exact_mod_cast Fmt.f64.D_pos
  have hle : (toF64 iv.1).le (toF64 iv.2) = true := by
    rw [Fl.le_iff]
    refine ⟨Fl.isNan_of_isFinite f1, Fl.isNan_of_isFinite f2, ?_⟩
    rw [e1, e2]
    exact mul_le_mul_of_nonneg_right h2.le hD.le
  refine ⟨by rw [hle, f1, f2]; rfl, ?_⟩
  intro x l1 l2
  have g1 := (Fl.le_iff.1 l1).2.2
  have g2 := (Fl.le_iff.1 l2).2.2
  rw [e1] at g1
  rw [e2] at g2
  have hb := truncate_between g1 g2
  refine ⟨?_, g1, g2⟩
  unfold IntTy.fromF64
  rw [if_pos ⟨Fl.isFinite_of_between f1 f2 l1 l2, by omega, by omega⟩]

theorem closed_facts (T : IntTy) (d : Draws) {iv : Int × Int} (h : IntInterval T iv) (k : Nat) :
    (toF64 iv.1).le (d.closedVal (toF64 iv.1) (toF64 iv.2) k) = true ∧ (d.closedVal (toF64 iv.1) (toF64 iv.2) k).le (toF64 iv.2) = true := by
  have hb := (intDraw_facts T h).1
  rw [Bool.and_eq_true, Bool.and_eq_true] at hb
  exact d.closed_range _ _ k hb.1.1 hb.1.2 hb.2

theorem uses_drawInt (T : IntTy) (d : Draws) {iv : Int × Int} (h : IntInterval T iv) (m : Nat) :
    Uses (drawGene T d.source iv) [m] (fun t => intGeneOf d iv (t.headD 0)) := by
  obtain ⟨hb, hx⟩ := intDraw_facts T h
  intro ds rest hd
  have h1 := uses_closed d m hb ds rest hd
  obtain ⟨r1, r2⟩ := closed_facts T d h (ds.headD 0)
  exact M.bind_eq_ok.2 ⟨_, _, h1, M.unwrap_eq_ok.2 ⟨(hx _ r1 r2).1, rfl⟩⟩

/-- A list of lists in which every entry meets its condition -/
def EachInt (conds : List (List (Int → Prop))) (xss : List (List Int)) : Prop := List.Forall₂ (List.Forall₂ fun P x => P x) conds xss

/-- C103, RandomCreator: all integer genes of all chromosomes are independent of each other; each is a draw from its interval with its fractional part
cut off. -/
theorem C103_creator (T : IntTy) (d : Draws) (m size : Nat) (ivs : List (Int × Int)) (h : IntIntervals T ivs)
    (conds : List (List (Int → Prop))) (hc : conds.length = size) (hr : ∀ row ∈ conds, row.length = ivs.length) :
    chance (List.replicate (size * ivs.length) m) (Gives (RandomCreator.create T d.source ⟨size, ivs⟩) (EachInt conds)) =
      (conds.map fun row => (List.zipWith (fun P iv => share m fun k => P (intGeneOf d iv k)) row ivs).prod).prod := by
  obtain ⟨u, hu, hcu⟩ := Uses.mapL (m := m) (v := intGeneOf d) ivs fun iv hiv => uses_drawInt T d (h iv hiv) m
  obtain ⟨w, hw, hcw⟩ := hu.replicate' size
  rw [← replicate_flatten]
  refine (chance_congr fun t ht => hw.gives ht).trans ?_
  have := hcw (conds.map fun row => fun xs => List.Forall₂ (fun P x => P x) row xs) (by simpa using hc)
  rw [List.map_map] at this
  unfold EachInt
  simp only [List.forall₂_map_left_iff] at this
  rw [this]
  congr 1
  refine List.map_congr_left fun row hrow => ?_
  exact hcu row (hr row hrow)

/-- C103, the initializers of the swarm: the same. -/
theorem C103_initializers (T : IntTy) (d : Draws) (m count : Nat) (ivs : List (Int × Int)) (h : IntIntervals T ivs)
    (conds : List (List (Int → Prop))) (hc : conds.length = count) (hr : ∀ row ∈ conds, row.length = ivs.length) :
    chance (List.replicate (count * ivs.length) m) (Gives (randomInit T d.source ivs count) (EachInt conds)) =
      (conds.map fun row => (List.zipWith (fun P iv => share m fun k => P (intGeneOf d iv k)) row ivs).prod).prod := by
  rw [← C103_creator T d m count ivs h conds hc hr]
  have e : createVec T d.source ivs = M.mapL (drawGene T d.source) ivs := by
    funext s
    unfold createVec
    have : (ivs.all fun iv => decide (iv.1 < iv.2)) = true := List.all_eq_true.2 fun iv hiv => by simpa using (h iv hiv).2.1
    rw [this]
    rfl
  unfold randomInit RandomCreator.create
  rw [e]

/-! ### The chance of a value -/

theorem tdiv_pos_iff {t v N : Int} (hN : 0 < N) (hv : 0 < v) : t.tdiv N = v ↔ v * N ≤ t ∧ t < (v + 1) * N := by
  constructor
  · intro h
    have ht : 0 ≤ t := by
      by_contra hc
      have h1 : 0 ≤ Int.tdiv (-t) N := Int.tdiv_nonneg (by omega) hN.le
      rw [Int.neg_tdiv] at h1
      omega
    rw [Int.tdiv_eq_ediv_of_nonneg ht] at h
    subst h
    have := Int.mul_ediv_add_emod t N
    have h2 := Int.emod_nonneg t hN.ne'
    have h3 := Int.emod_lt_of_pos t hN
    constructor <;> nlinarith
  · rintro ⟨h1, h2⟩
    have ht : 0 ≤ t := le_trans (by positivity) h1
    rw [Int.tdiv_eq_ediv_of_nonneg ht]
    have := Int.le_ediv_of_mul_le hN h1
    have := Int.ediv_lt_of_lt_mul hN h2
    omega

theorem tdiv_neg_iff {t v N : Int} (hN : 0 < N) (hv : v < 0) : t.tdiv N = v ↔ (v - 1) * N < t ∧ t ≤ v * N := by
  have h := tdiv_pos_iff (t := -t) (v := -v) hN (by omega)
  rw [Int.neg_tdiv, neg_inj] at h
  rw [h]
  constructor <;> rintro ⟨a, b⟩ <;> constructor <;> nlinarith

theorem tdiv_zero_iff {t N : Int} (hN : 0 < N) : t.tdiv N = 0 ↔ -N < t ∧ t < N := by
  constructor
  · intro h
    constructor
    · by_contra hc
      have : -t = N * ((-t) / N) + (-t) % N := (Int.mul_ediv_add_emod _ _).symm
      have h1 : (-t).tdiv N = 0 := by rw [Int.neg_tdiv, h]; rfl
      rw [Int.tdiv_eq_ediv_of_nonneg (by omega)] at h1
      rw [h1] at this
      have h3 := Int.emod_lt_of_pos (-t) hN
      omega
    · by_contra hc
      have : t = N * (t / N) + t % N := (Int.mul_ediv_add_emod _ _).symm
      rw [Int.tdiv_eq_ediv_of_nonneg (by omega)] at h
      rw [h] at this
      have h3 := Int.emod_lt_of_pos t hN
      omega
  · rintro ⟨h1, h2⟩
    rcases le_total 0 t with ht | ht
    · rw [Int.tdiv_eq_ediv_of_nonneg ht]
      exact Int.ediv_eq_zero_of_lt ht h2
    · have h3 : (-t).tdiv N = 0 := by
        rw [Int.tdiv_eq_ediv_of_nonneg (by omega)]
        exact Int.ediv_eq_zero_of_lt (by omega) (by omega)
      rw [Int.neg_tdiv] at h3
      omega

/-- The least and the greatest of the numbers whose fractional part cut off gives `v`: they lie between these. -/
def cutLow (v : Int) : ℚ := if 0 < v then v else v - 1

def cutHigh (v : Int) : ℚ := if v < 0 then v else v + 1

theorem truncate_iff (x : F64) (v : Int) :
    truncate x = v ↔ (if v < 0 then ratValue x ≤ cutHigh v else ratValue x < cutHigh v) ∧
      ¬ (if 0 < v then ratValue x < cutLow v else ratValue x ≤ cutLow v) := by
  have hD : (0 : Int) < Fmt.f64.D := by exact_mod_cast Fmt.f64.D_pos
  have hDq : (0 : ℚ) < Fmt.f64.D := by exact_mod_cast Fmt.f64.D_pos
  unfold ratValue truncate cutLow cutHigh
  generalize (Fmt.f64.D : Nat) = N at *
  generalize x.toInt = t
  have c1 : ∀ a : Int, (t : ℚ) / N < a ↔ t < a * N := fun a => by rw [div_lt_iff₀ hDq]; exact_mod_cast Iff.rfl
  have c2 : ∀ a : Int, (t : ℚ) / N ≤ a ↔ t ≤ a * N := fun a => by rw [div_le_iff₀ hDq]; exact_mod_cast Iff.rfl
  have p1 : ((v : ℚ) + 1) = ((v + 1 : Int) : ℚ) := by push_cast; ring
  have p2 : ((v : ℚ) - 1) = ((v - 1 : Int) : ℚ) := by push_cast; ring
  rcases lt_trichotomy v 0 with hv | rfl | hv
  · simp only [if_pos hv, if_neg (show ¬ (0 < v) by omega)]
    rw [tdiv_neg_iff hD hv, p2, c2, c2, not_le, and_comm]
  · simp only [lt_irrefl, if_false]
    rw [tdiv_zero_iff hD, p1, p2, c1, c2, not_le, and_comm]
    simp
  · simp only [if_pos hv, if_neg (show ¬ (v < 0) by omega)]
    rw [tdiv_pos_iff hD hv, p1, c1, c1, not_lt, and_comm]

/-- The length of the part of the interval whose numbers become `v` when their fractional part is cut off -/
def cutLength (iv : Int × Int) (v : Int) : ℚ := min (cutHigh v) iv.2 - max (cutLow v) iv.1

/-- C103: if the draws are evenly spread over the interval of the gene, up to `δ` times its length, then the chance of a value is the part of the
interval whose numbers are cut to it, up to `2 δ` and one draw. -/
theorem C103_value (T : IntTy) (d : Draws) (m : Nat) (hm : 0 < m) (iv : Int × Int) (h : IntInterval T iv) (δ : ℚ)
    (he : Even m δ iv.1 iv.2 (fun k => ratValue (d.closedVal (toF64 iv.1) (toF64 iv.2) k))) (v : Int) (hlo : iv.1 ≤ v) (hhi : v ≤ iv.2) :
    |share m (fun k => intGeneOf d iv k = v) - cutLength iv v / (iv.2 - iv.1)| ≤ 2 * δ + 1 / m := by
  have hlt : (iv.1 : ℚ) < iv.2 := by exact_mod_cast h.2.1
  have hl : (0 : ℚ) < iv.2 - iv.1 := by linarith
  have hmq : (0 : ℚ) < 1 / m := by have : (0 : ℚ) < m := by exact_mod_cast hm
                                   positivity
  have q1 : (iv.1 : ℚ) ≤ v := by exact_mod_cast hlo
  have q2 : (v : ℚ) ≤ iv.2 := by exact_mod_cast hhi
  set val := fun k => ratValue (d.closedVal (toF64 iv.1) (toF64 iv.2) k) with hval
  have hr : ∀ k, (iv.1 : ℚ) ≤ val k ∧ val k ≤ iv.2 := by
    intro k
    obtain ⟨r1, r2⟩ := closed_facts T d h k
    obtain ⟨-, g1, g2⟩ := (intDraw_facts T h).2 _ r1 r2
    have hDq : (0 : ℚ) < Fmt.f64.D := by exact_mod_cast Fmt.f64.D_pos
    simp only [hval, ratValue]
    rw [le_div_iff₀ hDq, div_le_iff₀ hDq]
    exact ⟨by exact_mod_cast g1, by exact_mod_cast g2⟩
  have hδ : 0 ≤ δ := by
    have := (abs_nonneg _).trans (he 0 hm)
    by_contra h
    have := mul_neg_of_neg_of_pos (not_le.1 h) hl
    linarith
  have l1 : cutLow v ≤ v := by unfold cutLow; split <;> linarith
  have l2 : (v : ℚ) ≤ cutHigh v := by unfold cutHigh; split <;> linarith
  have l3 : cutLow v < cutHigh v := by
    unfold cutLow cutHigh
    split <;> split <;> first | linarith | (exfalso; omega)
  set B : Nat → Prop := fun k => if v < 0 then val k ≤ cutHigh v else val k < cutHigh v with hB
  set A : Nat → Prop := fun k => if 0 < v then val k < cutLow v else val k ≤ cutLow v with hA
  have hAB : ∀ k, k < m → A k → B k := by
    intro k _ ha
    have ha' : val k ≤ cutLow v := by
      simp only [hA] at ha
      split at ha
      · exact ha.le
      · exact ha
    simp only [hB]
    split <;> linarith
  have e : share m (fun k => intGeneOf d iv k = v) = share m B - share m A := by
    rw [← share_sub hm hAB]
    exact share_congr fun k _ => truncate_iff _ v
  have tB : (min (cutHigh v) iv.2 - iv.1) / (iv.2 - iv.1) - δ ≤ share m B ∧
      share m B ≤ (min (cutHigh v) iv.2 - iv.1) / (iv.2 - iv.1) + δ + 1 / m := by
    rcases le_total (cutHigh v) iv.2 with hc | hc
    · rw [min_eq_left hc]
      refine even_share hm hlt he (by linarith) hc ?_ ?_
      · intro k _ hk
        simp only [hB]
        split
        · exact hk.le
        · exact hk
      · intro k _ hk
        simp only [hB] at hk
        split at hk
        · exact hk
        · exact hk.le
    · rw [min_eq_right hc, div_self hl.ne']
      have hle : share m B ≤ 1 := by
        rw [← share_all hm (P := fun _ => True) fun _ _ => trivial]
        classical
        rw [share_eq, share_eq]
        refine div_le_div_of_nonneg_right (Nat.cast_le.2 (Finset.card_le_card fun k hk => ?_)) (by positivity)
        rw [Finset.mem_filter] at hk ⊢
        exact ⟨hk.1, trivial⟩
      refine ⟨?_, by linarith⟩
      have := (even_share hm hlt he hlt.le le_rfl (Q := fun k => val k < iv.2) (fun k _ hk => hk) (fun k _ hk => hk.le)).1
      rw [div_self hl.ne'] at this
      refine this.trans ?_
      classical
      rw [share_eq, share_eq]
      refine div_le_div_of_nonneg_right (Nat.cast_le.2 (Finset.card_le_card fun k hk => ?_)) (by positivity)
      rw [Finset.mem_filter] at hk ⊢
      refine ⟨hk.1, ?_⟩
      simp only [hB]
      have := hk.2
      split <;> linarith
  have tA : (max (cutLow v) iv.1 - iv.1) / (iv.2 - iv.1) - δ ≤ share m A ∧
      share m A ≤ (max (cutLow v) iv.1 - iv.1) / (iv.2 - iv.1) + δ + 1 / m := by
    rcases le_total (iv.1 : ℚ) (cutLow v) with hc | hc
    · rw [max_eq_left hc]
      refine even_share hm hlt he hc (by linarith) ?_ ?_
      · intro k _ hk
        simp only [hA]
        split
        · exact hk
        · exact hk.le
      · intro k _ hk
        simp only [hA] at hk
        split at hk
        · exact hk.le
        · exact hk
    · rw [max_eq_right hc, sub_self, zero_div]
      have h0 : 0 ≤ share m A := by
        classical
        rw [share_eq]
        exact div_nonneg (Nat.cast_nonneg _) (Nat.cast_nonneg _)
      refine ⟨by linarith, ?_⟩
      have := (even_share hm hlt he le_rfl hlt.le (Q := fun k => val k ≤ iv.1) (fun k _ hk => hk.le) (fun k _ hk => hk)).2
      rw [sub_self, zero_div] at this
      refine le_trans ?_ this
      classical
      rw [share_eq, share_eq]
      refine div_le_div_of_nonneg_right (Nat.cast_le.2 (Finset.card_le_card fun k hk => ?_)) (by positivity)
      rw [Finset.mem_filter] at hk ⊢
      refine ⟨hk.1, ?_⟩
      have hk2 : if 0 < v then val k < cutLow v else val k ≤ cutLow v := hk.2
      split at hk2 <;> linarith
  have hs : cutLength iv v / (iv.2 - iv.1) =
      (min (cutHigh v) iv.2 - iv.1) / (iv.2 - iv.1) - (max (cutLow v) iv.1 - iv.1) / (iv.2 - iv.1) := by
    unfold cutLength
    rw [← sub_div]
    congr 1
    ring
  rw [e, hs, abs_le]
  constructor <;> linarith [tA.1, tA.2, tB.1, tB.2]

theorem cutLength_inner {iv : Int × Int} {v : Int} (h1 : iv.1 ≤ v) (h2 : v < iv.2) (h3 : 0 < v ∨ v = 0 ∧ iv.1 = 0) : cutLength iv v = 1 := by
  have q1 : (iv.1 : ℚ) ≤ v := by exact_mod_cast h1
  have q2 : (v : ℚ) + 1 ≤ iv.2 := by exact_mod_cast h2
  unfold cutLength cutHigh cutLow
  rw [if_neg (show ¬ v < 0 by omega), min_eq_left q2]
  rcases h3 with h3 | ⟨h3, h4⟩
  · rw [if_pos h3, max_eq_left q1]; ring
  · rw [if_neg (show ¬ 0 < v by omega), max_eq_right (by rw [h3, h4]; norm_num), h3, h4]; norm_num

theorem cutLength_inner' {iv : Int × Int} {v : Int} (h1 : iv.1 < v) (h2 : v ≤ iv.2) (h3 : v < 0 ∨ v = 0 ∧ iv.2 = 0) : cutLength iv v = 1 := by
  have q1 : (iv.1 : ℚ) ≤ v - 1 := by have : iv.1 ≤ v - 1 := by omega
                                     exact_mod_cast this
  have q2 : (v : ℚ) ≤ iv.2 := by exact_mod_cast h2
  unfold cutLength cutHigh cutLow
  rw [if_neg (show ¬ 0 < v by omega), max_eq_left q1]
  rcases h3 with h3 | ⟨h3, h4⟩
  · rw [if_pos h3, min_eq_left q2]; ring
  · rw [if_neg (show ¬ v < 0 by omega), min_eq_right (by rw [h3, h4]; norm_num), h3, h4]; norm_num

/-- C103: except for 0 and the ends, the values of the interval are equally likely: one in its length `hi - lo`. -/
theorem C103_inner (T : IntTy) (d : Draws) (m : Nat) (hm : 0 < m) (iv : Int × Int) (h : IntInterval T iv) (δ : ℚ)
    (he : Even m δ iv.1 iv.2 (fun k => ratValue (d.closedVal (toF64 iv.1) (toF64 iv.2) k))) (v : Int) (hlo : iv.1 < v) (hhi : v < iv.2)
    (h0 : v ≠ 0) :
    |share m (fun k => intGeneOf d iv k = v) - 1 / (iv.2 - iv.1)| ≤ 2 * δ + 1 / m := by
  have e : cutLength iv v = 1 := by
    rcases lt_or_gt_of_ne h0 with h1 | h1
    · exact cutLength_inner' hlo hhi.le (.inl h1)
    · exact cutLength_inner hlo.le hhi (.inl h1)
  have := C103_value T d m hm iv h δ he v hlo.le hhi.le
  rwa [e] at this

/-- C103: the greatest value of an interval that ends above 0 almost never comes up, although the interval includes it. -/
theorem C103_last (T : IntTy) (d : Draws) (m : Nat) (hm : 0 < m) (iv : Int × Int) (h : IntInterval T iv) (δ : ℚ)
    (he : Even m δ iv.1 iv.2 (fun k => ratValue (d.closedVal (toF64 iv.1) (toF64 iv.2) k))) (hpos : 0 < iv.2) :
    share m (fun k => intGeneOf d iv k = iv.2) ≤ 2 * δ + 1 / m := by
  have e : cutLength iv iv.2 = 0 := by
    have q : (iv.1 : ℚ) ≤ iv.2 := by exact_mod_cast h.2.1.le
    unfold cutLength cutHigh cutLow
    rw [if_pos hpos, if_neg (by omega), min_eq_right (by linarith), max_eq_left q, sub_self]
  have := C103_value T d m hm iv h δ he iv.2 h.2.1.le le_rfl
  rw [e, zero_div, sub_zero] at this
  exact (le_abs_self _).trans this

/-- C103: the least value of an interval that begins below 0 alike. -/
theorem C103_first (T : IntTy) (d : Draws) (m : Nat) (hm : 0 < m) (iv : Int × Int) (h : IntInterval T iv) (δ : ℚ)
    (he : Even m δ iv.1 iv.2 (fun k => ratValue (d.closedVal (toF64 iv.1) (toF64 iv.2) k))) (hneg : iv.1 < 0) :
    share m (fun k => intGeneOf d iv k = iv.1) ≤ 2 * δ + 1 / m := by
  have e : cutLength iv iv.1 = 0 := by
    have q : (iv.1 : ℚ) ≤ iv.2 := by exact_mod_cast h.2.1.le
    unfold cutLength cutHigh cutLow
    rw [if_pos hneg, if_neg (by omega), min_eq_left q, max_eq_right (by linarith), sub_self]
  have := C103_value T d m hm iv h δ he iv.1 le_rfl h.2.1.le
  rw [e, zero_div, sub_zero] at this
  exact (le_abs_self _).trans this

/-- C103: inside an interval 0 is twice as likely as the other values. -/
theorem C103_zero (T : IntTy) (d : Draws) (m : Nat) (hm : 0 < m) (iv : Int × Int) (h : IntInterval T iv) (δ : ℚ)
    (he : Even m δ iv.1 iv.2 (fun k => ratValue (d.closedVal (toF64 iv.1) (toF64 iv.2) k))) (hneg : iv.1 < 0) (hpos : 0 < iv.2) :
    |share m (fun k => intGeneOf d iv k = 0) - 2 / (iv.2 - iv.1)| ≤ 2 * δ + 1 / m := by
  have e : cutLength iv 0 = 2 := by
    have q1 : (iv.1 : ℚ) ≤ -1 := by have : iv.1 ≤ -1 := by omega
                                    exact_mod_cast this
    have q2 : (1 : ℚ) ≤ iv.2 := by exact_mod_cast hpos
    unfold cutLength cutHigh cutLow
    rw [if_neg (by omega), if_neg (by omega), Int.cast_zero, min_eq_left (by linarith), max_eq_left (by linarith)]
    norm_num
  have := C103_value T d m hm iv h δ he 0 hneg.le hpos.le
  rwa [e] at this

/-- C103: the ends at which 0 is not cut to from both sides count as inner values: a first value from 0 on, a last value up to 0. -/
theorem C103_other_end (T : IntTy) (d : Draws) (m : Nat) (hm : 0 < m) (iv : Int × Int) (h : IntInterval T iv) (δ : ℚ)
    (he : Even m δ iv.1 iv.2 (fun k => ratValue (d.closedVal (toF64 iv.1) (toF64 iv.2) k))) :
    (0 ≤ iv.1 → |share m (fun k => intGeneOf d iv k = iv.1) - 1 / (iv.2 - iv.1)| ≤ 2 * δ + 1 / m) ∧
    (iv.2 ≤ 0 → |share m (fun k => intGeneOf d iv k = iv.2) - 1 / (iv.2 - iv.1)| ≤ 2 * δ + 1 / m) := by
  constructor
  · intro h0
    have := C103_value T d m hm iv h δ he iv.1 le_rfl h.2.1.le
    rwa [cutLength_inner le_rfl h.2.1 (by omega)] at this
  · intro h0
    have := C103_value T d m hm iv h δ he iv.2 h.2.1.le le_rfl
    rwa [cutLength_inner' h.2.1 le_rfl (by omega)] at this

/-! ### Examples -/

/-- The number, or the lower bound if it is not in the interval -/
def orLow {g : Fmt} (lo hi x : Fl g) : Fl g := if lo.le x = true ∧ x.le hi = true then x else lo

theorem orLow_range {g : Fmt} {lo hi x : Fl g} (h1 : lo.le hi = true) (h2 : lo.isFinite = true) :
    lo.le (orLow lo hi x) = true ∧ (orLow lo hi x).le hi = true := by
  unfold orLow
  split
  · next h => exact h
  · exact ⟨Fl.le_refl (Fl.isNan_of_isFinite h2), h1⟩

/-- Four draws from the interval from -1 to 1 (the lower bound from every other interval) -/
def quarters : Draws where
  openVal lo _ _ := lo
  closedVal {g} lo hi k := orLow lo hi (match k % 4 with
    | 1 => Fl.ofRat true 1 2
    | 2 => Fl.zero
    | 3 => Fl.ofRat false 1 2
    | _ => lo)
  open_range lo hi k h1 h2 _ := ⟨Fl.le_refl (Fl.isNan_of_isFinite h2), h1⟩
  closed_range lo hi k h1 h2 _ := orLow_range h1 h2

/-- They are spread evenly: -1, -1/2, 0 and 1/2. -/
theorem quarters_even : Even 4 0 ((-1 : Int) : ℚ) ((1 : Int) : ℚ) (fun k => ratValue (quarters.closedVal (toF64 (-1)) (toF64 1) k)) := by
  have hD : (0 : ℚ) < Fmt.f64.D := by exact_mod_cast Fmt.f64.D_pos
  have key : ∀ k, k < 4 → 2 * (quarters.closedVal (toF64 (-1)) (toF64 1) k).toInt = (k - 2) * Fmt.f64.D := by decide +kernel
  intro k hk
  have h := key k hk
  have hq : 2 * ((quarters.closedVal (toF64 (-1)) (toF64 1) k).toInt : ℚ) = (k - 2) * Fmt.f64.D := by exact_mod_cast h
  have e : ratValue (quarters.closedVal (toF64 (-1)) (toF64 1) k) = (k - 2) / 2 := by
    unfold ratValue
    rw [div_eq_div_iff hD.ne' (by norm_num)]
    linarith
  show |ratValue (quarters.closedVal (toF64 (-1)) (toF64 1) k) - _| ≤ _
  rw [e]
  push_cast
  rw [show ((k : ℚ) - 2) / 2 - (-1 + (1 - -1) * (k / 4)) = 0 by ring]
  norm_num

example : IntInterval i32 (-1, 1) := by decide

/-- C103: the values of an interval are not equally likely: 0 is drawn from [-1, 1] three times out of four, -1 once, 1 not at all. -/
theorem C103_unequal_witness : (List.range 4).map (intGeneOf quarters (-1, 1)) = [-1, 0, 0, 0] := by decide +kernel

end Verif.Props
