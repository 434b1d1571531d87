import Verif.Model.StopChecker
import Verif.Model.Swarm
import Verif.IEEE.Algebra
import Verif.IEEE.More

/-!
# `GoalNotChange` cannot go on for ever on a goal that never gets worse
-/

namespace Verif.Stop

open Verif

variable {T : Type}

/-- The goal `v` differs from `o` by more than `d`. -/
def differs (d o v : F64) : Bool := d.lt (v.sub o).abs

theorem goalNotChange_false {p : Profile} {s : AlgState T} {t t' : GNC} {x : T} {v : F64}
    (hb : s.best = some (x, v)) (h : goalNotChange p s t = .ok (false, t')) :
    (differs t.delta t.oldGoal v = true ∧ t' = { t with oldGoal := v, changeIter := s.iteration }) ∨
    (differs t.delta t.oldGoal v = false ∧ t' = t ∧ s.iteration ≤ t.changeIter + t.maxIter) := by
  unfold goalNotChange at h
  rw [hb] at h
  simp only at h
  obtain ⟨c, t1, h1, h⟩ := M.bind_eq_ok.1 h
  cases h1
  obtain ⟨u, t2, h2, h⟩ := M.bind_eq_ok.1 h
  cases h2
  obtain ⟨d, t3, h3, h⟩ := M.bind_eq_ok.1 h
  obtain ⟨hd, rfl⟩ := M.ofExcept_eq_ok.1 h3
  obtain ⟨h4, rfl⟩ := M.pure_eq_ok.1 h
  simp only [decide_eq_false_iff_not, Nat.not_lt] at h4
  cases hn : differs t.delta t.oldGoal v with
  | true =>
    left
    unfold differs at hn
    exact ⟨rfl, by rw [if_pos hn]⟩
  | false =>
    right
    unfold differs at hn
    rw [if_neg (by simp [hn])] at hd h4 ⊢
    refine ⟨rfl, rfl, ?_⟩
    unfold usizeSub at hd
    split at hd
    · cases hd; omega
    · omega

/-- `κ v o` bounds the number of times a goal that is `v` now and `o` at its last change can still change. -/
structure Counts (d : F64) (better : F64 → F64 → Prop) (Val Old : F64 → Prop) (κ : F64 → F64 → Nat) : Prop where
  old : ∀ v, Val v → Old v
  change : ∀ v v' o, Val v → Val v' → Old o → better v' v → differs d o v = true → κ v' v + 1 ≤ κ v o
  calm : ∀ v v' o, Val v → Val v' → Old o → better v' v → differs d o v = false → κ v' o ≤ κ v o

/-- A bound on the number of further consultations. -/
def potential (κ : F64 → F64 → Nat) (t : GNC) (v : F64) (i : Nat) : Nat :=
  κ v t.oldGoal * (t.maxIter + 1) + if differs t.delta t.oldGoal v = true then 0 else t.changeIter + t.maxIter + 1 - i

theorem Counts.decreases {d : F64} {better : F64 → F64 → Prop} {Val Old : F64 → Prop} {κ : F64 → F64 → Nat}
    (hk : Counts d better Val Old κ) {p : Profile} {s : AlgState T} {t t' : GNC} {x : T} {v v' : F64}
    (hd : t.delta = d) (hb : s.best = some (x, v)) (hv : Val v) (hv' : Val v') (ho : Old t.oldGoal) (hbt : better v' v)
    (h : goalNotChange p s t = .ok (false, t')) :
    t'.delta = d ∧ t'.maxIter = t.maxIter ∧ Old t'.oldGoal ∧
      potential κ t' v' (s.iteration + 1) < potential κ t v s.iteration := by
  rcases goalNotChange_false hb h with ⟨h1, rfl⟩ | ⟨h1, rfl, h2⟩
  · refine ⟨hd, rfl, hk.old v hv, ?_⟩
    have h3 := hk.change v v' t.oldGoal hv hv' ho hbt (hd ▸ h1)
    unfold potential
    rw [if_pos h1]
    simp only
    have h4 := Nat.mul_le_mul_right (t.maxIter + 1) h3
    rw [Nat.add_mul, Nat.one_mul] at h4
    split <;> omega
  · refine ⟨hd, rfl, ho, ?_⟩
    have h3 := hk.calm v v' t'.oldGoal hv hv' ho hbt (hd ▸ h1)
    have h4 := Nat.mul_le_mul_right (t'.maxIter + 1) h3
    have h5 : potential κ t' v s.iteration =
        κ v t'.oldGoal * (t'.maxIter + 1) + (t'.changeIter + t'.maxIter + 1 - s.iteration) := by
      unfold potential; rw [h1]; rfl
    rw [h5]
    unfold potential
    split <;> omega

/-! ## Counting by ranks -/

/-- The place of a goal value in the order of the swarm: finite values by size, all others after them. -/
def rank (v : F64) : Nat :=
  if v.isFinite = true then (if v.sgn = true then Fmt.f64.infIdx - v.idx else Fmt.f64.infIdx + v.idx)
  else 2 * Fmt.f64.infIdx

theorem rank_lt_pow (v : F64) : rank v + 1 < 2 ^ 64 := by
  have h : Fmt.f64.infIdx = 2047 * 2 ^ 52 := by decide +kernel
  unfold rank
  split
  · rename_i hf
    rw [Fl.isFinite_iff] at hf
    split <;> omega
  · omega

theorem rank_lt_of_toInt {x y : F64} (hx : x.isFinite = true) (hy : y.isFinite = true) (h : x.toInt < y.toInt) :
    rank x < rank y := by
  unfold rank
  rw [if_pos hx, if_pos hy]
  rw [Fl.isFinite_iff] at hx hy
  unfold Fl.toInt at h
  cases sx : x.sgn <;> cases sy : y.sgn <;> rw [sx, sy] at h <;>
    simp only [Bool.false_eq_true, ↓reduceIte] at h ⊢
  · have : Fmt.f64.mag x.idx < Fmt.f64.mag y.idx := by omega
    rw [Fmt.mag_lt_mag] at this
    omega
  · have h1 : (0 : Int) ≤ Fmt.f64.mag x.idx := by positivity
    have h2 : (0 : Int) ≤ Fmt.f64.mag y.idx := by positivity
    omega
  · by_cases h0 : x.idx = 0
    · have : y.idx ≠ 0 := by intro h1; rw [h0, h1] at h; simp at h
      omega
    · omega
  · have : Fmt.f64.mag y.idx < Fmt.f64.mag x.idx := by omega
    rw [Fmt.mag_lt_mag] at this
    omega

/-- The same value, or a better one in the order of the swarm. -/
def Better (v' v : F64) : Prop := v' = v ∨ PSO.compareFloats v' v = .lt

theorem compareFloats_lt {x y : F64} (h : PSO.compareFloats x y = .lt) :
    x.isFinite = true ∧ (y.isFinite = true → x.toInt < y.toInt) := by
  unfold PSO.compareFloats at h
  cases hx : x.isFinite <;> cases hy : y.isFinite <;> rw [hx, hy] at h
  · simp at h
  · simp at h
  · exact ⟨rfl, fun h => by cases h⟩
  · refine ⟨rfl, fun _ => ?_⟩
    simp only [Bool.not_true, Bool.and_self, Bool.and_false, Bool.and_true, Bool.false_eq_true, ↓reduceIte] at h
    split at h
    · cases h
    · split at h
      · rename_i h2; exact (Fl.lt_iff.1 h2).2.2
      · cases h

theorem rank_lt_of_compare {x y : F64} (h : PSO.compareFloats x y = .lt) : rank x < rank y := by
  obtain ⟨hx, hy⟩ := compareFloats_lt h
  cases hf : y.isFinite with
  | true => exact rank_lt_of_toInt hx hf (hy hf)
  | false =>
    have e : rank y = 2 * Fmt.f64.infIdx := by unfold rank; exact if_neg (by rw [hf]; simp)
    rw [e]
    unfold rank
    rw [if_pos hx]
    rw [Fl.isFinite_iff] at hx
    have : 0 < Fmt.f64.infIdx := Fmt.f64.infIdx_pos
    split <;> omega

/-- A value does not differ from itself. -/
theorem differs_self {d : F64} (hd : d.lt Fl.zero = false) (v : F64) : differs d v v = false := by
  unfold differs
  rw [Bool.eq_false_iff]
  intro h
  obtain ⟨h1, h2, h3⟩ := Fl.lt_iff.1 h
  have hd' : 0 ≤ d.toInt := by
    by_contra hc
    have : d.lt Fl.zero = true := Fl.lt_iff.2 ⟨h1, Fl.isNan_zero, by
      rw [Fl.toInt_eq_zero.2 Fl.idx_zero]; omega⟩
    rw [this] at hd; cases hd
  rw [Fl.isNan_abs] at h2
  rw [Fl.toInt_abs] at h3
  cases hf : v.isFinite with
  | true =>
    have := (Fl.sub_rounds hf hf).2
    rw [sub_self, Fmt.rnd_zero] at this
    omega
  | false =>
    rcases Fl.isFinite_false_cases hf with hn | hi
    · unfold Fl.sub at h2
      rw [Fl.isNan_add_left _ _ hn, Fl.isNan_nan] at h2
      cases h2
    · have hn : v.isNan = false := by rw [Fl.not_isNan_iff, Fl.isInf_iff.1 hi]
      unfold Fl.sub Fl.add at h2
      simp only [hn, Fl.isNan_neg, Bool.or_self, hi, Fl.isInf_neg, Fl.sgn_neg, Bool.true_and, Bool.false_eq_true,
        ↓reduceIte] at h2
      rw [if_pos (by cases v.sgn <;> rfl), Fl.isNan_nan] at h2
      cases h2

theorem counts_rank {d : F64} (hd : d.lt Fl.zero = false) :
    Counts d Better (fun _ => True) (fun _ => True) (fun v o => rank v + if differs d o v = true then 1 else 0) := by
  refine ⟨fun _ _ => trivial, ?_, ?_⟩
  · rintro v v' o - - - hb hn
    rw [if_pos hn]
    rcases hb with rfl | hb
    · rw [if_neg (by rw [differs_self hd]; simp)]
    · have := rank_lt_of_compare hb
      split <;> omega
  · rintro v v' o - - - hb hn
    rcases hb with rfl | hb
    · exact Nat.le_refl _
    · have := rank_lt_of_compare hb
      split <;> split <;> omega

theorem potential_rank_le (t : GNC) (v : F64) (i : Nat) :
    potential (fun v o => rank v + if differs t.delta o v = true then 1 else 0) t v i ≤
      2 ^ 64 * (t.maxIter + 1) + t.changeIter := by
  have h1 := rank_lt_pow v
  unfold potential
  simp only
  generalize rank v = r at h1 ⊢
  generalize t.maxIter = m
  generalize t.changeIter = c
  have e : (2 : Nat) ^ 64 * (m + 1) = (2 ^ 64 - 1) * (m + 1) + (m + 1) := by omega
  cases differs t.delta t.oldGoal v with
  | true =>
    simp only [↓reduceIte]
    have h3 : (r + 1) * (m + 1) ≤ 2 ^ 64 * (m + 1) := Nat.mul_le_mul_right _ (by omega)
    omega
  | false =>
    simp only [Bool.false_eq_true, ↓reduceIte]
    have h3 : (r + 0) * (m + 1) ≤ (2 ^ 64 - 1) * (m + 1) := Nat.mul_le_mul_right _ (by omega)
    omega

/-! ## Counting by the distance covered -/

theorem differs_toInt {d o v : F64} : differs d o v = true → d.isNan = false ∧ d.toInt < ((v.sub o).toInt.natAbs : Int) := by
  intro h
  obtain ⟨h1, h2, h3⟩ := Fl.lt_iff.1 h
  rw [Fl.toInt_abs] at h3
  exact ⟨h1, h3⟩

/-- A smaller goal that differs, seen from one that does not exceed the old goal by much. -/
theorem below_of_differs {d o v v' : F64} (hd : d.isNan = false) (ho : o.isFinite = true) (hv : v.isFinite = true)
    (hv' : v'.isFinite = true) (hle : v'.toInt ≤ v.toInt) (hs : (v.sub o).toInt ≤ d.toInt) (h : differs d o v' = true) :
    d.toInt < o.toInt - v'.toInt := by
  obtain ⟨-, h3⟩ := differs_toInt h
  have r1 := Fl.sub_rounds hv ho
  have r2 := Fl.sub_rounds hv' ho
  have h4 : (v'.sub o).toInt ≤ (v.sub o).toInt := by
    rw [r1.2, r2.2]
    apply Fmt.rnd_mono
    have : (v'.toInt : ℝ) ≤ v.toInt := by exact_mod_cast hle
    linarith
  have h5 : d.toInt < -(v'.sub o).toInt := by omega
  by_contra hc
  have h6 : (o.toInt : ℝ) - v'.toInt ≤ d.toInt := by exact_mod_cast Int.not_lt.1 hc
  have h7 := Fmt.f64.rnd_mono h6
  rw [Fl.rnd_toInt hd] at h7
  have h8 : Fmt.f64.rnd ((o.toInt : ℝ) - v'.toInt) = -(v'.sub o).toInt := by
    rw [show (o.toInt : ℝ) - v'.toInt = -((v'.toInt : ℝ) - o.toInt) by ring, Fmt.rnd_neg, ← r2.2]
  omega

theorem Better.toInt_le {v' v : F64} (h : Better v' v) (hv : v.isFinite = true) : v'.toInt ≤ v.toInt := by
  rcases h with rfl | h
  · exact Int.le_refl _
  · exact Int.le_of_lt ((compareFloats_lt h).2 hv)

/-- At most the old value, if that was finite. -/
def NotWorse (v' v : F64) : Prop := v.isFinite = true → v'.toInt ≤ v.toInt

theorem Counts.mono {d : F64} {b b' : F64 → F64 → Prop} {Val Old : F64 → Prop} {κ : F64 → F64 → Nat}
    (h : Counts d b Val Old κ) (hb : ∀ v v', b' v' v → b v' v) : Counts d b' Val Old κ :=
  ⟨h.old, fun v v' o h1 h2 h3 h4 => h.change v v' o h1 h2 h3 (hb _ _ h4),
    fun v v' o h1 h2 h3 h4 => h.calm v v' o h1 h2 h3 (hb _ _ h4)⟩

theorem counts_rank_finite {d : F64} (hd : d.lt Fl.zero = false) :
    Counts d NotWorse (fun v => v.isFinite = true) (fun _ => True)
      (fun v o => rank v + if differs d o v = true then 1 else 0) := by
  have eqr : ∀ v v' : F64, v.isFinite = true → v'.isFinite = true → v'.toInt = v.toInt → rank v' ≤ rank v := by
    intro v v' hv hv' h
    unfold rank
    rw [if_pos hv, if_pos hv']
    unfold Fl.toInt at h
    cases sx : v'.sgn <;> cases sy : v.sgn <;> rw [sx, sy] at h <;>
      simp only [Bool.false_eq_true, ↓reduceIte] at h ⊢
    · have : Fmt.f64.mag v'.idx ≤ Fmt.f64.mag v.idx := by omega
      rw [Fmt.mag_le_mag] at this; omega
    · have h2 : Fmt.f64.mag v'.idx = 0 := by omega
      have h3 : Fmt.f64.mag v.idx = 0 := by omega
      rw [Fmt.mag_eq_zero] at h2 h3
      omega
    · omega
    · have : Fmt.f64.mag v.idx ≤ Fmt.f64.mag v'.idx := by omega
      rw [Fmt.mag_le_mag] at this; omega
  have same : ∀ v v' : F64, v.isFinite = true → v'.isFinite = true → v'.toInt = v.toInt → differs d v v' = false := by
    intro v v' hv hv' h
    have h1 := differs_self hd v
    unfold differs at h1 ⊢
    rw [Bool.eq_false_iff] at h1 ⊢
    intro h2
    apply h1
    obtain ⟨a1, a2, a3⟩ := Fl.lt_iff.1 h2
    refine Fl.lt_iff.2 ⟨a1, by rw [Fl.isNan_abs]; exact (Fl.sub_rounds hv hv).1, ?_⟩
    rw [Fl.toInt_abs] at a3 ⊢
    rw [(Fl.sub_rounds hv hv).2]
    rw [(Fl.sub_rounds hv' hv).2, h] at a3
    exact a3
  refine ⟨fun _ _ => trivial, ?_, ?_⟩
  · rintro v v' o hv hv' - hb hn
    rw [if_pos hn]
    rcases Int.lt_or_eq_of_le (hb hv) with h | h
    · have := rank_lt_of_toInt hv' hv h
      split <;> omega
    · rw [same v v' hv hv' h]
      have := eqr v v' hv hv' h
      simp only [Bool.false_eq_true, ↓reduceIte]
      omega
  · rintro v v' o hv hv' - hb hn
    rcases Int.lt_or_eq_of_le (hb hv) with h | h
    · have := rank_lt_of_toInt hv' hv h
      split <;> split <;> omega
    · have h1 := eqr v v' hv hv' h
      have : differs d o v' = false := by
        unfold differs at hn ⊢
        cases hf : o.isFinite with
        | true =>
          rw [Bool.eq_false_iff] at hn ⊢
          intro h2
          apply hn
          obtain ⟨a1, a2, a3⟩ := Fl.lt_iff.1 h2
          refine Fl.lt_iff.2 ⟨a1, by rw [Fl.isNan_abs]; exact (Fl.sub_rounds hv hf).1, ?_⟩
          rw [Fl.toInt_abs] at a3 ⊢
          rw [(Fl.sub_rounds hv hf).2]
          rw [(Fl.sub_rounds hv' hf).2, h] at a3
          exact a3
        | false =>
          have e : ∀ x : F64, x.isFinite = true → x.sub o = if o.isNan = true then Fl.nan else o.neg := by
            intro x hx
            have hxn := Fl.isNan_of_isFinite hx
            have hxi : x.isInf = false := by
              rw [Bool.eq_false_iff]; intro hi
              rw [Fl.isFinite_iff] at hx
              have := Fl.isInf_iff.1 hi
              omega
            unfold Fl.sub Fl.add
            rw [Fl.isNan_neg, hxn, hxi, Fl.isInf_neg]
            rcases Fl.isFinite_false_cases hf with hn | hi
            · rw [hn]; rfl
            · have hn : o.isNan = false := by rw [Fl.not_isNan_iff, Fl.isInf_iff.1 hi]
              rw [hn, hi]; rfl
          rw [e v hv] at hn
          rw [e v' hv']
          exact hn
      rw [this, hn]
      omega

theorem counts_distance {d : F64} (hd : d.isNan = false) (hpos : 0 < d.toInt) (lo : Int) :
    Counts d NotWorse (fun v => v.isFinite = true ∧ lo ≤ v.toInt) (fun o => o.isFinite = true)
      (fun v o => if differs d o v = true then ((v.toInt - lo) / d.toInt).toNat + 1
        else ((min o.toInt (v.toInt + d.toInt) - lo) / d.toInt).toNat) := by
  -- one more step of `d`
  have key : ∀ a b : Int, lo ≤ a → a + d.toInt ≤ b →
      ((a - lo) / d.toInt).toNat + 1 ≤ ((b - lo) / d.toInt).toNat := by
    intro a b h1 h2
    have h3 : (a - lo) / d.toInt + 1 ≤ (b - lo) / d.toInt := by
      have h5 : (a - lo + d.toInt) / d.toInt ≤ (b - lo) / d.toInt := Int.ediv_le_ediv hpos (by omega)
      rw [Int.add_ediv_of_dvd_right (Int.dvd_refl _), Int.ediv_self (by omega)] at h5
      exact h5
    have h4 : 0 ≤ (a - lo) / d.toInt := Int.ediv_nonneg (by omega) (by omega)
    omega
  have mono : ∀ a b : Int, a ≤ b → ((a - lo) / d.toInt).toNat ≤ ((b - lo) / d.toInt).toNat := by
    intro a b h
    have : (a - lo) / d.toInt ≤ (b - lo) / d.toInt := Int.ediv_le_ediv hpos (by omega)
    omega
  refine ⟨fun v h => h.1, ?_, ?_⟩
  · rintro v v' o ⟨hv, hlo⟩ ⟨hv', hlo'⟩ ho hb hn
    rw [if_pos hn]
    have hle := hb hv
    cases hn' : differs d v v' with
    | true =>
      have h0 : (v.sub v).toInt ≤ d.toInt := by
        rw [(Fl.sub_rounds hv hv).2, sub_self, Fmt.rnd_zero]; omega
      have := below_of_differs hd hv hv hv' hle h0 hn'
      have := key v'.toInt v.toInt hlo' (by omega)
      simp only [↓reduceIte]
      omega
    | false =>
      have := mono (min v.toInt (v'.toInt + d.toInt)) v.toInt (min_le_left _ _)
      simp only [Bool.false_eq_true, ↓reduceIte]
      omega
  · rintro v v' o ⟨hv, hlo⟩ ⟨hv', hlo'⟩ ho hb hn
    rw [hn]
    have hle := hb hv
    simp only [Bool.false_eq_true, ↓reduceIte]
    cases hn' : differs d o v' with
    | true =>
      have h0 : (v.sub o).toInt ≤ d.toInt := by
        by_contra hc
        have : differs d o v = true := Fl.lt_iff.2 ⟨hd, by rw [Fl.isNan_abs]; exact (Fl.sub_rounds hv ho).1, by
          rw [Fl.toInt_abs]; omega⟩
        rw [this] at hn; cases hn
      have := below_of_differs hd ho hv hv' hle h0 hn'
      simp only [↓reduceIte]
      exact key v'.toInt _ hlo' (le_min (by omega) (by omega))
    | false =>
      simp only [Bool.false_eq_true, ↓reduceIte]
      exact mono _ _ (min_le_min_left _ (by omega))

theorem potential_distance_le (t : GNC) (v : F64) (i : Nat) (lo hi : Int) (hpos : 0 < t.delta.toInt) (h1 : lo ≤ v.toInt)
    (h2 : v.toInt ≤ hi) :
    potential (fun v o => if differs t.delta o v = true then ((v.toInt - lo) / t.delta.toInt).toNat + 1
        else ((min o.toInt (v.toInt + t.delta.toInt) - lo) / t.delta.toInt).toNat) t v i ≤
      (((hi - lo) / t.delta.toInt).toNat + 2) * (t.maxIter + 1) + t.changeIter := by
  unfold potential
  simp only
  generalize t.maxIter = m
  generalize t.changeIter = c
  have k1 : (v.toInt - lo) / t.delta.toInt ≤ (hi - lo) / t.delta.toInt := Int.ediv_le_ediv hpos (by omega)
  generalize (hi - lo) / t.delta.toInt = K at k1 ⊢
  have e : (K.toNat + 2) * (m + 1) = (K.toNat + 1) * (m + 1) + (m + 1) := by ring
  cases differs t.delta t.oldGoal v with
  | true =>
    simp only [↓reduceIte]
    have : ((v.toInt - lo) / t.delta.toInt).toNat + 1 ≤ K.toNat + 1 := by omega
    have := Nat.mul_le_mul_right (m + 1) this
    omega
  | false =>
    simp only [Bool.false_eq_true, ↓reduceIte]
    have h5 : (min t.oldGoal.toInt (v.toInt + t.delta.toInt) - lo) / t.delta.toInt ≤
        (v.toInt - lo + t.delta.toInt) / t.delta.toInt := Int.ediv_le_ediv hpos (by
      have := min_le_right t.oldGoal.toInt (v.toInt + t.delta.toInt)
      omega)
    rw [Int.add_ediv_of_dvd_right (Int.dvd_refl _), Int.ediv_self (by omega)] at h5
    generalize (min t.oldGoal.toInt (v.toInt + t.delta.toInt) - lo) / t.delta.toInt = A at h5 ⊢
    have h0 : 0 ≤ (v.toInt - lo) / t.delta.toInt := Int.ediv_nonneg (by omega) (by omega)
    have : A.toNat ≤ K.toNat + 1 := by omega
    have := Nat.mul_le_mul_right (m + 1) this
    omega

end Verif.Stop
