import Verif.Proofs.MirrorFloat
import Verif.Proofs.RankSwarm
import Verif.Model.Hooks

/-!
# Swarms in mirrored, shifted or scaled coordinates
-/

namespace Verif.Mirror

open Verif Rank Spec.Rank Spec.Mirror
open Verif.PSO (Particle)

variable {σ α β W W' : Type} {P V : Nat → α → β → Prop}

theorem length_eq : ∀ {i : Nat} {xs : List α} {ys : List β}, Points P i xs ys → xs.length = ys.length
  | _, [], [], _ => rfl
  | _, _ :: _, _ :: _, h => congrArg (· + 1) (length_eq h.2)
  | _, [], _ :: _, h => h.elim
  | _, _ :: _, [], h => h.elim

theorem index {R : W → W' → Prop} : ∀ {i : Nat} {xs : List α} {ys : List β}, Points P i xs ys → ∀ n,
    Alike R (P (i + n)) (M.index xs n) (M.index ys n)
  | _, [], [], _, _ => Rank.fail _
  | _, _ :: _, _ :: _, h, 0 => Rank.pure h.1
  | i, x :: xs, y :: ys, h, n + 1 => by
    have := index (R := R) h.2 n
    rw [show i + 1 + n = i + (n + 1) by omega] at this
    exact this
  | _, [], _ :: _, h, _ => h.elim
  | _, _ :: _, [], h, _ => h.elim

theorem index0 {R : W → W' → Prop} {xs : List α} {ys : List β} (h : Points P 0 xs ys) (n : Nat) :
    Alike R (P n) (M.index xs n) (M.index ys n) := by
  have := index (R := R) h n
  rwa [Nat.zero_add] at this

theorem zipWith [FloatT α] [FloatT β] (h : ∀ i x x' v v', P i x x' → V i v v' → P i (FloatT.add x v) (FloatT.add x' v')) :
    ∀ (i : Nat) (xs : List α) (xs' : List β) (vs : List α) (vs' : List β), Points P i xs xs' → Points V i vs vs' →
      Points P i (List.zipWith FloatT.add xs vs) (List.zipWith FloatT.add xs' vs')
  | _, [], [], _, _, _, _ => by simp only [List.zipWith_nil_left]; trivial
  | _, _ :: _, _ :: _, [], [], _, _ => trivial
  | i, x :: xs, x' :: xs', v :: vs, v' :: vs', h1, h2 => ⟨h _ _ _ _ _ h1.1 h2.1, zipWith h (i + 1) xs xs' vs vs' h1.2 h2.2⟩
  | _, [], _ :: _, _, _, h, _ => h.elim
  | _, _ :: _, [], _, _, h, _ => h.elim
  | _, _ :: _, _ :: _, [], _ :: _, _, h => h.elim
  | _, _ :: _, _ :: _, _ :: _, [], _, h => h.elim

theorem mapL_range' {R : W → W' → Prop} {f : Nat → M W α} {g : Nat → M W' β} (h : ∀ i, Alike R (V i) (f i) (g i)) :
    ∀ k n, Alike R (Points V k) (M.mapL f (List.range' k n)) (M.mapL g (List.range' k n))
  | _, 0 => Rank.pure trivial
  | k, n + 1 => Rank.bind (h k) fun _ _ h1 => Rank.bind (mapL_range' h (k + 1) n) fun _ _ h2 => Rank.pure ⟨h1, h2⟩

theorem mapL_range {R : W → W' → Prop} {f : Nat → M W α} {g : Nat → M W' β} (h : ∀ i, Alike R (V i) (f i) (g i)) (n : Nat) :
    Alike R (Points V 0) (M.mapL f (List.range n)) (M.mapL g (List.range n)) := by
  rw [List.range_eq_range']; exact mapL_range' h 0 n

/-- What the velocity formulas need of the relations -/
structure Directions [FloatT α] (P V : Nat → α → α → Prop) : Prop where
  diff : ∀ i x x' y y', P i x x' → P i y y' → V i (FloatT.sub x y) (FloatT.sub x' y')
  add : ∀ i x x' y y', V i x x' → V i y y' → V i (FloatT.add x y) (FloatT.add x' y')
  sub : ∀ i x x' y y', V i x x' → V i y y' → V i (FloatT.sub x y) (FloatT.sub x' y')
  mul : ∀ i c x x', V i x x' → V i (FloatT.mul c x) (FloatT.mul c x')
  move : ∀ i x x' v v', P i x x' → V i v v' → P i (FloatT.add x v) (FloatT.add x' v')

section

variable [FloatT α] {P V : Nat → α → α → Prop} {Q : F64 → F64 → Prop}

theorem moves (D : Directions P V) : Moves (Points P 0) (Points V 0) := zipWith D.move 0

theorem pull (D : Directions P V) {i : Nat} {t t' x x' : α} (phi r : α) (ht : P i t t') (hx : P i x x') :
    V i (Velocity.pull phi r t x) (Velocity.pull phi r t' x') := D.mul _ _ _ _ (D.diff _ _ _ _ _ ht hx)

theorem classic (D : Directions P V) (R : Rng σ) (phiP phiG : α) :
    Calcs (Points P 0) (Points V 0) Q (Velocity.classic R phiP phiG) (Velocity.classic R phiP phiG) := by
  intro s s' p p' hs hp
  refine bind (unwrap hs.best) fun g g' hg => ?_
  rw [length_eq hp.coordinates]
  refine mapL_range (fun i => ?_) _
  refine bind (Rank.refl _) ?_
  rintro rP _ rfl
  refine bind (Rank.refl _) ?_
  rintro rG _ rfl
  exact bind (index0 hp.velocity i) fun v v' hv => bind (index0 hp.bestCoords i) fun b b' hb =>
    bind (index0 hp.coordinates i) fun x x' hx => bind (index0 hg.coordinates i) fun y y' hy =>
      Rank.pure (D.add _ _ _ _ _ (D.add _ _ _ _ _ hv (pull D _ _ hb hx)) (pull D _ _ hy hx))

theorem canonical (D : Directions P V) (R : Rng σ) (c : Velocity.Canonical α) :
    Calcs (Points P 0) (Points V 0) Q (Velocity.canonical R c) (Velocity.canonical R c) := by
  intro s s' p p' hs hp
  refine bind (unwrap hs.best) fun g g' hg => ?_
  rw [length_eq hp.coordinates]
  refine mapL_range (fun i => ?_) _
  refine bind (Rank.refl _) ?_
  rintro rP _ rfl
  refine bind (Rank.refl _) ?_
  rintro rG _ rfl
  exact bind (index0 hp.velocity i) fun v v' hv => bind (index0 hp.bestCoords i) fun b b' hb =>
    bind (index0 hp.coordinates i) fun x x' hx => bind (index0 hg.coordinates i) fun y y' hy =>
      Rank.pure (D.mul _ _ _ _ (D.add _ _ _ _ _ (D.add _ _ _ _ _ hv (pull D _ _ hb hx)) (pull D _ _ hy hx)))

theorem inertia (D : Directions P V) (R : Rng σ) (phiP phiG : α) (w : Nat → M σ α) :
    Calcs (Points P 0) (Points V 0) Q (Velocity.inertia R phiP phiG w) (Velocity.inertia R phiP phiG w) := by
  intro s s' p p' hs hp
  refine bind (unwrap hs.best) fun g g' hg => ?_
  rw [hs.iteration]
  refine bind (Rank.refl _) ?_
  rintro c _ rfl
  rw [length_eq hp.coordinates]
  refine mapL_range (fun i => ?_) _
  refine bind (Rank.refl _) ?_
  rintro rP _ rfl
  refine bind (Rank.refl _) ?_
  rintro rG _ rfl
  exact bind (index0 hp.velocity i) fun v v' hv => bind (index0 hp.bestCoords i) fun b b' hb =>
    bind (index0 hp.coordinates i) fun x x' hx => bind (index0 hg.coordinates i) fun y y' hy =>
      Rank.pure (D.add _ _ _ _ _ (D.add _ _ _ _ _ (D.mul _ _ _ _ hv) (pull D _ _ hb hx)) (pull D _ _ hy hx))

theorem negReinf (D : Directions P V) (hQ : SameOrder Q) (R : Rng σ) (c : Velocity.NegReinf α) :
    Calcs (Points P 0) (Points V 0) Q (Velocity.negReinf R c) (Velocity.negReinf R c) := by
  intro s s' p p' hs hp
  refine bind (unwrap hs.best) fun bg bg' hbg => bind (unwrap (RankPSO.findBest hQ hs.particles)) fun bc bc' hbc =>
    bind (unwrap hs.worst) fun wg wg' hwg => bind (unwrap (RankPSO.findWorst hQ hs.particles)) fun wc wc' hwc => ?_
  rw [length_eq hp.coordinates]
  refine mapL_range (fun i => ?_) _
  refine bind (Rank.refl _) ?_
  rintro r1 _ rfl
  refine bind (Rank.refl _) ?_
  rintro r2 _ rfl
  refine bind (Rank.refl _) ?_
  rintro r3 _ rfl
  refine bind (Rank.refl _) ?_
  rintro r4 _ rfl
  refine bind (Rank.refl _) ?_
  rintro r5 _ rfl
  refine bind (Rank.refl _) ?_
  rintro r6 _ rfl
  exact bind (index0 hp.bestCoords i) fun _ _ h1 => bind (index0 hp.coordinates i) fun _ _ h2 => bind (index0 hbc.coordinates i) fun _ _ h3 =>
    bind (index0 hbg.coordinates i) fun _ _ h4 => bind (index0 hp.worstCoords i) fun _ _ h5 => bind (index0 hwc.coordinates i) fun _ _ h6 =>
    bind (index0 hwg.coordinates i) fun _ _ h7 => bind (index0 hp.velocity i) fun _ _ h8 =>
      Rank.pure (D.mul _ _ _ _ (D.sub _ _ _ _ _ (D.sub _ _ _ _ _ (D.sub _ _ _ _ _ (D.add _ _ _ _ _ (D.add _ _ _ _ _ (D.add _ _ _ _ _ h8
        (pull D _ _ h1 h2)) (pull D _ _ h3 h2)) (pull D _ _ h4 h2)) (pull D _ _ h5 h2)) (pull D _ _ h6 h2)) (pull D _ _ h7 h2)))

end

theorem hooks_nil {H : List α → List β → Prop} : Hooks (σ := σ) H [] [] := fun _ _ h => Rank.pure h

theorem hooks_one {H : List α → List β → Prop} {g : List α → M σ (List α)} {g' : List β → M σ (List β)}
    (h : ∀ x x', H x x' → Alike Eq H (g x) (g' x')) : Hooks H [g] [g'] := fun x x' hx => by
  refine foldL (Q := fun a b => ∀ x x', H x x' → Alike Eq H (a x) (b x')) (Q' := H) ?_ (.cons h .nil) hx
  intro c d a b hc ha
  exact ha _ _ hc

/-! ## Floats -/

section

variable {f : Fmt} {flip : Nat → Bool} {Q : F64 → F64 → Prop}

theorem mirrored (flip : Nat → Bool) : Directions (Mirrored (f := f) flip) (Mirrored flip) where
  diff _ _ _ _ _ h1 h2 := Fl.mirrored_iff.2 ((Fl.mirrored_iff.1 h1).sub (Fl.mirrored_iff.1 h2))
  add _ _ _ _ _ h1 h2 := Fl.mirrored_iff.2 ((Fl.mirrored_iff.1 h1).add (Fl.mirrored_iff.1 h2))
  sub _ _ _ _ _ h1 h2 := Fl.mirrored_iff.2 ((Fl.mirrored_iff.1 h1).sub (Fl.mirrored_iff.1 h2))
  mul _ c _ _ h := Fl.mirrored_iff.2 ((Fl.mirrored_iff.1 h).mul c)
  move _ _ _ _ _ h1 h2 := Fl.mirrored_iff.2 ((Fl.mirrored_iff.1 h1).add (Fl.mirrored_iff.1 h2))

theorem limitDim {b : Bool} {v v' m : Fl f} (hm : m.lt Fl.zero = false) (h : Fl.Opp b v v') :
    Fl.Opp b (Hooks.limitDim v m) (Hooks.limitDim v' m) := by
  show Fl.Opp b (if v.abs.le m = true then v else m.abs.mul v.signum) (if v'.abs.le m = true then v' else m.abs.mul v'.signum)
  cases hn : v.isNan with
  | true =>
    have hn' := h.nan_eq.trans hn
    rw [if_neg (by rw [Fl.le_iff, Fl.isNan_abs, hn]; simp), if_neg (by rw [Fl.le_iff, Fl.isNan_abs, hn']; simp)]
    unfold Fl.signum
    rw [if_pos hn, if_pos hn']
    exact .nan (by rw [Fl.isNan_mul_right _ _ Fl.isNan_nan]; exact Fl.isNan_nan) (by rw [Fl.isNan_mul_right _ _ Fl.isNan_nan]; exact Fl.isNan_nan)
  | false =>
    have hn' := h.nan_eq.trans hn
    have ha : v'.abs = v.abs := by unfold Fl.abs; rw [h.idx_eq hn]
    rw [ha]
    split
    · exact h
    · next hle =>
      cases hmn : m.isNan with
      | true =>
        have : m.abs.isNan = true := by rw [Fl.isNan_abs]; exact hmn
        exact .nan (by rw [Fl.isNan_mul_left _ _ this]; exact Fl.isNan_nan) (by rw [Fl.isNan_mul_left _ _ this]; exact Fl.isNan_nan)
      | false =>
        have h0 : v.idx ≠ 0 := by
          intro h0
          have hz : v.abs.toInt = 0 := Fl.toInt_eq_zero.2 (by rw [Fl.idx_abs]; exact h0)
          rw [Fl.le_iff, Fl.isNan_abs, hz] at hle
          have : (Fl.zero : Fl f).le m = true := (Fl.not_lt hmn Fl.isNan_zero).1 hm
          rw [Fl.le_iff, Fl.toInt_eq_zero.2 Fl.idx_zero] at this
          exact hle ⟨hn, hmn, this.2.2⟩
        have hs : v'.signum = flipped b v.signum := by
          unfold Fl.signum
          rw [if_neg (by rw [hn']; simp), if_neg (by rw [hn]; simp), h.sgn_eq hn h0]
          refine Fl.ext' ?_ ?_
          · rw [Fl.sgn_flipped, Fl.sgn_mk' _ Fl.oneIdx_lt, Fl.sgn_mk' _ Fl.oneIdx_lt]
          · rw [Fl.idx_flipped, Fl.idx_mk' _ Fl.oneIdx_lt, Fl.idx_mk' _ Fl.oneIdx_lt]
        exact (Fl.Opp.of_eq hs).mul _

theorem limitDims : ∀ (i : Nat) {v v' : List (Fl f)}, Points (Mirrored flip) i v v' → ∀ ms : List (Fl f),
    (∀ m ∈ ms, m.lt Fl.zero = false) → Points (Mirrored flip) i (List.zipWith Hooks.limitDim v ms) (List.zipWith Hooks.limitDim v' ms)
  | _, [], [], _, _, _ => by simp only [List.zipWith_nil_left]; trivial
  | _, _ :: _, _ :: _, _, [], _ => trivial
  | i, _ :: _, _ :: _, h, m :: ms, hm =>
    ⟨Fl.mirrored_iff.2 (limitDim (hm m (by simp)) (Fl.mirrored_iff.1 h.1)), limitDims (i + 1) h.2 ms fun m h => hm m (List.mem_cons_of_mem _ h)⟩
  | _, [], _ :: _, h, _, _ => h.elim
  | _, _ :: _, [], h, _, _ => h.elim

theorem maxVelocityDimensions (ms : List (Fl f)) (hm : ∀ m ∈ ms, m.lt Fl.zero = false) {v v' : List (Fl f)}
    (h : Points (Mirrored flip) 0 v v') :
    Alike (W := σ) Eq (Points (Mirrored flip) 0) (Hooks.maxVelocityDimensions ms v) (Hooks.maxVelocityDimensions ms v') := by
  unfold Hooks.maxVelocityDimensions
  rw [length_eq h]
  exact bind (assert _) fun _ _ _ => Rank.pure (limitDims 0 h ms hm)

theorem sumSq : ∀ (i : Nat) {v v' : List (Fl f)}, Points (Mirrored flip) i v v' → ∀ a : Fl f,
    v'.foldl (fun acc vi => FloatT.add acc (FloatT.mul vi vi)) a = v.foldl (fun acc vi => FloatT.add acc (FloatT.mul vi vi)) a
  | _, [], [], _, _ => rfl
  | i, x :: xs, y :: ys, h, a => by
    have e : FloatT.mul y y = FloatT.mul x x := (Fl.mirrored_iff.1 h.1).sq
    rw [List.foldl_cons, List.foldl_cons, e]
    exact sumSq (i + 1) h.2 _
  | _, [], _ :: _, h, _ => h.elim
  | _, _ :: _, [], h, _ => h.elim

theorem map_points {P : Nat → α → β → Prop} {P' : Nat → α → β → Prop} {g : α → α} {g' : β → β}
    (hg : ∀ i x y, P i x y → P' i (g x) (g' y)) : ∀ (i : Nat) {xs : List α} {ys : List β}, Points P i xs ys → Points P' i (xs.map g) (ys.map g')
  | _, [], [], _ => trivial
  | i, _ :: _, _ :: _, h => ⟨hg _ _ _ h.1, map_points hg (i + 1) h.2⟩
  | _, [], _ :: _, h => h.elim
  | _, _ :: _, [], h => h.elim

theorem maxVelocityAbs (m : Fl f) {v v' : List (Fl f)} (h : Points (Mirrored flip) 0 v v') :
    Alike (W := σ) Eq (Points (Mirrored flip) 0) (Hooks.maxVelocityAbs m v) (Hooks.maxVelocityAbs m v') := by
  have e : Hooks.velocityAbs v' = Hooks.velocityAbs v := congrArg FloatT.sqrt (sumSq 0 h _)
  unfold Hooks.maxVelocityAbs
  rw [e]
  dsimp only
  split
  · exact Rank.pure (map_points (P' := Mirrored flip) (fun i x y hxy => Fl.mirrored_iff.2 (((Fl.mirrored_iff.1 hxy).mul_right m).div _)) 0 h)
  · exact Rank.pure h

/-- A clamp to a proper interval -/
theorem clamp {b : Bool} {iv : Fl f × Fl f} (hiv : iv.1.le iv.2 = true) {x x' : Fl f} (hx : x.isFinite = true) (h : Fl.Opp b x x') :
    Fl.Opp b (Hooks.clampCoord iv x) (Hooks.clampCoord (flippedInterval b iv) x') := by
  have hx' := h.finite_eq.trans hx
  have hn := Fl.isNan_of_isFinite hx
  have hn' := Fl.isNan_of_isFinite hx'
  have ht := h.toInt_eq hn
  obtain ⟨lo, hi⟩ := iv
  rw [Fl.le_iff] at hiv
  obtain ⟨n1, n2, hle⟩ := hiv
  dsimp only at n1 n2 hle
  have e : ∀ (iv : Fl f × Fl f) (z : Fl f), z.isFinite = true → Hooks.clampCoord iv z =
      if iv.2.lt (if z.lt iv.1 = true then iv.1 else z) = true then iv.2 else (if z.lt iv.1 = true then iv.1 else z) := by
    intro iv z hz
    unfold Hooks.clampCoord
    simp only [FloatT.isFinite, FloatT.lt, hz, Bool.not_true, Bool.false_eq_true, if_false]
  rw [e _ _ hx, e _ _ hx']
  unfold flippedInterval
  cases b with
  | false =>
    simp only [Bool.false_eq_true, if_false] at ht ⊢
    have l1 : x'.lt lo = x.lt lo := by unfold Fl.lt; rw [hn, hn', ht]
    rw [l1]
    split
    · exact .refl _
    · have l2 : hi.lt x' = hi.lt x := by unfold Fl.lt; rw [hn, hn', ht]
      rw [l2]
      split
      · exact .refl _
      · exact h
  | true =>
    simp only [if_true] at ht ⊢
    by_cases c1 : x.toInt < lo.toInt
    · have a1 : x.lt lo = true := Fl.lt_iff.2 ⟨hn, n1, c1⟩
      have a2 : ¬ hi.lt lo = true := by rw [Fl.lt_iff]; omega
      have a3 : ¬ x'.lt hi.neg = true := by rw [Fl.lt_iff, Fl.toInt_neg]; omega
      have a4 : lo.neg.lt x' = true := by rw [Fl.lt_iff, Fl.toInt_neg, Fl.isNan_neg]; exact ⟨n1, hn', by omega⟩
      rw [if_pos a1, if_neg a2, if_neg a3, if_pos a4]
      exact .of_eq rfl
    · have a1 : ¬ x.lt lo = true := by rw [Fl.lt_iff]; omega
      rw [if_neg a1]
      by_cases c2 : hi.toInt < x.toInt
      · have a2 : hi.lt x = true := Fl.lt_iff.2 ⟨n2, hn, c2⟩
        have a3 : x'.lt hi.neg = true := by rw [Fl.lt_iff, Fl.toInt_neg, Fl.isNan_neg]; exact ⟨hn', n2, by omega⟩
        have a4 : ¬ lo.neg.lt hi.neg = true := by rw [Fl.lt_iff, Fl.toInt_neg, Fl.toInt_neg]; omega
        rw [if_pos a2, if_pos a3, if_neg a4]
        exact .of_eq rfl
      · have a2 : ¬ hi.lt x = true := by rw [Fl.lt_iff]; omega
        have a3 : ¬ x'.lt hi.neg = true := by rw [Fl.lt_iff, Fl.toInt_neg]; omega
        have a4 : ¬ lo.neg.lt x' = true := by rw [Fl.lt_iff, Fl.toInt_neg]; omega
        rw [if_neg a2, if_neg a3, if_neg a4]
        exact h

theorem all_finite : ∀ (i : Nat) {x x' : List (Fl f)}, Points (Mirrored flip) i x x' → x'.all Fl.isFinite = x.all Fl.isFinite
  | _, [], [], _ => rfl
  | i, _ :: _, _ :: _, h => by
    rw [List.all_cons, List.all_cons, (Fl.mirrored_iff.1 h.1).finite_eq, all_finite (i + 1) h.2]
  | _, [], _ :: _, h => h.elim
  | _, _ :: _, [], h => h.elim

theorem clamps : ∀ (i : Nat) {x x' : List (Fl f)}, Points (Mirrored flip) i x x' → (∀ c ∈ x, c.isFinite = true) →
    ∀ ivs : List (Fl f × Fl f), (∀ iv ∈ ivs, iv.1.le iv.2 = true) →
      Points (Mirrored flip) i (List.zipWith Hooks.clampCoord ivs x)
        (List.zipWith Hooks.clampCoord (ivs.mapIdx fun j iv => flippedInterval (flip (i + j)) iv) x')
  | _, [], [], _, _, _, _ => by simp only [List.zipWith_nil_right]; trivial
  | _, _ :: _, _ :: _, _, _, [], _ => trivial
  | i, x :: xs, y :: ys, h, hf, iv :: ivs, hiv => by
    rw [List.mapIdx_cons]
    refine ⟨Fl.mirrored_iff.2 (clamp (hiv iv (by simp)) (hf x (by simp)) (Fl.mirrored_iff.1 h.1)), ?_⟩
    have := clamps (i + 1) h.2 (fun c h => hf c (List.mem_cons_of_mem _ h)) ivs (fun c h => hiv c (List.mem_cons_of_mem _ h))
    have e : (fun j (iv : Fl f × Fl f) => flippedInterval (flip (i + 1 + j)) iv) = fun j iv => flippedInterval (flip (i + (j + 1))) iv := by
      funext j iv; rw [show i + 1 + j = i + (j + 1) by omega]
    rw [e] at this
    exact this
  | _, [], _ :: _, h, _, _, _ => h.elim
  | _, _ :: _, [], h, _, _, _ => h.elim

theorem moveToBoundary (ivs : List (Fl f × Fl f)) (hiv : ∀ iv ∈ ivs, iv.1.le iv.2 = true) :
    Hooks (σ := σ) (Points (Mirrored flip) 0) [finiteOnly, Hooks.moveToBoundary ivs]
      [finiteOnly, Hooks.moveToBoundary (ivs.mapIdx fun j iv => flippedInterval (flip j) iv)] := by
  intro x x' h
  show Alike Eq _ (finiteOnly x >>= fun y => Hooks.moveToBoundary ivs y >>= Pure.pure)
    (finiteOnly x' >>= fun y => Hooks.moveToBoundary _ y >>= Pure.pure)
  refine bind (Q := fun a b => Points (Mirrored flip) 0 a b ∧ ∀ c ∈ a, c.isFinite = true) ?_ fun a b hab => ?_
  · unfold finiteOnly
    rw [all_finite 0 h]
    cases hf : x.all Fl.isFinite
    · exact Rank.fail _
    · exact Rank.pure ⟨h, List.all_eq_true.1 hf⟩
  · refine bind (Q := Points (Mirrored flip) 0) ?_ fun _ _ h => Rank.pure h
    unfold Hooks.moveToBoundary
    rw [length_eq hab.1, List.length_mapIdx]
    refine bind (assert _) fun _ _ _ => Rank.pure ?_
    have := clamps (flip := flip) 0 hab.1 hab.2 ivs hiv
    simpa only [Nat.zero_add] using this

end

/-! ## Exact arithmetic -/

section

variable {a b : Nat → ℝ}

theorem affine (a b : Nat → ℝ) : Directions (Affine a b) (Scaled a) where
  diff i x x' y y' h1 h2 := by
    show x' - y' = a i * (x - y)
    rw [show x' = _ from h1, show y' = _ from h2]; ring
  add i x x' y y' h1 h2 := by
    show x' + y' = a i * (x + y)
    rw [show x' = _ from h1, show y' = _ from h2]; ring
  sub i x x' y y' h1 h2 := by
    show x' - y' = a i * (x - y)
    rw [show x' = _ from h1, show y' = _ from h2]; ring
  mul i c x x' h := by
    show c * x' = a i * (c * x)
    rw [show x' = _ from h]; ring
  move i x x' v v' h1 h2 := by
    show x' + v' = a i * (x + v) + b i
    rw [show x' = _ from h1, show v' = _ from h2]; ring

theorem clampReal (a b lo hi x : ℝ) (h : lo ≤ hi) :
    Hooks.clampCoord (affineInterval a b (lo, hi)) (a * x + b) = a * Hooks.clampCoord (lo, hi) x + b := by
  have e : ∀ (iv : ℝ × ℝ) (z : ℝ), iv.1 ≤ iv.2 → Hooks.clampCoord iv z = max iv.1 (min z iv.2) := by
    intro iv z hiv
    unfold Hooks.clampCoord
    simp only [FloatT.isFinite, FloatT.lt, Bool.not_true, Bool.false_eq_true, if_false, decide_eq_true_eq]
    by_cases c1 : z < iv.1
    · rw [if_pos c1, if_neg (not_lt.2 hiv), min_eq_left (by linarith), max_eq_left c1.le]
    · rw [if_neg c1]
      push Not at c1
      by_cases c2 : iv.2 < z
      · rw [if_pos c2, min_eq_right c2.le, max_eq_right hiv]
      · rw [if_neg c2]
        push Not at c2
        rw [min_eq_left c2, max_eq_right c1]
  rw [e (lo, hi) x h]
  unfold affineInterval
  split
  · next h0 =>
    rw [e _ _ (by dsimp only; nlinarith)]
    dsimp only
    rw [mul_max_of_nonneg _ _ h0, mul_min_of_nonneg _ _ h0, min_add_add_right, max_add_add_right]
  · next h0 =>
    push Not at h0
    rw [e _ _ (by dsimp only; nlinarith)]
    dsimp only
    rcases le_total x lo with c | c
    · rw [min_eq_left (c.trans h), max_eq_left c, min_eq_right (by nlinarith), max_eq_right (by nlinarith)]
    · rw [min_eq_left (by nlinarith)]
      rcases le_total x hi with c2 | c2
      · rw [min_eq_left c2, max_eq_right c, max_eq_right (by nlinarith)]
      · rw [min_eq_right c2, max_eq_right h, max_eq_left (by nlinarith)]

theorem clampsReal : ∀ (i : Nat) {x x' : List ℝ}, Points (Affine a b) i x x' → ∀ ivs : List (ℝ × ℝ), (∀ iv ∈ ivs, iv.1 ≤ iv.2) →
      Points (Affine a b) i (List.zipWith Hooks.clampCoord ivs x)
        (List.zipWith Hooks.clampCoord (ivs.mapIdx fun j iv => affineInterval (a (i + j)) (b (i + j)) iv) x')
  | _, [], [], _, _, _ => by simp only [List.zipWith_nil_right]; trivial
  | _, _ :: _, _ :: _, _, [], _ => trivial
  | i, x :: xs, y :: ys, h, iv :: ivs, hiv => by
    rw [List.mapIdx_cons]
    refine ⟨?_, ?_⟩
    · show Hooks.clampCoord (affineInterval (a (i + 0)) (b (i + 0)) iv) y = a i * Hooks.clampCoord iv x + b i
      rw [show y = a i * x + b i from h.1]
      exact clampReal (a i) (b i) iv.1 iv.2 x (hiv iv (by simp))
    · have := clampsReal (i + 1) h.2 ivs (fun c h => hiv c (List.mem_cons_of_mem _ h))
      have e : (fun j (iv : ℝ × ℝ) => affineInterval (a (i + 1 + j)) (b (i + 1 + j)) iv) =
          fun j iv => affineInterval (a (i + (j + 1))) (b (i + (j + 1))) iv := by
        funext j iv; rw [show i + 1 + j = i + (j + 1) by omega]
      rw [e] at this
      exact this
  | _, [], _ :: _, h, _, _ => h.elim
  | _, _ :: _, [], h, _, _ => h.elim

theorem moveToBoundaryReal (ivs : List (ℝ × ℝ)) (hiv : ∀ iv ∈ ivs, iv.1 ≤ iv.2) :
    Hooks (σ := σ) (Points (Affine a b) 0) [Hooks.moveToBoundary ivs]
      [Hooks.moveToBoundary (ivs.mapIdx fun j iv => affineInterval (a j) (b j) iv)] := by
  refine hooks_one fun x x' h => ?_
  unfold Hooks.moveToBoundary
  rw [length_eq h, List.length_mapIdx]
  refine bind (assert _) fun _ _ _ => Rank.pure ?_
  have := clampsReal 0 h ivs hiv
  simpa only [Nat.zero_add] using this

theorem limitReal (a v m : ℝ) (hm : 0 ≤ m) : Hooks.limitDim (a * v) (|a| * m) = a * Hooks.limitDim v m := by
  have e : ∀ v m : ℝ, 0 ≤ m → Hooks.limitDim v m = max (-m) (min v m) := by
    intro v m hm
    unfold Hooks.limitDim
    simp only [FloatT.abs, FloatT.le, FloatT.mul, FloatT.signum, decide_eq_true_eq, abs_of_nonneg hm]
    split
    · next h =>
      rw [abs_le] at h
      rw [min_eq_left h.2, max_eq_right h.1]
    · next h =>
      push Not at h
      split
      · next h0 =>
        rw [abs_of_neg h0] at h
        rw [min_eq_left (by linarith), max_eq_left (by linarith)]; ring
      · next h0 =>
        push Not at h0
        rw [abs_of_nonneg h0] at h
        rw [min_eq_right h.le, max_eq_right (by linarith)]; ring
  rw [e _ _ hm, e _ _ (mul_nonneg (abs_nonneg a) hm)]
  rcases le_total 0 a with h0 | h0
  · rw [abs_of_nonneg h0, mul_max_of_nonneg _ _ h0, mul_min_of_nonneg _ _ h0, mul_neg]
  · rw [abs_of_nonpos h0]
    rcases le_total v (-m) with c | c
    · rw [min_eq_left (by linarith : v ≤ m), max_eq_left c, min_eq_right (by nlinarith), max_eq_right (by nlinarith)]; ring
    · rcases le_total v m with c2 | c2
      · rw [min_eq_left c2, max_eq_right c, min_eq_left (by nlinarith), max_eq_right (by nlinarith)]
      · have h1 : a * v ≤ -(-a * m) := by nlinarith
        have h2 : a * v ≤ -a * m := by nlinarith
        rw [min_eq_right c2, max_eq_right (neg_le_self hm), min_eq_left h2, max_eq_left h1]; ring

theorem limitsReal : ∀ (i : Nat) {v v' : List ℝ}, Points (Scaled a) i v v' → ∀ ms : List ℝ, (∀ m ∈ ms, 0 ≤ m) →
      Points (Scaled a) i (List.zipWith Hooks.limitDim v ms) (List.zipWith Hooks.limitDim v' (ms.mapIdx fun j m => |a (i + j)| * m))
  | _, [], [], _, _, _ => by simp only [List.zipWith_nil_left]; trivial
  | _, _ :: _, _ :: _, _, [], _ => trivial
  | i, x :: xs, y :: ys, h, m :: ms, hm => by
    rw [List.mapIdx_cons]
    refine ⟨?_, ?_⟩
    · show Hooks.limitDim y (|a (i + 0)| * m) = a i * Hooks.limitDim x m
      rw [show y = a i * x from h.1]
      exact limitReal (a i) x m (hm m (by simp))
    · have := limitsReal (i + 1) h.2 ms (fun c h => hm c (List.mem_cons_of_mem _ h))
      have e : (fun j (m : ℝ) => |a (i + 1 + j)| * m) = fun j m => |a (i + (j + 1))| * m := by
        funext j m; rw [show i + 1 + j = i + (j + 1) by omega]
      rw [e] at this
      exact this
  | _, [], _ :: _, h, _, _ => h.elim
  | _, _ :: _, [], h, _, _ => h.elim

theorem maxVelocityDimensionsReal (ms : List ℝ) (hm : ∀ m ∈ ms, 0 ≤ m) :
    Hooks (σ := σ) (Points (Scaled a) 0) [Hooks.maxVelocityDimensions ms]
      [Hooks.maxVelocityDimensions (ms.mapIdx fun j m => |a j| * m)] := by
  refine hooks_one fun v v' h => ?_
  unfold Hooks.maxVelocityDimensions
  rw [length_eq h, List.length_mapIdx]
  refine bind (assert _) fun _ _ _ => Rank.pure ?_
  have := limitsReal 0 h ms hm
  simpa only [Nat.zero_add] using this

end

end Verif.Mirror
