import Verif.Proofs.ChanceFloat
import Verif.Props.Creation
import Verif.Props.Hooks

/-!
# C102: how likely the random points of the creators and of RandomTeleport are

`Draws` (`Spec/ChanceFloat.lean`) turns the number of a draw, one of `0, …, m - 1`, all equally likely, into a float.
-/

namespace Verif.Props

open Verif Spec Creation

variable {f : Fmt}

/-- The gene that the draw with the number `k` gives (bounds converted to `f64`, the result converted back) -/
def geneOf (d : Draws) (iv : Fl f × Fl f) (k : Nat) : Fl f := (d.closedVal (iv.1.cast : F64) (iv.2.cast : F64) k).cast

theorem uses_drawGene (d : Draws) (hf : Fmt.Embeds f Fmt.f64) {iv : Fl f × Fl f}
    (h : iv.1.isFinite = true ∧ iv.2.isFinite = true ∧ iv.1.lt iv.2 = true) (m : Nat) :
    Uses (drawGene d.source iv) [m] (fun t => geneOf d iv (t.headD 0)) := by
  obtain ⟨h1, h2, h3⟩ := h
  refine (uses_closed d m ?_).map _
  rw [Fl.cast_le hf h1 h2 (Fl.le_of_lt h3), (Fl.cast_exact hf h1).1, (Fl.cast_exact hf h2).1]
  rfl

theorem replicate_flatten (n k m : Nat) : (List.replicate n (List.replicate k m)).flatten = List.replicate (n * k) m := by
  rw [List.flatten_replicate_replicate]

/-- A list of lists in which every entry meets its condition -/
def Each (conds : List (List (Fl f → Prop))) (xss : List (List (Fl f))) : Prop := List.Forall₂ (List.Forall₂ fun P x => P x) conds xss

/-- C102, RandomCreator: all genes of all chromosomes are independent of each other; each has the distribution of a draw from its interval. -/
theorem C102_creator (d : Draws) (hf : Fmt.Embeds f Fmt.f64) (m size : Nat) (ivs : List (Fl f × Fl f)) (h : FiniteIncreasing ivs)
    (conds : List (List (Fl f → Prop))) (hc : conds.length = size) (hr : ∀ row ∈ conds, row.length = ivs.length) :
    chance (List.replicate (size * ivs.length) m) (Gives (RandomCreator.create d.source ⟨size, ivs⟩) (Each conds)) =
      (conds.map fun row => (List.zipWith (fun P iv => share m fun k => P (geneOf d iv k)) row ivs).prod).prod := by
  obtain ⟨u, hu, hcu⟩ := Uses.mapL (m := m) (v := geneOf d) ivs fun iv hiv => uses_drawGene d hf (h iv hiv) m
  obtain ⟨w, hw, hcw⟩ := hu.replicate' size
  rw [← replicate_flatten]
  refine (chance_congr fun t ht => hw.gives ht).trans ?_
  have := hcw (conds.map fun row => fun xs => List.Forall₂ (fun P x => P x) row xs) (by simpa using hc)
  rw [List.map_map] at this
  unfold Each
  simp only [List.forall₂_map_left_iff] at this
  rw [this]
  congr 1
  refine List.map_congr_left fun row hrow => ?_
  exact hcu row (hr row hrow)

/-- C102, RandomCoordinatesInitializer and RandomVelocityInitializer: the same. -/
theorem C102_initializers (d : Draws) (hf : Fmt.Embeds f Fmt.f64) (m count : Nat) (ivs : List (Fl f × Fl f)) (h : FiniteIncreasing ivs)
    (conds : List (List (Fl f → Prop))) (hc : conds.length = count) (hr : ∀ row ∈ conds, row.length = ivs.length) :
    chance (List.replicate (count * ivs.length) m) (Gives (randomInit d.source ivs count) (Each conds)) =
      (conds.map fun row => (List.zipWith (fun P iv => share m fun k => P (geneOf d iv k)) row ivs).prod).prod := by
  rw [← C102_creator d hf m count ivs h conds hc hr]
  have e : createVec d.source ivs = M.mapL (drawGene d.source) ivs := by
    funext s
    unfold createVec
    have : (ivs.all fun iv => iv.1.lt iv.2) = true := List.all_eq_true.2 fun iv hiv => (h iv hiv).2.2
    rw [this]
    rfl
  unfold randomInit RandomCreator.create
  rw [e]

/-- C102: if the draws are evenly spread over the interval of a gene, up to `δ` times its length, then the chance that the gene is less than `c`
is the part of the interval below `c`, up to `δ` and one draw. -/
theorem C102_uniform (d : Draws) (m : Nat) (hm : 0 < m) (iv : Fl f × Fl f) (hlt : ratValue iv.1 < ratValue iv.2) (δ : ℚ)
    (he : Even m δ (ratValue iv.1) (ratValue iv.2) (fun k => ratValue (geneOf d iv k))) (c : ℚ) (h0 : ratValue iv.1 ≤ c) (h1 : c ≤ ratValue iv.2) :
    (c - ratValue iv.1) / (ratValue iv.2 - ratValue iv.1) - δ ≤ share m (fun k => ratValue (geneOf d iv k) < c) ∧
    share m (fun k => ratValue (geneOf d iv k) < c) ≤ (c - ratValue iv.1) / (ratValue iv.2 - ratValue iv.1) + δ + 1 / m :=
  he.share hm hlt h0 h1

/-! ### RandomTeleport -/

/-- The share of the draws between 0 and 1 that are less than the probability -/
noncomputable def teleportShare (d : Draws) (m : Nat) (p : F32) : ℚ := share m fun k => (d.openVal (Fl.zero : F32) Fl.one k).lt p = true

/-- A teleport leaves draws over if the particle stays. -/
def Teleports (t : Hooks.Teleport f) (d : Draws) (xs : List (Fl f)) (P : List (Fl f) → Prop) (draws : List Nat) : Prop :=
  ∃ ys rest, Hooks.teleport d.source t xs draws = .ok (ys, rest) ∧ P ys

open Classical in
/-- C102, RandomTeleport: with the chance `teleportShare` the particle gets new coordinates, each drawn from its interval, independently of each
other; otherwise it stays. -/
theorem C102_teleport (d : Draws) (m : Nat) (hm : 0 < m) (t : Hooks.Teleport f)
    (ht : ∀ iv ∈ t.intervals, (iv.1.le iv.2 && iv.1.isFinite && iv.2.isFinite) = true) (xs : List (Fl f)) (hx : xs.length = t.intervals.length)
    (conds : List (Fl f → Prop)) (hc : conds.length = t.intervals.length) :
    chance (List.replicate (1 + t.intervals.length) m) (Teleports t d xs (List.Forall₂ (fun P x => P x) conds)) =
      teleportShare d m t.probability * (List.zipWith (fun P iv => share m fun k => P (d.closedVal iv.1 iv.2 k)) conds t.intervals).prod +
        (1 - teleportShare d m t.probability) * (if List.Forall₂ (fun P x => P x) conds xs then 1 else 0) := by
  obtain ⟨u, hu, hcu⟩ := Uses.mapL (m := m) (f := fun iv : Fl f × Fl f => d.source.uniformFlIncl iv.1 iv.2)
    (v := fun iv k => d.closedVal iv.1 iv.2 k) t.intervals fun iv hiv => uses_closed d m (ht iv hiv)
  have ho : Uses (d.source.uniformFl (Fl.zero : F32) (Fl.one : F32)) [m] _ := uses_open d m (by decide +kernel)
  set go : Nat → Prop := fun k => (d.openVal (Fl.zero : F32) Fl.one k).lt t.probability = true with hgo
  have hrun : ∀ s, List.Forall₂ (· < ·) s (List.replicate (1 + t.intervals.length) m) →
      (Teleports t d xs (List.Forall₂ (fun P x => P x) conds) s ↔
        (go (s.headD 0) ∧ List.Forall₂ (fun P x => P x) conds (u s.tail)) ∨
        (¬ go (s.headD 0) ∧ List.Forall₂ (fun P x => P x) conds xs)) := by
    intro s hs
    rw [Nat.add_comm, List.replicate_succ] at hs
    cases hs with
    | @cons k _ s _ hk hs =>
      have h1 := ho [k] s (.cons hk .nil)
      have h2 := hu s [] hs
      rw [List.append_nil] at h2
      have e : Hooks.teleport d.source t xs (k :: s) =
          if go k then .ok (u s, []) else .ok (xs, s) := by
        unfold Hooks.teleport
        rw [M.bind_run]
        have ha : M.assert (σ := List Nat) (xs.length == t.intervals.length) (k :: s) = .ok ((), k :: s) :=
          M.assert_eq_ok.2 ⟨by simpa using hx, rfl⟩
        rw [ha]
        show (do
          let rnd ← d.source.uniformFl (Fl.zero : F32) (Fl.one : F32)
          if rnd.lt t.probability then M.mapL (fun iv => d.source.uniformFlIncl iv.1 iv.2) t.intervals else pure xs : M (List Nat) _)
            (k :: s) = _
        rw [M.bind_run]
        have h1' : d.source.uniformFl (Fl.zero : F32) (Fl.one : F32) (k :: s) = .ok (d.openVal (Fl.zero : F32) Fl.one k, s) := h1
        rw [h1']
        simp only [hgo]
        split
        · exact h2
        · rfl
      simp only [List.headD_cons, List.tail_cons]
      unfold Teleports
      rw [e]
      by_cases hg : go k
      · simp [hg]
      · simp [hg]
  rw [chance_congr hrun]
  have hsplit : ∀ A B C : List Nat → Prop, chance (List.replicate (1 + t.intervals.length) m) (fun s => (A s ∧ B s) ∨ (¬ A s ∧ C s)) =
      chance (List.replicate (1 + t.intervals.length) m) (fun s => A s ∧ B s) +
        chance (List.replicate (1 + t.intervals.length) m) (fun s => ¬ A s ∧ C s) := by
    intro A B C
    rw [chance_eq, chance_eq, chance_eq, ← add_div]
    congr 1
    unfold cnt
    rw [← Nat.cast_add]
    congr 1
    generalize tapes (List.replicate (1 + t.intervals.length) m) = l
    induction l with
    | nil => rfl
    | cons s l ih =>
      rw [List.countP_cons, List.countP_cons, List.countP_cons, ih]
      by_cases hA : A s <;> by_cases hB : B s <;> by_cases hC : C s <;> simp [hA, hB, hC] <;> omega
  rw [hsplit]
  have hl : List.replicate (1 + t.intervals.length) m = [m] ++ List.replicate t.intervals.length m := by
    rw [Nat.add_comm, List.replicate_succ]; rfl
  have hfirst : ∀ (A : Nat → Prop) (B : List Nat → Prop),
      chance (List.replicate (1 + t.intervals.length) m) (fun s => A (s.headD 0) ∧ B s.tail) =
        share m A * chance (List.replicate t.intervals.length m) B := by
    intro A B
    rw [hl]
    unfold share
    rw [← chance_append]
    refine chance_congr fun s hs => ?_
    cases hs with
    | cons hk hs => simp
  have h1 := hfirst go (fun s => List.Forall₂ (fun P x => P x) conds (u s))
  have h2 := hfirst (fun k => ¬ go k) (fun _ => List.Forall₂ (fun P x => P x) conds xs)
  rw [h1, h2, hcu conds hc, share_not m hm]
  congr 2
  by_cases hP : List.Forall₂ (fun P x => P x) conds xs
  · simp only [hP, if_true]
    rw [chance_eq, cnt_true, div_self]
    have : (List.replicate t.intervals.length m).prod ≠ 0 := by rw [List.prod_replicate]; positivity
    exact_mod_cast this
  · simp only [hP, if_false]
    rw [chance_eq, cnt_false]; simp

/-- C102: if the draws between 0 and 1 are evenly spread, up to `δ`, then this chance is the probability given to the constructor, up to `δ` and
one draw. -/
theorem C102_teleport_probability (d : Draws) (m : Nat) (hm : 0 < m) (p : F32) (hp : p.isNan = false) (h0 : 0 ≤ ratValue p) (h1 : ratValue p ≤ 1)
    (δ : ℚ) (he : Even m δ 0 1 (fun k => ratValue (d.openVal (Fl.zero : F32) Fl.one k))) :
    ratValue p - δ ≤ teleportShare d m p ∧ teleportShare d m p ≤ ratValue p + δ + 1 / m := by
  have hD : (0 : ℚ) < Fmt.f32.D := by exact_mod_cast Fmt.f32.D_pos
  have := he.share hm zero_lt_one h0 h1
  rw [sub_zero, sub_zero, div_one] at this
  have e : teleportShare d m p = share m (fun k => ratValue (d.openVal (Fl.zero : F32) Fl.one k) < ratValue p) := by
    unfold teleportShare share
    refine chance_congr fun t _ => ?_
    have hn := (Fl.le_iff.1 (d.open_range (Fl.zero : F32) Fl.one (t.headD 0) (by decide +kernel) (by decide +kernel) (by decide +kernel)).1).2.1
    show (d.openVal (Fl.zero : F32) Fl.one (t.headD 0)).lt p = true ↔ ratValue (d.openVal (Fl.zero : F32) Fl.one (t.headD 0)) < ratValue p
    rw [Fl.lt_iff]
    unfold ratValue
    rw [div_lt_div_iff_of_pos_right hD]
    constructor
    · rintro ⟨-, -, h⟩; exact_mod_cast h
    · intro h; exact ⟨hn, hp, by exact_mod_cast h⟩
  rw [e]
  exact this

/-! ### Examples -/

/-- Two draws: 0 and 1/2 from the intervals between 0 and 1, the lower bound from intervals without 1/2. -/
def halves : Draws where
  openVal {g} lo hi k := if k % 2 = 1 ∧ lo.le (Fl.ofRat false 1 2 : Fl g) = true ∧ (Fl.ofRat false 1 2 : Fl g).lt hi = true then Fl.ofRat false 1 2 else lo
  closedVal {g} lo hi k := if k % 2 = 1 ∧ lo.le (Fl.ofRat false 1 2 : Fl g) = true ∧ (Fl.ofRat false 1 2 : Fl g).le hi = true then Fl.ofRat false 1 2 else lo
  open_range lo hi k h1 h2 _ := by
    split
    · next h => exact h.2
    · exact ⟨Fl.le_refl (Fl.isNan_of_isFinite h2), h1⟩
  closed_range lo hi k h1 h2 _ := by
    split
    · next h => exact h.2
    · exact ⟨Fl.le_refl (Fl.isNan_of_isFinite h2), h1⟩

theorem halves_values : (halves.openVal (Fl.zero : F32) Fl.one 0).toInt = 0 ∧ 2 * (halves.openVal (Fl.zero : F32) Fl.one 1).toInt = Fmt.f32.D ∧
    (geneOf halves ((Fl.zero : F64), Fl.one) 0).toInt = 0 ∧ 2 * (geneOf halves ((Fl.zero : F64), Fl.one) 1).toInt = Fmt.f64.D ∧
    2 * (Fl.ofRat false 1 2 : F32).toInt = Fmt.f32.D := by decide +kernel

theorem rat_half {f : Fmt} {x : Fl f} (h : 2 * x.toInt = f.D) : ratValue x = 1 / 2 := by
  have hD : (0 : ℚ) < f.D := by exact_mod_cast f.D_pos
  have : 2 * (x.toInt : ℚ) = f.D := by exact_mod_cast h
  unfold ratValue
  rw [← this, div_eq_div_iff (by rw [this]; exact hD.ne') (by norm_num)]
  ring

theorem rat_zero {f : Fmt} {x : Fl f} (h : x.toInt = 0) : ratValue x = 0 := by
  unfold ratValue
  rw [h, Int.cast_zero, zero_div]

/-- They are spread evenly, without deviations, and a probability of 1/2 is kept up to one draw. -/
example : 1 / 2 - 0 ≤ teleportShare halves 2 (Fl.ofRat false 1 2) ∧ teleportShare halves 2 (Fl.ofRat false 1 2) ≤ 1 / 2 + 0 + 1 / (2 : Nat) := by
  obtain ⟨h1, h2, -, -, h5⟩ := halves_values
  have e := rat_half h5
  have := C102_teleport_probability halves 2 (by norm_num) (Fl.ofRat false 1 2) (by decide +kernel) (by rw [e]; norm_num) (by rw [e]; norm_num) 0
    (by
      intro k hk
      obtain rfl | rfl : k = 0 ∨ k = 1 := by omega
      · show |ratValue (halves.openVal (Fl.zero : F32) Fl.one 0) - _| ≤ _
        rw [rat_zero h1]; norm_num
      · show |ratValue (halves.openVal (Fl.zero : F32) Fl.one 1) - _| ≤ _
        rw [rat_half h2]; norm_num)
  rwa [e] at this

/-- The same for genes between 0 and 1. -/
example : Even 2 0 (ratValue (Fl.zero : F64)) (ratValue (Fl.one : F64)) (fun k => ratValue (geneOf halves ((Fl.zero : F64), Fl.one) k)) := by
  obtain ⟨-, -, h3, h4, -⟩ := halves_values
  have h0 : ratValue (Fl.zero : F64) = 0 := rat_zero Fl.toInt_zero
  have h1 : ratValue (Fl.one : F64) = 1 := by
    have hD : (0 : ℚ) < Fmt.f64.D := by exact_mod_cast Fmt.f64.D_pos
    unfold ratValue; rw [Fl.toInt_one]
    exact div_self (by exact_mod_cast hD.ne')
  rw [h0, h1]
  intro k hk
  obtain rfl | rfl : k = 0 ∨ k = 1 := by omega
  · show |ratValue (geneOf halves ((Fl.zero : F64), Fl.one) 0) - _| ≤ _
    rw [rat_zero h3]; norm_num
  · show |ratValue (geneOf halves ((Fl.zero : F64), Fl.one) 1) - _| ≤ _
    rw [rat_half h4]; norm_num

/-- The intervals of a population of two individuals with two genes. -/
example : FiniteIncreasing [((Fl.zero : F64), Fl.one), (Fl.zero, Fl.one)] ∧ Fmt.Embeds Fmt.f64 Fmt.f64 := by
  refine ⟨?_, (Fmt.embeds_refl _)⟩
  intro iv hiv
  have : iv = ((Fl.zero : F64), Fl.one) := by simpa using hiv
  rw [this]
  decide +kernel

/-- The chance that the first gene of both individuals is 0 is 1/4. -/
example : chance (List.replicate (2 * 1) 2)
    (Gives (RandomCreator.create halves.source ⟨2, [((Fl.zero : F64), Fl.one)]⟩) (Each [[fun x => x = Fl.zero], [fun x => x = Fl.zero]])) = 1 / 4 := by
  refine (C102_creator halves (Fmt.embeds_refl _) 2 2 [((Fl.zero : F64), Fl.one)] (by
    intro iv hiv
    have : iv = ((Fl.zero : F64), Fl.one) := by simpa using hiv
    rw [this]
    decide +kernel) [[fun x => x = Fl.zero], [fun x => x = Fl.zero]] rfl (by simp)).trans ?_
  have hs : share 2 (fun k => geneOf halves ((Fl.zero : F64), Fl.one) k = Fl.zero) = 1 / 2 := by
    classical
    rw [share_eq]
    have : (Finset.range 2).filter (fun k => geneOf halves ((Fl.zero : F64), Fl.one) k = Fl.zero) = {0} := by decide +kernel
    rw [Finset.filter_congr_decidable, this]
    simp
  simp only [List.map_cons, List.map_nil, List.zipWith_cons_cons, List.zipWith_nil_left, List.prod_cons, List.prod_nil, hs]
  norm_num

end Verif.Props
