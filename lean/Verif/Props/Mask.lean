import Verif.Spec.Mask
import Verif.Proofs.RankLib
import Verif.Proofs.Cross
import Verif.Props.Rank
import Verif.Props.Reach

/-!
# C107: the bitwise genetic search has no preferred bit pattern
-/

namespace Verif.Props

open Verif Spec Spec.Rank

variable {σ : Type} {f : Fmt}

/-! ### Lists of genes -/

theorem _root_.Verif.Spec.Turned.nil : Turned (f := f) [] [] [] := ⟨rfl, rfl⟩

theorem _root_.Verif.Spec.Turned.cons {m : BitVec f.w} {ms : List (BitVec f.w)} {x : Fl f} {xs ys : List (Fl f)} (h : Turned ms xs ys) :
    Turned (m :: ms) (x :: xs) (turned m x :: ys) := ⟨by simp [h.1], by simp [turnedAll, h.2]⟩

theorem _root_.Verif.Spec.Turned.append {ms ms' : List (BitVec f.w)} {xs ys xs' ys' : List (Fl f)} (h : Turned ms xs ys) (h' : Turned ms' xs' ys') :
    Turned (ms ++ ms') (xs ++ xs') (ys ++ ys') := by
  refine ⟨by simp [h.1, h'.1], ?_⟩
  rw [h.2, h'.2]
  exact (List.zipWith_append h.1.symm).symm

theorem _root_.Verif.Spec.Turned.length {ms : List (BitVec f.w)} {xs ys : List (Fl f)} (h : Turned ms xs ys) : ys.length = xs.length := by
  rw [h.2]; simp [turnedAll, h.1]

/-- Gene number `n` of the one and of the other -/
theorem _root_.Verif.Spec.Turned.index {ms : List (BitVec f.w)} {xs ys : List (Fl f)} (h : Turned ms xs ys) {n : Nat} {m : BitVec f.w}
    (hm : ms[n]? = some m) : Alike (Eq : σ → σ → Prop) (fun x y => y = turned m x) (M.index xs n) (M.index ys n) := by
  obtain ⟨x, hx⟩ : ∃ x, xs[n]? = some x := by
    have : n < xs.length := by rw [h.1]; exact (List.getElem?_eq_some_iff.1 hm).1
    exact ⟨_, List.getElem?_eq_getElem this⟩
  have hy : ys[n]? = some (turned m x) := by
    rw [h.2, turnedAll, List.getElem?_zipWith, hm, hx]
  rintro w _ rfl
  unfold M.index
  rw [hx, hy]
  exact ⟨rfl, rfl⟩

theorem same_ok {α γ δ : Type} {Q' : γ → δ → Prop} (m : M σ α) {g : α → M σ γ} {g' : α → M σ δ}
    (hf : ∀ a s s', m s = .ok (a, s') → Alike Eq Q' (g a) (g' a)) : Alike Eq Q' (m >>= g) (m >>= g') := by
  rintro w _ rfl
  rw [M.bind_run, M.bind_run]
  cases h : m w with
  | error e => rfl
  | ok r => exact hf _ _ _ h _ _ rfl

/-! ### Single genes -/

theorem flipLoop_turned (R : Rng σ) (m : BitVec f.w) : ∀ (n : Nat) (b : BitVec f.w),
    Alike Eq (fun x y => y = x ^^^ m) (Mutation.flipLoop R n b) (Mutation.flipLoop R n (b ^^^ m)) := by
  intro n
  induction n with
  | zero => intro b; exact Rank.pure rfl
  | succ n ih =>
    intro b
    unfold Mutation.flipLoop
    refine Rank.same _ fun pos => ?_
    have : b ^^^ m ^^^ 1#f.w <<< pos = b ^^^ 1#f.w <<< pos ^^^ m := by
      rw [BitVec.xor_assoc, BitVec.xor_comm m, BitVec.xor_assoc]
    rw [this]
    exact ih _

theorem splice_turned {w pos : Nat} (h2 : pos < w) (a b m : BitVec w) :
    ((a ^^^ m) &&& (BitVec.allOnes w <<< pos)) ||| ((b ^^^ m) &&& (BitVec.allOnes w >>> (w - pos))) =
      ((a &&& (BitVec.allOnes w <<< pos)) ||| (b &&& (BitVec.allOnes w >>> (w - pos)))) ^^^ m := by
  apply BitVec.eq_of_getLsbD_eq
  intro i hi
  by_cases h : i < pos
  · have : w - pos + i < w := by omega
    simp [h, BitVec.getLsbD_shiftLeft, BitVec.getLsbD_ushiftRight, this]
  · have h3 : ¬ (w - pos + i < w) := by omega
    have h4 : i - pos < w := by omega
    simp [h, hi, BitVec.getLsbD_shiftLeft, BitVec.getLsbD_ushiftRight, h3, h4]

/-- C107: CrossBitwise on one gene. With the same random numbers the child of the turned parents is the turned child. -/
theorem C107_cross (p : Profile) (R : Rng σ) (m : BitVec f.w) (xs ys : List (Fl f)) (h : List.Forall₂ (fun x y => y = turned m x) xs ys) :
    Alike Eq (List.Forall₂ fun x y => y = turned m x) (Cross.crossBitwise p R xs) (Cross.crossBitwise p R ys) := by
  unfold Cross.crossBitwise
  rw [h.length_eq]
  refine Rank.same _ fun _ => same_ok _ fun pos s s' hpos => Rank.bind (Rank.index h 0) fun a a' ha =>
    Rank.bind (Rank.index h 1) fun b b' hb => ?_
  obtain ⟨h1, h2⟩ := R.uniformNat_ok hpos
  rw [ha, hb]
  unfold Cross.cross_fl
  rw [Cross.crossU_ok p _ _ h1 h2, Cross.crossU_ok p _ _ h1 h2]
  refine Rank.pure (.cons ?_ .nil)
  exact congrArg Fl.mk (splice_turned h2 a.bits b.bits m)

/-- C107: BitwiseMutation on one gene, with any number of flips. -/
theorem C107_mutate (R : Rng σ) (k : Nat) (m : BitVec f.w) (x : Fl f) :
    Alike Eq (fun x y => y = turned m x) (Mutation.bitwise R k x) (Mutation.bitwise R k (turned m x)) :=
  Rank.bind (flipLoop_turned R m k x.bits) fun _ _ h => Rank.pure (congrArg Fl.mk h)

/-! ### Chromosomes -/

/-- C107: VecCrossAllGenes. If the crossing of a gene does not care for the bits turned over, the crossing of the chromosomes does
not either, with a mask of its own for every gene. -/
theorem C107_vec_cross (single : List (Fl f) → M σ (List (Fl f))) (ms : List (BitVec f.w))
    (hs : ∀ m ∈ ms, ∀ x1 x2, Alike Eq (Turned [m]) (single [x1, x2]) (single [turned m x1, turned m x2]))
    (xs ys : List (List (Fl f))) (h : List.Forall₂ (Turned ms) xs ys) :
    Alike Eq (List.Forall₂ (Turned ms)) (Cross.vecCrossAllGenes single xs) (Cross.vecCrossAllGenes single ys) := by
  have loop : ∀ {p1 p1' p2 p2' : List (Fl f)}, Turned ms p1 p1' → Turned ms p2 p2' → ∀ (r k : Nat) (c c' : List (Fl f)),
      k + r = ms.length → Turned (ms.take k) c c' →
      Alike Eq (Turned ms) (Cross.vecCrossLoop single p1 p2 (List.range' k r) c) (Cross.vecCrossLoop single p1' p2' (List.range' k r) c') := by
    intro p1 p1' p2 p2' h1 h2 r
    induction r with
    | zero =>
      intro k c c' hk hc
      rw [List.take_of_length_le (by omega)] at hc
      exact Rank.pure hc
    | succ r ih =>
      intro k c c' hk hc
      have hlt : k < ms.length := by omega
      have hm : ms[k]? = some ms[k] := List.getElem?_eq_getElem hlt
      rw [List.range'_succ]
      unfold Cross.vecCrossLoop
      refine Rank.bind (h1.index hm) fun a a' ha => Rank.bind (h2.index hm) fun b b' hb => ?_
      rw [ha, hb]
      refine Rank.bind (hs _ (List.getElem_mem hlt) a b) fun d d' hd => ih (k + 1) _ _ (by omega) ?_
      rw [List.take_succ_eq_append_getElem hlt]
      exact hc.append hd
  unfold Cross.vecCrossAllGenes
  rw [h.length_eq]
  refine Rank.same _ fun _ => Rank.bind (Rank.index h 0) fun a a' ha => Rank.bind (Rank.index h 1) fun b b' hb => ?_
  refine Rank.bind (Q := Turned ms) ?_ fun c c' hc => Rank.pure (.cons hc .nil)
  rw [ha.length, List.range_eq_range', ha.1]
  exact loop ha hb _ 0 [] [] (by omega) Turned.nil

/-- C107: VecCrossAllGenes with CrossBitwise -/
theorem C107_crossing (p : Profile) (R : Rng σ) (ms : List (BitVec f.w)) (xs ys : List (List (Fl f)))
    (h : List.Forall₂ (Turned ms) xs ys) :
    Alike Eq (List.Forall₂ (Turned ms)) (Cross.vecCrossAllGenes (Cross.crossBitwise p R) xs)
      (Cross.vecCrossAllGenes (Cross.crossBitwise p R) ys) := by
  refine C107_vec_cross _ ms (fun m _ x1 x2 => ?_) xs ys h
  intro w v hw
  have key := C107_cross p R m [x1, x2] [turned m x1, turned m x2] (.cons rfl (.cons rfl .nil)) w v hw
  have hlen := fun (ps : List (Fl f)) s r s' (h : Cross.crossBitwise p R ps s = .ok (r, s')) => (show r.length = 1 by
    unfold Cross.crossBitwise at h
    obtain ⟨_, _, _, h⟩ := M.bind_eq_ok.1 h
    obtain ⟨_, _, _, h⟩ := M.bind_eq_ok.1 h
    obtain ⟨_, _, _, h⟩ := M.bind_eq_ok.1 h
    obtain ⟨_, _, _, h⟩ := M.bind_eq_ok.1 h
    obtain ⟨_, _, _, h⟩ := M.bind_eq_ok.1 h
    obtain ⟨h, _⟩ := M.pure_eq_ok.1 h
    rw [← h]; rfl)
  revert key
  cases h1 : Cross.crossBitwise p R [x1, x2] w with
  | error e => cases Cross.crossBitwise p R [turned m x1, turned m x2] v <;> exact id
  | ok r =>
    cases Cross.crossBitwise p R [turned m x1, turned m x2] v with
    | error e => exact id
    | ok r' =>
      rintro ⟨hr, hs⟩
      refine ⟨?_, hs⟩
      obtain ⟨l, s⟩ := r
      obtain ⟨l', s'⟩ := r'
      have h2 := hlen _ _ _ _ h1
      match l, l', hr, h2 with
      | [x], [y], .cons hxy .nil, _ => subst hxy; exact Turned.nil.cons

/-- C107: VecMutation with BitwiseMutation: whether a gene is mutated does not depend on its bits, and what the flips do to turned
bits is what they do to the bits, turned. -/
theorem C107_mutation (R : Rng σ) (k : Nat) (prob : F64) (ms : List (BitVec f.w)) (xs ys : List (Fl f)) (h : Turned ms xs ys) :
    Alike Eq (Turned ms) (Mutation.vec R prob (Mutation.bitwise R k) xs) (Mutation.vec R prob (Mutation.bitwise R k) ys) := by
  obtain ⟨hl, rfl⟩ := h
  unfold Mutation.vec
  generalize R.uniformFl (Fl.zero : F64) Mutation.hundred = draw
  induction ms generalizing xs with
  | nil =>
    obtain rfl := List.length_eq_zero_iff.1 hl
    exact Rank.pure Turned.nil
  | cons m ms ih =>
    obtain ⟨x, xs, rfl⟩ : ∃ x xs', xs = x :: xs' := List.exists_cons_of_length_eq_add_one hl
    refine Rank.bind (Q := fun x y => y = turned m x) ?_ fun a b hab => Rank.bind (ih xs (by simpa using hl)) fun as bs h =>
      Rank.pure (by subst hab; exact h.cons)
    refine Rank.same _ fun u => ?_
    split
    · exact C107_mutate R k m x
    · exact Rank.pure rfl

/-! ### Whole searches -/

/-- C107: two genetic searches with the components of the library that work bit by bit. The goal of the second one gives to every
turned chromosome the value that the first one's goal gives to the chromosome itself, and its creator creates the turned chromosomes.
With the same random numbers both panic in the same way, or all that happens in the one, turned, happens in the other: creation,
evaluations, children, mutants, deaths, best solutions. -/
theorem C107_search (p : Profile) (R : Rng σ) (ms : List (BitVec f.w)) (goal goal' : List (Fl f) → M σ F64)
    (hg : ∀ x, x.length = ms.length → goal' (turnedAll ms x) = goal x)
    (creator creator' : M σ (List (List (Fl f)))) (hcr : Alike Eq (List.Forall₂ (Turned ms)) creator creator')
    (stop stop' : AlgState (List (Fl f)) → M σ Bool) (hst : Stops (Turned ms) Eq stop stop')
    (pairing pairing' : Population (List (Fl f)) → M σ (List (List Nat))) (hp : Pairings (Turned ms) Eq pairing pairing')
    (k : Nat) (prob : F64) {sels sels' : List (Population (List (Fl f)) → M σ (Population (List (Fl f))))}
    (hs : List.Forall₂ (Selections (Turned ms) Eq) sels sels')
    {pres pres' : List (Population (List (Fl f)) → List (List (Fl f)) → M σ (List (List (Fl f))))}
    (hb : List.Forall₂ (PreBirths (Turned ms) Eq) pres pres')
    {ks ks' : List (GA.Call σ (List (Fl f)))} (hk : List.Forall₂ (GeneticCall (Turned ms) Eq) ks ks') (s : σ) :
    Outcome (Worlds (Turned ms) Eq) (fun r r' => List.Forall₂ (Returned (Turned ms) Eq) r.1 r'.1 ∧ GeneticOpt (Turned ms) Eq r.2 r'.2)
      (GA.run (GA.new goal stop creator pairing (Cross.vecCrossAllGenes (Cross.crossBitwise p R))
        (Mutation.vec R prob (Mutation.bitwise R k)) sels pres) ks ⟨s, []⟩)
      (GA.run (GA.new goal' stop' creator' pairing' (Cross.vecCrossAllGenes (Cross.crossBitwise p R))
        (Mutation.vec R prob (Mutation.bitwise R k)) sels' pres') ks' ⟨s, []⟩) := by
  have hc : Genetic (σ := σ) (Turned ms) Eq (GA.new goal stop creator pairing (Cross.vecCrossAllGenes (Cross.crossBitwise p R))
      (Mutation.vec R prob (Mutation.bitwise R k)) sels pres).comps
      (GA.new goal' stop' creator' pairing' (Cross.vecCrossAllGenes (Cross.crossBitwise p R))
        (Mutation.vec R prob (Mutation.bitwise R k)) sels' pres').comps := by
    refine ⟨?_, hst, hcr, hp, C107_crossing p R ms, fun x y h => C107_mutation R k prob ms x y h, hs, hb, .nil⟩
    rintro x _ ⟨hl, rfl⟩
    show Alike Eq Eq (goal x) (goal' (turnedAll ms x))
    rw [hg x hl]
    exact Rank.refl _
  exact Rank.run sameOrder_eq hk ⟨hc, ⟨.nil, .none, .none, rfl⟩⟩ ⟨s, []⟩ ⟨s, []⟩ ⟨rfl, .nil⟩

/-- The creator that creates the turned chromosomes -/
def turnedCreator (ms : List (BitVec f.w)) (creator : M σ (List (List (Fl f)))) : M σ (List (List (Fl f))) := do
  let xs ← creator
  pure (xs.map (turnedAll ms))

theorem turnedCreator_alike (ms : List (BitVec f.w)) (creator : M σ (List (List (Fl f))))
    (hl : ∀ s xs s', creator s = .ok (xs, s') → ∀ x ∈ xs, x.length = ms.length) :
    Alike Eq (List.Forall₂ (Turned ms)) creator (turnedCreator ms creator) := by
  rintro w _ rfl
  unfold turnedCreator
  rw [M.bind_run]
  cases h : creator w with
  | error e => rfl
  | ok r =>
    refine ⟨?_, rfl⟩
    have := hl _ _ _ h
    revert this
    generalize r.1 = xs
    intro hx
    rw [List.forall₂_map_right_iff, List.forall₂_same]
    exact fun x h => ⟨hx x h, rfl⟩

theorem turnedAll_turnedAll (ms : List (BitVec f.w)) (xs : List (Fl f)) (h : xs.length = ms.length) :
    turnedAll ms (turnedAll ms xs) = xs := by
  induction ms generalizing xs with
  | nil => obtain rfl := List.length_eq_zero_iff.1 h; rfl
  | cons m ms ih =>
    obtain ⟨x, xs, rfl⟩ : ∃ x xs', xs = x :: xs' := List.exists_cons_of_length_eq_add_one h
    show turned m (turned m x) :: turnedAll ms (turnedAll ms xs) = _
    rw [ih xs (by simpa using h)]
    congr 1
    show (⟨x.bits ^^^ m ^^^ m⟩ : Fl f) = x
    rw [BitVec.xor_assoc, BitVec.xor_self, BitVec.xor_zero]

/-- C107 for `find_min` with the tournament, KillFitnessNaN and LimitPopulation: search with any goal from any initial population, and
search with the goal that turns its argument over first, from the turned population. With the same random numbers the second search
evaluates the turned points, in the same order, and returns the turned point with the same value. -/
theorem C107_find_min (p : Profile) (R : Rng σ) (ms : List (BitVec f.w)) (goal : List (Fl f) → F64) (creator : M σ (List (List (Fl f))))
    (hl : ∀ s xs s', creator s = .ok (xs, s') → ∀ x ∈ xs, x.length = ms.length) (t : Pairing.Tournament) (k n m fuel : Nat) (prob : F64)
    (s : σ) :
    Outcome (fun w w' => w.user = w'.user ∧ goalArgs w'.trace = (goalArgs w.trace).map (turnedAll ms))
      (fun r r' => r'.1 = r.1.map fun q => (turnedAll ms q.1, q.2))
      (GA.findMin fuel (GA.new (fun x => pure (goal x)) (Stop.maxIterations m) creator (Pairing.tournament R t)
        (Cross.vecCrossAllGenes (Cross.crossBitwise p R)) (Mutation.vec R prob (Mutation.bitwise R k))
        [Selection.killFitnessNaN, Selection.limitPopulation n] []) ⟨s, []⟩)
      (GA.findMin fuel (GA.new (fun x => pure (goal (turnedAll ms x))) (Stop.maxIterations m) (turnedCreator ms creator)
        (Pairing.tournament R t) (Cross.vecCrossAllGenes (Cross.crossBitwise p R)) (Mutation.vec R prob (Mutation.bitwise R k))
        [Selection.killFitnessNaN, Selection.limitPopulation n] []) ⟨s, []⟩) := by
  have hc : Genetic (σ := σ) (Turned ms) Eq (GA.new (fun x => pure (goal x)) (Stop.maxIterations m) creator (Pairing.tournament R t)
      (Cross.vecCrossAllGenes (Cross.crossBitwise p R)) (Mutation.vec R prob (Mutation.bitwise R k))
      [Selection.killFitnessNaN, Selection.limitPopulation n] []).comps
      (GA.new (fun x => pure (goal (turnedAll ms x))) (Stop.maxIterations m) (turnedCreator ms creator)
        (Pairing.tournament R t) (Cross.vecCrossAllGenes (Cross.crossBitwise p R)) (Mutation.vec R prob (Mutation.bitwise R k))
        [Selection.killFitnessNaN, Selection.limitPopulation n] []).comps := by
    refine ⟨?_, Rank.maxIterations m, turnedCreator_alike ms creator hl, Rank.tournament sameOrder_eq R t, C107_crossing p R ms,
      fun x y h => C107_mutation R k prob ms x y h,
      .cons (Rank.killFitnessNaN sameOrder_eq) (.cons (Rank.limitPopulation sameOrder_eq n) .nil), .nil, .nil⟩
    rintro x _ ⟨hx, rfl⟩
    refine Rank.pure ?_
    rw [turnedAll_turnedAll ms x hx]
  have key := Rank.findMin sameOrder_eq fuel ⟨hc, ⟨.nil, .none, .none, rfl⟩⟩ (⟨s, []⟩ : World σ (List (Fl f))) ⟨s, []⟩ ⟨rfl, .nil⟩
  revert key
  generalize GA.findMin fuel _ _ = r
  generalize GA.findMin fuel _ _ = r'
  cases r with
  | error e => cases r' <;> exact id
  | ok r =>
    cases r' with
    | error e => exact id
    | ok r' =>
      obtain ⟨⟨b, o⟩, w⟩ := r
      obtain ⟨⟨b', o'⟩, w'⟩ := r'
      rintro ⟨hr, hu, ht⟩
      refine ⟨?_, hu, ?_⟩
      · have hr' : Option.Rel (Sol (Turned ms) Eq) b b' := hr.1
        cases hr' with
        | none => rfl
        | some h =>
          obtain ⟨⟨_, h1⟩, h2⟩ := h
          exact congrArg some (Prod.ext h1 h2.symm)
      · clear hr
        generalize w.trace = tr at ht
        generalize w'.trace = tr' at ht
        show goalArgs tr' = (goalArgs tr).map _
        induction ht with
        | nil => rfl
        | cons h _ ih =>
          cases h <;> simp_all [goalArgs, Turned]

/-! ### Signs -/

theorem turned_sign (x : Fl f) : turned (signMask f) x = x.neg := congrArg Fl.mk (neg_bits x).symm

theorem turned_zero (x : Fl f) : turned 0#f.w x = x := congrArg Fl.mk BitVec.xor_zero

/-- C107: turning the sign bits over is negation, for infinite genes and NaN too. -/
theorem C107_signs (chosen : List Bool) (xs : List (Fl f)) : turnedAll (signMasks f chosen) xs = negated chosen xs := by
  induction chosen generalizing xs with
  | nil => rfl
  | cons b bs ih =>
    cases xs with
    | nil => rfl
    | cons x xs =>
      show turned (if b then signMask f else 0#f.w) x :: turnedAll (signMasks f bs) xs = _ :: negated bs xs
      rw [ih]
      cases b
      · exact congrArg (· :: _) (turned_zero x)
      · exact congrArg (· :: _) (turned_sign x)

theorem lt_neg_neg (x y : Fl f) : x.neg.lt y.neg = y.lt x := by
  rw [Bool.eq_iff_iff, Fl.lt_iff, Fl.lt_iff, Fl.isNan_neg, Fl.isNan_neg, Fl.toInt_neg, Fl.toInt_neg]
  constructor <;> rintro ⟨h1, h2, h3⟩ <;> exact ⟨h2, h1, by omega⟩

theorem geneBad_neg (x : Fl f) (iv : Fl f × Fl f) : Selection.geneBad x.neg (iv.2.neg, iv.1.neg) = Selection.geneBad x iv := by
  show (!x.neg.isFinite || x.neg.lt iv.2.neg || iv.1.neg.lt x.neg) = (!x.isFinite || x.lt iv.1 || iv.2.lt x)
  rw [Fl.isFinite_neg, lt_neg_neg, lt_neg_neg]
  cases x.isFinite <;> cases x.lt iv.1 <;> cases iv.2.lt x <;> rfl

theorem anyBad_negated (chosen : List Bool) (xs : List (Fl f)) (ivs : List (Fl f × Fl f)) (h1 : xs.length = chosen.length)
    (h2 : ivs.length = chosen.length) : Selection.anyBad (negated chosen xs) (mirrored chosen ivs) = Selection.anyBad xs ivs := by
  induction chosen generalizing xs ivs with
  | nil =>
    obtain rfl := List.length_eq_zero_iff.1 h1
    rfl
  | cons b bs ih =>
    obtain ⟨x, xs, rfl⟩ : ∃ x xs', xs = x :: xs' := List.exists_cons_of_length_eq_add_one h1
    obtain ⟨iv, ivs, rfl⟩ : ∃ x xs', ivs = x :: xs' := List.exists_cons_of_length_eq_add_one h2
    show (Selection.geneBad (if b then x.neg else x) (if b then (iv.2.neg, iv.1.neg) else iv) ||
      Selection.anyBad (negated bs xs) (mirrored bs ivs)) = (Selection.geneBad x iv || Selection.anyBad xs ivs)
    rw [ih xs ivs (by simpa using h1) (by simpa using h2)]
    cases b
    · rfl
    · exact congrArg (· || _) (geneBad_neg x iv)

theorem Turned_signs {chosen : List Bool} {xs ys : List (Fl f)} (h : Turned (signMasks f chosen) xs ys) :
    xs.length = chosen.length ∧ ys = negated chosen xs :=
  ⟨by rw [h.1]; simp [signMasks], by rw [h.2, C107_signs]⟩

theorem negated_length {chosen : List Bool} {xs : List (Fl f)} (h : xs.length = chosen.length) : (negated chosen xs).length = xs.length := by
  simp [negated, h]

theorem mirrored_length {chosen : List Bool} {ivs : List (Fl f × Fl f)} (h : ivs.length = chosen.length) :
    (mirrored chosen ivs).length = ivs.length := by
  simp [mirrored, h]

theorem retain_alike {A B : Type} {H : A → B → Prop} {g : A → M σ Bool} {g' : B → M σ Bool} (h : ∀ a b, H a b → g a = g' b) {as : List A}
    {bs : List B} (hl : List.Forall₂ H as bs) : Alike Eq (List.Forall₂ H) (Selection.retain g as) (Selection.retain g' bs) := by
  induction hl with
  | nil => exact Rank.pure .nil
  | cons h1 _ ih =>
    unfold Selection.retain
    rw [h _ _ h1]
    refine Rank.same _ fun b => Rank.bind ih fun l l' hl => Rank.pure ?_
    cases b
    · exact hl
    · exact .cons h1 hl

/-- C107: both interval checks, with the intervals of the negated genes mirrored, treat a chromosome and its mirror image alike. -/
theorem C107_intervals {Q : F64 → F64 → Prop} (chosen : List Bool) (ivs : List (Fl f × Fl f)) (hiv : ivs.length = chosen.length) :
    Selections (σ := σ) (Turned (signMasks f chosen)) Q (Selection.checkChromoInterval ivs)
      (Selection.checkChromoInterval (mirrored chosen ivs)) ∧
    PreBirths (σ := σ) (Turned (signMasks f chosen)) Q (Selection.preBirthInterval ivs) (Selection.preBirthInterval (mirrored chosen ivs)) := by
  constructor
  · intro p p' hp
    refine Rank.bind (Q := List.Forall₂ (Ind (Turned (signMasks f chosen)) Q)) (Rank.mapL ?_ hp.individuals) fun l l' h =>
      Rank.pure (Rank.pop_with hp h)
    intro i i' hi
    obtain ⟨hl, he⟩ := Turned_signs hi.1
    rw [he, negated_length hl, mirrored_length hiv, anyBad_negated chosen _ _ hl hiv]
    refine Rank.same _ fun _ => Rank.pure ?_
    split
    · exact Rank.ind_kill hi
    · exact hi
  · intro p p' xs ys _ h
    refine retain_alike ?_ h
    intro x y hxy
    obtain ⟨hl, rfl⟩ := Turned_signs hxy
    unfold Selection.checkChromo
    rw [negated_length hl, mirrored_length hiv, anyBad_negated chosen _ _ hl hiv]

/-- C107 for mirrored searches: a goal that does not change when the chosen genes are negated, any intervals with their mirror images as
pre-birth filter and as selection. From the mirrored initial population the search runs through the mirrored chromosomes. -/
theorem C107_mirrored (p : Profile) (R : Rng σ) (chosen : List Bool) (goal : List (Fl f) → M σ F64)
    (hg : ∀ x, x.length = chosen.length → goal (negated chosen x) = goal x) (creator creator' : M σ (List (List (Fl f))))
    (hcr : Alike Eq (List.Forall₂ (Turned (signMasks f chosen))) creator creator') (t : Pairing.Tournament) (k m : Nat) (prob limit : F64)
    (n : Nat) (ivs : List (Fl f × Fl f)) (hiv : ivs.length = chosen.length) {ks ks' : List (GA.Call σ (List (Fl f)))}
    (hk : List.Forall₂ (GeneticCall (Turned (signMasks f chosen)) Eq) ks ks') (s : σ) :
    Outcome (Worlds (Turned (signMasks f chosen)) Eq)
      (fun r r' => List.Forall₂ (Returned (Turned (signMasks f chosen)) Eq) r.1 r'.1 ∧
        GeneticOpt (Turned (signMasks f chosen)) Eq r.2 r'.2)
      (GA.run (GA.new goal (Stop.any [Stop.maxIterations m, Stop.threshold limit]) creator (Pairing.tournament R t)
        (Cross.vecCrossAllGenes (Cross.crossBitwise p R)) (Mutation.vec R prob (Mutation.bitwise R k))
        [Selection.killFitnessNaN, Selection.checkChromoInterval ivs, Selection.limitPopulation n] [Selection.preBirthInterval ivs])
        ks ⟨s, []⟩)
      (GA.run (GA.new goal (Stop.any [Stop.maxIterations m, Stop.threshold limit]) creator' (Pairing.tournament R t)
        (Cross.vecCrossAllGenes (Cross.crossBitwise p R)) (Mutation.vec R prob (Mutation.bitwise R k))
        [Selection.killFitnessNaN, Selection.checkChromoInterval (mirrored chosen ivs), Selection.limitPopulation n]
        [Selection.preBirthInterval (mirrored chosen ivs)]) ks' ⟨s, []⟩) := by
  refine C107_search p R _ goal goal ?_ creator creator' hcr _ _ ?_ _ _ (Rank.tournament sameOrder_eq R t) k prob ?_ ?_ hk s
  · intro x hx
    rw [C107_signs]
    exact hg x (by rw [hx]; simp [signMasks])
  · refine Rank.any (.cons (Rank.maxIterations m) (.cons (Rank.threshold ?_) .nil))
    rintro v _ rfl
    rfl
  · exact .cons (Rank.killFitnessNaN sameOrder_eq) (.cons (C107_intervals chosen ivs hiv).1
      (.cons (Rank.limitPopulation sameOrder_eq n) .nil))
  · exact .cons (C107_intervals chosen ivs hiv).2 .nil

/-! ### Crossings that do prefer some patterns -/

/-- C107, not so with CrossMean: the mean of 1 and -1 is +0, and so is the mean of their mirror images -1 and 1. -/
theorem C107_mean_witness (s : σ) : Cross.crossMean [(Fl.one : F64), Fl.one.neg] s = .ok ([Fl.zero], s) ∧
    Cross.crossMean [(Fl.one : F64).neg, Fl.one] s = .ok ([Fl.zero], s) ∧ (Fl.zero : F64) ≠ Fl.zero.neg := by
  have h1 : FloatT.div (([(Fl.one : F64), Fl.one.neg] : List F64).foldl (fun x y => FloatT.add x y) FloatT.zero) (FloatT.ofNat 2) =
      (Fl.zero : F64) := by decide +kernel
  have h2 : FloatT.div (([(Fl.one : F64).neg, Fl.one] : List F64).foldl (fun x y => FloatT.add x y) FloatT.zero) (FloatT.ofNat 2) =
      (Fl.zero : F64) := by decide +kernel
  exact ⟨congrArg (fun c => Except.ok ([c], s)) h1, congrArg (fun c => Except.ok ([c], s)) h2, by decide +kernel⟩

/-! ### An instance -/

/-- The search of the instance: two chromosomes of two genes, the goal is the first gene, tournament pairing, one flip in every mutated gene -/
def bitSearch (goal : List F64 → F64) (creator : M (List Nat) (List (List F64))) : GA.Opt (List Nat) (List F64) :=
  GA.new (fun x => pure (goal x)) (Stop.maxIterations 2) creator (Pairing.tournament Rng.script (Pairing.Tournament.new 2))
    (Cross.vecCrossAllGenes (Cross.crossBitwise .debug Rng.script)) (Mutation.vec Rng.script Mutation.hundred (Mutation.bitwise Rng.script 1))
    [Selection.killFitnessNaN, Selection.limitPopulation 2] []

/-- The masks of the instance: the lowest bit of the first gene; sign and highest bit of the exponent of the second one -/
def bitMasks : List (BitVec Fmt.f64.w) := [1#64, 0xC000000000000000#64]

/-- C107_find_min holds for it. -/
example (s : List Nat) (fuel : Nat) :
    Outcome (fun w w' => w.user = w'.user ∧ goalArgs w'.trace = (goalArgs w.trace).map (turnedAll bitMasks))
      (fun r r' => r'.1 = r.1.map fun q => (turnedAll bitMasks q.1, q.2))
      (GA.findMin fuel (bitSearch (fun x => x.headD Fl.zero) (pure [[Fl.one, Fl.one], [Fl.zero, Fl.one.neg]])) ⟨s, []⟩)
      (GA.findMin fuel (bitSearch (fun x => (turnedAll bitMasks x).headD Fl.zero)
        (turnedCreator bitMasks (pure [[Fl.one, Fl.one], [Fl.zero, Fl.one.neg]]))) ⟨s, []⟩) :=
  C107_find_min .debug Rng.script bitMasks _ _ (by
    intro s xs s' h x hx
    obtain ⟨rfl, -⟩ := M.pure_eq_ok.1 h
    simp only [List.mem_cons, List.not_mem_nil, or_false] at hx
    rcases hx with rfl | rfl <;> rfl) _ _ _ _ _ _ _

set_option maxRecDepth 20000 in
/-- Both searches do return, and have evaluated children and mutants. -/
example :
    M.okAnd (GA.findMin 10 (bitSearch (fun x => x.headD Fl.zero) (pure [[Fl.one, Fl.one], [Fl.zero, Fl.one.neg]]))
      ⟨[0, 1, 1, 0, 5, 7, 3, 2, 9, 4, 63, 1, 60, 2, 11, 3, 62, 4, 8], []⟩)
      (fun r w => decide (2 < (goalArgs w.trace).length) && r.1.isSome) = true ∧
    M.okAnd (GA.findMin 10 (bitSearch (fun x => (turnedAll bitMasks x).headD Fl.zero)
      (turnedCreator bitMasks (pure [[Fl.one, Fl.one], [Fl.zero, Fl.one.neg]])))
      ⟨[0, 1, 1, 0, 5, 7, 3, 2, 9, 4, 63, 1, 60, 2, 11, 3, 62, 4, 8], []⟩)
      (fun r w => decide (2 < (goalArgs w.trace).length) && r.1.isSome) = true := by
  decide +kernel

/-- A mirrored goal: the sum of the squares of two genes does not change with the signs. -/
example (chosen : List Bool) (x : List F64) (h : x.length = chosen.length) :
    ((negated chosen x).map fun g => g.mul g) = x.map fun g => g.mul g := by
  induction chosen generalizing x with
  | nil => obtain rfl := List.length_eq_zero_iff.1 h; rfl
  | cons b bs ih =>
    obtain ⟨x, xs, rfl⟩ := List.exists_cons_of_length_eq_add_one h
    have key : ∀ y : F64, y.neg.mul y.neg = y.mul y := by
      intro y
      have hs : (y.neg.sgn != y.neg.sgn) = (y.sgn != y.sgn) := by simp
      unfold Fl.mul Fl.isZero
      rw [Fl.isNan_neg, Fl.isInf_neg, hs, Fl.idx_neg]
    show (if b then x.neg else x).mul (if b then x.neg else x) :: (negated bs xs).map _ = _
    rw [ih xs (by simpa using h)]
    cases b
    · rfl
    · exact congrArg (· :: _) (key x)

end Verif.Props
