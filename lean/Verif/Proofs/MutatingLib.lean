import Verif.Proofs.Mutating
import Verif.Proofs.FindsLib
import Verif.Props.Reach

/-!
# The library's genetic components on a tape of draws
-/

namespace Verif.Finds

open Verif Spec Spec.Swarm GA Props

variable {β γ τ T : Type} {m : Nat} {f : Fmt}

/-- The computation neither looks at the state nor changes it. -/
def Blind {σ : Type} (a : M σ β) : Prop := (∃ b, ∀ s, a s = .ok (b, s)) ∨ ∃ e, ∀ s, a s = .error e

section Blind

variable {σ : Type}

theorem Blind.pure (b : β) : Blind (Pure.pure b : M σ β) := .inl ⟨b, fun _ => rfl⟩

theorem Blind.bind {a : M σ β} {g : β → M σ γ} (h : Blind a) (hg : ∀ b, Blind (g b)) : Blind (a >>= g) := by
  rcases h with ⟨b, h⟩ | ⟨e, h⟩
  · have e : (a >>= g) = g b := by funext s; rw [M.bind_run, h]
    rw [e]
    exact hg b
  · exact .inr ⟨e, fun s => by rw [M.bind_run, h]⟩

theorem Blind.index (xs : List β) (i : Nat) : Blind (M.index xs i : M σ β) := by
  unfold M.index
  split
  · exact .inl ⟨_, fun _ => rfl⟩
  · exact .inr ⟨_, fun _ => rfl⟩

theorem Blind.assert (b : Bool) : Blind (M.assert b : M σ Unit) := by
  cases b
  · exact .inr ⟨_, fun _ => rfl⟩
  · exact .inl ⟨_, fun _ => rfl⟩

theorem Blind.foldL {g : γ → β → M σ γ} (hg : ∀ c b, Blind (g c b)) : ∀ (bs : List β) (c : γ), Blind (M.foldL g c bs)
  | [], c => Blind.pure c
  | b :: bs, c => Blind.bind (hg c b) fun c => Blind.foldL hg bs c

theorem Blind.mapL {g : β → M σ γ} (hg : ∀ b, Blind (g b)) : ∀ (bs : List β), Blind (M.mapL g bs)
  | [] => Blind.pure []
  | b :: bs => Blind.bind (hg b) fun c => Blind.bind (Blind.mapL hg bs) fun cs => Blind.pure (c :: cs)

theorem blind_findBest (p : Population T) (kl : List Nat) : ∀ (ms : List Nat) (bi : Nat) (bf : F64), Blind (Selection.findBest p kl ms bi bf : M σ _)
  | [], _, _ => Blind.pure _
  | m :: ms, bi, bf => by
    unfold Selection.findBest
    refine Blind.bind (Blind.index _ _) fun j => Blind.bind (Blind.index _ _) fun i => ?_
    split
    · exact blind_findBest p kl ms _ _
    · exact blind_findBest p kl ms _ _

theorem blind_limit (n : Nat) (p : Population T) : Blind (Selection.limitPopulation n p : M σ _) := by
  unfold Selection.limitPopulation
  dsimp only
  split
  · unfold Selection.killWorst
    refine Blind.bind (Blind.index _ _) fun i0 => Blind.bind (Blind.foldL (fun s n => ?_) _ _) fun s => Blind.foldL (fun p n => ?_) _ _
    · unfold Selection.kwStep
      refine Blind.bind (Blind.index _ _) fun ind => ?_
      split
      · exact Blind.pure _
      · split
        · dsimp only
          split
          · exact Blind.pure _
          · exact Blind.pure _
        · split
          · refine Blind.bind (Blind.assert _) fun _ => Blind.bind (Blind.index _ _) fun j0 => Blind.bind (Blind.index _ _) fun i0 =>
              Blind.bind (blind_findBest _ _ _ _ _) fun r => Blind.pure _
          · exact Blind.pure _
    · unfold Selection.killAt
      exact Blind.bind (Blind.index _ _) fun i => Blind.pure _
  · exact Blind.pure _

theorem blind_check {α : Type} [FloatT α] (ivs : List (α × α)) (p : Population (List α)) : Blind (Selection.checkChromoInterval ivs p : M σ _) := by
  unfold Selection.checkChromoInterval
  exact Blind.bind (Blind.mapL (fun i => Blind.bind (Blind.assert _) fun _ => Blind.pure _) _) fun _ => Blind.pure _

end Blind

theorem Reads.blind {a : M (List Nat × τ) β} {Q : β → Prop} (h : Blind a) (hw : Works a Q) : Reads m 0 a Q := by
  rcases h with ⟨b, h⟩ | ⟨e, h⟩
  · intro u
    obtain ⟨b', s', h1, h2⟩ := hw ([], u)
    rw [h] at h1
    cases h1
    exact .done b u (fun t => h _) h2
  · intro u
    obtain ⟨b', s', h1, h2⟩ := hw ([], u)
    rw [h] at h1
    cases h1

theorem Reads.const {a : M (List Nat × τ) β} {Q : β → Prop} {b : β} (h : ∀ s, a s = .ok (b, s)) (hb : Q b) : Reads m 0 a Q :=
  fun u => .done b u (fun _ => h _) hb

theorem Reads.draws {K : Nat} {a : M (List Nat × τ) β} {Q : β → Prop} (h : Reads m K a Q) : Draw m a Q := fun u => ⟨K, h u⟩

theorem uniformNat_beside (dr : Draws) {lo hi : Nat} (h : lo < hi) (k : Nat) (t : List Nat) (u : τ) :
    (dr.beside τ).uniformNat lo hi (k :: t, u) = .ok (lo + k % (hi - lo), (t, u)) := by
  unfold Rng.uniformNat
  rw [if_pos h, M.ofState_eq_ok]
  rfl

theorem Reads.uniformNat (dr : Draws) {lo hi : Nat} (h : lo < hi) : Reads m 1 ((dr.beside τ).uniformNat lo hi) (fun n => lo ≤ n ∧ n < hi) := by
  intro u
  refine .draw fun k _ => .done (lo + k % (hi - lo)) u (fun t => uniformNat_beside dr h k t u) ?_
  have := Nat.mod_lt k (show 0 < hi - lo by omega)
  omega

theorem Reads.uniformNatIncl (dr : Draws) {lo hi : Nat} (h : lo ≤ hi) :
    Reads m 1 ((dr.beside τ).uniformNatIncl lo hi) (fun n => lo ≤ n ∧ n ≤ hi) := by
  intro u
  refine .draw fun k _ => .done (lo + k % (hi + 1 - lo)) u (fun t => ?_) ?_
  · unfold Rng.uniformNatIncl
    rw [if_pos h, M.ofState_eq_ok]
    rfl
  · have := Nat.mod_lt k (show 0 < hi + 1 - lo by omega)
    omega

/-! ### Pairing -/

theorem reads_rounds (dr : Draws) (p : Population T) (hp : 0 < p.individuals.length) : ∀ (n best : Nat), best < p.individuals.length →
    Reads m n (Pairing.rounds (dr.beside τ) p n best) (fun i => i < p.individuals.length)
  | 0, best, h => Reads.pure h
  | n + 1, best, h => by
    unfold Pairing.rounds
    rw [show n + 1 = 1 + (0 + (0 + n)) by omega]
    refine Reads.bind (Reads.uniformNat dr hp) fun c hc => ?_
    refine Reads.bind (Reads.index hc.2) fun _ _ => ?_
    refine Reads.bind (Reads.index h) fun _ _ => ?_
    refine reads_rounds dr p hp n _ ?_
    split
    · exact hc.2
    · exact h

theorem reads_tournament (dr : Draws) (t : Pairing.Tournament) (p : Population T) (hp : p.individuals ≠ []) :
    Reads m (0 + (1 + t.roundsCount) * t.partnersCount * t.familiesCount) (Pairing.tournament (dr.beside τ) t p)
      (fun fams => t.familiesCount ≤ fams.length) := by
  have hl : 0 < p.individuals.length := List.length_pos_iff.2 hp
  unfold Pairing.tournament
  refine Reads.bind (P := fun _ => True) (Reads.const (b := ()) (fun s => ?_) trivial) fun _ _ => ?_
  · unfold Pairing.uniformCheck
    rw [if_pos (show 0 < p.len from hl)]
    rfl
  · refine Reads.mono (Reads.replicate (Q := fun _ => True) (Reads.mono (Reads.replicate (Q := fun _ => True) (K := 1 + t.roundsCount) ?_ _) le_rfl fun _ _ => trivial) _)
      le_rfl fun fams h => h.1.ge
    exact Reads.bind (Reads.uniformNat dr hl) fun first h => Reads.mono (reads_rounds dr p hl _ _ h.2) le_rfl fun _ _ => trivial

theorem reads_randomPairing (dr : Draws) (p : Population T) (hp : p.individuals ≠ []) :
    Reads m (0 + (1 + (1 + 0)) * (p.len / 2)) (Pairing.randomPairing (dr.beside τ) p) (fun fams => p.len / 2 ≤ fams.length) := by
  have hl : 0 < p.individuals.length := List.length_pos_iff.2 hp
  unfold Pairing.randomPairing
  refine Reads.bind (P := fun _ => True) (Reads.const (b := ()) (fun s => ?_) trivial) fun _ _ => ?_
  · unfold Pairing.uniformCheck
    rw [if_pos (show 0 < p.len from hl)]
    rfl
  · refine Reads.mono (Reads.replicate (Q := fun _ => True) ?_ _) le_rfl fun fams h => h.1.ge
    exact Reads.bind (Reads.uniformNat dr hl) fun _ _ => Reads.bind (Reads.uniformNat dr hl) fun _ _ => Reads.pure trivial

/-! ### Crossing -/

theorem reads_single (dr : Draws) {single : List (Fl f) → M (List Nat × τ) (List (Fl f))} (h : LibCross (dr.beside τ) single) (a b : Fl f) :
    Reads m 3 (single [a, b]) (fun _ => True) := by
  cases h with
  | bitwise p =>
    have hw : 1 < f.w := by have := f.hew; have := f.hmw; simp only [Fmt.w]; omega
    refine Reads.mono (K := 0 + (1 + 0)) ?_ (by omega) (P := fun _ => True) fun _ _ => trivial
    unfold Cross.crossBitwise
    refine Reads.bind (P := fun _ => True) (Reads.const (b := ()) (fun s => rfl) trivial) fun _ _ => ?_
    refine Reads.bind (Reads.uniformNat dr hw) fun pos hp => ?_
    obtain ⟨c, hc, -⟩ := Cross.crossU_splice p a.bits b.bits hp.1 hp.2
    refine Reads.const (b := [⟨c⟩]) (fun s => ?_) trivial
    have hx : (M.ofExcept (Cross.cross_fl p a b pos) : M (List Nat × τ) (Fl f)) s = .ok (⟨c⟩, s) := by
      rw [M.ofExcept_eq_ok]; refine ⟨?_, rfl⟩
      unfold Cross.cross_fl; rw [hc]; rfl
    exact M.bind_eq_ok.2 ⟨a, s, rfl, M.bind_eq_ok.2 ⟨b, s, rfl, M.bind_eq_ok.2 ⟨⟨c⟩, s, hx, rfl⟩⟩⟩
  | exponent p exp2 =>
    refine Reads.mono (K := 0 + (0 + (0 + (1 + (1 + (0 + (0 + (1 + 0)))))))) ?_ (by omega) (P := fun _ => True) fun _ _ => trivial
    unfold Cross.floatCrossExp
    refine Reads.bind (P := fun _ => True) (Reads.const (b := ()) (fun s => rfl) trivial) fun _ _ => ?_
    refine Reads.bind (P := fun x => x = a) (Reads.const (b := a) (fun s => rfl) rfl) fun x hx => ?_
    refine Reads.bind (P := fun x => x = b) (Reads.const (b := b) (fun s => rfl) rfl) fun y hy => ?_
    subst hx hy
    dsimp only
    refine Reads.bind (Reads.uniformNat dr (by norm_num)) fun mpos h1 => ?_
    refine Reads.bind (Reads.uniformNat dr (by norm_num)) fun epos h2 => ?_
    obtain ⟨c, hc, -⟩ := Cross.crossU_splice p (BitVec.ofNat 64 (Cross.integerDecode x).1) (BitVec.ofNat 64 (Cross.integerDecode y).1) h1.1 h1.2
    refine Reads.bind (P := fun _ => True) (Reads.const (b := c) (fun s => M.ofExcept_eq_ok.2 ⟨hc, rfl⟩) trivial) fun _ _ => ?_
    obtain ⟨e, he, -⟩ := Cross.crossS_splice p (BitVec.ofInt 16 (Cross.integerDecode x).2.1) (BitVec.ofInt 16 (Cross.integerDecode y).2.1) h2.2
    refine Reads.bind (P := fun _ => True) (Reads.const (b := e) (fun s => M.ofExcept_eq_ok.2 ⟨he, rfl⟩) trivial) fun _ _ => ?_
    refine Reads.bind (Reads.uniformNatIncl dr (by norm_num)) fun sn h3 => ?_
    obtain rfl | rfl : sn = 0 ∨ sn = 1 := by omega
    · exact Reads.const (fun s => rfl) trivial
    · exact Reads.const (fun s => rfl) trivial
  | mean => exact Reads.mono (Reads.const (fun s => rfl) trivial) (by omega) fun _ => id
  | geometric F => exact Reads.mono (Reads.const (fun s => rfl) trivial) (by omega) fun _ => id

theorem reads_crossLoop {K : Nat} {single : List β → M (List Nat × τ) (List β)} (h : ∀ a b, Reads m K (single [a, b]) (fun _ => True)) (p1 p2 : List β) :
    ∀ (ns : List Nat), (∀ n ∈ ns, n < p1.length ∧ n < p2.length) → ∀ child : List β,
      Reads m (K * ns.length) (Cross.vecCrossLoop single p1 p2 ns child) (fun _ => True)
  | [], _, child => Reads.pure trivial
  | n :: ns, hn, child => by
    unfold Cross.vecCrossLoop
    rw [List.length_cons, show K * (ns.length + 1) = 0 + (0 + (K + K * ns.length)) by ring]
    obtain ⟨h1, h2⟩ := hn n (by simp)
    refine Reads.bind (Reads.index h1) fun _ _ => Reads.bind (Reads.index h2) fun _ _ => Reads.bind (h _ _) fun _ _ => ?_
    exact reads_crossLoop h p1 p2 ns (fun n hm => hn n (by simp [hm])) _

theorem reads_cross (dr : Draws) {single : List (Fl f) → M (List Nat × τ) (List (Fl f))} (h : LibCross (dr.beside τ) single) (x y : List (Fl f))
    (hl : x.length = y.length) : Reads m (0 + (0 + (0 + (3 * x.length + 0)))) (Cross.vecCrossAllGenes single [x, y]) (fun ys => ys ≠ []) := by
  unfold Cross.vecCrossAllGenes
  refine Reads.bind (P := fun _ => True) (Reads.const (b := ()) (fun s => rfl) trivial) fun _ _ => ?_
  refine Reads.bind (P := fun z => z = x) (Reads.const (b := x) (fun s => rfl) rfl) fun z hz => ?_
  refine Reads.bind (P := fun z => z = y) (Reads.const (b := y) (fun s => rfl) rfl) fun z' hz' => ?_
  subst hz hz'
  have := reads_crossLoop (m := m) (fun a b => reads_single dr h a b) z z' (List.range z.length) (by simp [← hl]) []
  rw [List.length_range] at this
  exact Reads.bind this fun _ _ => Reads.pure (by simp)

/-! ### Mutation -/

/-- One gene of VecMutation -/
def mutateGene (R : Rng σ) {G : Type} (probability : F64) (single : G → M σ G) (chromo : G) : M σ G := do
  let x ← R.uniformFl (Fl.zero : F64) Mutation.hundred
  if x.lt probability then single chromo else pure chromo

theorem reads_flipLoop (dr : Draws) {w : Nat} (hw : 0 < w) : ∀ (n : Nat) (b : BitVec w), Reads m n (Mutation.flipLoop (dr.beside τ) n b) (fun _ => True)
  | 0, b => Reads.pure trivial
  | n + 1, b => by
    rw [Mutation.flipLoop, Nat.add_comm]
    exact Reads.bind (Reads.uniformNat dr hw) fun pos _ => reads_flipLoop dr hw n _

theorem reads_vec (dr : Draws) (prob : F64) (count : Nat) (xs : List (Fl f)) :
    Reads m ((1 + count) * xs.length) (Mutation.vec (dr.beside τ) prob (Mutation.bitwise (dr.beside τ) count) xs) (fun _ => True) := by
  have := Reads.mapL (m := m) (K := 1 + count) (g := mutateGene (dr.beside τ) prob (Mutation.bitwise (f := f) (dr.beside τ) count)) (Q := fun _ => True) xs fun x _ => by
    refine Reads.bind (Reads.uniformFl dr (by decide +kernel)) fun v _ => ?_
    split
    · rw [show count = count + 0 by rfl]
      exact Reads.bind (reads_flipLoop dr (w_pos f) count _) fun _ _ => Reads.pure trivial
    · exact Reads.mono (Reads.pure (K := 0) trivial) (by omega) fun _ => id
  exact Reads.mono this le_rfl fun _ _ => trivial

theorem flipLoop_tape (dr : Draws) {w : Nat} (hw : 0 < w) : ∀ (ds : List Nat) (b : BitVec w), (∀ d ∈ ds, d < w) → ∀ (rest : List Nat) (u : τ),
    Mutation.flipLoop (dr.beside τ) ds.length b (ds ++ rest, u) = .ok (flips b ds, (rest, u))
  | [], b, _, rest, u => rfl
  | d :: ds, b, h, rest, u => by
    rw [List.length_cons, Mutation.flipLoop]
    refine M.bind_eq_ok.2 ⟨d, (ds ++ rest, u), ?_, flipLoop_tape dr hw ds _ (fun d hd => h d (by simp [hd])) rest u⟩
    rw [List.cons_append, uniformNat_beside dr hw, Nat.sub_zero, Nat.mod_eq_of_lt (h d (by simp)), Nat.zero_add]

/-- A value that has the property `P` can be reached with `count` flips. -/
def Near (count : Nat) (P : Fl f → Prop) : Prop :=
  ∀ g : Fl f, ∃ y : Fl f, P y ∧ hamming g.bits y.bits ≤ count ∧ hamming g.bits y.bits % 2 = count % 2

theorem gene_tape (dr : Draws) (hw : f.w ≤ m) {prob : F64} {k0 : Nat} (hk0 : k0 < m) (hk : (dr.openVal (Fl.zero : F64) Mutation.hundred k0).lt prob = true)
    {count : Nat} {P : Fl f → Prop} (hP : Near count P) (x : Fl f) :
    ∃ (t : List Nat) (y : Fl f), t.length = 1 + count ∧ (∀ d ∈ t, d < m) ∧ P y ∧
      ∀ rest (u : τ), mutateGene (dr.beside τ) prob (Mutation.bitwise (dr.beside τ) count) x (t ++ rest, u) = .ok (y, (rest, u)) := by
  obtain ⟨y, hy, h1, h2⟩ := hP x
  rw [hamming_symm] at h1 h2
  obtain ⟨ds, h3, h4⟩ := flips_reach (w_pos f) count y.bits x.bits h1 h2
  have hlen : ds.length = count := by simpa using h3.length_eq
  have hds : ∀ d ∈ ds, d < f.w := by
    intro d hd
    obtain ⟨i, hi, rfl⟩ := List.getElem_of_mem hd
    have := h3.get hi (h3.length_eq ▸ hi)
    simpa using this
  refine ⟨k0 :: ds, y, by simp [hlen, Nat.add_comm], ?_, hy, fun rest u => ?_⟩
  · intro d hd
    rcases List.mem_cons.1 hd with rfl | hd
    · exact hk0
    · exact lt_of_lt_of_le (hds d hd) hw
  · unfold mutateGene
    refine M.bind_eq_ok.2 ⟨dr.openVal (Fl.zero : F64) Mutation.hundred k0, (ds ++ rest, u), ?_, ?_⟩
    · unfold Rng.uniformFl
      rw [if_pos (by decide +kernel), M.ofState_eq_ok]
      rfl
    · rw [if_pos hk]
      have := flipLoop_tape dr (w_pos f) ds x.bits hds rest u
      rw [hlen, h4] at this
      exact M.bind_eq_ok.2 ⟨_, _, this, rfl⟩

theorem vec_tape (dr : Draws) (hw : f.w ≤ m) {prob : F64} {k0 : Nat} (hk0 : k0 < m) (hk : (dr.openVal (Fl.zero : F64) Mutation.hundred k0).lt prob = true)
    {count : Nat} : ∀ (conds : List (Fl f → Prop)), (∀ P ∈ conds, Near count P) → ∀ (xs : List (Fl f)), xs.length = conds.length →
    ∃ (t : List Nat) (ys : List (Fl f)), t.length = (1 + count) * conds.length ∧ (∀ d ∈ t, d < m) ∧ List.Forall₂ (fun P y => P y) conds ys ∧
      ∀ rest (u : τ), Mutation.vec (dr.beside τ) prob (Mutation.bitwise (dr.beside τ) count) xs (t ++ rest, u) = .ok (ys, (rest, u))
  | [], _, [], _ => ⟨[], [], rfl, by simp, .nil, fun _ _ => rfl⟩
  | P :: conds, hP, x :: xs, hl => by
    obtain ⟨t1, y, h1, h2, h3, h4⟩ := gene_tape (τ := τ) dr hw hk0 hk (hP P (by simp)) x
    obtain ⟨t2, ys, h5, h6, h7, h8⟩ := vec_tape dr hw hk0 hk conds (fun P h => hP P (by simp [h])) xs (by simpa using hl)
    refine ⟨t1 ++ t2, y :: ys, ?_, ?_, .cons h3 h7, fun rest u => ?_⟩
    · rw [List.length_append, h1, h5, List.length_cons]; ring
    · intro d hd
      rcases List.mem_append.1 hd with hd | hd
      · exact h2 d hd
      · exact h6 d hd
    · rw [List.append_assoc]
      exact M.mapL_cons_ok.2 ⟨y, ys, _, h4 _ u, h8 rest u, rfl⟩

theorem chance_of_tape (hm : 0 < m) {K : Nat} {P : List Nat → Prop} {t : List Nat} (ht : t.length = K) (hd : ∀ d ∈ t, d < m) (hP : P t) :
    1 / (m : ℚ) ^ K ≤ chance (List.replicate K m) P := by
  classical
  have hmem : t ∈ tapes (List.replicate K m) := by
    rw [mem_tapes, List.forall₂_iff_get]
    refine ⟨by simp [ht], fun i h1 h2 => ?_⟩
    simpa using hd _ (List.getElem_mem h1)
  have h1 : 1 ≤ cnt (List.replicate K m) P := by
    unfold cnt
    exact List.countP_pos_iff.2 ⟨t, hmem, by simpa using hP⟩
  rw [chance_eq, List.prod_replicate]
  push_cast
  have : (0 : ℚ) < (m : ℚ) ^ K := by positivity
  gcongr
  exact_mod_cast h1

/-- The parity of the distance -/
theorem hamming_flips {w : Nat} (g : BitVec w) : ∀ (ds : List Nat) (b : BitVec w), (∀ d ∈ ds, d < w) →
    hamming g (flips b ds) % 2 = (hamming g b + ds.length) % 2
  | [], b, _ => rfl
  | d :: ds, b, h => by
    have ih := hamming_flips g ds (b ^^^ (1#w <<< d)) fun d hd => h d (by simp [hd])
    have := Mutation.hamming_flip g b (h d (by simp))
    show hamming g (flips (b ^^^ (1#w <<< d)) ds) % 2 = _
    rw [ih, List.length_cons]
    omega

theorem near_of_two {count : Nat} (hc : f.w ≤ count) {P : Fl f → Prop} (y z : Fl f) (hy : P y) (hz : P z) (hyz : hamming y.bits z.bits % 2 = 1) :
    Near count P := by
  intro g
  have hp : hamming g.bits z.bits % 2 = (hamming g.bits y.bits + 1) % 2 := by
    have h0 := hamming_symm y.bits z.bits
    obtain ⟨ds, h3, h4⟩ := flips_reach (w_pos f) (hamming z.bits y.bits) z.bits y.bits le_rfl rfl
    have hlen : ds.length = hamming z.bits y.bits := by simpa using h3.length_eq
    have := hamming_flips g.bits ds y.bits (by
      intro d hd
      obtain ⟨i, hi, rfl⟩ := List.getElem_of_mem hd
      have := h3.get hi (h3.length_eq ▸ hi)
      simpa using this)
    rw [h4, hlen] at this
    omega
  have h1 := hamming_le g.bits y.bits
  have h2 := hamming_le g.bits z.bits
  by_cases h : hamming g.bits y.bits % 2 = count % 2
  · exact ⟨y, hy, by omega, h⟩
  · exact ⟨z, hz, by omega, by omega⟩

end Verif.Finds
