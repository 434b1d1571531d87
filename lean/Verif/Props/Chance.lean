import Verif.Proofs.Tournament
import Mathlib.Tactic.Positivity
import Mathlib.Algebra.Order.Ring.GeomSum

/-!
# C91: how likely the individuals are chosen as parents
-/

namespace Verif.Props

open Verif Spec Pairing

variable {T : Type}

/-- C91: tournaments. All the draws being equally likely, the chance that the families are those of `table` is the product, over all members of
all families, of the shares of the individuals chosen: the members are chosen independently. -/
theorem C91_tournament (t : Tournament) (p : Population T) (h : p.individuals ≠ []) (table : List (List (Nat × Individual T)))
    (hf : table.length = t.familiesCount) (hp : ∀ row ∈ table, row.length = t.partnersCount)
    (hi : ∀ row ∈ table, ∀ m ∈ row, p.individuals[m.1]? = some m.2) :
    chance (List.replicate (t.familiesCount * (t.partnersCount * (t.roundsCount + 1))) p.individuals.length)
      (fun draws => tournament Rng.script t p draws = .ok (table.map (fun row => row.map (·.1)), [])) =
    (table.map (fun row => (row.map (fun m => winShare p t.roundsCount m.2.fitness)).prod)).prod := by
  have hpos : 0 < p.len := List.length_pos_of_ne_nil h
  obtain ⟨u, hu, hc⟩ := (uses_slot p t.roundsCount hpos).replicate t.partnersCount
  obtain ⟨-, -, hc2⟩ := hu.replicate t.familiesCount
  have e := hc2 (table.map (fun row => row.map (·.1))) (by simpa using hf)
  rw [List.flatten_replicate_replicate, List.flatten_replicate_replicate] at e
  have ht : ∀ s, tournament Rng.script t p s = M.replicate t.familiesCount (M.replicate t.partnersCount (slot p t.roundsCount)) s := by
    intro s
    unfold tournament uniformCheck
    rw [if_pos hpos]
    rfl
  simp only [ht]
  rw [show p.individuals.length = p.len from rfl, e]
  rw [List.map_map]
  congr 1
  apply List.map_congr_left
  intro row hrow
  have e2 := hc (row.map (·.1)) (by simpa using hp row hrow)
  simp only [Function.comp]
  rw [List.flatten_replicate_replicate] at e2
  rw [e2, List.map_map]
  congr 1
  apply List.map_congr_left
  intro m hm
  exact chance_slot p t.roundsCount m.1 m.2 (hi row hrow m hm)

theorem len_split (p : Population T) (hn : ∀ j ∈ p.individuals, j.fitness.isNan = false) {x : F64} (hx : x.isNan = false) :
    better p x + tied p x + worse p x = p.individuals.length := by
  unfold better tied worse
  generalize p.individuals = l at hn
  induction l with
  | nil => rfl
  | cons j l ih =>
    have := ih (fun k hk => hn k (by simp [hk]))
    have hj := hn j (by simp)
    simp only [List.countP_cons, List.length_cons]
    rcases lt_trichotomy j.fitness.toInt x.toInt with h | h | h
    · have h1 : j.fitness.lt x = true := Fl.lt_iff.2 ⟨hj, hx, h⟩
      have h2 : j.fitness.feq x = false := by rw [← Bool.not_eq_true, Fl.feq_iff]; omega
      have h3 : x.lt j.fitness = false := by rw [← Bool.not_eq_true, Fl.lt_iff]; omega
      simp only [h1, h2, h3]; simp; omega
    · have h1 : j.fitness.lt x = false := by rw [← Bool.not_eq_true, Fl.lt_iff]; omega
      have h2 : j.fitness.feq x = true := Fl.feq_iff.2 ⟨hj, hx, h⟩
      have h3 : x.lt j.fitness = false := by rw [← Bool.not_eq_true, Fl.lt_iff]; omega
      simp only [h1, h2, h3]; simp; omega
    · have h1 : j.fitness.lt x = false := by rw [← Bool.not_eq_true, Fl.lt_iff]; omega
      have h2 : j.fitness.feq x = false := by rw [← Bool.not_eq_true, Fl.feq_iff]; omega
      have h3 : x.lt j.fitness = true := Fl.lt_iff.2 ⟨hx, hj, h⟩
      simp only [h1, h2, h3]; simp; omega

theorem tied_pos (p : Population T) {x : Individual T} (hx : x ∈ p.individuals) (hn : x.fitness.isNan = false) :
    0 < tied p x.fitness := by
  unfold tied
  rw [List.countP_pos_iff]
  exact ⟨x, hx, Fl.feq_iff.2 ⟨hn, hn, rfl⟩⟩

/-- C91: without NaN, the share of an individual is what is left to those as good as it when all participants are not better than it but
not all are worse, divided among them. -/
theorem C91_share (p : Population T) (hn : ∀ j ∈ p.individuals, j.fitness.isNan = false) (x : Individual T) (hx : x ∈ p.individuals)
    (rounds : Nat) :
    winShare p rounds x.fitness =
      (((tied p x.fitness + worse p x.fitness : ℚ) / p.individuals.length) ^ (rounds + 1) -
        ((worse p x.fitness : ℚ) / p.individuals.length) ^ (rounds + 1)) / tied p x.fitness := by
  have hs := len_split p hn (hn x hx)
  have ht := tied_pos p hx (hn x hx)
  have ht0 : (tied p x.fitness : ℚ) ≠ 0 := by
    have : tied p x.fitness ≠ 0 := by omega
    exact_mod_cast this
  have hl0 : (p.individuals.length : ℚ) ≠ 0 := by
    have : p.individuals.length ≠ 0 := by omega
    exact_mod_cast this
  have hs' := congrArg (Nat.cast : ℕ → ℚ) hs
  push_cast at hs'
  unfold winShare
  rw [if_neg (by simp [hn x hx])]
  dsimp only
  rw [show (p.individuals.length : ℚ) - better p x.fitness = tied p x.fitness + worse p x.fitness by linarith]
  rw [div_pow, div_pow, add_sub_cancel_left]
  field_simp
  ring

/-- C91: a NaN fitness does not keep an individual from winning: its share is that of a draw by lot, whatever the number of rounds. -/
theorem C91_nan (p : Population T) (x : F64) (h : x.isNan = true) (rounds : Nat) :
    winShare p rounds x = 1 / p.individuals.length := by
  unfold winShare
  rw [if_pos h]

/-- C91: without rounds all individuals have the same share. -/
theorem C91_no_rounds (p : Population T) (x : F64) : winShare p 0 x = 1 / p.individuals.length := by
  unfold winShare
  split
  · rfl
  · simp

theorem share_geom (a t n : ℚ) (k : Nat) (ht : t ≠ 0) :
    (((t + a) / n) ^ (k + 1) - (a / n) ^ (k + 1)) / t = (∑ m ∈ Finset.range (k + 1), (t + a) ^ m * a ^ (k - m)) / n ^ (k + 1) := by
  have := Commute.geom_sum₂_mul (Commute.all (t + a) a) (k + 1)
  rw [add_sub_cancel_right] at this
  rw [div_pow, div_pow, ← sub_div, ← this, div_div, mul_comm (n ^ (k + 1)) t, mul_comm (Finset.sum _ _) t, mul_div_mul_left _ _ ht]
  simp only [Nat.add_sub_cancel]

/-- C91: the better one has the greater share, if there is a round at all. -/
theorem C91_pressure (p : Population T) (hn : ∀ j ∈ p.individuals, j.fitness.isNan = false) (x y : Individual T)
    (hx : x ∈ p.individuals) (hy : y ∈ p.individuals) (h : x.fitness.lt y.fitness = true) (rounds : Nat) (hr : 0 < rounds) :
    winShare p rounds y.fitness < winShare p rounds x.fitness := by
  have sx := len_split p hn (hn x hx)
  have sy := len_split p hn (hn y hy)
  have tx := tied_pos p hx (hn x hx)
  have ty := tied_pos p hy (hn y hy)
  have hw : tied p y.fitness + worse p y.fitness ≤ worse p x.fitness := by
    have : better p x.fitness + tied p x.fitness ≤ better p y.fitness := by
      unfold better tied
      generalize p.individuals = l
      induction l with
      | nil => simp
      | cons j l ih =>
        simp only [List.countP_cons]
        have hxy := Fl.lt_iff.1 h
        by_cases h1 : j.fitness.lt x.fitness = true
        · have g := Fl.lt_iff.1 h1
          have h2 : j.fitness.feq x.fitness = false := by rw [← Bool.not_eq_true, Fl.feq_iff]; omega
          have h3 : j.fitness.lt y.fitness = true := Fl.lt_iff.2 ⟨g.1, hxy.2.1, by omega⟩
          simp only [h1, h2, h3]; simp; omega
        · by_cases h2 : j.fitness.feq x.fitness = true
          · have g := Fl.feq_iff.1 h2
            have h3 : j.fitness.lt y.fitness = true := Fl.lt_iff.2 ⟨g.1, hxy.2.1, by omega⟩
            simp only [h1, h2, h3]; simp; omega
          · simp only [h1, h2]; simp; omega
    omega
  have hl0 : (0 : ℚ) < p.individuals.length := by
    have : 0 < p.individuals.length := by omega
    exact_mod_cast this
  have qx : (tied p x.fitness : ℚ) ≠ 0 := by
    have : tied p x.fitness ≠ 0 := by omega
    exact_mod_cast this
  have qy : (tied p y.fitness : ℚ) ≠ 0 := by
    have : tied p y.fitness ≠ 0 := by omega
    exact_mod_cast this
  rw [C91_share p hn x hx, C91_share p hn y hy, share_geom _ _ _ _ qx, share_geom _ _ _ _ qy]
  refine div_lt_div_of_pos_right ?_ (by positivity)
  have hw' : (tied p y.fitness : ℚ) + worse p y.fitness ≤ worse p x.fitness := by exact_mod_cast hw
  have tx' : (1 : ℚ) ≤ tied p x.fitness := by exact_mod_cast tx
  have ty' : (1 : ℚ) ≤ tied p y.fitness := by exact_mod_cast ty
  have ax : (0 : ℚ) ≤ worse p x.fitness := by positivity
  have ay : (0 : ℚ) ≤ worse p y.fitness := by positivity
  generalize (tied p y.fitness : ℚ) = t at *
  generalize (worse p y.fitness : ℚ) = a at *
  generalize (tied p x.fitness : ℚ) = u at *
  generalize (worse p x.fitness : ℚ) = b at *
  refine Finset.sum_lt_sum (fun m _ => ?_) ⟨rounds, by simp, ?_⟩
  · exact mul_le_mul (pow_le_pow_left₀ (by linarith) (by linarith) _) (pow_le_pow_left₀ ay (by linarith) _) (by positivity) (by positivity)
  · simp only [Nat.sub_self, pow_zero, mul_one]
    exact pow_lt_pow_left₀ (by linarith) (by linarith) (by omega)

/-- C91: with the default of one round, an individual without equals that `k` of the `n` individuals surpass has the share
`(2 (n - k) - 1) / n²`. -/
theorem C91_default (p : Population T) (hn : ∀ j ∈ p.individuals, j.fitness.isNan = false) (x : Individual T) (hx : x ∈ p.individuals)
    (h1 : tied p x.fitness = 1) (families : Nat) :
    winShare p (Tournament.new families).roundsCount x.fitness =
      (2 * (p.individuals.length - better p x.fitness) - 1) / (p.individuals.length : ℚ) ^ 2 := by
  have hs := congrArg (Nat.cast : ℕ → ℚ) (len_split p hn (hn x hx))
  push_cast at hs
  rw [show (Tournament.new families).roundsCount = 1 from rfl, C91_share p hn x hx, h1]
  rw [h1] at hs
  push_cast at hs ⊢
  rw [div_pow, div_pow, ← sub_div, div_one]
  congr 1
  have : (p.individuals.length : ℚ) - better p x.fitness = 1 + worse p x.fitness := by linarith
  rw [this]
  ring

/-- C91: random pairs. All tables of pairs are equally likely. -/
theorem C91_random_pairs (p : Population T) (h : p.individuals ≠ []) (table : List (Nat × Nat))
    (hl : table.length = p.individuals.length / 2)
    (hi : ∀ m ∈ table, m.1 < p.individuals.length ∧ m.2 < p.individuals.length) :
    chance (List.replicate (p.individuals.length / 2 * 2) p.individuals.length)
      (fun draws => randomPairing Rng.script p draws = .ok (table.map (fun m => [m.1, m.2]), [])) =
    1 / (p.individuals.length : ℚ) ^ (p.individuals.length / 2 * 2) := by
  have hpos : 0 < p.len := List.length_pos_of_ne_nil h
  have hpair : Uses (do
      let first ← Rng.script.uniformNat 0 p.len
      let second ← Rng.script.uniformNat 0 p.len
      pure [first, second]) (List.replicate 2 p.len) (fun t => [t.headD 0, t.tail.headD 0]) := by
    intro ds rest hd
    cases hd with
    | @cons a _ ds _ ha hd =>
      cases hd with
      | @cons b _ ds _ hb hd =>
        cases hd
        refine M.bind_eq_ok.2 ⟨a, b :: rest, ?_, M.bind_eq_ok.2 ⟨b, rest, ?_, rfl⟩⟩
        · simpa using uses_uniformNat (lo := 0) (hi := p.len) hpos [a] (b :: rest) (.cons ha .nil)
        · simpa using uses_uniformNat (lo := 0) (hi := p.len) hpos [b] rest (.cons hb .nil)
  change table.length = p.len / 2 at hl
  obtain ⟨-, -, hc⟩ := hpair.replicate (p.len / 2)
  have e := hc (table.map (fun m => [m.1, m.2])) (by rw [List.length_map]; exact hl)
  rw [List.flatten_replicate_replicate] at e
  have ht : ∀ s, randomPairing Rng.script p s = M.replicate (p.len / 2) (do
      let first ← Rng.script.uniformNat 0 p.len
      let second ← Rng.script.uniformNat 0 p.len
      pure [first, second]) s := by
    intro s
    unfold randomPairing uniformCheck
    rw [if_pos hpos]
    rfl
  simp only [ht]
  rw [show p.individuals.length = p.len from rfl, e, List.map_map]
  have hone : ∀ m ∈ table, chance (List.replicate 2 p.len) (fun t => (do
      let first ← Rng.script.uniformNat 0 p.len
      let second ← Rng.script.uniformNat 0 p.len
      pure [first, second]) t = .ok ([m.1, m.2], [])) = 1 / (p.len : ℚ) ^ 2 := by
    intro m hm
    obtain ⟨h1, h2⟩ := hi m hm
    rw [hpair.chance, chance_eq, List.prod_replicate]
    congr 1
    · rw [show List.replicate 2 p.len = [p.len, p.len] from rfl]
      simp only [cnt_cons, List.headD_cons, List.tail_cons, List.cons.injEq, and_true]
      simp only [cnt_nil]
      have : ∀ a ∈ Finset.range p.len, (∑ b ∈ Finset.range p.len, if a = m.1 ∧ b = m.2 then 1 else 0) = if a = m.1 then 1 else 0 := by
        intro a _
        split
        · next ha => simp only [ha, true_and, Finset.sum_ite_eq', Finset.mem_range]; exact if_pos h2
        · next ha => simp [ha]
      rw [Finset.sum_congr rfl this, Finset.sum_ite_eq', if_pos (Finset.mem_range.2 (show m.1 < p.len from h1))]
      norm_num
  rw [List.map_congr_left (g := fun _ => 1 / (p.len : ℚ) ^ 2) (by
    intro m hm
    exact hone m hm), List.map_const', List.prod_replicate, hl, div_pow, one_pow, ← pow_mul,
    mul_comm]

/-- Three individuals with the fitness 3, 1, 2 -/
def three : Population Unit := ⟨[⟨(), Fl.ofNat 3, true⟩, ⟨(), Fl.ofNat 1, true⟩, ⟨(), Fl.ofNat 2, true⟩], none, none, 0⟩

example : (three.individuals.map (fun j => winShare three 1 j.fitness)) = [1 / 9, 5 / 9, 3 / 9] := by decide +kernel

/-- One family of the best and the second. -/
example : chance (List.replicate 4 3) (fun draws => tournament Rng.script (Tournament.new 1) three draws = .ok ([[1, 2]], [])) =
    5 / 9 * (3 / 9) := by
  have := C91_tournament (Tournament.new 1) three (by simp [three]) [[(1, ⟨(), Fl.ofNat 1, true⟩), (2, ⟨(), Fl.ofNat 2, true⟩)]] rfl
    (by simp [Tournament.new]) (by simp [three]; rintro a b (⟨rfl, rfl⟩ | ⟨rfl, rfl⟩) <;> rfl)
  refine this.trans ?_
  decide +kernel

example : winShare (⟨[⟨(), Fl.nan, true⟩, ⟨(), Fl.ofNat 1, true⟩], none, none, 0⟩ : Population Unit) 10 Fl.nan = 1 / 2 := by decide +kernel

end Verif.Props
