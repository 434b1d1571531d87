import Verif.Props.RoundingDev

/-!
# Sums of computed terms against the sums of the exact ones
-/

namespace Verif.Fl

open Verif Spec

variable {f : Fmt} {β : Type}

theorem sum_abs_sub_le (l : List β) (g h : β → ℝ) : |(l.map g).sum - (l.map h).sum| ≤ (l.map fun b => |g b - h b|).sum := by
  induction l with
  | nil => simp
  | cons b l ih =>
    simp only [List.map_cons, List.sum_cons]
    have := abs_add_le (g b - h b) ((l.map g).sum - (l.map h).sum)
    rw [show g b + (l.map g).sum - (h b + (l.map h).sum) = g b - h b + ((l.map g).sum - (l.map h).sum) by ring]
    linarith

theorem sum_add_map (l : List β) (g h : β → ℝ) : (l.map fun b => g b + h b).sum = (l.map g).sum + (l.map h).sum := by
  induction l with
  | nil => simp
  | cons b l ih => simp only [List.map_cons, List.sum_cons, ih]; ring

theorem sum_const_map (l : List β) (c : ℝ) : (l.map fun _ => c).sum = l.length * c := by
  induction l with
  | nil => simp
  | cons b l ih => simp only [List.map_cons, List.sum_cons, ih, List.length_cons]; push_cast; ring

theorem sum_nonneg_map (l : List β) (g : β → ℝ) (h : ∀ b ∈ l, 0 ≤ g b) : 0 ≤ (l.map g).sum :=
  List.sum_nonneg (by simp only [List.mem_map]; rintro _ ⟨b, hb, rfl⟩; exact h b hb)

/-- A finite sum of terms each of which is near an exact one. -/
theorem sum_near (l : List β) (c : β → Fl f) (e δ : β → ℝ) {z : Fl f} (hz : value z = 0)
    (hfin : ((l.map c).foldl Fl.add z).isFinite = true) (hfew : l.length * roundoff f ≤ 1 / 10)
    (h : ∀ b ∈ l, |value (c b) - e b| ≤ δ b) :
    |value ((l.map c).foldl Fl.add z) - (l.map e).sum| ≤
      11 / 10 * (l.length * roundoff f) * ((l.map fun b => |e b|).sum + (l.map δ).sum) + (l.map δ).sum := by
  have hu := (roundoff_pos (f := f)).le
  have h1 := sum_err hfin
  rw [hz, zero_add, abs_zero, zero_add, List.length_map, List.map_map, List.map_map] at h1
  have h2 := sum_abs_sub_le l (fun b => value (c b)) e
  have h3 : (l.map fun b => |value (c b) - e b|).sum ≤ (l.map δ).sum := Props.sum_le_map h
  have h4 : (l.map fun b => |value (c b)|).sum ≤ (l.map fun b => |e b|).sum + (l.map δ).sum := by
    rw [← sum_add_map]
    refine Props.sum_le_map fun b hb => ?_
    have := abs_add_le (value (c b) - e b) (e b)
    rw [sub_add_cancel] at this
    have := h b hb
    linarith
  have hn0 : (0 : ℝ) ≤ l.length * roundoff f := by positivity
  have h5 := pow_roundoff (n := l.length) hu (by linarith)
  have h6 : (1 + roundoff f) ^ l.length - 1 ≤ 11 / 10 * (l.length * roundoff f) := by nlinarith
  have h7 : 0 ≤ (1 + roundoff f) ^ l.length - 1 := by
    have : 1 ≤ (1 + roundoff f) ^ l.length := one_le_pow₀ (by linarith)
    linarith
  have h8 : 0 ≤ (l.map fun b => |value (c b)|).sum := sum_nonneg_map l _ fun _ _ => abs_nonneg _
  change |value ((l.map c).foldl Fl.add z) - (l.map fun b => value (c b)).sum| ≤
    ((1 + roundoff f) ^ l.length - 1) * (l.map fun b => |value (c b)|).sum at h1
  have h9 : ((1 + roundoff f) ^ l.length - 1) * (l.map fun b => |value (c b)|).sum ≤
      11 / 10 * (l.length * roundoff f) * ((l.map fun b => |e b|).sum + (l.map δ).sum) :=
    mul_le_mul h6 h4 h8 (by linarith)
  have := abs_sub_le (value ((l.map c).foldl Fl.add z)) (l.map fun b => value (c b)).sum (l.map e).sum
  linarith

/-- Two terms in each turn of the loop. -/
def twice (l : List β) : List (β × Bool) := l.flatMap fun b => [(b, true), (b, false)]

theorem twice_cons (b : β) (l : List β) : twice (b :: l) = (b, true) :: (b, false) :: twice l := rfl

theorem length_twice (l : List β) : (twice l).length = 2 * l.length := by
  induction l with
  | nil => rfl
  | cons b l ih => rw [twice_cons]; simp only [List.length_cons, ih]; omega

theorem sum_twice (l : List β) (g : β × Bool → ℝ) : ((twice l).map g).sum = (l.map fun b => g (b, true) + g (b, false)).sum := by
  induction l with
  | nil => rfl
  | cons b l ih => rw [twice_cons]; simp only [List.map_cons, List.sum_cons, ih]; ring

theorem mem_twice {l : List β} {p : β × Bool} (h : p ∈ twice l) : p.1 ∈ l := by
  induction l with
  | nil => cases h
  | cons b l ih =>
    rw [twice_cons] at h
    rcases List.mem_cons.1 h with rfl | h
    · simp
    · rcases List.mem_cons.1 h with rfl | h
      · simp
      · exact List.mem_cons_of_mem _ (ih h)

theorem foldl_twice (l : List β) (a b : β → Fl f) : ∀ (acc : Fl f),
    l.foldl (fun acc i => (acc.add (a i)).add (b i)) acc =
      ((twice l).map fun p => if p.2 then a p.1 else b p.1).foldl Fl.add acc := by
  induction l with
  | nil => intro acc; rfl
  | cons i l ih => intro acc; rw [List.foldl_cons, ih, twice_cons]; rfl

/-- A finite sum with two terms in each turn. -/
theorem sum_near_twice (l : List β) (a b : β → Fl f) (ea eb da db : β → ℝ) {z : Fl f} (hz : value z = 0)
    (hfin : (l.foldl (fun acc i => (acc.add (a i)).add (b i)) z).isFinite = true) (hfew : 2 * l.length * roundoff f ≤ 1 / 10)
    (ha : ∀ i ∈ l, |value (a i) - ea i| ≤ da i) (hb : ∀ i ∈ l, |value (b i) - eb i| ≤ db i) :
    |value (l.foldl (fun acc i => (acc.add (a i)).add (b i)) z) - (l.map fun i => ea i + eb i).sum| ≤
      11 / 10 * (2 * l.length * roundoff f) * ((l.map fun i => |ea i| + |eb i|).sum + (l.map fun i => da i + db i).sum) +
        (l.map fun i => da i + db i).sum := by
  rw [foldl_twice] at hfin ⊢
  have h := sum_near (twice l) (fun p => if p.2 then a p.1 else b p.1) (fun p => if p.2 then ea p.1 else eb p.1)
    (fun p => if p.2 then da p.1 else db p.1) hz hfin (by rw [length_twice]; push_cast; exact hfew) (by
      rintro ⟨i, t⟩ hp
      have hi := mem_twice hp
      cases t
      · exact hb i hi
      · exact ha i hi)
  simp only [sum_twice, length_twice] at h
  push_cast at h
  simpa using h

/-- A product of two numbers, one rounding. -/
theorem mul_near {x y : Fl f} (h : (x.mul y).isFinite = true) :
    |value (x.mul y) - value x * value y| ≤ |value x * value y| * roundoff f + tiny f := by
  have ht := (tiny_pos (f := f)).le
  have hu := (roundoff_pos (f := f)).le
  rcases mul_err h with h | h
  · have : 0 ≤ |value x * value y| * roundoff f := by positivity
    linarith
  · linarith

theorem sqrt_near {x : Fl f} (h : x.sqrt.isFinite = true) (h0 : 0 ≤ x.toInt) :
    |value x.sqrt - Real.sqrt (value x)| ≤ Real.sqrt (value x) * roundoff f + tiny f := by
  have ht := (tiny_pos (f := f)).le
  have hu := (roundoff_pos (f := f)).le
  rcases sqrt_err h h0 with h | h
  · have : 0 ≤ Real.sqrt (value x) * roundoff f := by positivity
    linarith
  · linarith

end Verif.Fl
