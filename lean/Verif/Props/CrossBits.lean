import Verif.Proofs.Cross

/-!
# C01, C02, C03: crossing bit patterns
-/

namespace Verif.Props

open Verif Spec Cross

/-! ## C01 -/

/-- C01 for `cross_u64`. -/
theorem C01_cross_u64 (p : Profile) (a b : BitVec 64) (pos : Nat) (h1 : 0 < pos) (h2 : pos < 64) :
    ∃ c, cross_u64 p a b pos = .ok c ∧ Splice pos a b c := crossU_splice p a b h1 h2

/-- C01 for `cross_u32`. -/
theorem C01_cross_u32 (p : Profile) (a b : BitVec 32) (pos : Nat) (h1 : 0 < pos) (h2 : pos < 32) :
    ∃ c, cross_u32 p a b pos = .ok c ∧ Splice pos a b c := crossU_splice p a b h1 h2

/-- C01 for `cross_u16`. -/
theorem C01_cross_u16 (p : Profile) (a b : BitVec 16) (pos : Nat) (h1 : 0 < pos) (h2 : pos < 16) :
    ∃ c, cross_u16 p a b pos = .ok c ∧ Splice pos a b c := crossU_splice p a b h1 h2

/-- C01 for `cross_u8`. -/
theorem C01_cross_u8 (p : Profile) (a b : BitVec 8) (pos : Nat) (h1 : 0 < pos) (h2 : pos < 8) :
    ∃ c, cross_u8 p a b pos = .ok c ∧ Splice pos a b c := crossU_splice p a b h1 h2

/-- C01 for `cross_i16`. (Holds for `pos = 0` as well.) -/
theorem C01_cross_i16 (p : Profile) (a b : BitVec 16) (pos : Nat) (h2 : pos < 16) :
    ∃ c, cross_i16 p a b pos = .ok c ∧ Splice pos a b c := crossS_splice p a b h2

/-- C01 for `cross_i8`. -/
theorem C01_cross_i8 (p : Profile) (a b : BitVec 8) (pos : Nat) (h2 : pos < 8) :
    ∃ c, cross_i8 p a b pos = .ok c ∧ Splice pos a b c := crossS_splice p a b h2

/-- The splice determines the child: there is only one. -/
theorem C01_splice_unique {w pos : Nat} {a b c c' : BitVec w} (h : Splice pos a b c)
    (h' : Splice pos a b c') : c = c' := by
  apply BitVec.eq_of_getLsbD_eq
  intro i hi
  rw [h i hi, h' i hi]

example : cross_u8 .debug 0b11110000#8 0b00001111#8 2 = .ok 0b11110011#8 := by decide
example : cross_i8 .debug 0b10101010#8 0b01010101#8 3 = .ok 0b10101101#8 := by decide

/-! ## C02 -/

/-- C02: position 0 on the unsigned types of any positive width: panic with overflow
checks, bitwise OR without. -/
theorem C02_unsigned_zero {w : Nat} (hw : 0 < w) (a b : BitVec w) :
    crossU .debug a b 0 = .error .arith ∧ crossU .release a b 0 = .ok (a ||| b) := by
  constructor
  · unfold crossU
    rw [shl_ok _ _ hw, usizeSub_ok _ (Nat.zero_le _)]
    show (shrU .debug _ (w - 0) >>= _) = _
    simp [shrU]
    rfl
  · unfold crossU
    rw [shl_ok _ _ hw, usizeSub_ok _ (Nat.zero_le _)]
    show (shrU .release _ (w - 0) >>= _) = _
    have : shrU .release (BitVec.allOnes w) (w - 0) = .ok (BitVec.allOnes w) := by
      simp [shrU]
    rw [this]
    show Except.ok _ = _
    simp

/-- C02: the four unsigned functions at position 0. -/
theorem C02_unsigned_zero_all :
    (∀ a b, cross_u64 .debug a b 0 = .error .arith ∧ cross_u64 .release a b 0 = .ok (a ||| b)) ∧
    (∀ a b, cross_u32 .debug a b 0 = .error .arith ∧ cross_u32 .release a b 0 = .ok (a ||| b)) ∧
    (∀ a b, cross_u16 .debug a b 0 = .error .arith ∧ cross_u16 .release a b 0 = .ok (a ||| b)) ∧
    (∀ a b, cross_u8 .debug a b 0 = .error .arith ∧ cross_u8 .release a b 0 = .ok (a ||| b)) :=
  ⟨C02_unsigned_zero (by decide), C02_unsigned_zero (by decide), C02_unsigned_zero (by decide),
    C02_unsigned_zero (by decide)⟩

/-- C02: the signed functions at position 0 return the first parent, in both profiles. -/
theorem C02_signed_zero (p : Profile) :
    (∀ a b, cross_i16 p a b 0 = .ok a) ∧ (∀ a b, cross_i8 p a b 0 = .ok a) := by
  constructor
  · intro a b
    obtain ⟨c, h, hs⟩ := C01_cross_i16 p a b 0 (by decide)
    have : c = a := by
      apply BitVec.eq_of_getLsbD_eq; intro i hi; rw [hs i hi]; simp
    rw [h, this]
  · intro a b
    obtain ⟨c, h, hs⟩ := C01_cross_i8 p a b 0 (by decide)
    have : c = a := by
      apply BitVec.eq_of_getLsbD_eq; intro i hi; rw [hs i hi]; simp
    rw [h, this]

/-- C02: with overflow checks no crossing returns a value at `pos ≥ width`. -/
theorem C02_beyond {w : Nat} (a b : BitVec w) (pos : Nat) (h : w ≤ pos) :
    crossU .debug a b pos = .error .arith ∧ crossS .debug a b pos = .error .arith := by
  have hs : shl .debug (BitVec.allOnes w) pos = .error .arith := by
    simp [shl, Nat.not_lt.2 h]
  constructor
  · unfold crossU; rw [hs]; rfl
  · unfold crossS; rw [hs]; rfl

/-- C02: the six functions at `pos ≥ width`. -/
theorem C02_beyond_all (pos : Nat) :
    (64 ≤ pos → ∀ a b, cross_u64 .debug a b pos = .error .arith) ∧
    (32 ≤ pos → ∀ a b, cross_u32 .debug a b pos = .error .arith) ∧
    (16 ≤ pos → ∀ a b, cross_u16 .debug a b pos = .error .arith) ∧
    (8 ≤ pos → ∀ a b, cross_u8 .debug a b pos = .error .arith) ∧
    (16 ≤ pos → ∀ a b, cross_i16 .debug a b pos = .error .arith) ∧
    (8 ≤ pos → ∀ a b, cross_i8 .debug a b pos = .error .arith) :=
  ⟨fun h a b => (C02_beyond a b pos h).1, fun h a b => (C02_beyond a b pos h).1,
    fun h a b => (C02_beyond a b pos h).1, fun h a b => (C02_beyond a b pos h).1,
    fun h a b => (C02_beyond a b pos h).2, fun h a b => (C02_beyond a b pos h).2⟩

theorem shl_release {w : Nat} (x : BitVec w) (n : Nat) : shl .release x n = .ok (x <<< (n % w)) := by
  unfold shl
  split
  · rw [Nat.mod_eq_of_lt ‹_›]
  · rfl

theorem shrU_release {w : Nat} (x : BitVec w) (n : Nat) : shrU .release x n = .ok (x >>> (n % w)) := by
  unfold shrU
  split
  · rw [Nat.mod_eq_of_lt ‹_›]
  · rfl

theorem shrS_release {w : Nat} (x : BitVec w) (n : Nat) : shrS .release x n = .ok (x.sshiftRight (n % w)) := by
  unfold shrS
  split
  · rw [Nat.mod_eq_of_lt ‹_›]
  · rfl

theorem usizeSub_release (a b : Nat) (hb : b < usizeSize + a) :
    ∃ d, usizeSub .release a b = .ok d ∧ ((d : Int) = a - b ∨ (d : Int) = a - b + usizeSize) := by
  unfold usizeSub
  split
  · exact ⟨_, rfl, .inl (by omega)⟩
  · exact ⟨_, rfl, .inr (by omega)⟩

/-- Two wrapped differences with congruent results are the same shift, when the width divides the number of `usize`s. -/
theorem mod_congr {w d e : Nat} {x y : Int} (hd : (d : Int) = x ∨ (d : Int) = x + usizeSize)
    (he : (e : Int) = y ∨ (e : Int) = y + usizeSize) (hw : (w : Int) ∣ usizeSize) (hxy : (w : Int) ∣ x - y) :
    d % w = e % w := by
  have h : (w : Int) ∣ (d : Int) - e := by
    rcases hd with hd | hd <;> rcases he with he | he <;> rw [hd, he]
    · exact hxy
    · have := Int.dvd_sub hxy hw; rwa [show x - (y + (usizeSize : Int)) = x - y - usizeSize by omega]
    · have := Int.dvd_add hxy hw; rwa [show x + (usizeSize : Int) - y = x - y + usizeSize by omega]
    · rwa [show x + (usizeSize : Int) - (y + usizeSize) = x - y by omega]
  have h3 : (d : Int) % w = (e : Int) % w := Int.emod_eq_emod_iff_emod_sub_eq_zero.2 (Int.emod_eq_zero_of_dvd h)
  exact_mod_cast h3

/-- C02: without overflow checks a position counts modulo the width: every position up to the largest `usize` gives what its
remainder gives, on both families of types. -/
theorem C02_wrap {w : Nat} (hw : w ∣ 2 ^ 64) (a b : BitVec w) (pos : Nat) (hp : pos < 2 ^ 64) :
    crossU .release a b pos = crossU .release a b (pos % w) ∧
    crossS .release a b pos = crossS .release a b (pos % w) := by
  have hw0 : 0 < w := Nat.pos_of_dvd_of_pos hw (by decide)
  have hwI : (w : Int) ∣ usizeSize := Int.natCast_dvd_natCast.2 hw
  have hle : pos % w < 2 ^ 64 := _root_.lt_of_le_of_lt (Nat.mod_le _ _) hp
  have hx : (w : Int) ∣ ((w : Int) - pos) - ((w : Int) - (pos % w : Nat)) := by
    refine ⟨-((pos / w : Nat) : Int), ?_⟩
    have := Nat.div_add_mod pos w
    have h2 : (w : Int) * (pos / w : Nat) + (pos % w : Nat) = pos := by exact_mod_cast this
    rw [Int.mul_neg]; omega
  obtain ⟨d, hd, hd'⟩ := usizeSub_release w pos (by unfold usizeSize; omega)
  obtain ⟨e, he, he'⟩ := usizeSub_release w (pos % w) (by unfold usizeSize; omega)
  have hde := mod_congr hd' he' hwI hx
  refine ⟨?_, ?_⟩
  · unfold crossU
    simp only [hd, he, shl_release, shrU_release, bind, Except.bind, Nat.mod_mod, hde]
  · obtain ⟨d2, hd2, hd2'⟩ := usizeSub_release d 1 (by unfold usizeSize; omega)
    obtain ⟨e2, he2, he2'⟩ := usizeSub_release e 1 (by unfold usizeSize; omega)
    have hde' : (w : Int) ∣ ((d : Int) - (1 : Nat)) - ((e : Int) - (1 : Nat)) := by
      rw [show ((d : Int) - (1 : Nat)) - ((e : Int) - (1 : Nat)) = d - e by omega]
      exact Int.dvd_of_emod_eq_zero (Int.emod_eq_emod_iff_emod_sub_eq_zero.1 (by exact_mod_cast hde))
    have h2 := mod_congr hd2' he2' hwI hde'
    unfold crossS
    simp only [hd, he, hd2, he2, shl_release, shrS_release, bind, Except.bind, Nat.mod_mod, h2]

/-- C02: the six functions without overflow checks, at any position that is a multiple of the width. -/
theorem C02_wrap_all (pos : Nat) (hp : pos < 2 ^ 64) :
    (∀ a b, cross_u64 .release a b pos = cross_u64 .release a b (pos % 64)) ∧
    (∀ a b, cross_u32 .release a b pos = cross_u32 .release a b (pos % 32)) ∧
    (∀ a b, cross_u16 .release a b pos = cross_u16 .release a b (pos % 16)) ∧
    (∀ a b, cross_u8 .release a b pos = cross_u8 .release a b (pos % 8)) ∧
    (∀ a b, cross_i16 .release a b pos = cross_i16 .release a b (pos % 16)) ∧
    (∀ a b, cross_i8 .release a b pos = cross_i8 .release a b (pos % 8)) :=
  ⟨fun a b => (C02_wrap (by decide) a b pos hp).1, fun a b => (C02_wrap (by decide) a b pos hp).1,
    fun a b => (C02_wrap (by decide) a b pos hp).1, fun a b => (C02_wrap (by decide) a b pos hp).1,
    fun a b => (C02_wrap (by decide) a b pos hp).2, fun a b => (C02_wrap (by decide) a b pos hp).2⟩

example : cross_u8 .release 0b11110000#8 0b00001111#8 18 = .ok 0b11110011#8 := by decide
example : cross_i8 .release 0b10101010#8 0b01010101#8 11 = .ok 0b10101101#8 := by decide

/-! ## C03 -/

variable {σ : Type}

/-- C03: for two parents of any float format, `CrossBitwise` returns exactly one child: the
splice of the parents' bit patterns at a position strictly inside the word. It never panics. -/
theorem C03_crossBitwise (p : Profile) (R : Rng σ) {f : Fmt} (a b : Fl f) (s : σ) :
    ∃ c s' pos, crossBitwise p R [a, b] s = .ok ([c], s') ∧
      0 < pos ∧ pos < f.w ∧ Splice pos a.bits b.bits c.bits := by
  have hw : 1 < f.w := by have := f.hew; have := f.hmw; simp only [Fmt.w]; omega
  obtain ⟨pos, s', h1, h2, h3⟩ := R.uniformNat_tot hw s
  obtain ⟨c, hc, hs⟩ := crossU_splice p a.bits b.bits h2 h3
  refine ⟨⟨c⟩, s', pos, ?_, h2, h3, hs⟩
  have hx : (M.ofExcept (cross_fl p a b pos) : M σ (Fl f)) s' = .ok (⟨c⟩, s') := by
    rw [M.ofExcept_eq_ok]; refine ⟨?_, rfl⟩
    unfold cross_fl; rw [hc]; rfl
  unfold crossBitwise
  refine M.bind_eq_ok.2 ⟨(), s, rfl, M.bind_eq_ok.2 ⟨pos, s', h1, ?_⟩⟩
  refine M.bind_eq_ok.2 ⟨a, s', rfl, M.bind_eq_ok.2 ⟨b, s', rfl, ?_⟩⟩
  exact M.bind_eq_ok.2 ⟨⟨c⟩, s', hx, rfl⟩

/-- C03, consequence: the child has the sign of the first parent and the lowest bit of the
second parent. -/
theorem C03_sign_and_low_bit (p : Profile) (R : Rng σ) {f : Fmt} (a b : Fl f) (s s' : σ)
    (cs : List (Fl f)) (h : crossBitwise p R [a, b] s = .ok (cs, s')) :
    ∃ c, cs = [c] ∧ c.bits.msb = a.bits.msb ∧ c.bits.getLsbD 0 = b.bits.getLsbD 0 := by
  obtain ⟨c, s1, pos, h1, h2, h3, hs⟩ := C03_crossBitwise p R a b s
  rw [h1] at h
  cases h
  refine ⟨c, rfl, ?_, ?_⟩
  · rw [BitVec.msb_eq_getLsbD_last, BitVec.msb_eq_getLsbD_last, hs _ (by omega)]
    rw [if_neg (by omega)]
  · rw [hs 0 (by omega), if_pos h2]

/-- C03: any other number of parents makes it panic. -/
theorem C03_wrong_arity (p : Profile) (R : Rng σ) {f : Fmt} (ps : List (Fl f))
    (h : ps.length ≠ 2) (s : σ) : crossBitwise p R ps s = .error .assert := by
  unfold crossBitwise
  rw [M.bind_eq_error]; left
  simp [M.assert, h, M.fail]

/-- a run of it on concrete numbers: 1.0 and 2.0 crossed at bit 5. -/
example : crossBitwise .debug Rng.script [(Fl.one : F32), Fl.ofNat 2] [4] =
    .ok ([Fl.one], []) := by decide +kernel

end Verif.Props
