import Verif.Model.Num

/-!
# Specification vocabulary: the bits of some genes turned over

A mask for every gene says which of its bits are turned over.
-/

namespace Verif.Spec

open Verif

variable {f : Fmt}

/-- The number whose bits are those of `x`, turned over where the mask `m` has a one -/
def turned (m : BitVec f.w) (x : Fl f) : Fl f := ⟨x.bits ^^^ m⟩

/-- The chromosome with the bits of every gene turned over by the mask for this gene -/
def turnedAll (ms : List (BitVec f.w)) (xs : List (Fl f)) : List (Fl f) := List.zipWith turned ms xs

/-- `ys` is the chromosome `xs` with the bits of its genes turned over; there is one mask for every gene. -/
def Turned (ms : List (BitVec f.w)) (xs ys : List (Fl f)) : Prop := xs.length = ms.length ∧ ys = turnedAll ms xs

/-- The mask that changes the sign and nothing else -/
def signMask (f : Fmt) : BitVec f.w := 1#f.w <<< f.kw

/-- The masks that change the sign of the chosen genes -/
def signMasks (f : Fmt) (chosen : List Bool) : List (BitVec f.w) := chosen.map fun b => if b then signMask f else 0#f.w

/-- The chromosome with the chosen genes negated -/
def negated (chosen : List Bool) (xs : List (Fl f)) : List (Fl f) := List.zipWith (fun b x => if b then x.neg else x) chosen xs

/-- The intervals mirrored at the origin for the chosen genes -/
def mirrored (chosen : List Bool) (ivs : List (Fl f × Fl f)) : List (Fl f × Fl f) :=
  List.zipWith (fun b iv => if b then (iv.2.neg, iv.1.neg) else iv) chosen ivs

end Verif.Spec
