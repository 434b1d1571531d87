/-!
# Specification vocabulary: bit patterns
-/

namespace Verif.Spec

/-- `c` is the single-point splice of `a` and `b` at `pos`: the bits below `pos` come
from `b`, the others from `a`. -/
def Splice {w : Nat} (pos : Nat) (a b c : BitVec w) : Prop :=
  ∀ i, i < w → c.getLsbD i = if i < pos then b.getLsbD i else a.getLsbD i

/-- In how many bit positions two patterns differ. -/
def hamming {w : Nat} (a b : BitVec w) : Nat :=
  ((List.range w).filter (fun i => a.getLsbD i != b.getLsbD i)).length

end Verif.Spec
