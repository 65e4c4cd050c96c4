import Verif.Spec.DirectLU
import Mathlib.Data.Matrix.Mul
import Mathlib.Algebra.Order.Group.Abs

/-!
# Diagonal dominance of a block matrix (C79)
-/

namespace DNDSR.Direct

variable {m : Nat} {K : Type} [Field K] [LinearOrder K]

/-- every row of the matrix of numbers is strictly dominated by its diagonal entry; `i` is the block row, `p` the row inside
the block -/
def Dominant (S : LUStruct) (B : Blocks (Matrix (Fin m) (Fin m) K)) : Prop :=
  ∀ i < S.n, ∀ p, (∑ q ∈ Finset.univ.erase p, |matBlock S B i i p q|) + (∑ j ∈ (Finset.range S.n).erase i, ∑ q, |matBlock S B i j p q|) < |matBlock S B i i p p|

end DNDSR.Direct
