import Verif.Model.DirectLU
import Mathlib.Algebra.BigOperators.Group.Finset.Basic

/-!
# What a structure for a sparse block factorization is, and what its factors are
-/

namespace DNDSR.Direct

/-- the two tables are inverse permutations of `0 .. n-1`, or both are empty (natural order) -/
def IsReorder (n : Nat) (o2n n2o : List Nat) : Prop :=
  (o2n = [] ∧ n2o = []) ∨
  (o2n.length = n ∧ n2o.length = n ∧
    (∀ v < n, ∃ w < n, o2n[v]? = some w ∧ n2o[w]? = some v) ∧
    (∀ w < n, ∃ v < n, n2o[w]? = some v ∧ o2n[v]? = some w))

/-- what a table does to an index -/
def rename (table : List Nat) (v : Nat) : Nat := if table = [] then v else table.getD v 0

/-- row `i` of a table of rows -/
def rowOf (t : List (List Nat)) (i : Nat) : List Nat := t.getD i []

/-- a well formed structure: rows of the strict triangles strictly ascending, the upper triangle is the
transpose of the lower one, the old-numbered rows list the same entries in the same order, and the cross positions
point at the mirrored entries -/
structure WF (S : LUStruct) : Prop where
  re : IsReorder S.n S.o2n S.n2o
  lowLen : S.low.length = S.n
  uppLen : S.upp.length = S.n
  lowSorted : ∀ i < S.n, (rowOf S.low i).Pairwise (· < ·)
  uppSorted : ∀ i < S.n, (rowOf S.upp i).Pairwise (· < ·)
  lowBelow : ∀ i < S.n, ∀ j ∈ rowOf S.low i, j < i
  uppAbove : ∀ i < S.n, ∀ j ∈ rowOf S.upp i, i < j ∧ j < S.n
  transposed : ∀ i < S.n, ∀ j < S.n, j ∈ rowOf S.low i ↔ i ∈ rowOf S.upp j
  lowOld : ∀ i < S.n, S.lowOld[rename S.n2o i]? = some ((rowOf S.low i).map (rename S.n2o))
  uppOld : ∀ i < S.n, S.uppOld[rename S.n2o i]? = some ((rowOf S.upp i).map (rename S.n2o))
  lowCross : ∀ i < S.n, ∃ r, S.lowInUpp[i]? = some r ∧ r.length = (rowOf S.low i).length ∧
    ∀ (p j : Nat), (rowOf S.low i)[p]? = some j → ∃ q : Nat, r[p]? = some (q : Int) ∧ (rowOf S.upp j)[q]? = some i
  uppCross : ∀ i < S.n, ∃ r, S.uppInLow[i]? = some r ∧ r.length = (rowOf S.upp i).length ∧
    ∀ (p j : Nat), (rowOf S.upp i)[p]? = some j → ∃ q : Nat, r[p]? = some (q : Int) ∧ (rowOf S.low j)[q]? = some i

/-- closed under fill-in: two entries of a column above the diagonal row are themselves connected -/
def Closed (S : LUStruct) : Prop :=
  ∀ c < S.n, ∀ i ∈ rowOf S.upp c, ∀ j ∈ rowOf S.upp c, i < j → j ∈ rowOf S.upp i

section
variable {R : Type} [Ring R]

/-- the strictly lower block at (new) row `i`, column `j` -/
def lowBlock (S : LUStruct) (B : Blocks R) (i j : Nat) : R :=
  if j ∈ rowOf S.low i then B.lower (rename S.n2o i) ((rowOf S.low i).idxOf j) else 0

/-- the strictly upper block at (new) row `i`, column `j` -/
def uppBlock (S : LUStruct) (B : Blocks R) (i j : Nat) : R :=
  if j ∈ rowOf S.upp i then B.upper (rename S.n2o i) ((rowOf S.upp i).idxOf j) else 0

/-- the diagonal block of (new) row `i` -/
def diagBlock (S : LUStruct) (B : Blocks R) (i : Nat) : R := B.diag (rename S.n2o i)

/-- the whole block matrix, in the new numbering -/
def matBlock (S : LUStruct) (B : Blocks R) (i j : Nat) : R :=
  if i = j then diagBlock S B i else lowBlock S B i j + uppBlock S B i j

/-- the unit lower factor stored by the decomposition -/
def factorL (S : LUStruct) (B : Blocks R) (i k : Nat) : R := if i = k then 1 else lowBlock S B i k

/-- the upper factor stored by the decomposition, with pivots `v` on its diagonal -/
def factorU (S : LUStruct) (B : Blocks R) (v : Nat → R) (k j : Nat) : R := if k = j then v k else uppBlock S B k j

/-- `InvertDiag` is sound: what it returns is the two-sided inverse -/
def Inverts (inv : R → Option R) : Prop := ∀ v w, inv v = some w → v * w = 1 ∧ w * v = 1

/-- (new) row `i`, column `j` is in the pattern -/
def InPattern (S : LUStruct) (i j : Nat) : Prop := i = j ∨ j ∈ rowOf S.low i ∨ j ∈ rowOf S.upp i

/-- the matrix has a factorization on the pattern: a unit lower factor `lo`, an upper factor `up` with pivots `v`, both inside
the pattern, with product equal to the matrix there and pivots that `InvertDiag` accepts -/
structure HasLU (inv : R → Option R) (S : LUStruct) (B : Blocks R) (lo up : Nat → Nat → R) (v : Nat → R) : Prop where
  low : ∀ i < S.n, ∀ k, k ∉ rowOf S.low i → lo i k = 0
  upp : ∀ k < S.n, ∀ j, j ∉ rowOf S.upp k → up k j = 0
  prod : ∀ i < S.n, ∀ j < S.n, InPattern S i j →
    (∑ k ∈ Finset.range S.n, (if i = k then 1 else lo i k) * (if k = j then v k else up k j)) = matBlock S B i j
  piv : ∀ i < S.n, inv (v i) ≠ none

/-- transposition of blocks -/
structure IsTranspose (tr : R → R) : Prop where
  add : ∀ a b, tr (a + b) = tr a + tr b
  mul : ∀ a b, tr (a * b) = tr b * tr a
  inv : ∀ a, tr (tr a) = a

/-- the block matrix of which only the lower triangle is stored -/
def symBlock (tr : R → R) (S : LUStruct) (B : Blocks R) (i j : Nat) : R :=
  if i = j then diagBlock S B i else lowBlock S B i j + tr (lowBlock S B j i)

/-- the same for the symmetric factorization `L V Lᵀ` -/
structure HasLDLT (inv : R → Option R) (tr : R → R) (S : LUStruct) (B : Blocks R) (lo : Nat → Nat → R) (v : Nat → R) : Prop where
  low : ∀ i < S.n, ∀ k, k ∉ rowOf S.low i → lo i k = 0
  prod : ∀ i < S.n, ∀ j < S.n, j ≤ i → InPattern S i j →
    (∑ k ∈ Finset.range S.n, (if i = k then 1 else lo i k) * v k * (if j = k then 1 else tr (lo j k))) = symBlock tr S B i j
  piv : ∀ i < S.n, inv (v i) ≠ none

end

/-! ## the pattern a symbolic factorization has to produce -/

/-- a symmetric adjacency of `n` rows -/
def SymAdj (n : Nat) (adj : List (List Nat)) : Prop :=
  adj.length = n ∧ ∀ i < n, ∀ j ∈ rowOf adj i, j < n ∧ i ∈ rowOf adj j

/-- a walk of one to `k + 1` steps leads from `a` to `b` -/
def Within (adj : List (List Nat)) : Nat → Nat → Nat → Prop
  | 0, a, b => b ∈ rowOf adj a
  | k + 1, a, b => Within adj k a b ∨ ∃ x, Within adj k a x ∧ b ∈ rowOf adj x

/-- the fill-in the code admits: all of it for a negative code, none for code 0, and for code `k > 0` only between rows
joined by a walk of at most `k + 1` steps (`i` and `j` are new indices) -/
def Allowed (adj : List (List Nat)) (n2o : List Nat) (iluCode : Int) (i j : Nat) : Prop :=
  iluCode < 0 ∨ (0 < iluCode ∧ Within adj iluCode.toNat (rename n2o i) (rename n2o j))

/-- the off-diagonal pattern of symmetric elimination in the order `0, 1, ..`: the entries of the matrix, and, as column `c`
is eliminated, the admitted entries joining two later rows of that column -/
inductive Fill (n : Nat) (adj : List (List Nat)) (n2o : List Nat) (iluCode : Int) : Nat → Nat → Prop
  | edge {p q : Nat} : p < n → q < n → p ≠ q → rename n2o q ∈ rowOf adj (rename n2o p) → Fill n adj n2o iluCode p q
  | fill {c i j : Nat} : c < i → i < j → Fill n adj n2o iluCode c i → Fill n adj n2o iluCode c j → Allowed adj n2o iluCode i j →
      Fill n adj n2o iluCode i j
  | symm {i j : Nat} : Fill n adj n2o iluCode i j → Fill n adj n2o iluCode j i

/-- the position in the full row (diagonal, lower part, upper part) of an entry -/
def RowPosOk (low upp : List (List Nat)) (iP jP : Nat) (pos : Int) : Prop :=
  (jP < iP ∧ ∃ q : Nat, pos = q + 1 ∧ (rowOf low iP)[q]? = some jP) ∨
  (iP < jP ∧ ∃ q : Nat, pos = q + (rowOf low iP).length + 1 ∧ (rowOf upp iP)[q]? = some jP) ∨
  (jP = iP ∧ pos = -1)

end DNDSR.Direct
