import Verif.Model.DirectSym
import Verif.Model.Defines
import Mathlib.Algebra.Ring.Defs
import Mathlib.Algebra.Module.Defs

/-!
# In-place block LU and LDLT (`src/Solver/Direct.hpp:256-597`)

`GetDiag`, `GetLower`, `GetUpper` are supplied by the derived class as references to the blocks of one row;
the model is a store with one cell per row and position.  Blocks are elements of a ring, right-hand sides
elements of a module over it (exact arithmetic).  `InvertDiag` either returns or aborts
(`src/Euler/EulerJacobian.hpp:241-260`), so it is a function to `Option`.  `InPlaceDecomposeV2`
(`src/Solver/Direct.hpp:368-429`), which nothing calls, is not modelled.
-/

namespace DNDSR.Direct

open DNDSR.IMap DNDSR.Defines

/-- the blocks, by old row and position in the row (`upper` is unused by LDLT) -/
structure Blocks (R : Type) where
  diag : Nat → R
  lower : Nat → Nat → R
  upper : Nat → Nat → R
  decomposed : Bool

/-- assignment to one cell of the store -/
def upd {β : Type} (f : Nat → β) (i : Nat) (v : β) : Nat → β := fun k => if k = i then v else f k

def Blocks.setDiag {R : Type} (B : Blocks R) (i : Nat) (v : R) : Blocks R := { B with diag := upd B.diag i v }
def Blocks.setLower {R : Type} (B : Blocks R) (i p : Nat) (v : R) : Blocks R :=
  { B with lower := upd B.lower i (upd (B.lower i) p v) }
def Blocks.setUpper {R : Type} (B : Blocks R) (i p : Nat) (v : R) : Blocks R :=
  { B with upper := upd B.upper i (upd (B.upper i) p v) }

/-- a visitor of `iterateIdentical` that may stop the program: once stopped, nothing more is visited -/
def visitRes {σ : Type} (stop : Int → Bool) (body : Int → Nat → Nat → σ → Res σ) (k : Int) (p1 p2 : Nat) (s : Res σ) :
    Res σ × Bool :=
  match s with
  | .ok B => if stop k then (.ok B, true) else (body k p1 p2 B, false)
  | e => (e, true)

/-- `iterateIdentical(a, b, visitor)` on index rows -/
def common {σ : Type} (stop : Int → Bool) (body : Int → Nat → Nat → σ → Res σ) (a b : List Nat) (s : σ) : Res σ :=
  (iterateIdentical (visitRes stop body) (a.map Int.ofNat) (b.map Int.ofNat) 0 0 (.ok s)).1

variable {R M : Type} [Ring R] [AddCommGroup M] [Module R M]

/-- `LU(iP,jP) -= LU(iP,kP) * LU(kP,jP)` in the lower part, `src/Solver/Direct.hpp:300-313` -/
def lowerBody (S : LUStruct) (i ijP jP : Nat) (kP : Int) (pos1 pos2 : Nat) (B : Blocks R) : Res (Blocks R) := do
  Res.assert (kP < S.n)
  let k ← reorder S.n2o kP.toNat
  let r ← idx S.lowInUpp jP
  let p ← idx r pos2
  .ok (if p ≠ -1 then B.setLower i ijP (B.lower i ijP - B.lower i pos1 * B.upper k p.toNat) else B)

/-- one entry of the lower part, `src/Solver/Direct.hpp:289-320` -/
def lowerEntry (S : LUStruct) (iP i : Nat) (lowerRow : List Nat) (B : Blocks R) (e : Nat × Nat) : Res (Blocks R) := do
  let (jP, ijP) := e
  Res.assert (jP < iP)
  let j ← reorder S.n2o jP
  let B ← if ijP > 0 then do
      let rowJ ← idx S.low jP
      common (fun kP => decide (kP > (jP : Int) - 1)) (lowerBody S i ijP jP) lowerRow rowJ B
    else .ok B
  .ok (B.setLower i ijP (B.lower i ijP * B.diag j))

/-- one term of the diagonal, `src/Solver/Direct.hpp:323-331` -/
def diagEntry (S : LUStruct) (iP i : Nat) (B : Blocks R) (e : Nat × Nat) : Res (Blocks R) := do
  let (kP, ikP) := e
  let k ← reorder S.n2o kP
  let r ← idx S.lowInUpp iP
  let p ← idx r ikP
  .ok (if p ≠ -1 then B.setDiag i (B.diag i - B.lower i ikP * B.upper k p.toNat) else B)

/-- `LU(iP,jP) -= LU(iP,kP) * LU(kP,jP)` in the upper part, `src/Solver/Direct.hpp:347-360` -/
def upperBody (S : LUStruct) (i ijP jP : Nat) (kP : Int) (pos1 pos2 : Nat) (B : Blocks R) : Res (Blocks R) := do
  Res.assert (kP < S.n)
  let k ← reorder S.n2o kP.toNat
  let r ← idx S.lowInUpp jP
  let p ← idx r pos2
  .ok (if p ≠ -1 then B.setUpper i ijP (B.upper i ijP - B.lower i pos1 * B.upper k p.toNat) else B)

/-- one entry of the upper part, `src/Solver/Direct.hpp:338-361` -/
def upperEntry (S : LUStruct) (iP i : Nat) (lowerRow : List Nat) (B : Blocks R) (e : Nat × Nat) : Res (Blocks R) := do
  let (jP, ijP) := e
  Res.assert (jP > iP)
  let _ ← reorder S.n2o jP
  let rowJ ← idx S.low jP
  common (fun kP => decide (kP ≥ (iP : Int))) (upperBody S i ijP jP) lowerRow rowJ B

/-- one row of `InPlaceDecomposeV1`, `src/Solver/Direct.hpp:282-363` -/
def decomposeRow (inv : R → Option R) (S : LUStruct) (B : Blocks R) (iP : Nat) : Res (Blocks R) := do
  let i ← reorder S.n2o iP
  let lowerRow ← idx S.low iP
  let B ← foldRes (lowerEntry S iP i lowerRow) B lowerRow.zipIdx
  let B ← foldRes (diagEntry S iP i) B lowerRow.zipIdx
  let B ← match inv (B.diag i) with
    | some w => .ok (B.setDiag i w)
    | none => .abort
  let upperRow ← idx S.upp iP
  foldRes (upperEntry S iP i lowerRow) B upperRow.zipIdx

/-- Models `LocalLUBase::InPlaceDecompose` = `InPlaceDecomposeV1`, `src/Solver/Direct.hpp:274-366`. -/
def decompose (inv : R → Option R) (S : LUStruct) (B : Blocks R) : Res (Blocks R) := do
  let B ← foldRes (decomposeRow inv S) B (List.range S.n)
  .ok { B with decomposed := true }

/-- `result[i] += f(ij) * x[row[ij]]` over a row -/
def addRow (f : Nat → R) (row : List Nat) (x : Nat → M) (acc : M) : M :=
  row.zipIdx.foldl (fun acc e => acc + f e.2 • x e.1) acc

/-- Models `LocalLUBase::MatMul`, `src/Solver/Direct.hpp:431-443`; `x` and `result` are distinct vectors, and a
vector is the function of its entries (`Num()` entries are used). -/
def matMul (S : LUStruct) (B : Blocks R) (x result : Nat → M) : Res (Nat → M) := do
  Res.assert (¬ B.decomposed = true)
  foldRes (fun result i => do
    let lo ← idx S.lowOld i
    let up ← idx S.uppOld i
    .ok (upd result i (addRow (B.upper i) up x (addRow (B.lower i) lo x (B.diag i • x i))))) result (List.range S.n)

/-- `result[i] -= f(ij) * result[row[ij]]` over a row: reads and writes the same vector -/
def subRow (f : Nat → R) (row : List Nat) (i : Nat) (result : Nat → M) : Nat → M :=
  row.zipIdx.foldl (fun result e => upd result i (result i - f e.2 • result e.1)) result

/-- Models `LocalLUBase::Solve`, `src/Solver/Direct.hpp:445-473`. -/
def solve (S : LUStruct) (B : Blocks R) (b result : Nat → M) : Res (Nat → M) := do
  Res.assert (B.decomposed = true)
  let y ← foldRes (fun result iP => do
    let i ← reorder S.n2o iP
    let row ← idx S.lowOld i
    .ok (subRow (B.lower i) row i (upd result i (b i)))) result (List.range S.n)
  foldRes (fun result iP => do
    let i ← reorder S.n2o iP
    let row ← idx S.uppOld i
    let result := subRow (B.upper i) row i result
    .ok (upd result i (B.diag i • result i))) y (List.range S.n).reverse

/-! ## LDLT; `tr` is the transposition of a block -/

/-- the lower part, `src/Solver/Direct.hpp:514-527` -/
def ldltBody (tr : R → R) (S : LUStruct) (noInv : Nat → R) (i j ijP : Nat) (kP : Int) (pos1 pos2 : Nat) (B : Blocks R) :
    Res (Blocks R) := do
  Res.assert (kP < S.n)
  let k ← reorder S.n2o kP.toNat
  .ok (B.setLower i ijP (B.lower i ijP - B.lower i pos1 * noInv k * tr (B.lower j pos2)))

/-- one entry of the lower part, `src/Solver/Direct.hpp:503-531` -/
def ldltLower (tr : R → R) (S : LUStruct) (noInv : Nat → R) (iP i : Nat) (lowerRow : List Nat) (B : Blocks R) (e : Nat × Nat) :
    Res (Blocks R) := do
  let (jP, ijP) := e
  Res.assert (jP < iP)
  let j ← reorder S.n2o jP
  let B ← if ijP > 0 then do
      let rowJ ← idx S.low jP
      common (fun kP => decide (kP > (jP : Int) - 1)) (ldltBody tr S noInv i j ijP) lowerRow rowJ B
    else .ok B
  .ok (B.setLower i ijP (B.lower i ijP * B.diag j))

/-- one term of the diagonal, `src/Solver/Direct.hpp:534-539` -/
def ldltDiag (tr : R → R) (S : LUStruct) (noInv : Nat → R) (i : Nat) (B : Blocks R) (e : Nat × Nat) : Res (Blocks R) := do
  let (kP, ikP) := e
  let k ← reorder S.n2o kP
  .ok (B.setDiag i (B.diag i - B.lower i ikP * noInv k * tr (B.lower i ikP)))

/-- one row, `src/Solver/Direct.hpp:496-542`; the second component is `diagNoInv` -/
def ldltRow (inv : R → Option R) (tr : R → R) (S : LUStruct) (st : Blocks R × (Nat → R)) (iP : Nat) :
    Res (Blocks R × (Nat → R)) := do
  let i ← reorder S.n2o iP
  let lowerRow ← idx S.low iP
  let B ← foldRes (ldltLower tr S st.2 iP i lowerRow) st.1 lowerRow.zipIdx
  let B ← foldRes (ldltDiag tr S st.2 i) B lowerRow.zipIdx
  match inv (B.diag i) with
  | some w => .ok (B.setDiag i w, upd st.2 i (B.diag i))
  | none => .abort

/-- Models `LocalLDLTBase::InPlaceDecompose`, `src/Solver/Direct.hpp:492-544`; the initial content of
`diagNoInv` is `junk`. -/
def ldltDecompose (inv : R → Option R) (tr : R → R) (S : LUStruct) (B : Blocks R) (junk : Nat → R) : Res (Blocks R) := do
  let st ← foldRes (ldltRow inv tr S) (B, junk) (List.range S.n)
  .ok { st.1 with decomposed := true }

/-- Models `LocalLDLTBase::MatMul`, `src/Solver/Direct.hpp:546-561`. -/
def ldltMatMul (tr : R → R) (S : LUStruct) (B : Blocks R) (x result : Nat → M) : Res (Nat → M) := do
  Res.assert (¬ B.decomposed = true)
  let y ← foldRes (fun result i => do
    let lo ← idx S.lowOld i
    .ok (upd result i (addRow (B.lower i) lo x (B.diag i • x i)))) result (List.range S.n)
  foldRes (fun result i => do
    let lo ← idx S.lowOld i
    .ok (lo.zipIdx.foldl (fun result e => upd result e.1 (result e.1 + tr (B.lower i e.2) • x i)) result)) y (List.range S.n)

/-- the last loop's row, `src/Solver/Direct.hpp:582-593` -/
def ldltBack (tr : R → R) (S : LUStruct) (B : Blocks R) (iP i : Nat) (result : Nat → M) (e : Nat × Nat) : Res (Nat → M) := do
  let (jP, ij) := e
  let j ← reorder S.n2o jP
  let r ← idx S.uppInLow iP
  let ji ← idx r ij
  Res.assert (ji ≠ -1)
  if ji < 0 then .ub
  else .ok (upd result i (result i - tr (B.lower j ji.toNat) • result j))

/-- Models `LocalLDLTBase::Solve`, `src/Solver/Direct.hpp:563-595`. -/
def ldltSolve (tr : R → R) (S : LUStruct) (B : Blocks R) (b result : Nat → M) : Res (Nat → M) := do
  Res.assert (B.decomposed = true)
  let y ← foldRes (fun result iP => do
    let i ← reorder S.n2o iP
    let row ← idx S.lowOld i
    .ok (subRow (B.lower i) row i (upd result i (b i)))) result (List.range S.n)
  let z ← foldRes (fun (result : Nat → M) i => .ok (upd result i (B.diag i • result i))) y (List.range S.n)
  foldRes (fun result iP => do
    let i ← reorder S.n2o iP
    let row ← idx S.upp iP
    foldRes (ldltBack tr S B iP i) result row.zipIdx) z (List.range S.n).reverse

end DNDSR.Direct
