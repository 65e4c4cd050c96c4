import Verif.Model.FluxSum
import Verif.Model.DirectInv
import Mathlib.Algebra.Order.Field.Basic
import Mathlib.Algebra.Order.Group.Abs
import Mathlib.Data.Matrix.Mul

/-!
# Diagonal blocks and implicit sweeps (`src/Euler/EulerJacobian.hpp`, `src/Euler/EulerEvaluator.hxx`, `src/Euler/EulerSolver.hxx`)

Vectors of a cell are `Fin m → K`, exact numbers.  What a neighbour's increment does to a cell through a face, that is
`(0.5 * alphaDiag) * GetFaceArea(iFace) / GetCellVol(iCell) * fluxJacobian0_Right_Times_du(…, UFromOtherCell(uInc[iCellOther]), …)`
(`src/Euler/EulerEvaluator.hxx:152-173`, the same lines in all sweeps), is an input `couple`, by face and side.  The
tests for NaN and infinity are left out.  The build is the one without OpenMP.
-/

namespace DNDSR.Sweep

open DNDSR.IMap DNDSR.Faces
open DNDSR.Direct (invertDiag)
open Matrix

variable {m : Nat} {K : Type} [Field K] [LinearOrder K]

/-! ## `JacobianDiagBlock` -/

/-- the members of `JacobianDiagBlock`, `src/Euler/EulerJacobian.hpp:20-24`; `block` is `isBlock()` -/
structure JDiag (m : Nat) (K : Type) where
  block : Bool
  data : List (Matrix (Fin m) (Fin m) K)
  diag : List (Fin m → K)
  dataInv : List (Matrix (Fin m) (Fin m) K)
  diagInv : List (Fin m → K)
  hasInvert : Bool

/-- the loop body of `GetInvert` for blocks, `src/Euler/EulerJacobian.hpp:93-109` -/
noncomputable def invertBlock (A : Matrix (Fin m) (Fin m) K) : Res (Matrix (Fin m) (Fin m) K) :=
  match invertDiag A with
  | some w => .ok w
  | none => .abort

/-- the loop body of `GetInvert` for diagonals, `src/Euler/EulerJacobian.hpp:112-115` -/
def invertVec (d : Fin m → K) : Res (Fin m → K) := do
  Res.assert (∀ k, d k ≠ 0)
  .ok fun k => (d k)⁻¹

/-- `GetInvert`, `src/Euler/EulerJacobian.hpp:84-119` -/
noncomputable def JDiag.getInvert (J : JDiag m K) : Res (JDiag m K) :=
  if J.hasInvert then .ok J
  else if J.block then do
    let w ← forRanks (fun _ A => invertBlock A) 0 J.data
    .ok { J with dataInv := w, hasInvert := true }
  else do
    let w ← forRanks (fun _ d => invertVec d) 0 J.diag
    .ok { J with diagInv := w, hasInvert := true }

/-- `MatVecLeft`, `src/Euler/EulerJacobian.hpp:121-128` -/
def JDiag.left (J : JDiag m K) (iCell : Nat) (v : Fin m → K) : Res (Fin m → K) :=
  if J.block then do
    let A ← idx J.data iCell
    .ok (A *ᵥ v)
  else do
    let d ← idx J.diag iCell
    .ok fun k => d k * v k

/-- `MatVecLeftInvert`, `src/Euler/EulerJacobian.hpp:130-137` -/
def JDiag.leftInvert (J : JDiag m K) (iCell : Nat) (v : Fin m → K) : Res (Fin m → K) :=
  if J.block then do
    let A ← idx J.dataInv iCell
    .ok (A *ᵥ v)
  else do
    let d ← idx J.diagInv iCell
    .ok fun k => d k * v k

/-- `getValue`, `src/Euler/EulerJacobian.hpp:68-74` -/
def JDiag.getValue (J : JDiag m K) (iCell : Nat) : Res (Matrix (Fin m) (Fin m) K) :=
  if J.block then idx J.data iCell
  else do
    let d ← idx J.diag iCell
    .ok (Matrix.diagonal d)

/-- `clearValues`, `src/Euler/EulerJacobian.hpp:139-159` -/
def JDiag.clear (J : JDiag m K) : JDiag m K :=
  if J.block then { J with data := J.data.map fun _ => 0, hasInvert := false }
  else { J with diag := J.diag.map fun _ => 0, hasInvert := false }

/-- an assignment through the reference `getBlock` returns, `src/Euler/EulerJacobian.hpp:56-60` -/
def JDiag.setBlock (J : JDiag m K) (iCell : Nat) (A : Matrix (Fin m) (Fin m) K) : Res (JDiag m K) := do
  Res.assert (J.block = true)
  let _ ← idx J.data iCell
  .ok { J with data := J.data.set iCell A }

/-- an assignment through the reference `getDiag` returns, `src/Euler/EulerJacobian.hpp:62-66` -/
def JDiag.setDiag (J : JDiag m K) (iCell : Nat) (d : Fin m → K) : Res (JDiag m K) := do
  Res.assert (J.block = false)
  let _ ← idx J.diag iCell
  .ok { J with diag := J.diag.set iCell d }

/-! ## One rank -/

/-- what a rank has: its own cells (`NumCell()`), faces, ghost cells, and the couplings by face; the `Bool` says that the
cell is the second one of the face (`iCellAtFace`) -/
structure Sys (m : Nat) (K : Type) where
  n : Nat
  faces : List Face
  c2f : List (List Int)
  ghosts : List Int
  couple : List (Bool → (Fin m → K) → Fin m → K)

/-- the loop over the faces of a cell, `src/Euler/EulerEvaluator.hxx:140-183`, `:304-343`, `:388-417`, `:459-498`, `:693-722`:
`buf` loses the couplings with the neighbours that `keep` admits -/
def rowLoop (S : Sys m K) (keep : Int → Bool) (iCell : Nat) (x : List (Fin m → K)) : List Int → (Fin m → K) → Res (Fin m → K)
  | [], buf => .ok buf
  | iFace :: es, buf => do
    let f ← at64 S.faces iFace
    let other := if f.first = iCell then f.second else f.first
    let back := if f.first = iCell then false else true
    if other ≠ unInit ∧ keep other = true then do
      let v ← at64 x other
      let c ← at64 S.couple iFace
      rowLoop S keep iCell x es (buf - c back v)
    else rowLoop S keep iCell x es buf

/-- `LUSGSMatrixVec`, `src/Euler/EulerEvaluator.hxx:104-201`; entries of ghost cells stay -/
def matVec (S : Sys m K) (J : JDiag m K) (x Ax : List (Fin m → K)) : Res (List (Fin m → K)) := do
  let own ← forRanks (fun _ iCell => do
    let row ← idx S.c2f iCell
    let buf ← rowLoop S (fun _ => true) iCell x row 0
    let xi ← idx x iCell
    let d ← J.left iCell xi
    .ok (d - buf)) 0 (List.range S.n)
  .ok (own ++ Ax.drop S.n)

/-- a loop over cells that writes one entry each and sums up the changes -/
def sweepLoop (body : Nat → List (Fin m → K) → Res (Fin m → K)) : List Nat → List (Fin m → K) → (Fin m → K) →
    Res (List (Fin m → K) × (Fin m → K))
  | [], u, sum => .ok (u, sum)
  | iCell :: cs, u, sum => do
    let old ← idx u iCell
    let new ← body iCell u
    sweepLoop body cs (u.set iCell new) (sum + fun k => |new k - old k|)

/-- the order of the cells, `src/Euler/EulerEvaluator.hxx:452` -/
def order (forward : Bool) (n : Nat) : List Nat := if forward then List.range n else (List.range n).reverse

/-- the new value of a cell in `UpdateSGS`, `src/Euler/EulerEvaluator.hxx:454-526`; `inPlace` says that `uIncNew` is `uInc` -/
def sgsBody (S : Sys m K) (J : JDiag m K) (rhs uInc : List (Fin m → K)) (inPlace : Bool) (iCell : Nat) (uIncNew : List (Fin m → K)) :
    Res (Fin m → K) := do
  let row ← idx S.c2f iCell
  let b ← idx rhs iCell
  let buf ← rowLoop S (fun o => decide (o ≠ iCell)) iCell (if inPlace then uIncNew else uInc) row b
  J.leftInvert iCell buf

/-- `UpdateSGS` up to the reduction, `src/Euler/EulerEvaluator.hxx:427-553`: the inverse blocks, `uIncNew` and `sumInc` -/
noncomputable def sgs (S : Sys m K) (J : JDiag m K) (rhs uInc uIncNew : List (Fin m → K)) (inPlace forward : Bool) :
    Res (JDiag m K × List (Fin m → K) × (Fin m → K)) := do
  let J ← J.getInvert
  let r ← sweepLoop (sgsBody S J rhs uInc inPlace) (order forward S.n) uIncNew 0
  .ok (J, r.1, r.2)

/-- the new value of a cell in `UpdateLUSGSForward`, `src/Euler/EulerEvaluator.hxx:293-346`; all calls pass the same vector for
`uInc` and `uIncNew` (`src/Euler/EulerSolver.hxx:969`, `:976`, `:1006`, `:1013`) -/
def forwardBody (S : Sys m K) (J : JDiag m K) (rhs : List (Fin m → K)) (iCell : Nat) (u : List (Fin m → K)) : Res (Fin m → K) := do
  let row ← idx S.c2f iCell
  let b ← idx rhs iCell
  let buf ← rowLoop S (fun o => decide (o < iCell)) iCell u row b
  J.leftInvert iCell buf

/-- `UpdateLUSGSForward`, `src/Euler/EulerEvaluator.hxx:276-358`; it has no sum, the one of the loop is dropped -/
noncomputable def lusgsForward (S : Sys m K) (J : JDiag m K) (rhs u : List (Fin m → K)) : Res (JDiag m K × List (Fin m → K)) := do
  let J ← J.getInvert
  let r ← sweepLoop (forwardBody S J rhs) (List.range S.n) u 0
  .ok (J, r.1)

/-- the new value of a cell in `UpdateLUSGSBackward`, `src/Euler/EulerEvaluator.hxx:379-420` -/
def backwardBody (S : Sys m K) (J : JDiag m K) (iCell : Nat) (u : List (Fin m → K)) : Res (Fin m → K) := do
  let row ← idx S.c2f iCell
  let buf ← rowLoop S (fun o => decide (o > iCell)) iCell u row 0
  let d ← J.leftInvert iCell buf
  let w ← idx u iCell
  .ok (w + d)

/-- `UpdateLUSGSBackward`, `src/Euler/EulerEvaluator.hxx:361-424`; the right-hand side is not used -/
noncomputable def lusgsBackward (S : Sys m K) (J : JDiag m K) (u : List (Fin m → K)) : Res (JDiag m K × List (Fin m → K)) := do
  let J ← J.getInvert
  let r ← sweepLoop (backwardBody S J) (List.range S.n).reverse u 0
  .ok (J, r.1)

/-! ## All ranks -/

/-- the vectors of a rank: `cres`, `cxInc`, `uTemp` -/
structure Rk (m : Nat) (K : Type) where
  sys : Sys m K
  J : JDiag m K
  rhs : List (Fin m → K)
  x : List (Fin m → K)
  tmp : List (Fin m → K)

/-- `cxInc.trans.startPersistentPull(); waitPersistentPull();`: own entries stay and every ghost entry becomes the entry of
the rank that owns the cell.  That the messages do this is C07. -/
def pullAll (gc : GOM) (rs : List (Rk m K)) : Res (List (Rk m K)) :=
  forRanks (fun _ s => do
    let g ← forRanks (fun _ q => do
      let p ← gc.search q
      match p with
      | none => .abort
      | some p => do
        let t ← idx rs p.1
        at64 t.x p.2) 0 s.sys.ghosts
    .ok { s with x := s.x.take s.sys.n ++ g }) 0 rs

/-- `UpdateSGS` on all ranks with `MPI_Allreduce` of `sumInc` (`src/Euler/EulerEvaluator.hxx:555-558`), and the copy of `uTemp`
after a Jacobi sweep (`src/Euler/EulerSolver.hxx:1511-1513`) -/
noncomputable def sgsAll (jacobi forward : Bool) (rs : List (Rk m K)) : Res (List (Rk m K) × (Fin m → K)) := do
  let out ← forRanks (fun _ (s : Rk m K) => do
    let r ← sgs s.sys s.J s.rhs s.x (if jacobi then s.tmp else s.x) (!jacobi) forward
    .ok (({ s with J := r.1, x := r.2.1, tmp := if jacobi then r.2.1 else s.tmp } : Rk m K), r.2.2)) 0 rs
  .ok (out.map (·.1), (out.map (·.2)).sum)

/-- `doPrecondition` with `jacobiCode` 0 (`jacobi`) or 1, `src/Euler/EulerSolver.hxx:1508-1528`; the second component is `sgsRes` -/
noncomputable def precondition (gc : GOM) (jacobi : Bool) (rs : List (Rk m K)) : Res (List (Rk m K) × (Fin m → K)) := do
  let r1 ← sgsAll jacobi true rs
  let rs1 ← pullAll gc r1.1
  let r2 ← sgsAll jacobi false rs1
  let rs2 ← pullAll gc r2.1
  .ok (rs2, r2.2)

/-- `LUSGSMatrixVec` on all ranks; the result is put into `tmp` -/
def matVecAll (rs : List (Rk m K)) : Res (List (Rk m K)) :=
  forRanks (fun _ (s : Rk m K) => do
    let Ax ← matVec s.sys s.J s.x s.tmp
    .ok { s with tmp := Ax }) 0 rs

/-- LU-SGS on all ranks, `src/Euler/EulerSolver.hxx:969-974` -/
noncomputable def lusgs (gc : GOM) (rs : List (Rk m K)) : Res (List (Rk m K)) := do
  let rs1 ← forRanks (fun _ (s : Rk m K) => do
    let r ← lusgsForward s.sys s.J s.rhs s.x
    .ok { s with J := r.1, x := r.2 }) 0 rs
  let rs2 ← pullAll gc rs1
  let rs3 ← forRanks (fun _ (s : Rk m K) => do
    let r ← lusgsBackward s.sys s.J s.x
    .ok { s with J := r.1, x := r.2 }) 0 rs2
  pullAll gc rs3

end DNDSR.Sweep
