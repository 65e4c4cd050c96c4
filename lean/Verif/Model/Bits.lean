import Verif.Model.Basic

/-!
# Bit fields: periodic marks of nodes, and descriptors of batches of matrices
-/

namespace DNDSR.Bits

/-! ### `NodePeriodicBits` (`src/Geom/PeriodicInfo.hpp:10-108`) -/

/-- `uint8_t __v` -/
abbrev Mark := BitVec 8

/-- Models `getP1`, `src/Geom/PeriodicInfo.hpp:13`. -/
def getP1 (v : Mark) : Bool := (v &&& 0x01#8) != 0#8
/-- Models `getP2`, `src/Geom/PeriodicInfo.hpp:14`. -/
def getP2 (v : Mark) : Bool := (v &&& 0x02#8) != 0#8
/-- Models `getP3`, `src/Geom/PeriodicInfo.hpp:15`. -/
def getP3 (v : Mark) : Bool := (v &&& 0x04#8) != 0#8
/-- Models `setP1True`, `src/Geom/PeriodicInfo.hpp:16`. -/
def setP1True (v : Mark) : Mark := v ||| 0x01#8
/-- Models `setP2True`, `src/Geom/PeriodicInfo.hpp:17`. -/
def setP2True (v : Mark) : Mark := v ||| 0x02#8
/-- Models `setP3True`, `src/Geom/PeriodicInfo.hpp:18`. -/
def setP3True (v : Mark) : Mark := v ||| 0x04#8
/-- Models `operator^`, `src/Geom/PeriodicInfo.hpp:19-22`. -/
def mxor (a b : Mark) : Mark := a ^^^ b
/-- Models `operator&`, `src/Geom/PeriodicInfo.hpp:23-26`. -/
def mand (a b : Mark) : Mark := a &&& b

/-- the loop of `isCollaborativeNodePeriodicBits`, `src/Geom/PeriodicInfo.hpp:56-58` -/
def collabLoop (v0 : Mark) : List Mark → List Mark → Bool
  | x :: xs, y :: ys => if mxor x y ≠ v0 then false else collabLoop v0 xs ys
  | _, _ => true

/-- Models `isCollaborativeNodePeriodicBits`, `src/Geom/PeriodicInfo.hpp:49-60`. -/
def isCollaborative (a b : List Mark) : Res Bool := do
  Res.assert (a.length = b.length)
  match a, b with
  | x :: xs, y :: ys => .ok (collabLoop (mxor x y) xs ys)
  | _, _ => .ok true

/-- Models `bitandReduce`, `src/Geom/PeriodicInfo.hpp:99-108`. -/
def bitandReduce (row : List Mark) : Mark :=
  row.foldl mand (setP3True (setP2True (setP1True 0x00#8)))

/-! ### `UInt32PairIn64`, `UInt16QuadIn64` (`src/DNDS/ArrayDerived/ArrayEigenMatrixBatch.hpp:10-33`) -/

/-- 64-bit words: the storage unit of a batch (`static_assert(sizeof(real) == 8)`) -/
abbrev Word := BitVec 64

/-- Models `getM`, `ArrayEigenMatrixBatch.hpp:13`. -/
def getM (d : Word) : BitVec 32 := (d &&& 0x00000000FFFFFFFF#64).setWidth 32
/-- Models `getN`, `ArrayEigenMatrixBatch.hpp:14`. -/
def getN (d : Word) : BitVec 32 := (d >>> 32).setWidth 32
/-- Models `setM`, `ArrayEigenMatrixBatch.hpp:15`. -/
def setM (d : Word) (v : BitVec 32) : Word := (d &&& 0xFFFFFFFF00000000#64) ||| v.setWidth 64
/-- Models `setN`, `ArrayEigenMatrixBatch.hpp:16`. -/
def setN (d : Word) (v : BitVec 32) : Word := (d &&& 0x00000000FFFFFFFF#64) ||| (v.setWidth 64 <<< 32)

/-- Models `getA`, `ArrayEigenMatrixBatch.hpp:23`. -/
def getA (d : Word) : BitVec 16 := ((d &&& 0x000000000000FFFF#64) >>> 0).setWidth 16
/-- Models `getB`, `ArrayEigenMatrixBatch.hpp:24`. -/
def getB (d : Word) : BitVec 16 := ((d &&& 0x00000000FFFF0000#64) >>> 16).setWidth 16
/-- Models `getC`, `ArrayEigenMatrixBatch.hpp:25`. -/
def getC (d : Word) : BitVec 16 := ((d &&& 0x0000FFFF00000000#64) >>> 32).setWidth 16
/-- Models `getD`, `ArrayEigenMatrixBatch.hpp:26`. -/
def getD (d : Word) : BitVec 16 := ((d &&& 0xFFFF000000000000#64) >>> 48).setWidth 16
/-- Models `setA`, `ArrayEigenMatrixBatch.hpp:28`. -/
def setA (d : Word) (v : BitVec 16) : Word := (d &&& ~~~0x000000000000FFFF#64) ||| (v.setWidth 64 <<< 0)
/-- Models `setB`, `ArrayEigenMatrixBatch.hpp:29`. -/
def setB (d : Word) (v : BitVec 16) : Word := (d &&& ~~~0x00000000FFFF0000#64) ||| (v.setWidth 64 <<< 16)
/-- Models `setC`, `ArrayEigenMatrixBatch.hpp:30`. -/
def setC (d : Word) (v : BitVec 16) : Word := (d &&& ~~~0x0000FFFF00000000#64) ||| (v.setWidth 64 <<< 32)
/-- Models `setD`, `ArrayEigenMatrixBatch.hpp:31`. -/
def setD (d : Word) (v : BitVec 16) : Word := (d &&& ~~~0xFFFF000000000000#64) ||| (v.setWidth 64 <<< 48)

/-! ### `MatrixBatch` (`src/DNDS/ArrayDerived/ArrayEigenMatrixBatch.hpp:34-127`) -/

/-- a dense matrix: its dimensions and its coefficients in storage order -/
structure Mat where
  rows : Nat
  cols : Nat
  data : List Word
  deriving Repr, DecidableEq

/-- `DNDS_ROWSIZE_MAX`, `src/DNDS/Defines.hpp:124` -/
def rowsizeMax : Nat := 2147483647

/-- the loop of `getBufSize`, `ArrayEigenMatrixBatch.hpp:42-47` -/
def bufSizeLoop (acc : Nat) : List Mat → Res Nat
  | [] => .ok acc
  | m :: ms => do
    Res.assert (m.rows * m.cols + acc < rowsizeMax ∧ m.rows < 65535 ∧ m.cols < 65535)
    bufSizeLoop (acc + m.rows * m.cols) ms

/-- Models `getBufSize`, `ArrayEigenMatrixBatch.hpp:38-49`. -/
def getBufSize (ms : List Mat) : Res Nat := do
  Res.assert (ms.length < rowsizeMax)
  bufSizeLoop (ms.length + 1) ms

/-- apply a function to the descriptor word of matrix `k` (`setNRow`, `setNCol`, `setOffset`,
`ArrayEigenMatrixBatch.hpp:84-100`) -/
def modWord (buf : List Word) (k : Nat) (f : Word → Word) : Res (List Word) := do
  Res.assert (k + 1 < buf.length)
  match buf[k + 1]? with
  | some w => .ok (buf.set (k + 1) (f w))
  | none => .ub

/-- store `data` from position `off` on; outside of the buffer is undefined behaviour -/
def store (buf : List Word) (off : Nat) (data : List Word) : Res (List Word) :=
  if off + data.length ≤ buf.length then .ok (buf.take off ++ data ++ buf.drop (off + data.length)) else .ub

/-- descriptor word of matrix `k` (`getNRow`, `getNCol`, `getOffset`, `ArrayEigenMatrixBatch.hpp:66-82`) -/
def header (buf : List Word) (k : Nat) : Res Word := do
  Res.assert (k + 1 < buf.length)
  match buf[k + 1]? with
  | some w => .ok w
  | none => .ub

/-- `Size()`, `ArrayEigenMatrixBatch.hpp:60-64` -/
def batchSize (buf : List Word) : Res Nat := do
  Res.assert (0 < buf.length)
  match buf[0]? with
  | some w => .ok w.toNat
  | none => .ub

/-- Models `operator[]`, `ArrayEigenMatrixBatch.hpp:120-127`: the offset and the dimensions of the view. -/
def view (buf : List Word) (k : Nat) : Res (Nat × Nat × Nat) := do
  let n ← batchSize buf
  Res.assert (k < n)
  let w ← header buf k
  .ok ((getN w).toNat, (getA w).toNat, (getB w).toNat)

/-- reading the view -/
def readMat (buf : List Word) (k : Nat) : Res Mat := do
  let (off, r, c) ← view buf k
  if off + r * c ≤ buf.length then .ok ⟨r, c, (buf.drop off).take (r * c)⟩ else .ub

/-- the loop of `CompressIn`, `ArrayEigenMatrixBatch.hpp:108-117`; `off` is the `uint32_t` `curOffset`.  Assigning to
the view copies the coefficients; Eigen asserts that the dimensions match. -/
def compressLoop (buf : List Word) (i : Nat) (off : BitVec 32) : List Mat → Res (List Word)
  | [] => .ok buf
  | m :: ms => do
    let b1 ← modWord buf i (fun w => setA w (BitVec.ofNat 16 m.rows))
    let b2 ← modWord b1 i (fun w => setB w (BitVec.ofNat 16 m.cols))
    let b3 ← modWord b2 i (fun w => setN w off)
    let (o, r, c) ← view b3 i
    Res.assert (r = m.rows ∧ c = m.cols)
    let b4 ← store b3 o m.data
    compressLoop b4 (i + 1) (off + BitVec.ofNat 32 m.data.length) ms

/-- Models `CompressIn`, `ArrayEigenMatrixBatch.hpp:102-118`. -/
def compressIn (buf : List Word) (ms : List Mat) : Res (List Word) := do
  let need ← getBufSize ms
  Res.assert (need ≤ buf.length)
  compressLoop (buf.set 0 (BitVec.ofNat 64 ms.length)) 0 (BitVec.ofNat 32 (BitVec.ofNat 64 ms.length).toNat + 1) ms

end DNDSR.Bits
