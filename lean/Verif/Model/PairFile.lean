import Verif.Model.SerArray
import Mathlib.Logic.Function.Basic
import Verif.Model.IndexMapping

/-!
# Files of distributed arrays, meshes and restarts

`ArrayEigenMatrix::WriteSerializer` and `ReadSerializer` (`src/DNDS/ArrayDerived/ArrayEigenMatirx.hpp:145-235`), `ArrayPair::WriteSerialize` and
`ReadSerialize` (`src/DNDS/ArrayPair.hpp:135-207`), the same of `UnstructuredMesh` (`src/Geom/Mesh.cpp:1760-1877`) and of `Periodicity`
(`src/Geom/PeriodicInfo.hpp:155-193`), and the restarts of `src/Euler/EulerSolver.hpp:728-842`.  The serializer is the JSON one, with a file for every
rank; what is in a file is a record.  All ranks are modelled together, with lists by rank.
-/

namespace DNDSR.PSer

open DNDSR.Defines DNDSR.SerArr DNDSR.IMap
open DNDSR.Arr hiding Array

variable {α A D : Type}

/-! ## arrays of matrices -/

/-- the template parameters `_mat_ni`, `_mat_nj`, `_mat_ni_max`, `_mat_nj_max` -/
structure MTy where
  ni : Int
  nj : Int
  niMax : Int
  njMax : Int

/-- an array of matrices: the array of their coefficients, and `_mat_nRow_dynamic`, `_mat_nRows` -/
structure MArr (α : Type) where
  base : Arr.Array α
  nRowDyn : Int
  nRows : Option (List Int)

/-- what is written -/
structure MDoc (α : Type) where
  base : Doc α
  derived : List Char
  nRowDyn : Int
  nRows : Option (List Int)

/-- Models `GetDerivedArraySignature`, `src/DNDS/ArrayDerived/ArrayEigenMatirx.hpp:145-150`. -/
def matSignature (M : MTy) : List Char :=
  "ArrayEigenMatrix".toList ++ ['_', '_'] ++ toStr M.ni ++ ['_'] ++ toStr M.nj ++ ['_'] ++ toStr M.niMax ++ ['_'] ++ toStr M.njMax

/-- Models `SignatureIsCompatible`, `src/DNDS/ArrayDerived/ArrayEigenMatirx.hpp:160-174`. -/
def matCompatible (M : MTy) (v : Int × Int × Int × Int) : Bool :=
  if v.1 ≥ 0 ∧ M.ni ≥ 0 ∧ v.1 ≠ M.ni then false
  else if v.2.1 ≥ 0 ∧ M.nj ≥ 0 ∧ v.2.1 ≠ M.nj then false
  else if v.2.2.1 ≥ 0 ∧ M.niMax ≥ 0 ∧ v.2.2.1 ≠ M.niMax then false
  else if v.2.2.2 ≥ 0 ∧ M.njMax ≥ 0 ∧ v.2.2.2 ≠ M.njMax then false
  else true

/-- Models `WriteSerializer`, `src/DNDS/ArrayDerived/ArrayEigenMatirx.hpp:183-196`. -/
def writeMat (z : α) (t : STy) (M : MTy) (a : MArr α) : Res (MArr α × MDoc α) := do
  let b ← writeArr z t a.base
  if M.ni = NonUniformSize then
    match a.nRows with
    | none => .ub
    | some l => .ok (⟨b.1, a.nRowDyn, a.nRows⟩, ⟨b.2, matSignature M, a.nRowDyn, some l⟩)
  else .ok (⟨b.1, a.nRowDyn, a.nRows⟩, ⟨b.2, matSignature M, a.nRowDyn, none⟩)

/-- Models `ReadSerializer`, `src/DNDS/ArrayDerived/ArrayEigenMatirx.hpp:198-235`; the base parses its signature in the same way as
`GetDerivedArraySignatureInts` does. -/
def readMat (t : STy) (M : MTy) (a : MArr α) (d : MDoc α) : Res (MArr α) := do
  let base ← readArr t a.base d.base
  let v ← parseSignature d.derived
  Res.assert (d.derived = matSignature M ∨ matCompatible M v = true)
  let dyn := if M.ni = DynamicSize ∧ v.1 ≥ 0 then v.1 else d.nRowDyn
  if v.1 = NonUniformSize then
    match d.nRows with
    | none => .abort
    | some l =>
      if M.ni = NonUniformSize then .ok ⟨base, dyn, some l⟩
      else do
        let c ← (if l.length ≠ 0 then .ok 0 else .abort)
        Res.assert (∀ x ∈ l, x = c)
        .ok ⟨base, c, a.nRows⟩
  else if M.ni = NonUniformSize then .ok ⟨base, dyn, some (List.replicate base.size (if v.1 ≥ 0 then v.1 else dyn))⟩
  else .ok ⟨base, dyn, a.nRows⟩

/-- Models `MatRowSize`, `src/DNDS/ArrayDerived/ArrayEigenMatirx.hpp:74-83`. -/
def matRows (M : MTy) (a : MArr α) (i : Nat) : Res Int :=
  if M.ni ≥ 0 then .ok M.ni
  else if M.ni = NonUniformSize then
    match a.nRows with
    | none => .ub
    | some l => match l[i]? with
      | none => .abort
      | some x => .ok x
  else if M.ni = DynamicSize then .ok a.nRowDyn
  else .abort

/-! ## pairs

`A` is the type of the arrays and `D` that of what they write; `write`, `read` and `size` are theirs. -/

/-- what a rank writes -/
structure PDoc (D : Type) where
  rank : Nat
  size : Nat
  father : D
  son : D
  pig : Option (List Int)

/-- Models `ArrayPair::WriteSerialize`, `src/DNDS/ArrayPair.hpp:135-168`, on rank `r` of `n`. -/
def writePair (write : A → Res (A × D)) (pig : Bool) (n r : Nat) (x : (A × A) × Option Map) : Res ((A × A) × PDoc D) := do
  Res.assert (pig = false ∨ x.2.isSome = true)
  let f ← write x.1.1
  let s ← write x.1.2
  .ok ((f.1, s.1), ⟨r, n, f.2, s.2, if pig = true then x.2.map Map.ghostIndex else none⟩)

/-- all ranks write -/
def writePairs (write : A → Res (A × D)) (pig : Bool) (xs : List ((A × A) × Option Map)) : Res (List ((A × A) × PDoc D)) :=
  forRanks (fun r x => writePair write pig xs.length r x) 0 xs

/-- Models the part of `ArrayPair::ReadSerialize` before the mappings are made, `src/DNDS/ArrayPair.hpp:175-200`. -/
def readLocal (read : A → D → Res A) (pig : Bool) (n r : Nat) (o : A × A) (d : PDoc D) : Res ((A × A) × List Int) := do
  Res.assert (d.rank = r ∧ d.size = n)
  let f ← read o.1 d.father
  let s ← read o.2 d.son
  if pig = true then
    match d.pig with
    | none => .abort
    | some p => .ok ((f, s), p)
  else .ok ((f, s), [])

/-- the file of rank `r`; it fails if there is none -/
def file (files : List (PDoc D)) (r : Nat) : Res (PDoc D) :=
  match files[r]? with
  | none => .abort
  | some d => .ok d

/-- Models `ArrayPair::ReadSerialize`, `src/DNDS/ArrayPair.hpp:173-207`, on all ranks. -/
def readPairs (read : A → D → Res A) (size : A → Nat) (pig : Bool) (objs : List (A × A)) (files : List (PDoc D)) :
    Res (List ((A × A) × Option Map)) := do
  let ls ← forRanks (fun r o => do
    let d ← file files r
    readLocal read pig objs.length r o d) 0 objs
  if pig = true then do
    let lens := ls.map fun x => size x.1.1
    let g ← setMPIAlignBcast (lens.map Int.ofNat)
    let maps ← createPull g lens (ls.map (·.2))
    .ok (List.zipWith (fun x m => (x.1, some m)) ls maps)
  else .ok (ls.map fun x => (x.1, none))

/-! ## meshes -/

/-- `Periodicity` without the first entries, which are not used: `rotation.at(i)(j)` and so on -/
structure Per (K : Type) where
  rot : Nat → Fin 9 → K
  center : Nat → Fin 3 → K
  trans : Nat → Fin 3 → K

/-- Models `Periodicity::WriteSerializer`, `src/Geom/PeriodicInfo.hpp:155-170`: three vectors for every `i` from 1 to 3. -/
def Per.write {K : Type} (p : Per K) : List (List K × List K × List K) :=
  (List.range' 1 3).map fun i => (List.ofFn (p.rot i), List.ofFn (p.center i), List.ofFn (p.trans i))

/-- `STDVectorToJacobi` and the assignment of `STDVectorToVector` to a point, `src/Geom/Geometric.hpp:42-62` -/
def toVec {K : Type} (n : Nat) (l : List K) : Res (Fin n → K) :=
  if h : l.length = n then .ok fun i => l[i.val] else .abort

/-- Models `Periodicity::ReadSerializer`, `src/Geom/PeriodicInfo.hpp:171-190`, from `i` on. -/
def Per.read {K : Type} (p : Per K) : Nat → List (List K × List K × List K) → Res (Per K)
  | _, [] => .ok p
  | i, (a, b, c) :: l => do
    let a ← toVec 9 a
    let b ← toVec 3 b
    let c ← toVec 3 c
    Per.read ⟨Function.update p.rot i a, Function.update p.center i b, Function.update p.trans i c⟩ (i + 1) l

/-- a distributed array: arrays and mapping of every rank -/
abbrev Dist (α : Type) := List ((Arr.Array α × Arr.Array α) × Option Map)

/-- the arrays of a mesh that are stored, on all ranks; `E` is the type of `ElemInfo` -/
structure Mesh (K E : Type) where
  dim : Int
  local_ : Bool
  periodic : Bool
  coords : Dist K
  cell2node : Dist Int
  cell2cell : Dist Int
  cellInfo : Dist E
  bnd2node : Dist Int
  bnd2cell : Dist Int
  bndInfo : Dist E
  cell2nodePbi : Dist Nat
  per : List (Per K)

/-- the files of a mesh, array by array -/
structure MeshFiles (K E : Type) where
  head : List (String × Int × Nat × Nat × Int)
  coords : List (PDoc (Doc K))
  cell2node : List (PDoc (Doc Int))
  cell2cell : List (PDoc (Doc Int))
  cellInfo : List (PDoc (Doc E))
  bnd2node : List (PDoc (Doc Int))
  bnd2cell : List (PDoc (Doc Int))
  bndInfo : List (PDoc (Doc E))
  cell2nodePbi : List (PDoc (Doc Nat))
  per : List (List (List K × List K × List K))

/-- `tCoordPair`, `src/Geom/Mesh.hpp:58`: points of three `real`s -/
def coordT : STy := ⟨8, ⟨3, 3⟩, -1⟩
/-- `tAdjPair`, `src/Geom/Mesh.hpp:44` -/
def adjT : STy := ⟨8, ⟨-2, -2⟩, -1⟩
/-- `tAdj2Pair`, `src/Geom/Mesh.hpp:50`, for `bnd2cell` -/
def adj2T : STy := ⟨8, ⟨2, 2⟩, -1⟩
/-- `tElemInfoArrayPair`, `src/Geom/Mesh.hpp:60` -/
def infoT : STy := ⟨8, ⟨1, 1⟩, -1⟩
/-- `tPbiPair`, `src/Geom/Mesh.hpp:46` -/
def pbiT : STy := ⟨1, ⟨-2, -2⟩, -1⟩

/-- `coords.WriteSerialize(serializerP, ...)` on all ranks: what is in the files -/
def writeDist (z : α) (t : STy) (x : Dist α) : Res (Dist α × List (PDoc (Doc α))) := do
  let ys ← writePairs (writeArr z t) true x
  .ok (List.zipWith (fun y x => (y.1, x.2)) ys x, ys.map (·.2))

/-- `coords.ReadSerialize(serializerP, ...)` on all ranks, into empty arrays, `src/Geom/Mesh.cpp:1820-1841` -/
def readDist (t : STy) (n : Nat) (files : List (PDoc (Doc α))) : Res (Dist α) :=
  readPairs (readArr t) Arr.Array.size true (List.replicate n (Arr.Array.empty, Arr.Array.empty)) files

/-- Models `UnstructuredMesh::WriteSerialize`, `src/Geom/Mesh.cpp:1760-1793`, on `n` ranks.  The writer may compress its arrays (C16), which
is not kept here. -/
def writeMesh {K E : Type} [Zero K] (zE : E) (n : Nat) (m : Mesh K E) : Res (MeshFiles K E) := do
  Res.assert (m.local_ = true)
  let a ← writeDist 0 coordT m.coords
  let b ← writeDist 0 adjT m.cell2node
  let c ← writeDist 0 adjT m.cell2cell
  let d ← writeDist zE infoT m.cellInfo
  let e ← writeDist 0 adjT m.bnd2node
  let f ← writeDist 0 adj2T m.bnd2cell
  let g ← writeDist zE infoT m.bndInfo
  let head := (List.range n).map fun r => ("UnstructuredMesh", m.dim, r, n, if m.periodic = true then (1 : Int) else 0)
  if m.periodic = true then do
    let h ← writeDist 0 pbiT m.cell2nodePbi
    .ok ⟨head, a.2, b.2, c.2, d.2, e.2, f.2, g.2, h.2, m.per.map Per.write⟩
  else .ok ⟨head, a.2, b.2, c.2, d.2, e.2, f.2, g.2, [], []⟩

/-- the assertions on the head of the file of rank `r`, `src/Geom/Mesh.cpp:1802-1815`; the value is `isPeriodic` -/
def checkHead (dim : Int) (n : Nat) (head : List (String × Int × Nat × Nat × Int)) (r : Nat) : Res Bool :=
  match head[r]? with
  | none => .abort
  | some h => do
    Res.assert (h.1 = "UnstructuredMesh")
    Res.assert (h.2.1 = dim)
    Res.assert (h.2.2.1 = r ∧ h.2.2.2.1 = n)
    .ok (decide (h.2.2.2.2 ≠ 0))

/-- Models `UnstructuredMesh::ReadSerialize`, `src/Geom/Mesh.cpp:1795-1877`, on `n > 0` ranks with meshes of dimension `dim` whose periodicity
objects are `per`.  The ranks agree about `isPeriodic`, or their collectives would not match.  `createMPITypes` and output to the screen are
left out. -/
def readMesh {K E : Type} (dim : Int) (n : Nat) (per : List (Per K)) (fs : MeshFiles K E) : Res (Mesh K E) := do
  let ps ← forRanks (fun r (_ : Unit) => checkHead dim n fs.head r) 0 (List.replicate n ())
  let p ← idx ps 0
  if ¬ (∀ q ∈ ps, q = p) then .ub
  else do
    let a ← readDist coordT n fs.coords
    let b ← readDist adjT n fs.cell2node
    let c ← readDist adjT n fs.cell2cell
    let d ← readDist infoT n fs.cellInfo
    let e ← readDist adjT n fs.bnd2node
    let f ← readDist adj2T n fs.bnd2cell
    let g ← readDist infoT n fs.bndInfo
    if p = true then do
      let h ← readDist pbiT n fs.cell2nodePbi
      let per ← forRanks (fun r q => do
        let l ← idx fs.per r
        Per.read q 1 l) 0 per
      .ok ⟨dim, true, true, a, b, c, d, e, f, g, h, per⟩
    else .ok ⟨dim, true, false, a, b, c, d, e, f, g, [], per⟩

/-! ## restarts -/

/-- `sprintf("%04d", r)` of a number that is not negative -/
def fourDigits (r : Nat) : List Char := List.replicate (4 - (digits r).length) '0' ++ digits r

/-- the name that `PrintRestart` keeps as `lastRestartFile` and the file that rank `r` of `n` writes, `src/Euler/EulerSolver.hpp:810-830`; `json` is
`restartWriter.type == "JSON"`, the other type is `H5`.  Joining of paths is with `/`. -/
def printName (json : Bool) (fname : List Char) (n r : Nat) : List Char × List Char :=
  if json = true then
    let dir := fname ++ "_p".toList ++ digits n ++ "_restart.dir".toList
    (dir, dir ++ ['/'] ++ fourDigits r ++ ".json".toList)
  else
    let f := fname ++ "_p".toList ++ digits n ++ ".restart.dnds.h5".toList
    (f, f)

/-- the file and the type of serializer of `ReadRestart` on rank `r`, `src/Euler/EulerSolver.hpp:737-752` -/
def readName (fname : List Char) (r : Nat) : Res (Bool × List Char) :=
  if sstringHasSuffix fname ".dir".toList = true then .ok (true, fname ++ ['/'] ++ fourDigits r ++ ".json".toList)
  else if sstringHasSuffix fname ".dnds.h5".toList = true then .ok (false, fname)
  else .abort

/-- `u[iCell](dimStore) = readBuf[iCell](dimStore)` -/
def storeDims (buf : List α) : List Nat → List α → Res (List α)
  | [], row => .ok row
  | j :: js, row => do
    let x ← idx buf j
    let _ ← idx row j
    storeDims buf js (row.set j x)

/-- Models `ReadRestartOtherSolver` after reading, `src/Euler/EulerSolver.hpp:794-804`, on one rank; rows of owned cells and of ghosts; `w` and `wr` are the
row sizes. -/
def otherRestart (dims : List Nat) (w wr : Nat) (u buf : List (List α) × List (List α)) : Res (List (List α) × List (List α)) := do
  Res.assert (buf.1.length = u.1.length)
  Res.assert (buf.2.length = u.2.length)
  Res.assert (∀ j ∈ dims, (j : Int) ≤ (min w wr : Nat) - 1)
  let f ← forRanks (fun i row => do
    let b ← idx buf.1 i
    storeDims b dims row) 0 u.1
  let s ← forRanks (fun i row => do
    let b ← idx buf.2 i
    storeDims b dims row) 0 u.2
  .ok (f, s)

end DNDSR.PSer
