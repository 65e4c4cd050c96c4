import Verif.Model.Faces
import Verif.Model.MeshAdj
import Verif.Model.Periodic

/-!
# The parallel VTKHDF file

Models `RecreatePeriodicNodes` and `BuildVTKConnectivity`, `src/Geom/Mesh_Serial_BuildCell2Cell.cpp:481-672`,
`ToVTKVertsAndData`, `src/Geom/Elements.hpp:2538-2650`, and `H5_WriteDataset` and `PrintParallelVTKHDFDataArray`,
`src/Geom/Mesh_Plts.cpp:1228-1467`.

All ranks are modelled together.  Floating point coordinates are real numbers.  Left out: the log line, the series file, the
creation of directories, chunking and compression of the datasets, the attributes `Type` and `Version`, and the contents of a
dataset's fill value (an entry never written is `none`).
-/

namespace DNDSR.VtkOut

open DNDSR.IMap DNDSR.Elem DNDSR.Bits DNDSR.Faces

/-- What one rank holds when the output is prepared: its own rows of `cellElemInfo`, `cell2node` (local node numbers) and
`cell2nodePbi`; `coords.trans.pLGhostMapping`; the own rows of `coords`. -/
structure Rk where
  cells : List Cell
  map : Map
  coords : List Per.V3

/-- checked access to an array by a 64-bit index, `src/DNDS/Array.hpp` `operator()` -/
def at64 {α : Type} (l : List α) (i : Int) : Res α :=
  if 0 ≤ i then (match l[i.toNat]? with | some x => .ok x | none => .abort) else .abort

/-- a checked store -/
def set64 {α : Type} (l : List α) (i : Int) (x : α) : Res (List α) :=
  if 0 ≤ i ∧ i < l.length then .ok (l.set i.toNat x) else .abort

/-! ## `RecreatePeriodicNodes` -/

/-- `nodeNeedCreate(i, 0) |= v` -/
def orAt (a : List Nat) (i : Int) (v : Nat) : Res (List Nat) := do
  let x ← at64 a i
  set64 a i (x ||| v)

/-- the entries of one cell: node and mark; the two rows have the same length (reading a mark that is missing is refused) -/
def entries (c : Cell) : Res (List (Int × Mark)) :=
  if c.pbi.length = c.nodes.length then .ok (c.nodes.zip c.pbi) else .abort

/-- the loop over the entries of a row, `src/Geom/Mesh_Serial_BuildCell2Cell.cpp:502-503` -/
def flagRow : List (Int × Mark) → List Nat → Res (List Nat)
  | [], a => .ok a
  | (v, b) :: es, a => do
    let a ← orAt a v (1 <<< b.toNat)
    flagRow es a

/-- the loop over the own cells, `src/Geom/Mesh_Serial_BuildCell2Cell.cpp:501-503` -/
def flagCells : List Cell → List Nat → Res (List Nat)
  | [], a => .ok a
  | c :: cs, a => do
    let es ← entries c
    let a ← flagRow es a
    flagCells cs a

/-- `nodeNeedCreate` of one rank before the exchange, `src/Geom/Mesh_Serial_BuildCell2Cell.cpp:490-503`: own nodes, then copies -/
def needLocal (s : Rk) : Res (List Nat) :=
  flagCells s.cells (List.replicate (s.coords.length + s.map.ghostIndex.length) 1)

/-- `pullOnce`: one entry for every number in the ghost list, from the rank that owns it. That the messages do this is C07. -/
def pull {α : Type} (g : GOM) (fathers : List (List α)) (ghosts : List Int) : Res (List α) :=
  forRanks (fun _ q => do
    let p ← g.search q
    match p with
    | none => .abort
    | some p => do
      let f ← idx fathers p.1
      at64 f p.2) 0 ghosts

/-- the loop over what came back, `src/Geom/Mesh_Serial_BuildCell2Cell.cpp:515-521`: entry `i` belongs to the node
`pushingIndexGlobal[i]` -/
def merge (m : Map) : List Nat → List Int → List Nat → Res (List Nat)
  | [], _, a => .ok a
  | _ :: _, [], _ => .ub
  | x :: xs, q :: qs, a => do
    let p ← m.searchAppend q
    match p with
    | none => .abort
    | some (rank, iNode) => do
      Res.assert (rank = -1)
      let a ← orAt a iNode x
      merge m xs qs a

/-- `nodeNeedCreate.father` of every rank, `src/Geom/Mesh_Serial_BuildCell2Cell.cpp:490-521`: the flags of the copies go back to
the owners, the copies' array being the father of a transformer built from push lists -/
def need (ranks : List Rk) : Res (List (List Nat)) := do
  let loc ← forRanks (fun _ s => needLocal s) 0 ranks
  let sons := (ranks.zip loc).map (fun p => p.2.drop p.1.coords.length)
  let gs ← setMPIAlignBcast (sons.map (fun f => (f.length : Int)))
  let pmaps ← createPush gs (sons.map List.length)
    ((ranks.zip sons).map (fun p => ((List.range p.2.length).map (fun i : Nat => (i : Int)), p.1.map.ghostStart)))
  let past ← forRanks (fun _ (pm : Map) => pull gs sons pm.ghostIndex) 0 pmaps
  forRanks (fun _ (p : (Rk × List Nat) × List Nat) =>
    merge p.1.1.map p.2 p.1.1.map.pushingIndexGlobal (p.1.2.take p.1.1.coords.length)) 0 ((ranks.zip loc).zip past)

/-- `bitCur` from 1 to 7 -/
def bits7 : List Nat := [1, 2, 3, 4, 5, 6, 7]

/-- the loop over `bitCur` for one node, `src/Geom/Mesh_Serial_BuildCell2Cell.cpp:535-541`: entries of the row and the new
`nCreatedNodes` -/
def numberBits (nOwn : Nat) (flag : Nat) : List Nat → Nat → List Int × Nat
  | [], n => ([], n)
  | b :: bs, n =>
    if flag &&& (1 <<< b) ≠ 0 then
      let r := numberBits nOwn flag bs (n + 1)
      (((nOwn + n : Nat) : Int) :: r.1, r.2)
    else
      let r := numberBits nOwn flag bs n
      (unInit :: r.1, r.2)

/-- `node2recreatedNodes` of the own nodes from the `i`-th on, local numbers, `src/Geom/Mesh_Serial_BuildCell2Cell.cpp:531-542` -/
def numberAll (nOwn : Nat) : Nat → List Nat → Nat → Res (List (List Int) × Nat)
  | _, [], n => .ok ([], n)
  | i, f :: fs, n => do
    Res.assert (f &&& 1 ≠ 0)
    let row := numberBits nOwn f bits7 n
    let rest ← numberAll nOwn (i + 1) fs row.2
    .ok ((((i : Int) :: row.1) :: rest.1), rest.2)

/-- the stores of one node into `coordsPeriodicRecreated` and `nodeRecreated2nodeLocal`, `src/Geom/Mesh_Serial_BuildCell2Cell.cpp:553-564`:
place, coordinates and source node -/
noncomputable def stores (P : Per.Periodicity) (i : Nat) (x : Per.V3) (row : List Int) : Res (List (Int × (Per.V3 × Nat))) := do
  let more ← forRanks (fun _ (b : Nat) => do
    let v ← at64 row b
    if v ≠ unInit then do
      let y ← Per.coordByBits P x (BitVec.ofNat 8 b)
      .ok [(v, (y, i))]
    else .ok []) 0 bits7
  .ok (((i : Int), (x, i)) :: more.flatten)

/-- performing stores into an array that is uninitialised at first -/
def fill {α : Type} : List (Int × α) → List (Option α) → Res (List (Option α))
  | [], a => .ok a
  | (i, x) :: ws, a => do
    let a ← set64 a i (some x)
    fill ws a

/-- reading an array as a whole; an entry never stored is indeterminate -/
def whole {α : Type} (a : List (Option α)) : Res (List α) :=
  forRanks (fun _ x => match x with | some y => .ok y | none => .ub) 0 a

/-- what `RecreatePeriodicNodes` leaves on one rank: `coordsPeriodicRecreated.father` with `nodeRecreated2nodeLocal`, and
`cell2nodePeriodicRecreated.father` -/
structure Recr where
  pts : List (Per.V3 × Nat)
  c2n : List (List Int)

/-- numbering and filling on one rank, `src/Geom/Mesh_Serial_BuildCell2Cell.cpp:523-565` -/
noncomputable def recrLocal (P : Per.Periodicity) (s : Rk) (flags : List Nat) : Res (List (List Int) × List (Per.V3 × Nat)) := do
  let r ← numberAll s.coords.length 0 flags 0
  let ws ← forRanks (fun i (p : Per.V3 × List Int) => stores P i p.1 p.2) 0 (s.coords.zip r.1)
  let a ← fill ws.flatten (List.replicate (r.2 + s.coords.length) none)
  let pts ← whole a
  .ok (r.1, pts)

/-- conversion of the own rows to global numbers, `src/Geom/Mesh_Serial_BuildCell2Cell.cpp:566-570` -/
def toGlobal (g : GOM) (r : Nat) (rows : List (List Int)) : Res (List (List Int)) :=
  forRanks (fun _ row => forRanks (fun _ v => if v ≠ unInit then g.apply r v else .ok v) 0 row) 0 rows

/-- the new row of one cell, `src/Geom/Mesh_Serial_BuildCell2Cell.cpp:577-590`; `rows` are the rows of the own nodes and the copies -/
def newRow (rows : List (List Int)) (c : Cell) : Res (List Int) := do
  let es ← entries c
  forRanks (fun _ (e : Int × Mark) => do
    let row ← at64 rows e.1
    if e.2 ≠ 0 then do
      let v ← at64 row e.2.toNat
      Res.assert (v ≠ unInit)
      .ok v
    else at64 row 0) 0 es

/-- Models `RecreatePeriodicNodes` on a periodic mesh, `src/Geom/Mesh_Serial_BuildCell2Cell.cpp:481-598`; `gn` is the global
mapping of the nodes. -/
noncomputable def recreate (P : Per.Periodicity) (gn : GOM) (ranks : List Rk) : Res (List Recr) := do
  let flags ← need ranks
  let loc ← forRanks (fun _ (p : Rk × List Nat) => recrLocal P p.1 p.2) 0 (ranks.zip flags)
  let g ← setMPIAlignBcast (loc.map (fun p => (p.2.length : Int)))
  let rows ← forRanks (fun r (p : List (List Int) × List (Per.V3 × Nat)) => toGlobal g r p.1) 0 loc
  forRanks (fun _ (p : (Rk × List (List Int)) × (List (List Int) × List (Per.V3 × Nat))) => do
    let ghosts ← pull gn rows p.1.1.map.ghostIndex
    let c2n ← forRanks (fun _ c => newRow (p.1.2 ++ ghosts) c) 0 p.1.1.cells
    .ok ⟨p.2.2, c2n⟩) 0 ((ranks.zip rows).zip loc)

/-! ## `BuildVTKConnectivity` -/

/-- the switch of `ToVTKVertsAndData`, `src/Geom/Elements.hpp:2538-2650`: VTK's number of the cell type, and the nodes it takes -/
def vtkTable : ElemType → Res (Nat × List Nat)
  | .line2 => .ok (3, [0, 1])
  | .line3 => .ok (4, [0, 2, 1])
  | .tri3 => .ok (5, [0, 1, 2])
  | .tri6 => .ok (22, [0, 1, 2, 3, 4, 5])
  | .quad4 => .ok (9, [0, 1, 2, 3])
  | .quad9 => .ok (23, [0, 1, 2, 3, 4, 5, 6, 7])
  | .tet4 => .ok (10, [0, 1, 2, 3])
  | .tet10 => .ok (24, [0, 1, 2, 3, 4, 5, 6, 7, 8, 9])
  | .hex8 => .ok (12, [0, 1, 2, 3, 4, 5, 6, 7])
  | .hex27 => .ok (25, [0, 1, 2, 3, 4, 5, 6, 7, 8, 9, 10, 11, 16, 17, 18, 19, 12, 13, 14, 15])
  | .prism6 => .ok (13, [0, 1, 2, 3, 4, 5])
  | .prism18 => .ok (26, [0, 1, 2, 3, 4, 5, 6, 7, 8, 12, 13, 14, 9, 10, 11])
  | .pyramid5 => .ok (14, [0, 1, 2, 3, 4])
  | .pyramid14 => .ok (27, [0, 1, 2, 3, 4, 5, 6, 7, 8, 9, 10, 11, 12])
  | .unknown => .abort

/-- Models `ToVTKVertsAndData`, `src/Geom/Elements.hpp:2538-2650`; `vin[k]` on a row is not checked. -/
def toVTK (t : ElemType) (vin : List Int) : Res (Nat × List Int) := do
  let p ← vtkTable t
  let v ← forRanks (fun _ k => idx vin k) 0 p.2
  .ok (p.1, v)

/-- the members `vtkCellType`, `vtkCell2nodeOffsets`, `vtkCell2node`, `vtkNodeOffset`, `vtkCellOffset`, `vtkCell2NodeGlobalSiz`,
`vtkNCellGlobal` and `vtkNNodeGlobal` of one rank, `src/Geom/Mesh.hpp` -/
structure Vtk where
  types : List Nat
  offsets : List Nat
  conn : List Int
  nodeOffset : Nat
  cellOffset : Nat
  connGlobal : Nat
  nCellGlobal : Nat
  nNodeGlobal : Nat

/-- before the first call -/
def Vtk.fresh : Vtk := ⟨[], [], [], 0, 0, 0, 0, 0⟩

/-- the local running sums, `src/Geom/Mesh_Serial_BuildCell2Cell.cpp:611-620` -/
def runSums (cur : Nat) : List Nat → List Nat
  | [] => [cur]
  | l :: ls => cur :: runSums (cur + l) ls

/-- what one rank computes before the collectives, `src/Geom/Mesh_Serial_BuildCell2Cell.cpp:611-640`: the types, the lengths of the
rows, and the node numbers to append; `NodeIndexLocal2Global` is the one of `Model/MeshAdj` -/
def connLocal (s : Rk) (re : Option Recr) : Res (List Nat × List Nat × List Int) := do
  let a ← forRanks (fun _ (c : Cell) => toVTK c.type c.nodes) 0 s.cells
  let b ← (match re with
    | none => forRanks (fun _ (c : Cell) => do
        let p ← toVTK c.type c.nodes
        forRanks (fun _ v => MeshAdj.local2Global s.map v) 0 p.2) 0 s.cells
    | some R => forRanks (fun i (c : Cell) => do
        let row ← at64 R.c2n (i : Int)
        let p ← toVTK c.type row
        .ok p.2) 0 s.cells)
  .ok (a.map (fun p => p.1), a.map (fun p => p.2.length), b.flatten)

/-- number of points a rank writes -/
def nPts (s : Rk) (re : Option Recr) : Nat :=
  match re with
  | none => s.coords.length
  | some R => R.pts.length

/-- `MPI_Scan` with a sum minus the own value: the sum over the ranks before -/
def scanBefore (l : List Nat) (r : Nat) : Nat := (l.take r).sum

/-- Models `BuildVTKConnectivity` on all ranks, `src/Geom/Mesh_Serial_BuildCell2Cell.cpp:600-672`; `re` is `none` if the mesh is
not periodic. `vtkCell2node` is reserved and appended to, the other members are set anew. -/
def build (old : List Vtk) (ranks : List Rk) (re : List (Option Recr)) : Res (List Vtk) := do
  let loc ← forRanks (fun _ (p : Rk × Option Recr) => connLocal p.1 p.2) 0 (ranks.zip re)
  let lens := loc.map (fun p => p.2.1.sum)
  let nCells := ranks.map (fun s => s.cells.length)
  let nNodes := (ranks.zip re).map (fun p => nPts p.1 p.2)
  let conns := (old.zip loc).map (fun p => p.1.conn ++ p.2.2.2)
  forRanks (fun r (p : (List Nat × List Nat × List Int) × List Int) =>
    .ok { types := p.1.1
          offsets := (runSums 0 p.1.2.1).map (fun o => o + scanBefore lens r)
          conn := p.2
          nodeOffset := scanBefore nNodes r
          cellOffset := scanBefore nCells r
          connGlobal := (conns.map List.length).sum
          nCellGlobal := nCells.sum
          nNodeGlobal := nNodes.sum }) 0 (loc.zip conns)

/-! ## the file -/

/-- Models `H5_WriteDataset` on all ranks, `src/Geom/Mesh_Plts.cpp:1228-1254`: a dataset of `n` entries, rank after rank writing the
hyperslab from its offset. A slab that leaves the dataset is an error; slabs that overlap leave unspecified contents. -/
def writeDataset {α : Type} (n : Nat) (parts : List (Nat × List α)) : Res (List (Option α)) :=
  parts.foldlM (fun d (p : Nat × List α) =>
    if p.1 + p.2.length ≤ d.length then
      if ((d.drop p.1).take p.2.length).all Option.isNone then
        .ok (d.take p.1 ++ p.2.map some ++ d.drop (p.1 + p.2.length))
      else .ub
    else .abort) (List.replicate n none)

/-- the datasets of the group `VTKHDF`; `D` is the type of a data entry (a number, or three numbers in the vector arrays) -/
structure File (D : Type) where
  numberOfCells : List (Option Nat)
  numberOfPoints : List (Option Nat)
  numberOfConnectivityIds : List (Option Nat)
  points : List (Option Per.V3)
  offsets : List (Option Nat)
  types : List (Option Nat)
  connectivity : List (Option Int)
  cellData : List (String × List (Option D))
  pointData : List (String × List (Option D))

/-- the callbacks of one rank: values by array and local cell, values by array and own node -/
structure Data (D : Type) where
  cell : Nat → Nat → D
  node : Nat → Nat → D

/-- a group of data arrays, `src/Geom/Mesh_Plts.cpp:1387-1417`, `:1423-1456`; creating a dataset twice under one name is an error -/
def dataGroup {D : Type} (names : List String) (n : Nat) (parts : Nat → List (Nat × List D)) :
    Res (List (String × List (Option D))) := do
  Res.assert names.Nodup
  forRanks (fun i name => do
    let d ← writeDataset n (parts i)
    .ok (name, d)) 0 names

/-- the coordinates a rank writes, and for each point the own node whose data it gets -/
def outPts (s : Rk) (re : Option Recr) : List (Per.V3 × Nat) :=
  match re with
  | none => s.coords.zip (List.range s.coords.length)
  | some R => R.pts

/-- one rank's input to the file -/
structure Job (D : Type) where
  rk : Rk
  re : Option Recr
  vtk : Vtk
  data : Data D

/-- Models `PrintParallelVTKHDFDataArray` on all ranks, `src/Geom/Mesh_Plts.cpp:1256-1467`. `mRank` is the rank that writes the
three numbers. -/
def write {D : Type} (mRank : Nat) (cellNames pointNames : List String) (jobs : List (Job D)) : Res (File D) := do
  let nNodes1 := (jobs.map (fun j => nPts j.rk j.re)).sum
  let nCells1 := (jobs.map (fun j => j.rk.cells.length)).sum
  let _ ← forRanks (fun _ (j : Job D) => do
    Res.assert (nNodes1 = j.vtk.nNodeGlobal)
    Res.assert (nCells1 = j.vtk.nCellGlobal)
    Res.assert (j.vtk.offsets.length = j.rk.cells.length + 1)) 0 jobs
  -- the sizes handed to the collective creation of a dataset are those of the first rank; all ranks have the same
  let j0 ← idx jobs 0
  let number (f : Vtk → Nat) : List (Nat × List Nat) :=
    (jobs.zipIdx).map (fun p => (0, if p.2 = mRank then [f p.1.vtk] else []))
  let nc ← writeDataset 1 (number (fun v => v.nCellGlobal))
  let np ← writeDataset 1 (number (fun v => v.nNodeGlobal))
  let ni ← writeDataset 1 (number (fun v => v.connGlobal))
  let points ← writeDataset j0.vtk.nNodeGlobal (jobs.map (fun j => (j.vtk.nodeOffset, (outPts j.rk j.re).map (fun p => p.1))))
  let offsets ← writeDataset (j0.vtk.nCellGlobal + 1) ((jobs.zipIdx).map (fun p =>
    (p.1.vtk.cellOffset, p.1.vtk.offsets.take (p.1.rk.cells.length + if p.2 = jobs.length - 1 then 1 else 0))))
  let types ← writeDataset j0.vtk.nCellGlobal (jobs.map (fun j => (j.vtk.cellOffset, j.vtk.types)))
  let conn ← writeDataset j0.vtk.connGlobal (jobs.map (fun j => (j.vtk.offsets.headD 0, j.vtk.conn)))
  let cd ← dataGroup cellNames j0.vtk.nCellGlobal (fun i => jobs.map (fun j =>
    (j.vtk.cellOffset, (List.range j.rk.cells.length).map (fun iC => j.data.cell i iC))))
  let pd ← dataGroup pointNames j0.vtk.nNodeGlobal (fun i => jobs.map (fun j =>
    (j.vtk.nodeOffset, (outPts j.rk j.re).map (fun p => j.data.node i p.2))))
  .ok ⟨nc, np, ni, points, offsets, types, conn, cd, pd⟩

/-- the calls in the order of `src/Euler/EulerSolver_Init.hxx:336-337`, and the printing of one file afterwards -/
noncomputable def output {D : Type} (periodic : Bool) (P : Per.Periodicity) (gn : GOM) (mRank : Nat)
    (cellNames pointNames : List String) (ranks : List Rk) (data : List (Data D)) : Res (File D) := do
  let re ← if periodic then (do
      let R ← recreate P gn ranks
      .ok (R.map some)) else .ok (ranks.map (fun _ => none))
  let v ← build (ranks.map (fun _ => Vtk.fresh)) ranks re
  write mRank cellNames pointNames ((((ranks.zip re).zip v).zip data).map (fun p => ⟨p.1.1.1, p.1.1.2, p.1.2, p.2⟩))

end DNDSR.VtkOut
